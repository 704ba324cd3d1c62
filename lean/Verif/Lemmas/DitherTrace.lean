import Verif.Lemmas.RemapExact
import Verif.Lemmas.RemapFree

/-! # What happened in a dithered remap that succeeded -/

set_option linter.unusedSectionVars false

namespace Verif
open Flt
variable {F : Type} [Flt F]

/-! ### One pixel -/

/-- the strength of dithering at a column -/
def ditherLevelAt (ctx : DitherCtx F) (dmap : List UInt8) (col : ℕ) : F :=
  match dmap[col]? with
  | some l => ctx.base *₃ lit32 l.toNat
  | none => ctx.base

/-- what is shown where there is the background `b`, if `s` was found for the colour `target` wanted for `px` -/
def Chosen (ctx : DitherCtx F) (b px target : FPixel F) (s : ℕ × F) (byte : UInt8) (shown : FPixel F) : Prop :=
  ∃ e, ctx.n.palette[(UInt8.ofNat s.1).toNat]? = some e ∧
    ((le (target.diff b) s.2 = true ∧ byte = ctx.ti ∧ shown = b) ∨
      (le (target.diff b) s.2 = false ∧ byte = UInt8.ofNat s.1 ∧ shown = e.color) ∨
      (le (target.diff b) s.2 = false ∧ ∃ e', ctx.n.palette[byte.toNat]? = some e' ∧ shown = e'.color ∧
        lt (px.diff b) (px.diff e.color) = true ∧ lt (px.diff e'.color) (px.diff b) = true))

theorem ditherChoose_chosen {ctx : DitherCtx F} {b inputPx spx : FPixel F} {guess : UInt8} {s : ℕ × F} {u : ℕ} {byte : UInt8}
    {c : FPixel F} {u' : ℕ} (h : ditherChoose ctx (some b) inputPx spx guess (UInt8.ofNat s.1) s.2 u = .ok (byte, c, u')) :
    Chosen ctx b inputPx spx s byte c := by
  unfold ditherChoose at h
  simp only [bind, Except.bind] at h
  split at h
  · cases h
  next e he =>
    have hl : ctx.n.palette[(UInt8.ofNat s.1).toNat]? = some e := by
      unfold index at he
      split at he
      next h' => rw [h']; simpa using he
      · cases he
    refine ⟨e, hl, ?_⟩
    split at h
    next h1 => cases h; exact .inl ⟨h1, rfl, rfl⟩
    next h1 =>
      have h1' : le (spx.diff b) s.2 = false := by simpa using h1
      split at h
      · cases h; exact .inr (.inl ⟨h1', rfl, rfl⟩)
      · split at h
        next h2 =>
          split at h
          · cases h
          next e' he' =>
            have hl' : ctx.n.palette[guess.toNat]? = some e' := by
              unfold index at he'
              split at he'
              next h' => rw [h']; simpa using he'
              · cases he'
            split at h
            next h3 => cases h; exact .inr (.inr ⟨h1', e', hl', rfl, h2, h3⟩)
            · cases h; exact .inr (.inl ⟨h1', rfl, rfl⟩)
        · cases h; exact .inr (.inl ⟨h1', rfl, rfl⟩)

/-- one step of `dither_row`: the pixel at `col` was looked for as `target`, was shown as `shown` and became `byte` -/
structure StepDone (ctx : DitherCtx F) (row bg : List (FPixel F)) (dmap : List UInt8) (even : Bool) (col : ℕ)
    (st st' : DitherState F) (target shown : FPixel F) (byte : UInt8) : Prop where
  searched : ∃ px, row[col]? = some px ∧
    target = ditheredPixel (ditherLevelAt ctx dmap col) ctx.maxErr (st.thiserr.getD (col + 1) FPixel.default) px
  isShown : (∃ e, ctx.n.palette[byte.toNat]? = some e ∧ shown = e.color) ∨ (byte = ctx.ti ∧ bg[col]? = some shown)
  thiserr : st'.thiserr = (diffuse even col (pixelError ctx.maxErr target shown) st.thiserr st.nexterr).1
  nexterr : st'.nexterr = (diffuse even col (pixelError ctx.maxErr target shown) st.thiserr st.nexterr).2
  out : st'.out = st.out.set col (some byte)
  /-- without a background the byte is the result of the search -/
  search : bg[col]? = none → byte = UInt8.ofNat (ctx.n.search target (ditherGuess ctx st col).1.toNat).1
  choice : ∀ b, bg[col]? = some b → ∃ px, row[col]? = some px ∧
    Chosen ctx b px target (ctx.n.search target (ditherGuess ctx st col).1.toNat) byte shown

theorem ditherChoose_shown {ctx : DitherCtx F} {bg : Option (FPixel F)} {inputPx spx : FPixel F}
    {guess last : UInt8} {dd : F} {u : ℕ} {b : UInt8} {c : FPixel F} {u' : ℕ}
    (h : ditherChoose ctx bg inputPx spx guess last dd u = .ok (b, c, u')) :
    ((∃ e, ctx.n.palette[b.toNat]? = some e ∧ c = e.color) ∨ (b = ctx.ti ∧ bg = some c)) ∧ (bg = none → b = last) := by
  unfold ditherChoose at h
  simp only [bind, Except.bind] at h
  split at h
  · cases h
  next e he =>
    have hl : ctx.n.palette[last.toNat]? = some e := by
      unfold index at he
      split at he
      next h' => rw [h']; simpa using he
      · cases he
    cases bg with
    | none => cases h; exact ⟨.inl ⟨e, hl, rfl⟩, fun _ => rfl⟩
    | some bgp =>
      simp only at h
      refine ⟨?_, fun h => by cases h⟩
      split at h
      · cases h; exact .inr ⟨rfl, rfl⟩
      · split at h
        · cases h; exact .inl ⟨e, hl, rfl⟩
        · split at h
          · split at h
            · cases h
            next e' he' =>
              have hl' : ctx.n.palette[guess.toNat]? = some e' := by
                unfold index at he'
                split at he'
                next h' => rw [h']; simpa using he'
                · cases he'
              split at h
              · cases h; exact .inl ⟨e', hl', rfl⟩
              · cases h; exact .inl ⟨e, hl, rfl⟩
          · cases h; exact .inl ⟨e, hl, rfl⟩

theorem ditherStep_done {ctx : DitherCtx F} {row bg : List (FPixel F)} {dmap : List UInt8} {even : Bool} {x : ℕ}
    {st st' : DitherState F} (h : ditherStep ctx row bg dmap even st x = .ok st') :
    ∃ target shown byte, StepDone ctx row bg dmap even (ditherCol ctx.width even x) st st' target shown byte := by
  unfold ditherStep at h
  have hcoleq : (if even = true then x else ctx.width - 1 - x) = ditherCol ctx.width even x := rfl
  rw [hcoleq] at h
  generalize ditherCol ctx.width even x = col at *
  simp only [bind, Except.bind] at h
  split at h
  · cases h
  next px hpx =>
    have hrow : row[col]? = some px := by
      unfold index at hpx
      split at hpx
      next h' => rw [h']; simpa using hpx
      · cases hpx
    split at h
    · cases h
    next v hv =>
      obtain ⟨b, c, u⟩ := v
      simp only [pure, Except.pure, Except.ok.injEq] at h
      have hsh := ditherChoose_shown hv
      subst h
      refine ⟨_, c, b, ⟨px, hrow, rfl⟩, hsh.1, rfl, rfl, rfl, hsh.2, fun bp hbp => ⟨px, hrow, ?_⟩⟩
      rw [hbp] at hv
      exact ditherChoose_chosen hv

/-! ### One row -/

theorem foldlM_range_trace {σ : Type} {f : σ → ℕ → Res σ} (n : ℕ) (s t : σ) (h : (List.range n).foldlM f s = .ok t) :
    ∃ S : ℕ → σ, S 0 = s ∧ S n = t ∧ ∀ i < n, f (S i) i = .ok (S (i + 1)) := by
  induction n generalizing t with
  | zero =>
    simp only [List.range_zero, List.foldlM_nil, pure, Except.pure, Except.ok.injEq] at h
    exact ⟨fun _ => s, rfl, h, fun i hi => by omega⟩
  | succ n ih =>
    rw [List.range_succ, List.foldlM_append] at h
    simp only [bind, Except.bind] at h
    split at h
    · cases h
    next u hu =>
      simp only [List.foldlM_cons, List.foldlM_nil, bind, Except.bind] at h
      split at h
      · cases h
      next t' ht' =>
        simp only [pure, Except.pure, Except.ok.injEq] at h
        subst h
        obtain ⟨S, h0, hn, hs⟩ := ih u hu
        refine ⟨fun i => if i ≤ n then S i else t', by simp [h0], by simp, fun i hi => ?_⟩
        dsimp only
        by_cases hin : i = n
        · subst hin
          rw [if_pos (le_refl _), if_neg (by omega), hn]
          exact ht'
        · rw [if_pos (by omega), if_pos (by omega)]
          exact hs i (by omega)

/-- what happened while a row was dithered -/
structure RowDone (ctx : DitherCtx F) (row bg : List (FPixel F)) (dmap : List UInt8) (d : Diffusion F) (even : Bool)
    (out : List (Option UInt8)) (r : DitherOut F (List (Option UInt8))) (S : ℕ → DitherState F)
    (target shown : ℕ → FPixel F) (byte : ℕ → UInt8) : Prop where
  lenRow : row.length = ctx.width
  lenOut : out.length = ctx.width
  this0 : (S 0).thiserr = if even then d.1 else d.2
  next0 : (S 0).nexterr = List.replicate (ctx.width + 2) FPixel.default
  out0 : (S 0).out = out
  last0 : (S 0).last = 0
  diffusion : r.diffusion = if even then ((S ctx.width).thiserr, (S ctx.width).nexterr)
    else ((S ctx.width).nexterr, (S ctx.width).thiserr)
  outEnd : r.out = (S ctx.width).out
  fold : ∀ x < ctx.width, ditherStep ctx row bg dmap even (S x) x = .ok (S (x + 1))
  step : ∀ x < ctx.width, StepDone ctx row bg dmap even (ditherCol ctx.width even x) (S x) (S (x + 1))
    (target x) (shown x) (byte x)

theorem ditherRow_done {ctx : DitherCtx F} {row bg : List (FPixel F)} {dmap : List UInt8} {d : Diffusion F} {even : Bool}
    {out : List (Option UInt8)} {r : DitherOut F (List (Option UInt8))}
    (h : ditherRow ctx row bg dmap d even out = .ok r) :
    ∃ S target shown byte, RowDone ctx row bg dmap d even out r S target shown byte := by
  unfold ditherRow at h
  split at h
  · cases h
  next hl =>
    simp only [bind, Except.bind] at h
    split at h
    · cases h
    next st hst =>
      simp only [pure, Except.pure, Except.ok.injEq] at h
      subst h
      obtain ⟨S, h0, hn, hs⟩ := foldlM_range_trace _ _ _ hst
      have hex : ∀ x, ∃ t s b, x < ctx.width →
          StepDone ctx row bg dmap even (ditherCol ctx.width even x) (S x) (S (x + 1)) t s b := by
        intro x
        by_cases hx : x < ctx.width
        · obtain ⟨t, s, b, hd⟩ := ditherStep_done (hs x hx)
          exact ⟨t, s, b, fun _ => hd⟩
        · exact ⟨FPixel.default, FPixel.default, 0, fun h => absurd h hx⟩
      choose target shown byte hstep using hex
      refine ⟨S, target, shown, byte, by omega, by omega, by rw [h0], by rw [h0], by rw [h0], by rw [h0], ?_, ?_, hs,
        hstep⟩
      · rw [hn]
      · rw [hn]

/-- bytes once written stay -/
theorem RowDone.written {ctx : DitherCtx F} {row bg : List (FPixel F)} {dmap : List UInt8} {d : Diffusion F} {even : Bool}
    {out : List (Option UInt8)} {r : DitherOut F (List (Option UInt8))} {S : ℕ → DitherState F}
    {target shown : ℕ → FPixel F} {byte : ℕ → UInt8} (h : RowDone ctx row bg dmap d even out r S target shown byte)
    (k : ℕ) (hk : k ≤ ctx.width) : (S k).out.length = ctx.width ∧
      ∀ x < k, (S k).out[ditherCol ctx.width even x]? = some (some (byte x)) := by
  induction k with
  | zero => exact ⟨by rw [h.out0]; exact h.lenOut, fun x hx => by omega⟩
  | succ k ih =>
    obtain ⟨h1, h2⟩ := ih (by omega)
    rw [(h.step k (by omega)).out]
    have hcol := ditherCol_lt even (show k < ctx.width by omega)
    refine ⟨by rw [List.length_set]; exact h1, fun x hx => ?_⟩
    rw [getElem?_set_iff _ _ _ _ (by rw [h1]; exact hcol)]
    by_cases hxk : x = k
    · subst hxk; rw [if_pos rfl]
    · rw [if_neg (fun he => hxk (ditherCol_inj (by omega) (by omega) he))]
      exact h2 x (by omega)

theorem RowDone.byte_out {ctx : DitherCtx F} {row bg : List (FPixel F)} {dmap : List UInt8} {d : Diffusion F} {even : Bool}
    {out : List (Option UInt8)} {r : DitherOut F (List (Option UInt8))} {S : ℕ → DitherState F}
    {target shown : ℕ → FPixel F} {byte : ℕ → UInt8} (h : RowDone ctx row bg dmap d even out r S target shown byte)
    {x : ℕ} (hx : x < ctx.width) : r.out[ditherCol ctx.width even x]? = some (some (byte x)) := by
  rw [h.outEnd]
  exact (h.written ctx.width (le_refl _)).2 x hx

/-! ### All rows -/

theorem ditherRows_inv {ctx : DitherCtx F} {inp : DitherInput F} (Inv : ℕ → Diffusion F → Prop)
    (hstep : ∀ y d out r, Inv y d → ditherImageRow ctx inp d y out = .ok r → Inv (y + 1) r.diffusion)
    (outs : List (List (Option UInt8))) (d : Diffusion F) (y : ℕ) (hd : Inv y d)
    {r : DitherOut F (List (List (Option UInt8)))} (h : ditherRows ctx inp d y outs = .ok r) :
    ∀ (i : ℕ) out, outs[i]? = some out → ∃ di ri, Inv (y + i) di ∧ ditherImageRow ctx inp di (y + i) out = .ok ri ∧
      r.out[i]? = some ri.out := by
  obtain ⟨D, h0, hD⟩ := ditherRows_trace outs d y h
  have hinv : ∀ i ≤ outs.length, Inv (y + i) (D i) := by
    intro i
    induction i with
    | zero => intro _; rw [h0]; exact hd
    | succ i ih =>
      intro hi
      obtain ⟨ri, e1, _, e3⟩ := hD i _ (List.getElem?_eq_getElem (show i < outs.length by omega))
      rw [e3]
      exact hstep _ _ _ _ (ih (by omega)) e1
  intro i out hi
  obtain ⟨ri, e1, e2, _⟩ := hD i out hi
  exact ⟨D i, ri, hinv i (by have := (List.getElem?_eq_some_iff.mp hi).1; omega), e1, e2⟩

theorem warmUp_inv {ctx : DitherCtx F} {inp : DitherInput F} (Inv : ℕ → Diffusion F → Prop)
    (hz : ∀ y, Inv y (Diffusion.zero ctx.width))
    (hstep : ∀ y d out r, Inv y d → ditherImageRow ctx inp d y out = .ok r → Inv (y + 1) r.diffusion)
    {start : ℕ} {d : Diffusion F} {u : Bool} (h : warmUp ctx inp start = .ok (d, u)) : Inv start d := by
  unfold warmUp at h
  split at h
  next hs =>
    simp only [bind, Except.bind] at h
    split at h
    · cases h
    next r hr =>
      split at h
      · cases h
      next r' hr' =>
        cases h
        have h1 := hstep _ _ _ _ (hz (start - 2)) hr
        rw [show start - 2 + 1 = start - 1 by omega] at h1
        have h2 := hstep _ _ _ _ h1 hr'
        rwa [show start - 1 + 1 = start by omega] at h2
  · cases h; exact hz _

theorem floydChunks_inv {ctx : DitherCtx F} {inp : DitherInput F} (Inv : ℕ → Diffusion F → Prop)
    (hz : ∀ y, Inv y (Diffusion.zero ctx.width))
    (hstep : ∀ y d out r, Inv y d → ditherImageRow ctx inp d y out = .ok r → Inv (y + 1) r.diffusion)
    (cb : Option (List F → Bool)) (stage1 : ℕ)
    (chunks : List (List (List (Option UInt8)))) (start : ℕ) (log : List F)
    (hok : (floydChunks ctx inp cb stage1 start chunks log).1.res = .ok ()) :
    ∀ (i : ℕ) out, chunks.flatten[i]? = some out → ∃ d ri, Inv (start + i) d ∧
      ditherImageRow ctx inp d (start + i) out = .ok ri ∧
      (floydChunks ctx inp cb stage1 start chunks log).1.rows[i]? = some ri.out := by
  induction chunks generalizing start log with
  | nil => intro i out h; simp at h
  | cons c cs ih =>
    unfold floydChunks at hok ⊢
    cases hw : warmUp ctx inp start with
    | error e => rw [hw] at hok; simp at hok
    | ok x =>
      obtain ⟨d, u⟩ := x
      have hd : Inv start d := warmUp_inv Inv hz hstep hw
      rw [hw] at hok
      simp only at hok ⊢
      rw [progress_eq] at hok ⊢
      cases hans : answered cb (reported cb log (ditherProgress stage1 start inp.px.height)) with
      | true => rw [hans] at hok; simp at hok
      | false =>
        rw [hans] at hok
        simp only at hok ⊢
        cases hr : ditherRows ctx inp d start c with
        | error e => rw [hr] at hok; simp at hok
        | ok r =>
          rw [hr] at hok
          simp only at hok ⊢
          have h1 := ditherRows_inv Inv hstep c d start hd hr
          have h2 := ih (start + c.length) _ hok
          have hlen := ditherRows_length c d start hr
          intro i out hi
          rw [List.flatten_cons] at hi
          by_cases hic : i < c.length
          · rw [List.getElem?_append_left hic] at hi
            obtain ⟨di, ri, e1, e2, e3⟩ := h1 i out hi
            exact ⟨di, ri, e1, e2, by rw [List.getElem?_append_left (by omega)]; exact e3⟩
          · rw [List.getElem?_append_right (by omega)] at hi
            obtain ⟨di, ri, e1, e2, e3⟩ := h2 (i - c.length) out hi
            rw [show start + c.length + (i - c.length) = start + i by omega] at e1 e2
            exact ⟨di, ri, e1, e2, by rw [List.getElem?_append_right (by omega), hlen]; exact e3⟩

/-- the chunks one by one -/
theorem floydChunks_each {ctx : DitherCtx F} {inp : DitherInput F} (cb : Option (List F → Bool)) (stage1 : ℕ)
    (chunks : List (List (List (Option UInt8)))) (start : ℕ) (log : List F)
    (hok : (floydChunks ctx inp cb stage1 start chunks log).1.res = .ok ()) :
    ∀ j c, chunks[j]? = some c → ∃ d u r, warmUp ctx inp (start + (chunks.take j).flatten.length) = .ok (d, u) ∧
      ditherRows ctx inp d (start + (chunks.take j).flatten.length) c = .ok r ∧
      ∀ i < c.length, (floydChunks ctx inp cb stage1 start chunks log).1.rows[(chunks.take j).flatten.length + i]? = r.out[i]? := by
  induction chunks generalizing start log with
  | nil => intro j c h; simp at h
  | cons c cs ih =>
    unfold floydChunks at hok ⊢
    cases hw : warmUp ctx inp start with
    | error e => rw [hw] at hok; simp at hok
    | ok x =>
      obtain ⟨d, u⟩ := x
      rw [hw] at hok
      simp only at hok ⊢
      rw [progress_eq] at hok ⊢
      cases hans : answered cb (reported cb log (ditherProgress stage1 start inp.px.height)) with
      | true => rw [hans] at hok; simp at hok
      | false =>
        rw [hans] at hok
        simp only at hok ⊢
        cases hr : ditherRows ctx inp d start c with
        | error e => rw [hr] at hok; simp at hok
        | ok r =>
          rw [hr] at hok
          simp only at hok ⊢
          have hlen := ditherRows_length c d start hr
          intro j c' hj
          cases j with
          | zero =>
            simp only [List.getElem?_cons_zero, Option.some.injEq] at hj
            subst hj
            simp only [List.take_zero, List.flatten_nil, List.length_nil, Nat.add_zero, Nat.zero_add]
            exact ⟨d, u, r, hw, hr, fun i hi => List.getElem?_append_left (by omega)⟩
          | succ j =>
            simp only [List.getElem?_cons_succ] at hj
            obtain ⟨d', u', r', e1, e2, e3⟩ := ih (start + c.length) _ hok j c' hj
            simp only [List.take_succ_cons, List.flatten_cons, List.length_append]
            rw [← Nat.add_assoc]
            refine ⟨d', u', r', e1, e2, fun i hi => ?_⟩
            rw [List.getElem?_append_right (by omega), ← e3 i hi, hlen]
            congr 1
            omega

/-- where the dithering that a chunk beginning at row `s` continues was begun, `remap.rs:200` -/
def bandTop (s : ℕ) : ℕ := if 2 < s then s - 2 else s

/-- the rows of a chunk and the rows above it that were dithered for it are one uninterrupted run -/
theorem band_run {ctx : DitherCtx F} {inp : DitherInput F} {s : ℕ} {c : List (List (Option UInt8))} {d : Diffusion F} {u : Bool}
    {r : DitherOut F (List (List (Option UInt8)))} (hw : warmUp ctx inp s = .ok (d, u)) (hr : ditherRows ctx inp d s c = .ok r) :
    ∃ D : ℕ → Diffusion F, D (bandTop s) = Diffusion.zero ctx.width ∧ ∀ y, bandTop s ≤ y → y < s + c.length →
      ∃ o ri, ditherImageRow ctx inp (D y) y o = .ok ri ∧ D (y + 1) = ri.diffusion ∧ (s ≤ y → r.out[y - s]? = some ri.out) := by
  obtain ⟨D, h0, hD⟩ := ditherRows_trace c d s hr
  unfold warmUp at hw
  unfold bandTop
  split at hw
  next hs =>
    have hs' : 2 < s := hs
    rw [if_pos hs']
    simp only [bind, Except.bind] at hw
    split at hw
    · cases hw
    next r1 hr1 =>
      split at hw
      · cases hw
      next r2 hr2 =>
        simp only [pure, Except.pure, Except.ok.injEq, Prod.mk.injEq] at hw
        refine ⟨fun y => if y = s - 2 then Diffusion.zero ctx.width else if y = s - 1 then r1.diffusion else D (y - s),
          by simp, fun y h1 h2 => ?_⟩
        dsimp only
        by_cases c1 : y = s - 2
        · subst c1
          exact ⟨_, r1, by rw [if_pos rfl]; exact hr1, by rw [if_neg (by omega), if_pos (by omega)], fun h => by omega⟩
        · by_cases c2 : y = s - 1
          · subst c2
            refine ⟨_, r2, by rw [if_neg c1, if_pos rfl]; exact hr2, ?_, fun h => by omega⟩
            rw [if_neg (by omega), if_neg (by omega), show s - 1 + 1 - s = 0 by omega, h0, hw.1]
          · have hlt : y - s < c.length := by omega
            obtain ⟨ri, e1, e2, e3⟩ := hD (y - s) _ (List.getElem?_eq_getElem hlt)
            rw [show s + (y - s) = y by omega] at e1
            refine ⟨_, ri, by rw [if_neg c1, if_neg c2]; exact e1, ?_, fun _ => e2⟩
            rw [if_neg (by omega), if_neg (by omega), ← e3]
            congr 1
            omega
  next hs =>
    have hs' : ¬ 2 < s := hs
    rw [if_neg hs']
    simp only [Except.ok.injEq, Prod.mk.injEq] at hw
    refine ⟨fun y => D (y - s), by simp [h0, hw.1], fun y h1 h2 => ?_⟩
    obtain ⟨ri, e1, e2, e3⟩ := hD (y - s) _ (List.getElem?_eq_getElem (show y - s < c.length by omega))
    rw [show s + (y - s) = y by omega] at e1
    refine ⟨_, ri, e1, ?_, fun _ => e2⟩
    dsimp only
    rw [← e3]
    congr 1
    omega

/-! ### The whole remap -/

/-- A dithered remap with palette `p` that succeeded made the rows `out` of the rows `old`: each row was dithered with
errors for which every invariant `Inv` of dithering (depending on the number of the row) holds. -/
structure FloydDone (img : Image F) (p : PalF F) (maxErr level : F) (old out : List (List (Option UInt8)))
    (ctx : DitherCtx F) (bg : Option (Rows F)) (dmap : ℕ → List UInt8) (size : ℕ) (m : List UInt8) : Prop where
  good : ctx.Good
  palette : ctx.n.palette = p
  width : ctx.width = img.width
  limit : ctx.maxErr = maxErr
  /-- the strength comes from the map `m` -/
  base : ctx.base = baseDitherLevel level (!m.isEmpty) ∧
    ∀ y, dmap y = if y * img.width + img.width ≤ m.length then (m.drop (y * img.width)).take img.width else []
  guess : ctx.guess = true → bg = none
  background : BgSame img.background bg ∨ bg = none
  used : img.background ≠ none → ctx.ti = transparentIndex ctx.n ∧
    (bg = none ↔ lt minOpaqueA (palColor ctx.n.palette (transparentIndex ctx.n).toNat).a = true)
  oldLength : old.length = img.height
  rows : ∀ Inv : ℕ → Diffusion F → Prop, (∀ y, Inv y (Diffusion.zero ctx.width)) →
    (∀ y < img.height, ∀ d out r, Inv y d →
      ditherRow ctx (img.px.pixelsF y) (bgRowOf bg y) (dmap y) d (decide (y % 2 = 0)) out = .ok r → Inv (y + 1) r.diffusion) →
    ∀ (y : ℕ) o, old[y]? = some o → ∃ d r, Inv y d ∧
      ditherRow ctx (img.px.pixelsF y) (bgRowOf bg y) (dmap y) d (decide (y % 2 = 0)) o = .ok r ∧ out[y]? = some r.out
  /-- chunks of `size` rows, each of which was begun two rows above -/
  bands : ∀ s, s % size = 0 → s < img.height → ∃ D : ℕ → Diffusion F, D (bandTop s) = Diffusion.zero ctx.width ∧
    ∀ y, bandTop s ≤ y → y < s + size → y < img.height → ∃ o r,
      ditherRow ctx (img.px.pixelsF y) (bgRowOf bg y) (dmap y) (D y) (decide (y % 2 = 0)) o = .ok r ∧ D (y + 1) = r.diffusion ∧
      (s ≤ y → out[y]? = some r.out)

theorem FloydDone.same {img img' : Image F} {p : PalF F} {maxErr level : F} {old out : List (List (Option UInt8))}
    {ctx : DitherCtx F} {bg : Option (Rows F)} {dmap : ℕ → List UInt8} {size : ℕ} {m : List UInt8}
    (h : FloydDone img' p maxErr level old out ctx bg dmap size m)
    (hp : Rows.Same img.px img'.px) (hb : BgSame img.background img'.background) :
    FloydDone img p maxErr level old out ctx bg dmap size m where
  good := h.good
  palette := h.palette
  width := h.width.trans hp.width
  limit := h.limit
  base := by rw [← show img'.width = img.width from hp.width]; exact h.base
  guess := h.guess
  background := h.background.imp hb.trans id
  used hi := h.used (by
    intro hn
    rw [hn] at hb
    cases hi' : img.background with
    | none => exact hi hi'
    | some b => rw [hi'] at hb; simp only [BgSame] at hb)
  oldLength := h.oldLength.trans hp.height
  rows Inv hz hs y o ho := by
    have hy : y < img.height := by
      have := (List.getElem?_eq_some_iff.mp ho).1
      rw [h.oldLength, show img'.height = img.height from hp.height] at this
      exact this
    have hpx : ∀ y < img.height, img'.px.pixelsF y = img.px.pixelsF y := fun y hy => hp.pixelsF hy
    rw [← hpx y hy]
    refine h.rows Inv hz (fun y hy d out r hi hd => ?_) y o ho
    have hy' : y < img.height := by rw [← show img'.height = img.height from hp.height]; exact hy
    rw [hpx y hy'] at hd
    exact hs y hy' d out r hi hd
  bands s h1 h2 := by
    rw [← show img'.height = img.height from hp.height] at h2 ⊢
    obtain ⟨D, h3, h4⟩ := h.bands s h1 h2
    refine ⟨D, h3, fun y a b c => ?_⟩
    rw [← hp.pixelsF (show y < img.height from by rw [← show img'.height = img.height from hp.height]; exact c)]
    exact h4 y a b c

theorem remapFloyd_done (env : RemapEnv F) {s : RemapState F} (p : PalF F) (maxErr : F) (isRemapped : Bool)
    (hg : s.image.Good) (ho : OutGood s.image s.out) (hok : (remapFloyd env s p maxErr isRemapped).1 = .ok ()) :
    ∃ ctx bg dmap, FloydDone s.image p maxErr s.quant.ditherLevel s.out (remapFloyd env s p maxErr isRemapped).2.out ctx bg dmap
      ((s.image.height + s.chunks env - 1) / s.chunks env) (ditherMapOf s.image s.quant.useDitherMap) := by
  unfold remapFloyd at hok ⊢
  simp only at hok ⊢
  cases hnew : Nearest.new p with
  | error e => rw [hnew] at hok; simp at hok
  | ok n =>
    rw [hnew] at hok
    simp only at hok ⊢
    obtain ⟨bg, eb, sb⟩ := prepareOpt_ok (px := s.image.px) (bg := s.image.background) (fun b hb => hg.background b hb)
    rw [eb] at hok ⊢
    simp only at hok ⊢
    obtain ⟨px', e1, s1, _⟩ := Rows.prepare_same hg.px true
    rw [e1] at hok ⊢
    simp only at hok ⊢
    have hch : ditherChunks s.quant.singleThreadedDithering px'.width px'.height env.cpus = s.chunks env := by
      rw [s1.width, s1.height]; rfl
    rw [hch] at hok ⊢
    have hpos : 0 < s.chunks env := ditherChunks_pos _ _ _ _ env.cpus_pos
    have hh : px'.height = s.image.height := s1.height
    rw [hh] at hok ⊢
    have hsize : 0 < (s.image.height + s.chunks env - 1) / s.chunks env :=
      Nat.div_pos (by have := hg.height_pos; omega) hpos
    generalize hsz : (s.image.height + s.chunks env - 1) / s.chunks env = size at *
    generalize hctx : ({ n := n, width := px'.width, base := _, maxErr := maxErr, ti := _, guess := _, garbage := _ } : DitherCtx F) = ctx at *
    generalize hinp : ({ px := px', bg := (pickBackgroundFloyd n bg).1, dmap := ditherMapOf s.image s.quant.useDitherMap } : DitherInput F) = inp at *
    have hrd : px'.Readable := s1.readable hg.px
    have hipx : inp.px = px' := by rw [← hinp]
    have hcw : ctx.width = s.image.width := by rw [← hctx]; exact s1.width
    have hgood : DitherGood ctx inp := by
      have hnp : n.palette = p := (Nearest.new_ok hnew).2.2.1
      have hti : (pickBackgroundFloyd n bg).2.toNat < p.length := by
        rcases (pickBackgroundFloyd_cases n bg).2 with h | h <;> rw [h]
        · exact transparentIndex_lt hnew
        · exact (Nearest.new_ok hnew).1
      subst hctx hinp
      refine ⟨⟨by rw [hnp]; exact hnew, by rw [hnp]; exact hti⟩, hrd, ?_, rfl, ?_⟩
      · intro b hb
        simp only at hb ⊢
        rcases (pickBackgroundFloyd_cases n bg).1 with h | h
        · rw [h] at hb
          exact sb.good s1 (fun b hb => hg.background b hb) b hb
        · rw [h] at hb; cases hb
      · intro h
        simp only [Bool.and_eq_true, Option.isNone_iff_eq_none] at h
        exact h.2
    have himg : ∀ y < s.image.height, ∀ d o, ditherImageRow ctx inp d y o =
        ditherRow ctx (s.image.px.pixelsF y) (bgRowOf inp.bg y) (inp.dmapRow y) d (decide (y % 2 = 0)) o := by
      intro y hy d o
      unfold ditherImageRow
      rw [hipx, (hrd.rowF (by rw [hh]; exact hy)).1]
      simp only [bind, Except.bind]
      rw [s1.pixelsF hy]
      have hev : decide (y % 2 = 0) = (y % 2 == 0) := by
        cases h : (y % 2 == 0) <;> simp_all
      rw [hev]
      cases hb : inp.bg with
      | none => rfl
      | some b =>
        obtain ⟨h1, h2, h3⟩ := hgood.bg b hb
        rw [hipx] at h3
        simp only [bgRowOf]
        rw [(h1.rowF (show y < b.height by omega)).1]
    refine ⟨ctx, inp.bg, inp.dmapRow, hgood.good, ?_, hcw, by rw [← hctx], ?_, hgood.guess, ?_, ?_, ho.1, ?_, ?_⟩
    · rw [← hctx]; exact (Nearest.new_ok hnew).2.2.1
    · refine ⟨by rw [← hctx], fun y => ?_⟩
      rw [← hinp, ← show px'.width = s.image.width from s1.width]
      rfl
    · rw [← hinp]
      rcases (pickBackgroundFloyd_cases n bg).1 with h | h
      · rw [h]; exact .inl sb
      · exact .inr h
    · intro hb
      obtain ⟨b', hb'⟩ : ∃ b', bg = some b' := by
        cases bg with
        | some b' => exact ⟨b', rfl⟩
        | none =>
          cases hsb : s.image.background with
          | none => exact absurd hsb hb
          | some b => rw [hsb] at sb; simp only [BgSame] at sb
      rw [← hctx, ← hinp, hb']
      simp only [pickBackgroundFloyd]
      split
      next h => exact ⟨rfl, fun _ => h, fun _ => rfl⟩
      next h => exact ⟨rfl, (fun h' => by cases h'), fun h' => absurd h' h⟩
    · intro Inv hz hs y o hy
      have hlt : y < s.image.height := by
        rw [← show s.out.length = s.image.height from ho.1]
        exact (List.getElem?_eq_some_iff.mp hy).1
      have := floydChunks_inv (ctx := ctx) (inp := inp) (fun y d => y ≤ s.image.height → Inv y d) (fun y _ => hz y) (fun y d out r hi hd hy => by
          rw [himg y (by omega)] at hd
          exact hs y (by omega) d out r (hi (by omega)) hd)
        s.quant.progressCallback (remapStage1 s.quant.useDitherMap) (chunksOf size s.out) 0 s.log hok
      rw [(chunksOf_flatten hsize s.out).1] at this
      obtain ⟨d, r, h1, h2, h3⟩ := this y o hy
      rw [Nat.zero_add] at h1 h2
      rw [himg y hlt] at h2
      exact ⟨d, r, h1 (by omega), h2, h3⟩
    · intro st hst hlt
      obtain ⟨j, rfl⟩ := Nat.dvd_of_mod_eq_zero hst
      rw [Nat.mul_comm] at hlt ⊢
      have hol : s.out.length = s.image.height := ho.1
      have hj : j < (s.out.length + size - 1) / size := by
        rw [Nat.lt_div_iff_mul_lt hsize]
        omega
      have hget : (chunksOf size s.out)[j]? = some ((s.out.drop (j * size)).take size) := by
        simp only [chunksOf, List.getElem?_map, List.getElem?_range hj, Option.map_some]
      obtain ⟨d, u, r, e1, e2, e3⟩ := floydChunks_each s.quant.progressCallback (remapStage1 s.quant.useDitherMap)
        (chunksOf size s.out) 0 s.log hok j _ hget
      rw [chunksOf_take _ _ (by simp only [chunksOf, List.length_map, List.length_range]; omega),
        List.length_take_of_le (show j * size ≤ s.out.length by omega)] at e1 e2 e3
      rw [Nat.zero_add] at e1 e2
      obtain ⟨D, h0, hD⟩ := band_run e1 e2
      refine ⟨D, h0, fun y a b c => ?_⟩
      have hcl : ((s.out.drop (j * size)).take size).length = min size (s.image.height - j * size) := by
        rw [List.length_take, List.length_drop, hol]
      obtain ⟨o, ri, f1, f2, f3⟩ := hD y a (by rw [hcl]; omega)
      rw [himg y c] at f1
      refine ⟨o, ri, f1, f2, fun h => ?_⟩
      rw [← f3 h, ← e3 (y - j * size) (by rw [hcl]; omega)]
      congr 1
      omega

/-- what generating a dither map did when it succeeded -/
theorem generateDitherMap_done (env : RemapEnv F) {s s1 : RemapState F} {ub : Bool} {p p' : PalF F} {e : Option F}
    (ho : s.out.length = s.image.height) (h : generateDitherMap env s ub p = (.ok (e, p'), s1)) :
    generatesDitherMap s.quant.useDitherMap s.image = false ∧ e = none ∧ p' = p ∨
    generatesDitherMap s.quant.useDitherMap s.image = true ∧ ∃ (err : F) (r : RemapOut F),
      remapToPalette env s.image.px none s.image.importanceMap s.image.height p = (.ok err, r) ∧ e = some err ∧
      p' = r.palette := by
  unfold generateDitherMap at h
  cases hgen : generatesDitherMap s.quant.useDitherMap s.image with
  | false =>
    rw [if_pos (by simp [hgen])] at h
    simp only [Prod.mk.injEq, Except.ok.injEq] at h
    exact .inl ⟨rfl, h.1.1.symm, h.1.2.symm⟩
  | true =>
    rw [if_neg (by simp [hgen]), ho] at h
    generalize hx : remapToPalette env s.image.px none s.image.importanceMap s.image.height p = x at h
    obtain ⟨res, r⟩ := x
    cases res with
    | error er => simp at h
    | ok err =>
      simp only at h
      split at h
      · simp at h
      · simp only [Prod.mk.injEq, Except.ok.injEq] at h
        exact .inr ⟨rfl, err, r, rfl, h.1.1.symm, h.1.2.symm⟩

theorem writeRemapped_dithered (env : RemapEnv F) {s : RemapState F} (hl : eq s.quant.ditherLevel (lit32 0) = false)
    (hg : s.image.Good) (ho : OutGood s.image s.out) (hp0 : 0 < s.quant.palette.length) (hp : s.quant.palette.length ≤ 256)
    (hok : (writeRemapped env s).1 = .ok ()) :
    ∃ (p : PalF F) (mapErr : Option F) (old : List (List (Option UInt8))) (ctx : DitherCtx F) (bg : Option (Rows F))
      (dmap : ℕ → List UInt8),
      (generatesDitherMap s.quant.useDitherMap s.image = false ∧ mapErr = none ∧ p = s.quant.palette ∨
        generatesDitherMap s.quant.useDitherMap s.image = true ∧ ∃ (px : Rows F) (e : F) (r : RemapOut F),
          Rows.Same s.image.px px ∧ remapToPalette env px none s.image.importanceMap s.image.height s.quant.palette = (.ok e, r) ∧
          mapErr = some e ∧ p = r.palette) ∧
      p.length = s.quant.palette.length ∧
      FloydDone s.image (p.initIntPalette s.quant.gamma (UInt8.ofNat s.quant.minPosterizationOutput)).1
        (maxDitherError (mapErr.or s.quant.paletteError)) s.quant.ditherLevel old (writeRemapped env s).2.out ctx bg dmap
        ((s.image.height + s.chunks env - 1) / s.chunks env) (ditherMapOf (writeRemapped env s).2.image s.quant.useDitherMap) ∧
      (writeRemapped env s).2.quant = { s.quant with
        remapped := some ⟨(p.initIntPalette s.quant.gamma (UInt8.ofNat s.quant.minPosterizationOutput)).2, mapErr.or s.quant.paletteError⟩ } := by
  unfold writeRemapped at hok ⊢
  rw [progress_eq] at hok ⊢
  cases hans : answered s.quant.progressCallback
      (reported s.quant.progressCallback s.log (lit32 ↑(remapStage1 s.quant.useDitherMap) *₃ lit32 (1/4))) with
  | true => rw [hans] at hok; simp at hok
  | false =>
    rw [hans] at hok
    simp only [hl, Bool.false_eq_true, if_false] at hok ⊢
    have hsame : Rows.Same s.image.px s.image.freeHistogramInputs.px := Rows.free_same s.image.px
    have hgen0 : generatesDitherMap s.quant.useDitherMap s.image.freeHistogramInputs = generatesDitherMap s.quant.useDitherMap s.image := by
      unfold generatesDitherMap
      rw [hsame.width, hsame.height]; rfl
    have hg0 : s.image.freeHistogramInputs.Good := hg.free
    have ho0 : OutGood s.image.freeHistogramInputs s.out := ho.same hsame
    generalize reported s.quant.progressCallback s.log (lit32 ↑(remapStage1 s.quant.useDitherMap) *₃ lit32 (1/4)) = log1 at hok ⊢
    generalize hs0 : ({ quant := s.quant, image := s.image.freeHistogramInputs, out := s.out, log := log1, uninit := s.uninit } : RemapState F) = s0 at hok ⊢
    have hq0 : s0.quant = s.quant := by rw [← hs0]
    have hi0 : s0.image = s.image.freeHistogramInputs := by rw [← hs0]
    have hout0 : s0.out = s.out := by rw [← hs0]
    unfold remapDithered at hok ⊢
    obtain ⟨g1, g2, g3, g4, g5, g7, g6⟩ := generateDitherMap_spec env (s := s0) s0.image.background.isSome (p := s0.quant.palette)
      (by rw [hi0]; exact hg0) (by rw [hi0, hout0]; exact ho0) (by rw [hq0]; exact hp0) (by rw [hq0]; exact hp)
    have hdone : ∀ e p' s1, generateDitherMap env s0 s0.image.background.isSome s0.quant.palette = (.ok (e, p'), s1) → _ :=
      fun e p' s1 h => generateDitherMap_done env (by rw [hi0, hout0]; exact ho0.1) h
    generalize generateDitherMap env s0 s0.image.background.isSome s0.quant.palette = x at *
    obtain ⟨res, s1⟩ := x
    simp only at g1 g6
    rcases g6 with ⟨e, p', rfl, hpl, hall, -, -⟩ | ⟨rfl, -⟩
    · simp only at hok ⊢
      have hd := hdone e p' s1 rfl
      rw [progress_eq] at hok ⊢
      generalize hlg : reported s1.quant.progressCallback s1.log (lit32 ↑(remapStage1 s1.quant.useDitherMap) *₃ lit32 (1/2))
        = log' at hok ⊢
      cases hans' : answered s1.quant.progressCallback log' with
      | true => rw [hans'] at hok; simp at hok
      | false =>
        rw [hans'] at hok
        simp only at hok ⊢
        have hq1 : s1.quant = s.quant := g1.quant.trans hq0
        obtain ⟨f1, -, -, -, f5, f6, -⟩ := remapFloyd_spec env (s := { s1 with log := log' })
          (p := (p'.initIntPalette s1.quant.gamma (UInt8.ofNat s1.quant.minPosterizationOutput)).1)
          (maxDitherError (e.or s1.quant.paletteError)) e.isSome g1.good g1.out
          (by rw [(initIntPalette_length _ _ _).1, hpl, hq0]; exact hp0) (by rw [(initIntPalette_length _ _ _).1, hpl, hq0]; exact hp)
          (fun h => by rw [(initIntPalette_length _ _ _).1, hpl]; exact (hall h).1)
        have hfl := remapFloyd_done env (s := { s1 with log := log' })
          (p'.initIntPalette s1.quant.gamma (UInt8.ofNat s1.quant.minPosterizationOutput)).1
          (maxDitherError (e.or s1.quant.paletteError)) e.isSome g1.good g1.out
        generalize remapFloyd env { s1 with log := log' }
          (p'.initIntPalette s1.quant.gamma (UInt8.ofNat s1.quant.minPosterizationOutput)).1
          (maxDitherError (e.or s1.quant.paletteError)) e.isSome = y at *
        obtain ⟨res2, s2⟩ := y
        cases res2 with
        | error er => simp at hok
        | ok u =>
          simp only at hfl f1 f5 f6 ⊢
          obtain ⟨ctx, bg, dmap, hfd⟩ := hfl trivial
          have hq2 : s2.quant = s.quant := f1.quant.trans hq1
          rw [hq1] at hfd
          refine ⟨p', e, s1.out, ctx, bg, dmap, ?_, hpl.trans (by rw [hq0]), ?_, ?_⟩
          · rw [hq0, hi0, hgen0] at hd
            rcases hd with hd | ⟨h1, err, r, h2, h3, h4⟩
            · exact .inl hd
            · rw [show s.image.freeHistogramInputs.height = s.image.height from hsame.height] at h2
              exact .inr ⟨h1, _, err, r, hsame, h2, h3, h4⟩
          · have hpx : Rows.Same s.image.px s1.image.px := by
              have := g1.samePx
              rw [hi0] at this
              exact hsame.trans this
            have hch : RemapState.chunks env { quant := s.quant, image := s1.image, out := s1.out, log := log', uninit := s1.uninit } =
                s.chunks env := by
              unfold RemapState.chunks
              rw [show s1.image.width = s.image.width from hpx.width, show s1.image.height = s.image.height from hpx.height]
            rw [hch, show s1.image.height = s.image.height from hpx.height] at hfd
            have hmap : ditherMapOf s1.image s.quant.useDitherMap = ditherMapOf s2.image s.quant.useDitherMap := by
              unfold ditherMapOf
              rw [f5, f6]
            rw [hmap] at hfd
            refine FloydDone.same hfd hpx ?_
            have := g1.sameBg
            rw [hi0] at this
            exact this
          · rw [hq1, hq2]
    · simp at hok

/-- the number of rows of a chunk, `remap.rs:188-189` -/
def bandSize (env : RemapEnv F) (q : QuantizationResult F) (img : Image F) : ℕ :=
  let chunks := ditherChunks q.singleThreadedDithering img.width img.height env.cpus
  (img.height + chunks - 1) / chunks

/-- A successful dithered `remap_into`: the palette `p` was rounded and searched; it was the palette of the result, or
the one that an undithered remap computed from it. -/
theorem remapInto_dithered (env : RemapEnv F) {q : QuantizationResult F} {img : Image F} (hq : q.Good)
    (hi : img.Good) (buf : List (Option UInt8)) (log : List F) (hl : eq q.ditherLevel (lit32 0) = false)
    (hok : (remapInto env q img buf log).res = .ok ()) :
    ∃ (p : PalF F) (mapErr : Option F) (old out : List (List (Option UInt8))) (ctx : DitherCtx F) (bg : Option (Rows F))
      (dmap : ℕ → List UInt8),
      (generatesDitherMap q.useDitherMap img = false ∧ mapErr = none ∧ p = q.palette ∨
        generatesDitherMap q.useDitherMap img = true ∧ ∃ (px : Rows F) (e : F) (r : RemapOut F),
          Rows.Same img.px px ∧ remapToPalette env px none img.importanceMap img.height q.palette = (.ok e, r) ∧
          mapErr = some e ∧ p = r.palette) ∧
      p.length = q.palette.length ∧
      FloydDone img (p.initIntPalette q.gamma (UInt8.ofNat q.minPosterizationOutput)).1
        (maxDitherError (mapErr.or q.paletteError)) q.ditherLevel old out ctx bg dmap (bandSize env q img)
        (ditherMapOf (remapInto env q img buf log).image q.useDitherMap) ∧
      (remapInto env q img buf log).quant = { q with
        remapped := some ⟨(p.initIntPalette q.gamma (UInt8.ofNat q.minPosterizationOutput)).2, mapErr.or q.paletteError⟩ } ∧
      (remapInto env q img buf log).quant.getPalette.2 = (p.initIntPalette q.gamma (UInt8.ofNat q.minPosterizationOutput)).2 ∧
      ∀ y < img.height, ∃ row, out[y]? = some row ∧
        ∀ x < img.width, (remapInto env q img buf log).buf[y * img.width + x]? = row[x]? := by
  have spec := remapInto_spec env buf log hq hi
  have hbig : img.width * img.height ≤ buf.length := by
    by_contra hlt
    rw [spec.small (by omega)] at hok
    cases hok
  obtain ⟨s, d, e1, e2, e3, e4, e5, e6⟩ := spec.run hbig
  obtain ⟨c1, c2, _⟩ := chunksExact_rows (h := img.height) hi.width_pos (buf.take (img.width * img.height))
    (by rw [List.length_take]; omega)
  have hw := writeRemapped_dithered env (s := remapStart q img buf log) hl hi ⟨c1, c2⟩ hq.pos hq.le (by rw [e6]; exact hok)
  rw [e6] at hw
  obtain ⟨p, mapErr, old, ctx, bg, dmap, h1, h2, h3, h4⟩ := hw
  refine ⟨p, mapErr, old, s.out, ctx, bg, dmap, h1, h2, by rw [e2]; exact h3, by rw [e1, h4]; rfl, by rw [e1, h4]; rfl, fun y hy => ?_⟩
  have hlen : ∀ r ∈ s.out, r.length = img.width := by
    intro r hr
    rw [d.out.2 r hr]
    exact d.samePx.width
  have hl : s.out.length = img.height := by
    rw [d.out.1]
    exact d.samePx.height
  have hy' : y < s.out.length := by omega
  refine ⟨s.out[y], List.getElem?_eq_getElem hy', fun x hx => ?_⟩
  rw [e5, List.getElem?_append_left, flatten_getElem? hlen (List.getElem?_eq_getElem hy') hx]
  have : s.out.flatten.length = s.out.length * img.width := by
    rw [List.length_flatten, List.map_congr_left (g := fun _ => img.width) hlen]; simp
  rw [this, hl]
  calc y * img.width + x < y * img.width + img.width := by omega
    _ = (y + 1) * img.width := by rw [Nat.add_mul]; omega
    _ ≤ img.height * img.width := Nat.mul_le_mul_right _ hy

end Verif
