import Verif.Lemmas.RemapPlain
import Verif.Lemmas.Quant

/-! # Dithered remapping, for any float arithmetic: it always finishes, and what it writes and reads -/

set_option linter.unusedSectionVars false

namespace Verif
open Flt

variable {F : Type} [Flt F]

/-- Every byte of the row has been written and is smaller than `n`. -/
def Written (n : ℕ) (row : List (Option UInt8)) : Prop := ∀ o ∈ row, ∃ b : UInt8, o = some b ∧ b.toNat < n

/-- what is known of the parameters of a dithered remap -/
structure DitherCtx.Good (ctx : DitherCtx F) : Prop where
  nearest : Nearest.new ctx.n.palette = .ok ctx.n
  ti : ctx.ti.toNat < ctx.n.palette.length

theorem DitherCtx.Good.pos {ctx : DitherCtx F} (h : ctx.Good) : 0 < ctx.n.palette.length := (Nearest.new_ok h.nearest).1

/-- column of the `x`-th step -/
def ditherCol (width : ℕ) (even : Bool) (x : ℕ) : ℕ := if even then x else width - 1 - x

theorem ditherCol_lt {w x : ℕ} (even : Bool) (h : x < w) : ditherCol w even x < w := by
  unfold ditherCol; split <;> omega

theorem ditherCol_inj {w x y : ℕ} {even : Bool} (hx : x < w) (hy : y < w) (h : ditherCol w even x = ditherCol w even y) :
    x = y := by
  unfold ditherCol at h; split at h <;> omega

theorem ditherCol_surj {w c : ℕ} (even : Bool) (hc : c < w) : ∃ x < w, ditherCol w even x = c := by
  unfold ditherCol
  cases even
  · exact ⟨w - 1 - c, by omega, by simp; omega⟩
  · exact ⟨c, hc, by simp⟩

/-- the choice between palette and background never fails and names a palette entry -/
theorem ditherChoose_ok {ctx : DitherCtx F} (hc : ctx.Good) (bg : Option (FPixel F)) (inputPx spx : FPixel F)
    (guess last : UInt8) (dd : F) (u : ℕ) (hl : last.toNat < ctx.n.palette.length)
    (hg : bg.isSome → guess.toNat < ctx.n.palette.length) :
    ∃ b c u', ditherChoose ctx bg inputPx spx guess last dd u = .ok (b, c, u') ∧ b.toNat < ctx.n.palette.length := by
  unfold ditherChoose
  rw [index_of_lt hl]
  simp only [bind, Except.bind]
  cases bg with
  | none => exact ⟨_, _, _, rfl, hl⟩
  | some b =>
    simp only
    split
    · exact ⟨_, _, _, rfl, hc.ti⟩
    · split
      · exact ⟨_, _, _, rfl, hl⟩
      · split
        · rw [index_of_lt (hg rfl)]
          simp only
          split
          · exact ⟨_, _, _, rfl, hg rfl⟩
          · exact ⟨_, _, _, rfl, hl⟩
        · exact ⟨_, _, _, rfl, hl⟩

/-- state after `k` pixels of a row whose output was `out0` -/
structure DitherInv (ctx : DitherCtx F) (even : Bool) (out0 : List (Option UInt8)) (k : ℕ) (st : DitherState F) : Prop where
  lenOut : st.out.length = ctx.width
  lenThis : st.thiserr.length = ctx.width + 2
  lenNext : st.nexterr.length = ctx.width + 2
  last : st.last.toNat < ctx.n.palette.length
  done : ∀ x < k, ∃ b : UInt8, st.out[ditherCol ctx.width even x]? = some (some b) ∧ b.toNat < ctx.n.palette.length
  rest : ∀ c, (∀ x < k, c ≠ ditherCol ctx.width even x) → st.out[c]? = out0[c]?
  uninit : st.uninit = true ↔ ctx.guess = true ∧ ∃ x < k, out0[ditherCol ctx.width even x]? = some none

theorem diffuse_length (even : Bool) (col : ℕ) (err : FPixel F) (a b : List (FPixel F)) :
    (diffuse even col err a b).1.length = a.length ∧ (diffuse even col err a b).2.length = b.length := by
  unfold diffuse
  cases even <;> simp

theorem DitherInv.step {ctx : DitherCtx F} (hc : ctx.Good) {row bg : List (FPixel F)} {dmap : List UInt8} {even : Bool}
    {out0 : List (Option UInt8)} {k : ℕ} {st : DitherState F} (inv : DitherInv ctx even out0 k st)
    (hrow : row.length = ctx.width) (hbg : ctx.guess = true → bg = []) (hk : k < ctx.width) :
    ∃ st', ditherStep ctx row bg dmap even st k = .ok st' ∧ DitherInv ctx even out0 (k + 1) st' := by
  have hcol := ditherCol_lt even hk
  unfold ditherStep
  have hcoleq : (if even = true then k else ctx.width - 1 - k) = ditherCol ctx.width even k := rfl
  rw [hcoleq]
  clear hcoleq
  generalize hcd : ditherCol ctx.width even k = col at *
  dsimp only
  rw [index_of_lt (show col < row.length by omega)]
  simp only [bind, Except.bind]
  generalize ditheredPixel (match dmap[col]? with
    | some l => ctx.base *₃ lit32 l.toNat
    | none => ctx.base) ctx.maxErr (st.thiserr.getD (col + 1) FPixel.default) row[col] = spx
  -- the hint
  have hguess : (ditherGuess ctx st col).2 = true ↔ ctx.guess = true ∧ out0[col]? = some none := by
    have hsame : st.out[col]? = out0[col]? :=
      inv.rest col fun x hx he => absurd (ditherCol_inj hk (show x < ctx.width by omega) (hcd.trans he)) (by omega)
    have hget : st.out.getD col none = none ↔ out0[col]? = some none := by
      rw [← hsame, List.getD_eq_getElem?_getD, List.getElem?_eq_getElem (by rw [inv.lenOut]; exact hcol)]
      simp
    unfold ditherGuess
    by_cases hgt : ctx.guess = true
    · rw [if_pos hgt]
      cases ho : st.out.getD col none with
      | some b => rw [ho] at hget; simp only [hgt, true_and]; rw [← hget]; simp
      | none => rw [ho] at hget; simp only [hgt, true_and]; rw [← hget]; simp
    · rw [if_neg hgt]; simp [hgt]
  have hglt : bg[col]?.isSome → (ditherGuess ctx st col).1.toNat < ctx.n.palette.length := by
    intro hb
    unfold ditherGuess
    split
    next hgt => rw [hbg hgt] at hb; simp at hb
    next => exact inv.last
  generalize hgd : ditherGuess ctx st col = gd at hguess hglt
  obtain ⟨guess, un⟩ := gd
  simp only
  have hlast : (UInt8.ofNat (ctx.n.search spx guess.toNat).1).toNat < ctx.n.palette.length := by
    rw [search_toNat hc.nearest]; exact Nearest.search_lt hc.nearest _ _
  obtain ⟨b, c, u', e, hb⟩ := ditherChoose_ok hc bg[col]? row[col] spx guess
    (UInt8.ofNat (ctx.n.search spx guess.toNat).1) (ctx.n.search spx guess.toNat).2 st.bgUsed hlast hglt
  rw [e]
  simp only
  refine ⟨_, rfl, ?_⟩
  have hpos : col < st.out.length := by rw [inv.lenOut]; exact hcol
  refine ⟨by simp [inv.lenOut], ?_, ?_, hlast, ?_, ?_, ?_⟩
  · rw [(diffuse_length _ _ _ _ _).1]; exact inv.lenThis
  · rw [(diffuse_length _ _ _ _ _).2]; exact inv.lenNext
  · intro x hx
    show ∃ b', (st.out.set col (some b))[_]? = _ ∧ _
    rw [getElem?_set_iff _ _ _ _ hpos]
    by_cases hxk : x = k
    · subst hxk; rw [hcd, if_pos rfl]; exact ⟨b, rfl, hb⟩
    · rw [if_neg (fun h => hxk (ditherCol_inj (by omega) hk (h.trans hcd.symm)))]
      exact inv.done x (by omega)
  · intro c' hc'
    show (st.out.set col (some b))[c']? = _
    rw [getElem?_set_iff _ _ _ _ hpos, if_neg (fun h => hc' k (by omega) (h.trans hcd.symm))]
    exact inv.rest c' fun x hx => hc' x (by omega)
  · show (st.uninit || un) = true ↔ _
    rw [Bool.or_eq_true_iff, inv.uninit, hguess]
    constructor
    · rintro (⟨a, x, hx, hb⟩ | ⟨a, hb⟩)
      · exact ⟨a, x, by omega, hb⟩
      · exact ⟨a, k, by omega, by rw [hcd]; exact hb⟩
    · rintro ⟨a, x, hx, hb⟩
      by_cases hxk : x = k
      · subst hxk; exact .inr ⟨a, by rw [← hcd]; exact hb⟩
      · exact .inl ⟨a, x, by omega, hb⟩

/-- a row is dithered without failing; it is completely written -/
theorem ditherRow_ok {ctx : DitherCtx F} (hc : ctx.Good) {row bg : List (FPixel F)} {dmap : List UInt8}
    {d : Diffusion F} {even : Bool} {out : List (Option UInt8)} (hrow : row.length = ctx.width)
    (hout : out.length = ctx.width) (hbg : ctx.guess = true → bg = [])
    (hd : d.1.length = ctx.width + 2 ∧ d.2.length = ctx.width + 2) :
    ∃ r, ditherRow ctx row bg dmap d even out = .ok r ∧ r.out.length = ctx.width ∧
      Written ctx.n.palette.length r.out ∧ (r.uninit = true ↔ ctx.guess = true ∧ none ∈ out) ∧
      (r.diffusion.1.length = ctx.width + 2 ∧ r.diffusion.2.length = ctx.width + 2) := by
  unfold ditherRow
  rw [if_neg (by omega)]
  obtain ⟨st, e, inv⟩ := foldlM_range_inv (f := ditherStep ctx row bg dmap even) (DitherInv ctx even out) ctx.width
    { thiserr := if even then d.1 else d.2, nexterr := List.replicate (ctx.width + 2) FPixel.default, bgUsed := 0, last := 0
      out := out, uninit := false }
    ⟨hout, by dsimp only; split <;> [exact hd.1; exact hd.2], by simp, by simpa using hc.pos, fun x hx => by omega,
      fun c _ => rfl, ⟨(fun h => by cases h), (fun ⟨_, x, hx, _⟩ => absurd hx (Nat.not_lt_zero x))⟩⟩
    (fun i s hi hp => hp.step hc hrow hbg hi)
  simp only [bind, Except.bind]
  rw [e]
  refine ⟨_, rfl, inv.lenOut, ?_, ?_, ?_⟩
  · intro o ho
    obtain ⟨c, hcl, rfl⟩ := List.mem_iff_getElem.mp ho
    rw [inv.lenOut] at hcl
    obtain ⟨x, hx, hxc⟩ := ditherCol_surj even hcl
    obtain ⟨b, hb, hlt⟩ := inv.done x hx
    rw [hxc, List.getElem?_eq_getElem (by rw [inv.lenOut]; exact hcl)] at hb
    exact ⟨b, by simpa using hb, hlt⟩
  · show st.uninit = true ↔ _
    rw [inv.uninit]
    constructor
    · rintro ⟨a, x, _, hb⟩; exact ⟨a, List.mem_of_getElem? hb⟩
    · rintro ⟨a, hb⟩
      obtain ⟨c, hcl, hc'⟩ := List.mem_iff_getElem.mp hb
      obtain ⟨x, hx, hxc⟩ := ditherCol_surj even (show c < ctx.width by omega)
      exact ⟨a, x, hx, by rw [hxc, List.getElem?_eq_getElem hcl, hc']⟩
  · dsimp only
    split
    · exact ⟨inv.lenThis, inv.lenNext⟩
    · exact ⟨inv.lenNext, inv.lenThis⟩

theorem Written.no_none {n : ℕ} {row : List (Option UInt8)} (h : Written n row) : none ∉ row := by
  intro hn
  obtain ⟨b, hb, _⟩ := h none hn
  cases hb

/-- inputs of a dithered remap that fit together -/
structure DitherGood (ctx : DitherCtx F) (inp : DitherInput F) : Prop where
  good : ctx.Good
  px : inp.px.Readable
  bg : BgGood inp.px inp.bg
  width : ctx.width = inp.px.width
  guess : ctx.guess = true → inp.bg = none

def Diffusion.Len (w : ℕ) (d : Diffusion F) : Prop := d.1.length = w + 2 ∧ d.2.length = w + 2

theorem Diffusion.zero_len (w : ℕ) : Diffusion.Len w (Diffusion.zero w : Diffusion F) := by
  simp [Diffusion.Len, Diffusion.zero]

theorem ditherImageRow_ok {ctx : DitherCtx F} {inp : DitherInput F} (hg : DitherGood ctx inp) {d : Diffusion F} {y : ℕ}
    {out : List (Option UInt8)} (hd : Diffusion.Len ctx.width d) (hy : y < inp.px.height) (hout : out.length = ctx.width) :
    ∃ r, ditherImageRow ctx inp d y out = .ok r ∧ r.out.length = ctx.width ∧
      Written ctx.n.palette.length r.out ∧ (r.uninit = true ↔ ctx.guess = true ∧ none ∈ out) ∧
      Diffusion.Len ctx.width r.diffusion := by
  unfold ditherImageRow
  obtain ⟨e1, l1⟩ := hg.px.rowF hy
  rw [e1]
  simp only [bind, Except.bind]
  cases hb : inp.bg with
  | none => exact ditherRow_ok hg.good (by rw [l1, hg.width]) hout (fun _ => rfl) hd
  | some b =>
    obtain ⟨h1, h2, h3⟩ := hg.bg b hb
    obtain ⟨e2, _⟩ := h1.rowF (show y < b.height by omega)
    simp only
    rw [e2]
    exact ditherRow_ok hg.good (by rw [l1, hg.width]) hout (fun h => by have := hg.guess h; rw [hb] at this; cases this) hd

/-- rows of the right length -/
def RowsLen (w : ℕ) (rows : List (List (Option UInt8))) : Prop := ∀ r ∈ rows, r.length = w

theorem ditherRows_ok {ctx : DitherCtx F} {inp : DitherInput F} (hg : DitherGood ctx inp)
    (outs : List (List (Option UInt8))) (d : Diffusion F) (y : ℕ) (hd : Diffusion.Len ctx.width d)
    (hy : y + outs.length ≤ inp.px.height) (hout : RowsLen ctx.width outs) :
    ∃ r, ditherRows ctx inp d y outs = .ok r ∧ r.out.length = outs.length ∧ RowsLen ctx.width r.out ∧
      (∀ row ∈ r.out, Written ctx.n.palette.length row) ∧
      (r.uninit = true → ctx.guess = true ∧ ∃ row ∈ outs, none ∈ row) := by
  induction outs generalizing d y with
  | nil => exact ⟨_, rfl, rfl, (fun _ h => by cases h), (fun _ h => by cases h), (fun h => by cases h)⟩
  | cons out outs ih =>
    simp only [List.length_cons] at hy
    obtain ⟨r, e, l, w, u, dl⟩ := ditherImageRow_ok hg hd (show y < inp.px.height by omega) (hout out (by simp))
    obtain ⟨rs, es, ls, rls, ws, us⟩ := ih r.diffusion (y + 1) dl (by omega) (fun x hx => hout x (by simp [hx]))
    unfold ditherRows
    rw [e]
    simp only [bind, Except.bind]
    rw [es]
    refine ⟨_, rfl, by simp [ls], ?_, ?_, ?_⟩
    · intro row hrow
      rcases List.mem_cons.mp hrow with rfl | h
      · exact l
      · exact rls row h
    · intro row hrow
      rcases List.mem_cons.mp hrow with rfl | h
      · exact w
      · exact ws row h
    · intro hu
      rcases Bool.or_eq_true_iff.mp hu with h | h
      · exact ⟨(u.mp h).1, out, by simp, (u.mp h).2⟩
      · obtain ⟨a, row, b, c⟩ := us h
        exact ⟨a, row, by simp [b], c⟩

theorem warmUp_ok {ctx : DitherCtx F} {inp : DitherInput F} (hg : DitherGood ctx inp) {start : ℕ}
    (hs : start < inp.px.height) :
    ∃ d u, warmUp ctx inp start = .ok (d, u) ∧ Diffusion.Len ctx.width d ∧
      (u = true → ctx.guess = true ∧ 2 < start) ∧ (0 < ctx.width → ctx.guess = true → 2 < start → u = true) := by
  unfold warmUp
  split
  next h2 =>
    obtain ⟨r, e, l, w, u, dl⟩ := ditherImageRow_ok hg (Diffusion.zero_len ctx.width) (show start - 2 < inp.px.height by omega)
      (out := List.replicate ctx.width none) (by simp)
    obtain ⟨r', e', _, _, u', dl'⟩ := ditherImageRow_ok hg dl (show start - 1 < inp.px.height by omega) l
    rw [e]
    simp only [bind, Except.bind]
    rw [e']
    refine ⟨_, _, rfl, dl', ?_, fun hw hgt _ => ?_⟩
    · intro hu
      rcases Bool.or_eq_true_iff.mp hu with h | h
      · exact ⟨(u.mp h).1, h2⟩
      · exact absurd (u'.mp h).2 w.no_none
    · rw [u.mpr ⟨hgt, by simp; omega⟩]; rfl
  next h2 => exact ⟨_, _, rfl, Diffusion.zero_len _, (fun h => by cases h), (fun _ _ h => absurd h h2)⟩

/-- The callback was asked about every report between the two logs; it answered all of them with "continue", except
that with `brk` it answered the last one (there is one) with "break". -/
def Ends (cb : Option (List F → Bool)) (a b : List F) (brk : Bool) : Prop :=
  ∃ new, b = a ++ new ∧ (∀ k < new.length, answered cb (a ++ new.take (k + 1)) = (brk && decide (k + 1 = new.length))) ∧
    (brk = true → new ≠ [])

theorem Ends.refl (cb : Option (List F → Bool)) (a : List F) : Ends cb a a false :=
  ⟨[], by simp, (fun k h => by simp at h), (fun h => by cases h)⟩

theorem Ends.trans {cb : Option (List F → Bool)} {a b c : List F} {brk : Bool} (h : Ends cb a b false) (k : Ends cb b c brk) :
    Ends cb a c brk := by
  obtain ⟨n, rfl, hn, _⟩ := h
  obtain ⟨m, rfl, hm, hne⟩ := k
  refine ⟨n ++ m, by simp, fun i hi => ?_, fun h => by simp [hne h]⟩
  by_cases hin : i < n.length
  · rw [List.take_append_of_le_length (by omega), hn i hin]
    cases brk with
    | false => rfl
    | true =>
      have : 0 < m.length := List.length_pos_iff.mpr (hne rfl)
      simp only [Bool.false_and, Bool.true_and, List.length_append]
      symm; rw [decide_eq_false_iff_not]; omega
  · simp only [List.length_append] at hi
    have := hm (i - n.length) (by omega)
    rw [List.take_append, List.take_of_length_le (by omega), ← List.append_assoc,
      show i + 1 - n.length = i - n.length + 1 by omega, this]
    congr 1
    simp only [List.length_append, decide_eq_decide]; omega

theorem Ends.report (cb : Option (List F → Bool)) (log : List F) (v : F) :
    Ends cb log (reported cb log v) (answered cb (reported cb log v)) := by
  cases cb with
  | none => exact Ends.refl none log
  | some f =>
    refine ⟨[v], rfl, fun k hk => ?_, fun _ => by simp⟩
    have : k = 0 := by simp at hk; omega
    subst this
    simp [reported]

/-- the callback of a run that ended with "break" -/
theorem Ends.broke {cb : Option (List F → Bool)} {a b : List F} (h : Ends cb a b true) :
    ∃ f, cb = some f ∧ f b = true ∧ a <+: b ∧ b ≠ a := by
  obtain ⟨n, rfl, hn, hne⟩ := h
  have hpos : 0 < n.length := List.length_pos_iff.mpr (hne rfl)
  have := hn (n.length - 1) (by omega)
  rw [show n.length - 1 + 1 = n.length by omega, List.take_length] at this
  cases cb with
  | none => simp [answered] at this
  | some f =>
    refine ⟨f, rfl, by simpa [answered] using this, List.prefix_append _ _, ?_⟩
    simpa using hne rfl

theorem floydChunks_ok {ctx : DitherCtx F} {inp : DitherInput F} (hg : DitherGood ctx inp)
    (cb : Option (List F → Bool)) (stage1 : ℕ) (chunks : List (List (List (Option UInt8)))) (start : ℕ) (log : List F)
    (hne : ∀ c ∈ chunks, c ≠ []) (hs : start + chunks.flatten.length ≤ inp.px.height)
    (hl : RowsLen ctx.width chunks.flatten) :
    let r := (floydChunks ctx inp cb stage1 start chunks log).1
    r.rows.length = chunks.flatten.length ∧ RowsLen ctx.width r.rows ∧
    ((r.res = .ok () ∧ Ends cb log (floydChunks ctx inp cb stage1 start chunks log).2 false) ∨
      (r.res = .error (.err .aborted) ∧ Ends cb log (floydChunks ctx inp cb stage1 start chunks log).2 true)) ∧
    (r.res = .ok () → ∀ row ∈ r.rows, Written ctx.n.palette.length row) ∧
    (r.uninit = true → ctx.guess = true ∧
      ((∃ row ∈ chunks.flatten, none ∈ row) ∨ ∃ c, chunks.head? = some c ∧ (2 < start ∨ chunks ≠ [c]))) := by
  induction chunks generalizing start log with
  | nil =>
    refine ⟨rfl, (fun _ h => by cases h), .inl ⟨rfl, Ends.refl _ _⟩, (fun _ _ h => by cases h), (fun h => by cases h)⟩
  | cons c cs ih =>
    simp only [List.flatten_cons, List.length_append] at hs
    have hc := hne c (by simp)
    have hcl : 0 < c.length := List.length_pos_iff.mpr hc
    obtain ⟨d, u, e, dl, hu, _⟩ := warmUp_ok hg (show start < inp.px.height by omega)
    obtain ⟨rr, er, lr, rlr, wr, ur⟩ := ditherRows_ok hg c d start dl (by omega)
      (fun x hx => hl x (by simp [hx]))
    have hprog := progress_eq cb (ditherProgress stage1 start inp.px.height) log
    unfold floydChunks
    rw [e]
    simp only
    rw [hprog]
    have hends := Ends.report cb log (ditherProgress stage1 start inp.px.height)
    cases hans : answered cb (reported cb log (ditherProgress stage1 start inp.px.height)) with
    | true =>
      rw [hans] at hends
      refine ⟨by simp, hl, .inr ⟨rfl, hends⟩, (fun h => by simp at h), fun h => ?_⟩
      obtain ⟨a, b⟩ := hu h
      exact ⟨a, .inr ⟨c, rfl, .inl b⟩⟩
    | false =>
      simp only
      rw [er]
      have := ih (start + c.length) (reported cb log (ditherProgress stage1 start inp.px.height))
        (fun x hx => hne x (by simp [hx])) (by omega) (fun x hx => hl x (by
          rw [List.flatten_cons]; exact List.mem_append_right _ hx))
      obtain ⟨i1, i2, i3, i4, i5⟩ := this
      simp only
      rw [hans] at hends
      refine ⟨by simp [lr, i1], ?_, i3.imp (fun h => ⟨h.1, hends.trans h.2⟩) (fun h => ⟨h.1, hends.trans h.2⟩), ?_, ?_⟩
      · intro row hrow
        rcases List.mem_append.mp hrow with h | h
        · exact rlr row h
        · exact i2 row h
      · intro hok row hrow
        rcases List.mem_append.mp hrow with h | h
        · exact wr row h
        · exact i4 hok row h
      · intro h
        rcases Bool.or_eq_true_iff.mp h with h | h
        · rcases Bool.or_eq_true_iff.mp h with h | h
          · obtain ⟨a, b⟩ := hu h
            exact ⟨a, .inr ⟨c, rfl, .inl b⟩⟩
          · obtain ⟨a, row, b1, b2⟩ := ur h
            exact ⟨a, .inl ⟨row, by rw [List.flatten_cons]; exact List.mem_append_left _ b1, b2⟩⟩
        · obtain ⟨a, b⟩ := i5 h
          refine ⟨a, ?_⟩
          rcases b with ⟨row, b1, b2⟩ | ⟨c', hc', _⟩
          · exact .inl ⟨row, by rw [List.flatten_cons]; exact List.mem_append_right _ b1, b2⟩
          · refine .inr ⟨c, rfl, .inr ?_⟩
            intro hcc
            have : cs = [] := by simpa using hcc
            rw [this] at hc'
            cases hc'

/-- A remap that is not stopped reads bytes of the scratch row that nobody wrote as soon as a chunk other than the first
begins after row 2. -/
theorem floydChunks_uninit {ctx : DitherCtx F} {inp : DitherInput F} (hg : DitherGood ctx inp) (hw : 0 < ctx.width)
    (hgt : ctx.guess = true) (cb : Option (List F → Bool)) (stage1 : ℕ) (chunks : List (List (List (Option UInt8))))
    (start : ℕ) (log : List F) (hne : ∀ c ∈ chunks, c ≠ []) (hs : start + chunks.flatten.length ≤ inp.px.height)
    (hl : RowsLen ctx.width chunks.flatten)
    (hc : (2 < start ∧ chunks ≠ []) ∨ ∃ c c' cs, chunks = c :: c' :: cs ∧ 2 < start + c.length)
    (hok : (floydChunks ctx inp cb stage1 start chunks log).1.res = .ok ()) :
    (floydChunks ctx inp cb stage1 start chunks log).1.uninit = true := by
  induction chunks generalizing start log with
  | nil => simp at hc
  | cons c cs ih =>
    simp only [List.flatten_cons, List.length_append] at hs
    have hcl : 0 < c.length := List.length_pos_iff.mpr (hne c (by simp))
    obtain ⟨d, u, e, dl, _, hu⟩ := warmUp_ok hg (show start < inp.px.height by omega)
    obtain ⟨rr, er, lr, rlr, wr, ur⟩ := ditherRows_ok hg c d start dl (by omega)
      (fun x hx => hl x (by simp [hx]))
    have hprog := progress_eq cb (ditherProgress stage1 start inp.px.height) log
    unfold floydChunks at hok ⊢
    rw [e] at hok ⊢
    simp only at hok ⊢
    rw [hprog] at hok ⊢
    cases hans : answered cb (reported cb log (ditherProgress stage1 start inp.px.height)) with
    | true => rw [hans] at hok; simp at hok
    | false =>
      rw [hans] at hok
      simp only at hok ⊢
      rw [er] at hok ⊢
      simp only at hok ⊢
      rcases hc with ⟨h2, _⟩ | ⟨c1, c', cs', hcs, h2⟩
      · rw [hu hw hgt h2]; rfl
      · obtain ⟨rfl, rfl⟩ : c = c1 ∧ cs = c' :: cs' := by simpa using hcs
        have := ih (start + c.length) (reported cb log (ditherProgress stage1 start inp.px.height))
          (fun x hx => hne x (by simp [hx])) (by omega)
          (fun x hx => hl x (by rw [List.flatten_cons]; exact List.mem_append_right _ hx)) (.inl ⟨h2, by simp⟩) hok
        rw [this]; simp

/-- cutting into chunks loses nothing -/
theorem chunksOf_flatten {α : Type} {size : ℕ} (hs : 0 < size) (l : List α) :
    (chunksOf size l).flatten = l ∧ ∀ c ∈ chunksOf size l, c ≠ [] := by
  have key : ∀ (n : ℕ) (l : List α), l.length ≤ n * size →
      ((List.range n).map fun i => (l.drop (i * size)).take size).flatten = l := by
    intro n
    induction n with
    | zero => intro l h; simp at h; simp [h]
    | succ n ih =>
      intro l h
      rw [List.range_succ_eq_map, List.map_cons, List.flatten_cons, List.map_map]
      have := ih (l.drop size) (by rw [List.length_drop]; rw [Nat.add_mul] at h; omega)
      simp only [List.drop_drop] at this
      have heq : (List.range n).map ((fun i => (l.drop (i * size)).take size) ∘ Nat.succ) =
          (List.range n).map fun i => (l.drop (size + i * size)).take size := by
        refine List.map_congr_left fun i _ => ?_
        simp only [Function.comp, Nat.succ_eq_add_one, Nat.add_mul, Nat.one_mul]
        rw [Nat.add_comm]
      rw [heq, this]
      simp
  unfold chunksOf
  constructor
  · apply key
    have h1 := Nat.div_add_mod (l.length + size - 1) size
    have h2 := Nat.mod_lt (l.length + size - 1) hs
    rw [Nat.mul_comm] at h1
    omega
  · intro c hc
    obtain ⟨i, hi, rfl⟩ := List.mem_map.mp hc
    have hi' := List.mem_range.mp hi
    have : i * size < l.length := by
      have h1 : (i + 1) * size ≤ l.length + size - 1 := by
        have := (Nat.le_div_iff_mul_le hs).mp (show i + 1 ≤ _ from hi')
        exact this
      rw [Nat.add_mul] at h1; omega
    intro h
    have hl := congrArg List.length h
    simp at hl
    omega

theorem ditherChunks_pos (single : Bool) (w h cpus : ℕ) (hc : 0 < cpus) : 0 < ditherChunks single w h cpus := by
  unfold ditherChunks
  split
  · omega
  · split <;> omega

/-- more than one chunk: the chunks have at least three rows, and there are at least two -/
theorem ditherChunks_many {single : Bool} {w h cpus : ℕ} (hc : 0 < cpus) (hne : ditherChunks single w h cpus ≠ 1) :
    3 ≤ (h + ditherChunks single w h cpus - 1) / ditherChunks single w h cpus ∧
    (h + ditherChunks single w h cpus - 1) / ditherChunks single w h cpus < h ∧ 128 < h ∧ single = false := by
  have hpos := ditherChunks_pos single w h cpus hc
  have key : 3 * ditherChunks single w h cpus ≤ h ∧ 128 < h ∧ single = false := by
    unfold ditherChunks at hne hpos ⊢
    split
    next h' => rw [if_pos h'] at hne; exact absurd rfl hne
    next h' =>
      rw [if_neg h'] at hne hpos
      have hd := Nat.div_mul_le_self h 128
      split
      next h128 => rw [if_pos h128] at hne; exact ⟨by omega, h128, by simpa using h'⟩
      next h128 => rw [if_neg h128] at hne; omega
  generalize ditherChunks single w h cpus = c at *
  refine ⟨(Nat.le_div_iff_mul_le hpos).mpr (by omega), ?_, key.2.1, key.2.2⟩
  rw [Nat.div_lt_iff_lt_mul hpos]
  have : 2 ≤ c := by omega
  have := Nat.mul_le_mul_left h this
  omega

/-- the first two chunks -/
theorem chunksOf_two {α : Type} {size : ℕ} {l : List α} (h3 : 3 ≤ size) (hl : size < l.length) :
    ∃ c c' cs, chunksOf size l = c :: c' :: cs ∧ 2 < c.length := by
  unfold chunksOf
  have : 2 ≤ (l.length + size - 1) / size := (Nat.le_div_iff_mul_le (by omega)).mpr (by omega)
  obtain ⟨m, hm⟩ : ∃ m, (l.length + size - 1) / size = m + 2 := ⟨_, (Nat.sub_add_cancel this).symm⟩
  rw [hm, List.range_succ_eq_map, List.range_succ_eq_map]
  simp only [List.map_cons]
  exact ⟨_, _, _, rfl, by simp; omega⟩

end Verif
