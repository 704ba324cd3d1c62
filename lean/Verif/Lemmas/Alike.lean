import Verif.Lemmas.Prepare
import Verif.Lemmas.DitherTrace

/-! # A remap depends on pixels, maps, settings and palette only -/

set_option linter.unusedSectionVars false

namespace Verif
open Flt Image

variable {F : Type} [Flt F]

/-! ### What earlier remaps left in the result is not read -/

/-- the state with another memory of earlier remaps -/
def RemapState.recall (s : RemapState F) (x : Option (Remapped F)) : RemapState F :=
  { s with quant := { s.quant with remapped := x } }

theorem remapFloyd_recall (env : RemapEnv F) (s : RemapState F) (x : Option (Remapped F)) (p : PalF F) (m : F) (b : Bool) :
    remapFloyd env (s.recall x) p m b = ((remapFloyd env s p m b).1, (remapFloyd env s p m b).2.recall x) := by
  unfold remapFloyd RemapState.recall
  dsimp only
  cases Nearest.new p with
  | error e => rfl
  | ok n =>
    cases prepareOpt s.image.background with
    | error e => rfl
    | ok bg =>
      dsimp only
      cases s.image.px.prepare true with
      | error e => rfl
      | ok px => rfl

theorem generateDitherMap_recall (env : RemapEnv F) (s : RemapState F) (x : Option (Remapped F)) (ub : Bool) (p : PalF F) :
    generateDitherMap env (s.recall x) ub p = ((generateDitherMap env s ub p).1, (generateDitherMap env s ub p).2.recall x) := by
  unfold generateDitherMap RemapState.recall
  dsimp only
  cases generatesDitherMap s.quant.useDitherMap s.image with
  | false => rfl
  | true =>
    simp only [Bool.not_true, Bool.false_eq_true, if_false]
    generalize remapToPalette env s.image.px none s.image.importanceMap s.out.length p = z
    obtain ⟨res, r⟩ := z
    cases res with
    | error e => rfl
    | ok err =>
      dsimp only
      generalize ({ s.image with px := r.px } : Image F).updateDitherMap (r.rows.getD []) r.palette ub = u
      cases u <;> rfl

theorem remapPlain_recall (env : RemapEnv F) (s : RemapState F) (x : Option (Remapped F)) :
    remapPlain env (s.recall x) = ((remapPlain env s).1, (remapPlain env s).2.recall x) := by
  unfold remapPlain RemapState.recall
  dsimp only
  generalize remapToPalette env s.image.px s.image.background s.image.importanceMap s.out.length _ = z
  obtain ⟨res, r⟩ := z
  cases res <;> rfl

theorem remapDithered_recall (env : RemapEnv F) (s : RemapState F) (x : Option (Remapped F)) :
    remapDithered env (s.recall x) = ((remapDithered env s).1, (remapDithered env s).2.recall x) := by
  unfold remapDithered
  rw [show (s.recall x).image = s.image from rfl, show (s.recall x).quant.palette = s.quant.palette from rfl,
    generateDitherMap_recall]
  generalize generateDitherMap env s s.image.background.isSome s.quant.palette = z
  obtain ⟨res, t⟩ := z
  cases res with
  | error e => rfl
  | ok v =>
    obtain ⟨e, p⟩ := v
    dsimp only
    rw [show (t.recall x).quant.progressCallback = t.quant.progressCallback from rfl,
      show (t.recall x).quant.useDitherMap = t.quant.useDitherMap from rfl, show (t.recall x).log = t.log from rfl, progress_eq]
    cases answered t.quant.progressCallback (reported t.quant.progressCallback t.log
        (lit32 (remapStage1 t.quant.useDitherMap) *₃ lit32 (1/2))) with
    | true => rfl
    | false =>
      dsimp only
      generalize hu : ({ quant := t.quant, image := t.image, out := t.out, log := _, uninit := t.uninit } : RemapState F) = u
      have : ({ quant := (t.recall x).quant, image := (t.recall x).image, out := (t.recall x).out
                log := reported t.quant.progressCallback t.log (lit32 (remapStage1 t.quant.useDitherMap) *₃ lit32 (1/2))
                uninit := (t.recall x).uninit } : RemapState F) = u.recall x := by rw [← hu]; rfl
      rw [this, remapFloyd_recall]
      rw [show (t.recall x).quant.paletteError = t.quant.paletteError from rfl,
        show (t.recall x).quant.gamma = t.quant.gamma from rfl,
        show (t.recall x).quant.minPosterizationOutput = t.quant.minPosterizationOutput from rfl]
      generalize remapFloyd env u _ _ _ = z
      obtain ⟨res, v⟩ := z
      cases res <;> rfl

theorem writeRemapped_recall (env : RemapEnv F) (s : RemapState F) (x : Option (Remapped F)) :
    writeRemapped env (s.recall x) = ((writeRemapped env s).1, match (writeRemapped env s).1 with
      | .ok _ => (writeRemapped env s).2
      | .error _ => (writeRemapped env s).2.recall x) := by
  unfold writeRemapped
  rw [show (s.recall x).quant.progressCallback = s.quant.progressCallback from rfl,
    show (s.recall x).quant.useDitherMap = s.quant.useDitherMap from rfl, show (s.recall x).log = s.log from rfl, progress_eq]
  generalize reported s.quant.progressCallback s.log _ = l
  cases answered s.quant.progressCallback l with
  | true => rfl
  | false =>
    dsimp only
    have hstate : ({ quant := (s.recall x).quant, image := (s.recall x).image.freeHistogramInputs, out := (s.recall x).out
                     log := l, uninit := (s.recall x).uninit } : RemapState F) =
        ({ quant := s.quant, image := s.image.freeHistogramInputs, out := s.out, log := l, uninit := s.uninit } : RemapState F).recall x := rfl
    cases hl : eq s.quant.ditherLevel (lit32 0) with
    | true =>
      have hl' : eq (s.recall x).quant.ditherLevel (lit32 0) = true := hl
      simp only [hl', if_true]
      rw [hstate, remapPlain_recall]
      generalize remapPlain env _ = z
      obtain ⟨res, v⟩ := z
      cases res <;> rfl
    | false =>
      have hl' : eq (s.recall x).quant.ditherLevel (lit32 0) = false := hl
      simp only [hl', Bool.false_eq_true, if_false]
      rw [hstate, remapDithered_recall]
      generalize remapDithered env _ = z
      obtain ⟨res, v⟩ := z
      cases res <;> rfl

/-- What a remap does does not depend on what an earlier one left in the result. -/
theorem remapInto_recall (env : RemapEnv F) (q : QuantizationResult F) (x : Option (Remapped F)) (img : Image F) (buf : List (Option UInt8))
    (log : List F) :
    (remapInto env { q with remapped := x } img buf log).res = (remapInto env q img buf log).res ∧
    (remapInto env { q with remapped := x } img buf log).buf = (remapInto env q img buf log).buf ∧
    (remapInto env { q with remapped := x } img buf log).image = (remapInto env q img buf log).image ∧
    (remapInto env { q with remapped := x } img buf log).log = (remapInto env q img buf log).log ∧
    ((remapInto env q img buf log).res = .ok () →
      (remapInto env { q with remapped := x } img buf log).quant = (remapInto env q img buf log).quant) := by
  unfold remapInto
  dsimp only
  split
  · exact ⟨rfl, rfl, rfl, rfl, fun h => by cases h⟩
  · have hstate : RemapState.mk { q with remapped := x } img (chunksExact img.width (buf.take (img.width * img.height))) log false =
        (RemapState.mk q img (chunksExact img.width (buf.take (img.width * img.height))) log false).recall x := rfl
    rw [hstate, writeRemapped_recall]
    generalize writeRemapped env _ = z
    obtain ⟨res, v⟩ := z
    cases res with
    | error e => exact ⟨rfl, rfl, rfl, rfl, fun h => by cases h⟩
    | ok u => exact ⟨rfl, rfl, rfl, rfl, fun _ => rfl⟩

/-! ### What an output row contained before does not matter unless it is read -/

/-- two states that differ in the output row only, and there not in the columns of the first `k` steps -/
structure SameStep (ctx : DitherCtx F) (even : Bool) (k : ℕ) (a b : DitherState F) : Prop where
  thiserr : a.thiserr = b.thiserr
  nexterr : a.nexterr = b.nexterr
  bgUsed : a.bgUsed = b.bgUsed
  last : a.last = b.last
  uninit : a.uninit = b.uninit
  lenA : a.out.length = ctx.width
  lenB : b.out.length = ctx.width
  done : ∀ x < k, a.out[ditherCol ctx.width even x]? = b.out[ditherCol ctx.width even x]?

theorem SameStep.step {ctx : DitherCtx F} {even : Bool} {k : ℕ} {a b : DitherState F} (h : SameStep ctx even k a b) (hg : ctx.guess = false)
    (hk : k < ctx.width) (row bg : List (FPixel F)) (dmap : List UInt8) :
    (∃ e, ditherStep ctx row bg dmap even a k = .error e ∧ ditherStep ctx row bg dmap even b k = .error e) ∨
    ∃ a' b', ditherStep ctx row bg dmap even a k = .ok a' ∧ ditherStep ctx row bg dmap even b k = .ok b' ∧ SameStep ctx even (k + 1) a' b' := by
  have hga : ∀ col, ditherGuess ctx a col = (a.last, false) := fun col => by simp [ditherGuess, hg]
  have hgb : ∀ col, ditherGuess ctx b col = (a.last, false) := fun col => by simp [ditherGuess, hg, h.last]
  unfold ditherStep
  have hcoleq : (if even = true then k else ctx.width - 1 - k) = ditherCol ctx.width even k := rfl
  rw [hcoleq]
  have hcol := ditherCol_lt (w := ctx.width) even hk
  generalize hc : ditherCol ctx.width even k = col at *
  dsimp only
  rw [hga, hgb, ← h.thiserr, ← h.nexterr, ← h.bgUsed, ← h.uninit]
  cases index row col with
  | error e => exact .inl ⟨e, rfl, rfl⟩
  | ok px =>
    simp only [bind, Except.bind]
    generalize ctx.n.search _ _ = z
    generalize ditherChoose ctx bg[col]? px _ _ _ _ _ = w
    cases w with
    | error e => exact .inl ⟨e, rfl, rfl⟩
    | ok w =>
      obtain ⟨m, c, u⟩ := w
      refine .inr ⟨_, _, rfl, rfl, rfl, rfl, rfl, rfl, rfl, by simp [h.lenA], by simp [h.lenB], fun x hx => ?_⟩
      dsimp only
      rw [getElem?_set_iff _ _ _ _ (by rw [h.lenA]; exact hcol), getElem?_set_iff _ _ _ _ (by rw [h.lenB]; exact hcol)]
      split
      · rfl
      next hne => exact h.done x (by
          rcases Nat.lt_succ_iff_lt_or_eq.mp hx with h | h
          · exact h
          · subst h; exact absurd hc hne)

theorem ditherRow_old {ctx : DitherCtx F} (hg : ctx.guess = false) (row bg : List (FPixel F)) (dmap : List UInt8) (d : Diffusion F) (even : Bool)
    {o o' : List (Option UInt8)} (ho : o.length = ctx.width) (ho' : o'.length = ctx.width) :
    ditherRow ctx row bg dmap d even o = ditherRow ctx row bg dmap d even o' := by
  unfold ditherRow
  rw [ho, ho']
  split
  · rfl
  · have key : ∀ k ≤ ctx.width, ∀ a b : DitherState F, SameStep ctx even 0 a b →
        (∃ e, (List.range k).foldlM (ditherStep ctx row bg dmap even) a = .error e ∧ (List.range k).foldlM (ditherStep ctx row bg dmap even) b = .error e) ∨
        ∃ a' b', (List.range k).foldlM (ditherStep ctx row bg dmap even) a = .ok a' ∧ (List.range k).foldlM (ditherStep ctx row bg dmap even) b = .ok b' ∧
          SameStep ctx even k a' b' := by
      intro k
      induction k with
      | zero => exact fun _ a b h => .inr ⟨a, b, rfl, rfl, h⟩
      | succ k ih =>
        intro hk a b h
        rw [List.range_succ, List.foldlM_append, List.foldlM_append]
        rcases ih (by omega) a b h with ⟨e, h1, h2⟩ | ⟨a', b', h1, h2, h3⟩
        · rw [h1, h2]; exact .inl ⟨e, rfl, rfl⟩
        · rw [h1, h2]
          simp only [bind, Except.bind, List.foldlM_cons, List.foldlM_nil]
          rcases h3.step hg (by omega) row bg dmap with ⟨e, k1, k2⟩ | ⟨a2, b2, k1, k2, k3⟩
          · rw [k1, k2]; exact .inl ⟨e, rfl, rfl⟩
          · rw [k1, k2]; exact .inr ⟨a2, b2, rfl, rfl, k3⟩
    simp only [bind, Except.bind]
    rcases key ctx.width le_rfl
      { thiserr := if even then d.1 else d.2, nexterr := List.replicate (ctx.width + 2) FPixel.default, bgUsed := 0, last := 0, out := o, uninit := false }
      { thiserr := if even then d.1 else d.2, nexterr := List.replicate (ctx.width + 2) FPixel.default, bgUsed := 0, last := 0, out := o', uninit := false }
      ⟨rfl, rfl, rfl, rfl, rfl, ho, ho', fun x hx => by omega⟩ with ⟨e, h1, h2⟩ | ⟨a, b, h1, h2, h3⟩
    · rw [h1, h2]
    · rw [h1, h2]
      have : a.out = b.out := by
        apply List.ext_getElem?
        intro c
        by_cases hc : c < ctx.width
        · obtain ⟨x, hx, rfl⟩ := ditherCol_surj even hc
          exact h3.done x hx
        · rw [List.getElem?_eq_none (by rw [h3.lenA]; omega), List.getElem?_eq_none (by rw [h3.lenB]; omega)]
      dsimp only
      rw [h3.thiserr, h3.nexterr, this, h3.uninit]

/-- two inputs of dithering with which every row is dithered in the same way -/
structure SameInput (ctx : DitherCtx F) (a b : DitherInput F) : Prop where
  height : b.px.height = a.px.height
  row : ∀ y < a.px.height, ∀ d o o', o.length = ctx.width → o'.length = ctx.width → (ctx.guess = true → o = o') →
    ditherImageRow ctx a d y o = ditherImageRow ctx b d y o'

theorem SameInput.of_same {ctx : DitherCtx F} {px px' : Rows F} {bg bg' : Option (Rows F)} (m : List UInt8) (hs : Rows.Same px px')
    (hb : BgSame bg bg') (hg : BgGood px bg) : SameInput ctx ⟨px, bg, m⟩ ⟨px', bg', m⟩ where
  height := hs.height
  row y hy d o o' ho ho' hgo := by
    unfold ditherImageRow
    dsimp only at hy ⊢
    rw [hs.rowF y hy, show (DitherInput.mk px' bg' m).dmapRow y = (DitherInput.mk px bg m).dmapRow y by
      unfold DitherInput.dmapRow; dsimp only; rw [hs.width]]
    have hrow : ∀ row bgRow, ditherRow ctx row bgRow ((DitherInput.mk px bg m).dmapRow y) d (y % 2 == 0) o =
        ditherRow ctx row bgRow ((DitherInput.mk px bg m).dmapRow y) d (y % 2 == 0) o' := by
      intro row bgRow
      cases h : ctx.guess with
      | true => rw [hgo h]
      | false => exact ditherRow_old h _ _ _ _ _ ho ho'
    cases bg with
    | none => cases bg' with
      | none => simp only [hrow]
      | some b' => simp only [BgSame] at hb
    | some b => cases bg' with
      | none => simp only [BgSame] at hb
      | some b' =>
        simp only [BgSame] at hb
        dsimp only
        rw [hb.rowF y (by rw [(hg b rfl).2.2]; exact hy)]
        simp only [hrow]

/-- output rows before dithering: of the right length, and the same if they are going to be read -/
structure OldRows (ctx : DitherCtx F) (a b : List (List (Option UInt8))) : Prop where
  length : a.length = b.length
  left : RowsLen ctx.width a
  right : RowsLen ctx.width b
  guess : ctx.guess = true → a = b

theorem ditherRows_alike {ctx : DitherCtx F} {a b : DitherInput F} (h : SameInput ctx a b) (os os' : List (List (Option UInt8)))
    (ho : OldRows ctx os os') (d : Diffusion F) (y : ℕ) (hy : y + os.length ≤ a.px.height) :
    ditherRows ctx a d y os = ditherRows ctx b d y os' := by
  induction os generalizing os' d y with
  | nil =>
    have : os' = [] := List.length_eq_zero_iff.mp ho.length.symm
    subst this
    rfl
  | cons o os ih =>
    cases os' with
    | nil => exact absurd ho.length (by simp)
    | cons o' os' =>
      unfold ditherRows
      simp only [List.length_cons] at hy
      rw [h.row y (by omega) d o o' (ho.left o (by simp)) (ho.right o' (by simp)) (fun hg => by have := ho.guess hg; simp_all)]
      have : ∀ d, ditherRows ctx a d (y + 1) os = ditherRows ctx b d (y + 1) os' := fun d =>
        ih os' ⟨by simpa using ho.length, fun r hr => ho.left r (by simp [hr]), fun r hr => ho.right r (by simp [hr]),
          fun hg => by have := ho.guess hg; simp_all⟩ d (y + 1) (by omega)
      simp only [this]

theorem ditherImageRow_width {ctx : DitherCtx F} {a : DitherInput F} {d : Diffusion F} {y : ℕ} {o : List (Option UInt8)}
    {r : DitherOut F (List (Option UInt8))} (h : ditherImageRow ctx a d y o = .ok r) : r.out.length = ctx.width := by
  unfold ditherImageRow at h
  simp only [bind, Except.bind] at h
  split at h
  · cases h
  have hk : ∃ row bgRow, ditherRow ctx row bgRow (a.dmapRow y) d (y % 2 == 0) o = .ok r := by
    split at h
    · split at h
      · cases h
      · exact ⟨_, _, h⟩
    · exact ⟨_, _, h⟩
  obtain ⟨row, bgRow, hk⟩ := hk
  obtain ⟨S, t, s, b, hd⟩ := ditherRow_done hk
  rw [hd.outEnd]
  have : ∀ k ≤ ctx.width, (S k).out.length = ctx.width := by
    intro k
    induction k with
    | zero => intro _; rw [hd.out0]; exact hd.lenOut
    | succ k ih => intro hk; rw [(hd.step k (by omega)).out, List.length_set]; exact ih (by omega)
  exact this _ le_rfl

theorem warmUp_alike {ctx : DitherCtx F} {a b : DitherInput F} (h : SameInput ctx a b) {start : ℕ} (hs : start ≤ a.px.height) :
    warmUp ctx a start = warmUp ctx b start := by
  unfold warmUp
  split
  next h2 =>
    rw [h.row (start - 2) (by omega) _ _ _ (by simp) (by simp) (fun _ => rfl)]
    cases hr : ditherImageRow ctx b (Diffusion.zero ctx.width) (start - 2) (List.replicate ctx.width none) with
    | error e => rfl
    | ok r =>
      simp only [bind, Except.bind]
      have := ditherImageRow_width hr
      rw [h.row (start - 1) (by omega) _ _ _ this this (fun _ => rfl)]
  · rfl

theorem floydChunks_alike {ctx : DitherCtx F} {a b : DitherInput F} (h : SameInput ctx a b) (cb : Option (List F → Bool)) (stage1 : ℕ)
    (cs cs' : List (List (List (Option UInt8)))) (hc : List.Forall₂ (OldRows ctx) cs cs') (start : ℕ) (log log' : List F)
    (hs : start + cs.flatten.length ≤ a.px.height) (hok : (floydChunks ctx a cb stage1 start cs log).1.res = .ok ())
    (hok' : (floydChunks ctx b cb stage1 start cs' log').1.res = .ok ()) :
    (floydChunks ctx a cb stage1 start cs log).1.rows = (floydChunks ctx b cb stage1 start cs' log').1.rows := by
  induction hc generalizing start log log' with
  | nil => rfl
  | @cons c c' cs cs' h1 h2 ih =>
    rw [List.flatten_cons, List.length_append] at hs
    unfold floydChunks at hok hok' ⊢
    rw [← warmUp_alike h (show start ≤ a.px.height by omega)] at hok' ⊢
    cases hw : warmUp ctx a start with
    | error e => rw [hw] at hok; cases hok
    | ok v =>
      obtain ⟨d, un⟩ := v
      rw [hw] at hok hok'
      simp only [progress_eq] at hok hok' ⊢
      rw [h.height] at hok' ⊢
      generalize reported cb log (ditherProgress stage1 start a.px.height) = l at *
      generalize reported cb log' (ditherProgress stage1 start a.px.height) = l' at *
      cases ha : answered cb l with
      | true => rw [ha] at hok; cases hok
      | false =>
        cases ha' : answered cb l' with
        | true => rw [ha'] at hok'; cases hok'
        | false =>
          rw [ha] at hok
          rw [ha'] at hok'
          simp only at hok hok' ⊢
          rw [← ditherRows_alike h c c' h1 d start (by omega)] at hok' ⊢
          cases hr : ditherRows ctx a d start c with
          | error e => rw [hr] at hok; cases hok
          | ok r =>
            rw [hr] at hok hok'
            simp only at hok hok' ⊢
            rw [← h1.length] at hok' ⊢
            rw [ih (start + c.length) l l' (by omega) hok hok']

/-! ### Images that a remap cannot tell apart -/

/-- the same pixels, the same background and the same maps (what is cached may differ) -/
structure Alike (a b : Image F) : Prop where
  px : Rows.Same a.px b.px
  background : BgSame a.background b.background
  maps : SameMaps a b

theorem Alike.refl (a : Image F) : Alike a a := ⟨Rows.Same.refl _, BgSame.refl _, rfl, rfl, rfl⟩

theorem Alike.trans {a b c : Image F} (h : Alike a b) (k : Alike b c) : Alike a c :=
  ⟨h.px.trans k.px, h.background.trans k.background, h.maps.1.trans k.maps.1, h.maps.2.1.trans k.maps.2.1, h.maps.2.2.trans k.maps.2.2⟩

theorem chunksOf_old {ctx : DitherCtx F} (size : ℕ) {a b : List (List (Option UInt8))} (h : OldRows ctx a b) :
    List.Forall₂ (OldRows ctx) (chunksOf size a) (chunksOf size b) := by
  unfold chunksOf
  rw [h.length, List.forall₂_map_left_iff, List.forall₂_map_right_iff]
  refine List.forall₂_same.mpr fun i _ => ⟨by simp [h.length], fun r hr => h.left r ?_, fun r hr => h.right r ?_, fun hg => by rw [h.guess hg]⟩
  · exact List.mem_of_mem_drop (List.mem_of_mem_take hr)
  · exact List.mem_of_mem_drop (List.mem_of_mem_take hr)

theorem pickBackgroundFloyd_alike (n : Nearest F) {a b : Option (Rows F)} (h : BgSame a b) :
    BgSame (pickBackgroundFloyd n a).1 (pickBackgroundFloyd n b).1 ∧ (pickBackgroundFloyd n a).2 = (pickBackgroundFloyd n b).2 := by
  unfold pickBackgroundFloyd
  cases a <;> cases b <;> simp only [BgSame] at h
  · exact ⟨trivial, rfl⟩
  · dsimp only
    by_cases hc : lt minOpaqueA (palColor n.palette (transparentIndex n).toNat).a = true
    · rw [if_pos hc, if_pos hc]; exact ⟨trivial, rfl⟩
    · rw [if_neg hc, if_neg hc]; exact ⟨h, rfl⟩

/-- the dithering pass; `s.quant` is the same, the pixels are, and so are the maps that it reads -/
theorem remapFloyd_alike (env : RemapEnv F) {s t : RemapState F} (p : PalF F) (maxErr : F) (isRemapped : Bool) (hq : t.quant = s.quant)
    (hs : s.image.Good) (hpx : Rows.Same s.image.px t.image.px) (hbg : BgSame s.image.background t.image.background)
    (hm : s.image.ditherMap = t.image.ditherMap ∧ s.image.edges = t.image.edges) (ho : OutGood s.image s.out) (ho' : OutGood s.image t.out)
    (hold : isRemapped = true → s.out = t.out) (hok : (remapFloyd env s p maxErr isRemapped).1 = .ok ())
    (hok' : (remapFloyd env t p maxErr isRemapped).1 = .ok ()) :
    (remapFloyd env s p maxErr isRemapped).2.out = (remapFloyd env t p maxErr isRemapped).2.out := by
  have hdm : ditherMapOf t.image t.quant.useDitherMap = ditherMapOf s.image s.quant.useDitherMap := by
    unfold ditherMapOf
    rw [hm.1, hm.2, hq]
  unfold remapFloyd at hok hok' ⊢
  rw [hdm, hq] at hok' ⊢
  dsimp only at hok hok' ⊢
  cases hn : Nearest.new p with
  | error e => rw [hn] at hok; cases hok
  | ok n =>
    rw [hn] at hok hok'
    obtain ⟨bg, eb, sb⟩ := prepareOpt_ok (px := s.image.px) (bg := s.image.background) (fun b hb => hs.background b hb)
    obtain ⟨bg', eb', sb'⟩ := prepareOpt_ok (px := t.image.px) (bg := t.image.background)
      (hbg.good hpx (fun b hb => hs.background b hb))
    obtain ⟨px, ep, sp, -⟩ := Rows.prepare_same hs.px true
    obtain ⟨px', ep', sp', -⟩ := Rows.prepare_same (hpx.readable hs.px) true
    rw [eb] at hok ⊢
    rw [eb'] at hok' ⊢
    simp only [ep] at hok ⊢
    simp only [ep'] at hok' ⊢
    have hpp : Rows.Same px px' := by
      refine ⟨?_, ?_, ?_, fun y hy => ?_⟩
      · rw [sp'.width, sp.width, hpx.width]
      · rw [sp'.height, sp.height, hpx.height]
      · rw [sp'.gamma, sp.gamma, hpx.gamma]
      · rw [sp.height] at hy
        rw [sp'.rowF y (by rw [hpx.height]; exact hy), sp.rowF y hy, hpx.rowF y hy]
    have hbb : BgSame bg bg' := by
      revert sb sb' hbg
      generalize s.image.background = x
      generalize t.image.background = x'
      intro hbg sb sb'
      cases x <;> cases x' <;> simp only [BgSame] at hbg <;> cases bg <;> simp only [BgSame] at sb <;> cases bg' <;> simp only [BgSame] at sb' ⊢
      refine ⟨?_, ?_, ?_, fun y hy => ?_⟩
      · rw [sb'.width, sb.width, hbg.width]
      · rw [sb'.height, sb.height, hbg.height]
      · rw [sb'.gamma, sb.gamma, hbg.gamma]
      · rw [sb.height] at hy
        rw [sb'.rowF y (by rw [hbg.height]; exact hy), sb.rowF y hy, hbg.rowF y hy]
    obtain ⟨hb1, hb2⟩ := pickBackgroundFloyd_alike n hbb
    have hgood : BgGood px (pickBackgroundFloyd n bg).1 := by
      have hg0 : BgGood px bg := sb.good sp (fun b hb => hs.background b hb)
      intro b hb
      refine hg0 b ?_
      unfold pickBackgroundFloyd at hb
      cases bg with
      | none => cases hb
      | some x =>
        dsimp only at hb
        split at hb
        · cases hb
        · exact hb
    have hiso : (pickBackgroundFloyd n bg').1.isNone = (pickBackgroundFloyd n bg).1.isNone := by
      revert hb1
      generalize (pickBackgroundFloyd n bg).1 = x
      generalize (pickBackgroundFloyd n bg').1 = x'
      intro h
      cases x <;> cases x' <;> simp_all [BgSame]
    rw [hpp.width, hpp.height, ← hb2, hiso] at hok' ⊢
    refine floydChunks_alike (SameInput.of_same _ hpp hb1 hgood) _ _ _ _ (chunksOf_old _ ?_) 0 _ _ ?_ hok hok'
    · refine ⟨by rw [ho.1, ho'.1], ?_, ?_, fun hg => ?_⟩
      · rw [show px.width = s.image.width from sp.width]; exact ho.2
      · rw [show px.width = s.image.width from sp.width]; exact ho'.2
      · simp only [Bool.and_eq_true] at hg
        exact hold hg.1
    · have hlen : ∀ size, (chunksOf size s.out).flatten.length ≤ s.out.length := by
        intro size
        rcases Nat.eq_zero_or_pos size with h | h
        · subst h; simp [chunksOf]
        · rw [(chunksOf_flatten h s.out).1]
      rw [Nat.zero_add]
      refine (hlen _).trans ?_
      show s.out.length ≤ px.height
      rw [ho.1, sp.height]
      rfl

/-- an undithered remap of the same pixels in front of the same background -/
theorem remapToPalette_alikeImage (env : RemapEnv F) {px px' : Rows F} {bg bg' : Option (Rows F)} (imp : Option (List UInt8)) {p : PalF F}
    (hp0 : 0 < p.length) (hp : p.length ≤ 256) (hpx : px.Readable) (hs : Rows.Same px px') (hb : BgSame bg bg') (hg : BgGood px bg)
    {e e' : F} {r r' : RemapOut F} (h : remapToPalette env px bg imp px.height p = (.ok e, r))
    (h' : remapToPalette env px' bg' imp px.height p = (.ok e', r')) : e' = e ∧ r'.rows = r.rows ∧ r'.palette = r.palette := by
  obtain ⟨n, hnew⟩ := Nearest.new_of_len hp0 hp
  obtain ⟨q, b, hq, -, heq⟩ := remapToPalette_eq imp hnew hpx hg (le_refl _)
  obtain ⟨q', b', hq', -, heq'⟩ := remapToPalette_eq (nrows := px.height) imp hnew (hs.readable hpx) (hb.good hs hg) (by rw [hs.height])
  have hpick : BgSame (pickBackground n bg).1 (pickBackground n bg').1 ∧ (pickBackground n bg').2 = (pickBackground n bg).2 := by
    unfold pickBackground
    cases bg <;> cases bg' <;> simp only [BgSame] at hb
    · exact ⟨trivial, rfl⟩
    · dsimp only
      by_cases hc : lt (palColor n.palette (transparentIndex n).toNat).a minOpaqueA = true
      · rw [if_pos hc, if_pos hc]; exact ⟨hb, rfl⟩
      · rw [if_neg hc, if_neg hc]; exact ⟨trivial, rfl⟩
  have hgood : BgGood px (pickBackground n bg).1 := by
    intro x hx
    refine hg x ?_
    rcases pickBackground_cases n bg with ⟨y, hy, -, k⟩ | ⟨-, k⟩
    · rw [k] at hx; rw [hy]; exact hx
    · rw [k] at hx; cases hx
  have hsome : (pickBackground n bg').1.isSome = (pickBackground n bg).1.isSome := by
    have := hpick.1
    revert this
    generalize (pickBackground n bg).1 = x
    generalize (pickBackground n bg').1 = x'
    intro h
    cases x <;> cases x' <;> simp_all [BgSame]
  have hrows : plainRows n px' bg' imp px.height = plainRows n px bg imp px.height := by
    unfold plainRows
    refine List.map_congr_left fun y hy => ?_
    rw [hpick.2]
    exact plainRow_same n _ imp hs hpick.1 hgood (List.mem_range.mp hy)
  rw [heq env] at h
  rw [heq' env, hrows, hs.width, hs.height, hpick.2, hsome] at h'
  by_cases hc : isNan (env.sum ((plainRows n px bg imp px.height).map (·.err))) = true
  · rw [if_pos hc] at h; cases h
  · rw [if_neg hc] at h h'
    cases h
    cases h'
    exact ⟨rfl, rfl, rfl⟩

/-- the dither map that is made of the same pixels and maps -/
theorem updateDitherMap_alike {a b a' b' : Image F} (ha : a.Good) (hb : b.Good) (hs : Rows.Same a.px b.px) (he : a.edges = b.edges)
    (hd : a.ditherMap = b.ditherMap) {rows : List (List UInt8)} {p : PalF F} {ub : Bool}
    (h1 : a.updateDitherMap rows p ub = .ok a') (h2 : b.updateDitherMap rows p ub = .ok b') :
    a'.ditherMap = b'.ditherMap ∧ a'.edges = b'.edges := by
  have hw : b.width = a.width := hs.width
  have hh : b.height = a.height := hs.height
  have key : ∀ a1 b1, a.withEdges = .ok a1 → b.withEdges = .ok b1 →
      a1.edges = b1.edges ∧ a1.ditherMap = b1.ditherMap ∧ a1.width = b1.width := by
    intro a1 b1 ea eb
    unfold withEdges at ea eb
    rw [← he] at eb
    by_cases hn : a.edges.isNone = true
    · rw [if_pos hn] at ea eb
      obtain ⟨x, ex, -, sx, dx, -⟩ := contrastMaps_ok ha
      obtain ⟨y, ey, -, sy, dy, -⟩ := contrastMaps_ok hb
      rw [ex] at ea
      rw [ey] at eb
      cases ea
      cases eb
      refine ⟨?_, by rw [dx, dy, hd], ?_⟩
      · cases hk : skipsContrastMaps a.width a.height with
        | false => exact contrastMaps_edges ha hs hk ex ey
        | true =>
          unfold contrastMaps at ex ey
          rw [hw, hh, if_pos hk] at ey
          rw [if_pos hk] at ex
          cases ex
          cases ey
          exact he
      · show a1.px.width = b1.px.width
        rw [sx.width, sy.width, hs.width]
    · rw [if_neg hn] at ea eb
      cases ea
      cases eb
      exact ⟨he, hd, hw.symm⟩
  unfold updateDitherMap at h1 h2
  cases ea : a.withEdges with
  | error e => rw [ea] at h1; cases h1
  | ok a1 =>
    cases eb : b.withEdges with
    | error e => rw [eb] at h2; cases h2
    | ok b1 =>
      obtain ⟨k1, k2, k3⟩ := key _ _ ea eb
      rw [ea] at h1
      rw [eb] at h2
      simp only [bind, Except.bind] at h1 h2
      rw [← k1] at h2
      cases hed : a1.edges with
      | none =>
        rw [hed] at h1 h2
        cases h1
        cases h2
        exact ⟨k2, k1⟩
      | some ed =>
        rw [hed] at h1 h2
        simp only [← k3] at h1 h2
        generalize ditherMapRows p ub a1.width none _ = z at h1 h2
        cases z with
        | error e => cases h1
        | ok z => cases h1; cases h2; exact ⟨rfl, rfl⟩

theorem generateDitherMap_written (env : RemapEnv F) {s s1 : RemapState F} {ub : Bool} {p p' : PalF F} {e : Option F}
    (hg : generatesDitherMap s.quant.useDitherMap s.image = true) (ho : s.out.length = s.image.height)
    (h : generateDitherMap env s ub p = (.ok (e, p'), s1)) :
    s1.out = writeRows (remapToPalette env s.image.px none s.image.importanceMap s.image.height p).2.rows s.out := by
  unfold generateDitherMap at h
  rw [if_neg (by simp [hg]), ho] at h
  generalize hx : remapToPalette env s.image.px none s.image.importanceMap s.image.height p = x at h
  obtain ⟨res, r⟩ := x
  cases res with
  | error er => simp at h
  | ok err =>
    simp only at h
    split at h
    · simp at h
    next img hu =>
      simp only [Prod.mk.injEq, Except.ok.injEq] at h
      rw [← h.2]

/-- two states before a remap that have the same effect -/
structure AlikeState (s t : RemapState F) : Prop where
  quant : t.quant = s.quant
  image : Alike s.image t.image
  goodS : s.image.Good
  goodT : t.image.Good
  outS : OutGood s.image s.out
  outT : OutGood s.image t.out
  pos : 0 < s.quant.palette.length
  le : s.quant.palette.length ≤ 256

theorem remapToPalette_rows (env : RemapEnv F) {px : Rows F} {bg : Option (Rows F)} (imp : Option (List UInt8)) {nrows : ℕ} {p : PalF F} {e : F} {r : RemapOut F}
    (h : remapToPalette env px bg imp nrows p = (.ok e, r)) (hp0 : 0 < p.length) (hp : p.length ≤ 256) (hpx : px.Readable) (hg : BgGood px bg)
    (hn : nrows ≤ px.height) : ∃ rows, r.rows = some rows := by
  obtain ⟨n, hnew⟩ := Nearest.new_of_len hp0 hp
  obtain ⟨q, b, -, -, heq⟩ := remapToPalette_eq imp hnew hpx hg hn
  rw [heq env] at h
  split at h
  · cases h
  · cases h; exact ⟨_, rfl⟩

theorem remapPlain_alike (env : RemapEnv F) {s t : RemapState F} (h : AlikeState s t) {re re' : Remapped F}
    (h1 : (remapPlain env s).1 = .ok re) (h2 : (remapPlain env t).1 = .ok re') :
    re' = re ∧ (remapPlain env t).2.out = (remapPlain env s).2.out := by
  unfold remapPlain at h1 h2 ⊢
  dsimp only at h1 h2 ⊢
  rw [h.quant, ← h.image.maps.2.2, show t.out.length = s.image.px.height from h.outT.1] at h2 ⊢
  rw [show s.out.length = s.image.px.height from h.outS.1] at h1 ⊢
  generalize hP : s.quant.palette.initIntPalette s.quant.gamma (UInt8.ofNat s.quant.minPosterizationOutput) = P at *
  have hl : P.1.length = s.quant.palette.length := by rw [← hP]; simp [PalF.initIntPalette]
  generalize hx : remapToPalette env s.image.px s.image.background s.image.importanceMap s.image.px.height P.1 = x at *
  generalize hy : remapToPalette env t.image.px t.image.background s.image.importanceMap s.image.px.height P.1 = y at *
  obtain ⟨rx, x⟩ := x
  obtain ⟨ry, y⟩ := y
  cases rx with
  | error e => cases h1
  | ok e =>
    cases ry with
    | error e => cases h2
    | ok e' =>
      have hg : BgGood s.image.px s.image.background := fun b hb => h.goodS.background b hb
      obtain ⟨k1, k2, -⟩ := remapToPalette_alikeImage env _ (by rw [hl]; exact h.pos) (by rw [hl]; exact h.le) h.goodS.px h.image.px h.image.background hg hx hy
      obtain ⟨rows, hr⟩ := remapToPalette_rows env _ hx (by rw [hl]; exact h.pos) (by rw [hl]; exact h.le) h.goodS.px hg (le_refl _)
      simp only [Except.ok.injEq] at h1 h2
      refine ⟨by rw [← h1, ← h2, k1], ?_⟩
      dsimp only
      rw [k2, hr]
      rfl

theorem remapDithered_alike (env : RemapEnv F) {s t : RemapState F} (h : AlikeState s t) {re re' : Remapped F}
    (h1 : (remapDithered env s).1 = .ok re) (h2 : (remapDithered env t).1 = .ok re') :
    re' = re ∧ (remapDithered env t).2.out = (remapDithered env s).2.out := by
  have hgen : generatesDitherMap t.quant.useDitherMap t.image = generatesDitherMap s.quant.useDitherMap s.image := by
    unfold generatesDitherMap
    rw [h.quant, h.image.px.width, h.image.px.height, h.image.maps.1]
  have hbs : t.image.background.isSome = s.image.background.isSome := by
    have := h.image.background
    revert this
    generalize s.image.background = x
    generalize t.image.background = x'
    intro h
    cases x <;> cases x' <;> simp_all [BgSame]
  have htw : t.image.width = s.image.width := h.image.px.width
  have hth : t.image.height = s.image.height := h.image.px.height
  have ht : OutGood t.image t.out := ⟨by rw [h.outT.1, hth], by rw [htw]; exact h.outT.2⟩
  have sp1 := generateDitherMap_spec env s.image.background.isSome h.goodS h.outS h.pos h.le
  have sp2 := generateDitherMap_spec env s.image.background.isSome (p := s.quant.palette) h.goodT ht h.pos h.le
  unfold remapDithered at h1 h2 ⊢
  rw [hbs, h.quant] at h2 ⊢
  generalize hx : generateDitherMap env s s.image.background.isSome s.quant.palette = x at *
  generalize hy : generateDitherMap env t s.image.background.isSome s.quant.palette = y at *
  obtain ⟨rx, s1⟩ := x
  obtain ⟨ry, t1⟩ := y
  cases rx with
  | error e => cases h1
  | ok x =>
    cases ry with
    | error e => cases h2
    | ok y =>
      obtain ⟨e, p⟩ := x
      obtain ⟨e', p'⟩ := y
      obtain ⟨k1, kb1, -⟩ := sp1
      obtain ⟨k2, kb2, -⟩ := sp2
      dsimp only at k1 k2 kb1 kb2
      have key : e' = e ∧ p' = p ∧ (e.isSome = true → s1.out = t1.out) ∧ s1.image.ditherMap = t1.image.ditherMap ∧
          s1.image.edges = t1.image.edges := by
        rcases generateDitherMap_made env h.outS.1 hx with ⟨g, rfl, rfl, rfl⟩ | ⟨g, err, r, m1, rfl, rfl, m2⟩
        · rcases generateDitherMap_made env ht.1 hy with ⟨-, rfl, rfl, rfl⟩ | ⟨g', -⟩
          · exact ⟨rfl, rfl, (fun h => by cases h), h.image.maps.1, h.image.maps.2.1⟩
          · rw [hgen, g] at g'; cases g'
        · rcases generateDitherMap_made env ht.1 hy with ⟨g', -⟩ | ⟨g', err', r', m1', rfl, rfl, m2'⟩
          · rw [hgen, g] at g'; cases g'
          · have w1 := generateDitherMap_written env g h.outS.1 hx
            have w2 := generateDitherMap_written env g' ht.1 hy
            rw [m1] at w1
            rw [m1'] at w2
            have m1'' := m1'
            rw [hth, ← h.image.maps.2.2] at m1''
            obtain ⟨c1, c2, c3, c4, c5⟩ := remapToPalette_pixels env _ h.pos h.le h.goodS.px h.image.px m1 m1''
            obtain ⟨rows, hr⟩ := remapToPalette_rows env _ m1 h.pos h.le h.goodS.px (fun b hb => by cases hb) (le_refl _)
            refine ⟨by rw [c1], c3, (fun _ => by rw [w1, w2, c2, hr]; rfl), ?_⟩
            rw [c2, c3] at m2'
            have keep : ∀ {i : Image F} (gi : i.Good) {q : Rows F}, Rows.Same i.px q → ({ i with px := q } : Image F).Good := by
              intro i gi q hq
              have e1 : q.width = i.width := hq.width
              have e2 : q.height = i.height := hq.height
              exact ⟨hq.readable gi.px, by show 0 < q.width; rw [e1]; exact gi.width_pos, by show 0 < q.height; rw [e2]; exact gi.height_pos,
                fun m hm => by show _ = q.width * q.height; rw [e1, e2]; exact gi.importance m hm,
                fun m hm => by show _ = q.width * q.height; rw [e1, e2]; exact gi.edges m hm,
                fun m hm => by show _ = q.width * q.height; rw [e1, e2]; exact gi.ditherMap m hm,
                fun b hb => by
                  show b.Readable ∧ b.width = q.width ∧ b.height = q.height
                  rw [e1, e2]; exact gi.background b hb⟩
            refine updateDitherMap_alike (a := { s.image with px := r.px }) (b := { t.image with px := r'.px }) (keep h.goodS c4) (keep h.goodT c5)
              ?_ h.image.maps.2.1 h.image.maps.1 m2 m2'
            refine ⟨?_, ?_, ?_, fun y hy => ?_⟩
            · show r'.px.width = r.px.width; rw [c5.width, c4.width, h.image.px.width]
            · show r'.px.height = r.px.height; rw [c5.height, c4.height, h.image.px.height]
            · show r'.px.gamma = r.px.gamma; rw [c5.gamma, c4.gamma, h.image.px.gamma]
            · dsimp only at hy ⊢
              rw [c4.height] at hy
              rw [c5.rowF y (by rw [h.image.px.height]; exact hy), c4.rowF y hy, h.image.px.rowF y hy]
      obtain ⟨rfl, rfl, hout, hmaps⟩ := key
      have hq1 : s1.quant = s.quant := k1.quant
      have hq2 : t1.quant = s.quant := k2.quant.trans h.quant
      simp only [progress_eq, hq1, hq2] at h1 h2 ⊢
      generalize reported s.quant.progressCallback s1.log _ = l at *
      generalize reported s.quant.progressCallback t1.log _ = l' at *
      cases ha : answered s.quant.progressCallback l with
      | true => rw [ha] at h1; cases h1
      | false =>
        cases ha' : answered s.quant.progressCallback l' with
        | true => rw [ha'] at h2; cases h2
        | false =>
          rw [ha] at h1
          rw [ha'] at h2
          dsimp only at h1 h2 ⊢
          generalize hP : p'.initIntPalette s.quant.gamma (UInt8.ofNat s.quant.minPosterizationOutput) = P at *
          have fl := remapFloyd_alike env (s := { quant := s.quant, image := s1.image, out := s1.out, log := l, uninit := s1.uninit })
            (t := { quant := s.quant, image := t1.image, out := t1.out, log := l', uninit := t1.uninit }) P.1
            (maxDitherError (e'.or s.quant.paletteError)) e'.isSome rfl k1.good ?_ ?_ hmaps k1.out ?_ hout
          · generalize remapFloyd env { quant := s.quant, image := s1.image, out := s1.out, log := l, uninit := s1.uninit } P.1
              (maxDitherError (e'.or s.quant.paletteError)) e'.isSome = u at *
            generalize remapFloyd env { quant := s.quant, image := t1.image, out := t1.out, log := l', uninit := t1.uninit } P.1
              (maxDitherError (e'.or s.quant.paletteError)) e'.isSome = v at *
            obtain ⟨ru, u⟩ := u
            obtain ⟨rv, v⟩ := v
            cases ru with
            | error e => cases h1
            | ok x =>
              cases rv with
              | error e => cases h2
              | ok y =>
                simp only [Except.ok.injEq] at h1 h2
                exact ⟨by rw [← h1, ← h2], (fl rfl rfl).symm⟩
          · dsimp only
            refine ⟨?_, ?_, ?_, fun y hy => ?_⟩
            · rw [k2.samePx.width, k1.samePx.width, h.image.px.width]
            · rw [k2.samePx.height, k1.samePx.height, h.image.px.height]
            · rw [k2.samePx.gamma, k1.samePx.gamma, h.image.px.gamma]
            · rw [k1.samePx.height] at hy
              rw [k2.samePx.rowF y (by rw [h.image.px.height]; exact hy), k1.samePx.rowF y hy, h.image.px.rowF y hy]
          · dsimp only
            rw [kb1, kb2]
            exact h.image.background
          · have e1 : s1.image.width = s.image.width := k1.samePx.width
            have e2 : s1.image.height = s.image.height := k1.samePx.height
            have e3 : t1.image.width = s.image.width := k2.samePx.width.trans htw
            have e4 : t1.image.height = s.image.height := k2.samePx.height.trans hth
            refine ⟨?_, ?_⟩
            · show t1.out.length = s1.image.height
              rw [e2, ← e4]; exact k2.out.1
            · show RowsLen s1.image.width t1.out
              rw [e1, ← e3]; exact k2.out.2

theorem writeRemapped_alike (env : RemapEnv F) {s t : RemapState F} (h : AlikeState s t) (h1 : (writeRemapped env s).1 = .ok ())
    (h2 : (writeRemapped env t).1 = .ok ()) :
    (writeRemapped env t).2.quant.remapped = (writeRemapped env s).2.quant.remapped ∧ (writeRemapped env t).2.out = (writeRemapped env s).2.out := by
  unfold writeRemapped at h1 h2 ⊢
  simp only [progress_eq, h.quant] at h1 h2 ⊢
  generalize reported s.quant.progressCallback s.log _ = l at *
  generalize reported s.quant.progressCallback t.log _ = l' at *
  cases ha : answered s.quant.progressCallback l with
  | true => rw [ha] at h1; cases h1
  | false =>
    cases ha' : answered s.quant.progressCallback l' with
    | true => rw [ha'] at h2; cases h2
    | false =>
      rw [ha] at h1
      rw [ha'] at h2
      dsimp only at h1 h2 ⊢
      have hal : AlikeState { quant := s.quant, image := s.image.freeHistogramInputs, out := s.out, log := l, uninit := s.uninit }
          { quant := s.quant, image := t.image.freeHistogramInputs, out := t.out, log := l', uninit := t.uninit } := by
        have fs := Rows.free_same s.image.px
        have ft := Rows.free_same t.image.px
        refine ⟨rfl, ⟨?_, h.image.background, h.image.maps⟩, h.goodS.free, h.goodT.free, h.outS.same fs, h.outT.same fs, h.pos, h.le⟩
        refine ⟨?_, ?_, ?_, fun y hy => ?_⟩
        · show t.image.px.freeHistogramInputs.width = s.image.px.freeHistogramInputs.width
          rw [ft.width, fs.width, h.image.px.width]
        · show t.image.px.freeHistogramInputs.height = s.image.px.freeHistogramInputs.height
          rw [ft.height, fs.height, h.image.px.height]
        · show t.image.px.freeHistogramInputs.gamma = s.image.px.freeHistogramInputs.gamma
          rw [ft.gamma, fs.gamma, h.image.px.gamma]
        · show t.image.px.freeHistogramInputs.rowF y = s.image.px.freeHistogramInputs.rowF y
          have hy' : y < s.image.px.height := by rw [← fs.height]; exact hy
          rw [ft.rowF y (by rw [h.image.px.height]; exact hy'), fs.rowF y hy', h.image.px.rowF y hy']
      cases hl : eq s.quant.ditherLevel (lit32 0) with
      | true =>
        simp only [hl, if_true] at h1 h2 ⊢
        generalize ({ quant := s.quant, image := s.image.freeHistogramInputs, out := s.out, log := l, uninit := s.uninit } : RemapState F) = s1 at *
        generalize ({ quant := s.quant, image := t.image.freeHistogramInputs, out := t.out, log := l', uninit := t.uninit } : RemapState F) = t1 at *
        have k := fun re re' => remapPlain_alike env hal (re := re) (re' := re')
        generalize remapPlain env s1 = u at *
        generalize remapPlain env t1 = v at *
        obtain ⟨ru, u⟩ := u
        obtain ⟨rv, v⟩ := v
        cases ru with
        | error e => cases h1
        | ok re =>
          cases rv with
          | error e => cases h2
          | ok re' =>
            obtain ⟨k1, k2⟩ := k re re' rfl rfl
            exact ⟨by dsimp only; rw [k1], k2⟩
      | false =>
        simp only [hl, Bool.false_eq_true, if_false] at h1 h2 ⊢
        generalize ({ quant := s.quant, image := s.image.freeHistogramInputs, out := s.out, log := l, uninit := s.uninit } : RemapState F) = s1 at *
        generalize ({ quant := s.quant, image := t.image.freeHistogramInputs, out := t.out, log := l', uninit := t.uninit } : RemapState F) = t1 at *
        have k := fun re re' => remapDithered_alike env hal (re := re) (re' := re')
        generalize remapDithered env s1 = u at *
        generalize remapDithered env t1 = v at *
        obtain ⟨ru, u⟩ := u
        obtain ⟨rv, v⟩ := v
        cases ru with
        | error e => cases h1
        | ok re =>
          cases rv with
          | error e => cases h2
          | ok re' =>
            obtain ⟨k1, k2⟩ := k re re' rfl rfl
            exact ⟨by dsimp only; rw [k1], k2⟩

/-- Two successful remaps of images that look the same, into any buffers. -/
theorem remapInto_alike (env : RemapEnv F) {q : QuantizationResult F} {a b : Image F} (hq : q.Good) (ha : a.Good) (hb : b.Good) (h : Alike a b)
    (buf buf' : List (Option UInt8)) (log log' : List F) (h1 : (remapInto env q a buf log).res = .ok ())
    (h2 : (remapInto env q b buf' log').res = .ok ()) :
    (remapInto env q b buf' log').quant = (remapInto env q a buf log).quant ∧
    (remapInto env q b buf' log').buf.take (a.width * a.height) = (remapInto env q a buf log).buf.take (a.width * a.height) := by
  have hw : b.width = a.width := h.px.width
  have hh : b.height = a.height := h.px.height
  have s1 := remapInto_spec env buf log hq ha
  have s2 := remapInto_spec env buf' log' hq hb
  have hb1 : a.width * a.height ≤ buf.length := by
    by_contra hlt
    rw [s1.small (by omega)] at h1
    cases h1
  have hb2 : a.width * a.height ≤ buf'.length := by
    by_contra hlt
    rw [s2.small (by rw [hw, hh]; omega)] at h2
    cases h2
  obtain ⟨x, d, e1, -, -, -, e3, e6⟩ := s1.run hb1
  obtain ⟨x', d', e1', -, -, -, e3', e6'⟩ := s2.run (by rw [hw, hh]; exact hb2)
  obtain ⟨c1, c2, -⟩ := chunksExact_rows (h := a.height) ha.width_pos (buf.take (a.width * a.height)) (by rw [List.length_take]; omega)
  obtain ⟨c1', c2', -⟩ := chunksExact_rows (h := a.height) ha.width_pos (buf'.take (a.width * a.height)) (by rw [List.length_take]; omega)
  have hst : AlikeState (remapStart q a buf log) (remapStart q b buf' log') := by
    refine ⟨rfl, h, ha, hb, ⟨c1, c2⟩, ?_, hq.pos, hq.le⟩
    show OutGood a (chunksExact b.width (buf'.take (b.width * b.height)))
    rw [hw, hh]
    exact ⟨c1', c2'⟩
  obtain ⟨k1, k2⟩ := writeRemapped_alike env hst (by rw [e6]; exact h1) (by rw [e6']; exact h2)
  rw [e6, e6'] at k1 k2
  obtain ⟨re, hre, -⟩ := d.done h1
  obtain ⟨re', hre', -⟩ := d'.done h2
  refine ⟨?_, ?_⟩
  · have he : re' = re := by
      have := k1
      rw [hre, hre'] at this
      simpa using this
    rw [e1, e1', hre, hre', he]
    rfl
  · rw [e3, e3', hw, hh]
    dsimp only at k2
    rw [k2]
    have hlen : x.out.flatten.length = a.width * a.height := by
      have o := d.out
      have w1 : x.image.width = a.width := d.samePx.width
      have w2 : x.image.height = a.height := d.samePx.height
      rw [List.length_flatten, List.map_congr_left (g := fun _ => a.width) (fun r hr => by rw [o.2 r hr, w1]), List.map_const', List.sum_replicate, o.1, w2]
      simp [Nat.mul_comm]
    rw [List.take_append_of_le_length (by omega), List.take_append_of_le_length (by omega)]

/-- A remap without dithering, or with dithering but without making a dither map, leaves an image that looks the same. -/
theorem remapInto_keeps_maps (env : RemapEnv F) {q : QuantizationResult F} {img : Image F} (hq : q.Good) (hi : img.Good)
    (buf : List (Option UInt8)) (log : List F) (hm : eq q.ditherLevel (lit32 0) = true ∨ generatesDitherMap q.useDitherMap img = false) :
    Alike img (remapInto env q img buf log).image := by
  obtain ⟨h1, h2⟩ := remapInto_same env buf log hq hi
  refine ⟨h1, h2, ?_⟩
  unfold remapInto
  dsimp only
  split
  · exact ⟨rfl, rfl, rfl⟩
  · generalize chunksExact img.width _ = out
    dsimp only
    unfold writeRemapped
    simp only [progress_eq]
    generalize reported q.progressCallback log _ = l
    cases answered q.progressCallback l with
    | true => exact ⟨rfl, rfl, rfl⟩
    | false =>
      dsimp only
      cases hl : eq q.ditherLevel (lit32 0) with
      | true =>
        simp only [if_true]
        unfold remapPlain
        dsimp only
        generalize remapToPalette env _ _ _ _ _ = z
        obtain ⟨r, z⟩ := z
        cases r <;> exact ⟨rfl, rfl, rfl⟩
      | false =>
        simp only [Bool.false_eq_true, if_false]
        have hg : generatesDitherMap q.useDitherMap img.freeHistogramInputs = false := by
          have fs := Rows.free_same img.px
          have := hm.resolve_left (by rw [hl]; simp)
          unfold generatesDitherMap at this ⊢
          simp only [Image.freeHistogramInputs, fs.width, fs.height]
          exact this
        unfold remapDithered generateDitherMap
        dsimp only
        rw [hg]
        simp only [Bool.not_false, if_true, progress_eq]
        generalize reported q.progressCallback l _ = l'
        cases answered q.progressCallback l' with
        | true => exact ⟨rfl, rfl, rfl⟩
        | false =>
          dsimp only
          generalize q.palette.initIntPalette q.gamma (UInt8.ofNat q.minPosterizationOutput) = P
          unfold remapFloyd
          dsimp only
          cases Nearest.new P.1 with
          | error e => exact ⟨rfl, rfl, rfl⟩
          | ok n =>
            dsimp only
            cases prepareOpt img.freeHistogramInputs.background with
            | error e => exact ⟨rfl, rfl, rfl⟩
            | ok bg =>
              dsimp only
              cases img.freeHistogramInputs.px.prepare true with
              | error e => exact ⟨rfl, rfl, rfl⟩
              | ok px =>
                dsimp only
                generalize floydChunks (F := F) _ _ _ _ _ _ _ = z
                obtain ⟨⟨r, rows, u⟩, z⟩ := z
                cases r <;> exact ⟨rfl, rfl, rfl⟩

end Verif
