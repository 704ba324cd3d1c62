import Verif.Lemmas.User

/-! # What an undithered remap computes, as a function of the pixels (any float arithmetic) -/

set_option linter.unusedSectionVars false

namespace Verif
open Flt

variable {F : Type} [Flt F]

/-- the pixels of row `y` of the background, if there is one -/
def bgRowOf (bg : Option (Rows F)) (y : ℕ) : List (FPixel F) :=
  match bg with
  | some b => b.pixelsF y
  | none => []

/-- the outcome of row `y` -/
def plainRow (n : Nearest F) (ti : UInt8) (px : Rows F) (bg : Option (Rows F)) (imp : Option (List UInt8)) (y : ℕ) :
    RowOut F :=
  remapPixels n ti (px.pixelsF y) (bgRowOf bg y) ((imp.getD []).drop (y * px.width)) 0 (lit64 0)

/-- the outcome of all rows -/
def plainRows (n : Nearest F) (px : Rows F) (bg : Option (Rows F)) (imp : Option (List UInt8)) (nrows : ℕ) :
    List (RowOut F) :=
  (List.range nrows).map (plainRow n (pickBackground n bg).2 px (pickBackground n bg).1 imp)

theorem remapRow_eq (n : Nearest F) (ti : UInt8) {px : Rows F} {bg : Option (Rows F)} (imp : Option (List UInt8))
    (hpx : px.Readable) (hbg : BgGood px bg) {y : ℕ} (hy : y < px.height) :
    remapRow n ti px bg imp y = .ok (plainRow n ti px bg imp y) := by
  unfold remapRow plainRow bgRowOf
  rw [(hpx.rowF hy).1]
  cases bg with
  | none => rfl
  | some b =>
    obtain ⟨hb, hw, hh⟩ := hbg b rfl
    simp only [bind, Except.bind]
    rw [(hb.rowF (show y < b.height by omega)).1]
    rfl

theorem plainRow_same (n : Nearest F) (ti : UInt8) {px px' : Rows F} {bg bg' : Option (Rows F)} (imp : Option (List UInt8))
    (hpx : Rows.Same px px') (hs : BgSame bg bg') (hg : BgGood px bg) {y : ℕ} (hy : y < px.height) :
    plainRow n ti px' bg' imp y = plainRow n ti px bg imp y := by
  unfold plainRow
  have : bgRowOf bg' y = bgRowOf bg y := by
    cases bg <;> cases bg' <;> simp only [BgSame] at hs
    · rfl
    · exact hs.pixelsF (by rw [(hg _ rfl).2.2]; exact hy)
  rw [this, hpx.pixelsF hy, hpx.width]

/-- The undithered remap as a function of the pixels. -/
theorem remapToPalette_eq {px : Rows F} {bg : Option (Rows F)} (imp : Option (List UInt8))
    {nrows : ℕ} {p : PalF F} {n : Nearest F} (hnew : Nearest.new p = .ok n) (hpx : px.Readable) (hbg : BgGood px bg)
    (hn : nrows ≤ px.height) :
    ∃ px' bg', Rows.Same px px' ∧ BgSame bg bg' ∧ ∀ env : RemapEnv F,
    (remapToPalette env px bg imp nrows p) =
      if isNan (env.sum ((plainRows n px bg imp nrows).map (·.err))) then
        (.error (.err .outOfMemory), ⟨px', bg', some ((plainRows n px bg imp nrows).map (·.bytes)), p⟩)
      else (.ok (env.sum ((plainRows n px bg imp nrows).map (·.err)) /₆ lit64 (px.width * px.height % 2 ^ 32 : ℕ)),
        ⟨px', bg', some ((plainRows n px bg imp nrows).map (·.bytes)),
          remapFinish env (plainRows n px bg imp nrows) (pickBackground n bg).1.isSome (pickBackground n bg).2 p⟩) := by
  unfold remapToPalette
  rw [hnew]
  obtain ⟨px', e1, s1, _⟩ := Rows.prepare_same hpx true
  simp only [e1]
  unfold plainRows
  have hor : (pickBackground n bg).1 = none ∨ (pickBackground n bg).1 = bg := by
    rcases pickBackground_cases n bg with ⟨b, hb, _, h⟩ | ⟨_, h⟩
    · rw [h]; exact .inr hb.symm
    · rw [h]; exact .inl rfl
  generalize hpick : pickBackground n bg = pick at *
  obtain ⟨used, ti⟩ := pick
  simp only at hor ⊢
  have hgood : BgGood px used := by
    rcases hor with rfl | rfl
    · intro b hb; cases hb
    · exact hbg
  obtain ⟨used', e2, s2⟩ := prepareOpt_ok hgood
  rw [e2]
  simp only
  have hgood' : BgGood px' used' := s2.good s1 hgood
  have hsome : used'.isSome = used.isSome := by
    cases used <;> cases used' <;> simp only [BgSame] at s2 <;> rfl
  refine ⟨px', if used'.isSome = true then used' else bg, s1, ?_, fun env => ?_⟩
  · split
    next h =>
      rcases hor with rfl | rfl
      · cases used' with
        | none => cases h
        | some x => simp only [BgSame] at s2
      · exact s2
    · exact BgSame.refl bg
  · rw [remapLoop_ok (env.sched_valid nrows).2 n ti px' used' imp (plainRow n ti px used imp) (fun y hy => by
      rw [remapRow_eq n ti imp (s1.readable hpx) hgood' (by rw [s1.height]; omega),
        plainRow_same n ti imp s1 s2 hgood (by omega)])]
    simp only
    rw [s1.width, s1.height, hsome]

/-- A plain remap of the whole: what is written and remembered. -/
theorem writeRemapped_plain (env : RemapEnv F) {s : RemapState F} (hl : eq s.quant.ditherLevel (lit32 0) = true)
    (hok : (writeRemapped env s).1 = .ok ()) :
    ∃ e r, remapToPalette env s.image.freeHistogramInputs.px s.image.background s.image.importanceMap s.out.length
        (s.quant.palette.initIntPalette s.quant.gamma (UInt8.ofNat s.quant.minPosterizationOutput)).1 = (.ok e, r) ∧
      (writeRemapped env s).2.out = writeRows r.rows s.out ∧
      (writeRemapped env s).2.quant = { s.quant with
        remapped := some ⟨(s.quant.palette.initIntPalette s.quant.gamma (UInt8.ofNat s.quant.minPosterizationOutput)).2, some e⟩ } := by
  unfold writeRemapped at hok ⊢
  rw [progress_eq] at hok ⊢
  cases hans : answered s.quant.progressCallback
      (reported s.quant.progressCallback s.log (lit32 ↑(remapStage1 s.quant.useDitherMap) *₃ lit32 (1/4))) with
  | true => rw [hans] at hok; simp at hok
  | false =>
    rw [hans] at hok
    simp only [hl, if_true] at hok ⊢
    unfold remapPlain at hok ⊢
    simp only at hok ⊢
    have hbg : s.image.freeHistogramInputs.background = s.image.background := rfl
    have him : s.image.freeHistogramInputs.importanceMap = s.image.importanceMap := rfl
    rw [hbg, him] at hok ⊢
    generalize hx : remapToPalette env s.image.freeHistogramInputs.px s.image.background s.image.importanceMap s.out.length
        (s.quant.palette.initIntPalette s.quant.gamma (UInt8.ofNat s.quant.minPosterizationOutput)).1 = x at hok ⊢
    obtain ⟨res, r⟩ := x
    cases res with
    | error e => simp at hok
    | ok e => exact ⟨e, r, rfl, rfl, rfl⟩

end Verif
