import Verif.Lemmas.DebugRemap
import Verif.Lemmas.DebugExact
import Verif.Props.Debug
import Verif.Props.FloatArgs
import Verif.Props.Gamma
import Verif.Props.Remap
import Verif.Props.Dither
import Verif.Props.Mixture
import Verif.Props.RemapExact

/-! # C73: debug builds of image construction, remapping and `palette()`

`Model/DebugRemap` has these functions with their `debug_assert!`s. The flag says whether the assertions about floats
are checked; those about lengths always are. -/

set_option linter.unusedSectionVars false

namespace Verif
open Flt Spec

section anyFloat
variable {F : Type} [Flt F]

theorem newInternalD_eq {num : Bool} (h : num = true → lt (lit64 0) (lit64 (45455/100000) : F) = true) (src : Source) (w h' : ℕ) (g : F) :
    Image.newInternalD num src w h' g = Image.newInternal src w h' g := by
  unfold Image.newInternalD Image.newInternal
  split
  · rfl
  split
  · rfl
  dsimp only
  rw [dbgNum_ok]
  · rfl
  · intro hn
    split
    next hg => exact hg
    · exact h hn

theorem newStrideD_eq {num : Bool} (h : num = true → lt (lit64 0) (lit64 (45455/100000) : F) = true) (buf : List RGBA)
    (w h' stride : ℕ) (g : F) : Image.newStrideD num buf w h' stride g = Image.newStride buf w h' stride g := by
  unfold Image.newStrideD Image.newStride
  simp only [newInternalD_eq h]

theorem newFnD_eq {num : Bool} (h : num = true → lt (lit64 0) (lit64 (45455/100000) : F) = true) (f : ℕ → ℕ → RGBA)
    (w h' : ℕ) (g : F) : Image.newFnD num f w h' g = Image.newFn f w h' g := by
  unfold Image.newFnD Image.newFn
  simp only [newInternalD_eq h]

theorem remapIntoD_eq {num : Bool} (env : RemapEnv F) {q : QuantizationResult F} {img : Image F} {P : PalF F → Prop}
    (c : Checks num env img.px img.importanceMap img.height q.gamma (UInt8.ofNat q.minPosterizationOutput) P)
    (hi : DebugImage num img) (hq : DebugResult num P q) (buf : List (Option UInt8)) (log : List F) :
    remapIntoD num env q img buf log = remapInto env q img buf log := by
  unfold remapIntoD remapInto
  dsimp only
  split
  · rfl
  next hb =>
    obtain ⟨c1, c2, _⟩ := chunksExact_rows (h := img.height) hi.good.width_pos (buf.take (img.width * img.height))
      (by rw [List.length_take]; omega)
    have e := writeRemappedD_eq env (P := P) (s := remapStart q img buf log) (by
      unfold StateChecks
      rw [show (remapStart q img buf log).out.length = img.height from c1]
      exact c) hi ⟨c1, c2⟩ hq
    unfold remapStart at e
    rw [e]

theorem getPaletteD_eq {num : Bool} {q : QuantizationResult F} (hq : q.Good) (hg : GammaFine num q.gamma) : q.getPaletteD num = .ok q.getPalette := by
  unfold QuantizationResult.getPaletteD QuantizationResult.getPalette
  cases hr : q.remapped with
  | some re =>
    dsimp only
    have := hq.rem re hr
    have := hq.pos
    rw [dbg_true (by simp; omega)]
    rfl
  | none =>
    dsimp only
    split
    · rw [initIntPaletteD_eq _ hg]; rfl
    · rfl

/-- **C73** (any float). Making an image: no assertion about lengths fails, whatever the arguments. -/
theorem C73_new_any_float (buf : List RGBA) (f : ℕ → ℕ → RGBA) (w h stride : ℕ) (g : F) :
    Image.newStrideD false buf w h stride g = Image.newStride buf w h stride g ∧
    Image.newFnD false f w h g = Image.newFn f w h g :=
  ⟨newStrideD_eq (by intro h; cases h) .., newFnD_eq (by intro h; cases h) ..⟩

/-- **C73** (any float). Adding an image to a histogram. -/
theorem C73_add_image_any_float (ho : HashOrder) (h : Histogram F) (attr : Attr F) {img : Image F} (hi : UserImage img)
    (log : List F) : h.addImageD false ho attr img log = h.addImage ho attr img log :=
  addImageD_eq ho h attr hi.good (by intro h; cases h) log

/-- **C73** (any float). Remapping: the result, the changed result of quantization, the changed image, the buffer and the
progress reports are the same. -/
theorem C73_remap_any_float [FltSign F] (env : RemapEnv F) {q : QuantizationResult F} {img : Image F} (hq : UserResult q)
    (hi : UserImage img) (buf : List (Option UInt8)) (log : List F) :
    remapIntoD false env q img buf log = remapInto env q img buf log :=
  remapIntoD_eq env (checks_trivial Sound.off CountsOK.off ..) ⟨hi.good, (by intro h; cases h), fun _ _ => (by intro h; cases h)⟩
    ⟨hq.good.pos, hq.good.le, ⟨(by intro h; cases h), (by intro h; cases h)⟩, trivial⟩ buf log

/-- **C73** (any float). `palette()`. -/
theorem C73_palette_any_float [FltSign F] {q : QuantizationResult F} (hq : UserResult q) :
    q.getPaletteD false = .ok q.getPalette :=
  getPaletteD_eq hq.good ⟨(by intro h; cases h), (by intro h; cases h)⟩

end anyFloat

/-! ### All the assertions, exact arithmetic -/

theorem countsOK_real : CountsOK ℝ true := fun _ =>
  ⟨(0 ≤ ·), by simp, fun n => by simp, fun a b ha hb => by simpa using add_nonneg ha hb, fun a ha => by simpa using ha⟩

theorem UserImage.debug {img : Image ℝ} (hi : UserImage img) : DebugImage true img where
  good := hi.good
  px := fun _ => by simpa using hi.gamma_pos.1
  bg := fun b hb _ => by simpa using hi.gamma_pos.2 b hb

/-- the gamma of a result is positive after any calls -/
theorem called_gamma_pos {env : Env ℝ} {cs : List Call} {cb : Option (List ℝ → Bool)} {h : Histogram ℝ} {freeze : Bool}
    {log log' : List ℝ} {q0 q : QuantizationResult ℝ} {g : ℝ} {s : Option ℝ} (hu : UserHistogram h)
    (e : h.quantizeInternal env (userAttr cs cb) freeze log = (.ok q0, log')) (hc : Called q0 g s q) : 0 < q.gamma := by
  have h0 : 0 < q0.gamma := by
    rw [quantize_facts e]
    cases hgm : h.gamma with
    | none => simp
    | some g => simpa using hu.gamma_pos g hgm
  have hq0 : UserResult q0 := .quantized _ _ _ _ _ _ _ e
  have hint : q0.intPalette = [] := by
    rcases user_outcome env cs cb h freeze log with ⟨-, -, e'⟩ | ⟨-, e'⟩
    · rw [e] at e'; cases e'
    · rw [e] at e'
      cases e' with
      | ok _ _ _ _ hr => rw [hr.rest]
  have key : 0 < g := by
    induction hc with
    | start => exact h0
    | remap _ _ _ _ _ ih => exact ih
    | level _ _ ih => exact ih
    | gamma _ e _ =>
      unfold QuantizationResult.setOutputGamma at e
      split at e
      · cases e
      next hn =>
        simp at hn
        exact hn.1
    | callback _ _ ih => exact ih
    | clone _ ih => exact ih
    | paletteRemapped _ _ ih => exact ih
    | palette _ _ ih => exact ih
  rw [(hc.state hq0 hint).gamma_]
  exact key

/-- **C73** (exact). Making an image, with all the assertions. -/
theorem C73_new (buf : List RGBA) (f : ℕ → ℕ → RGBA) (w h stride : ℕ) (g : ℝ) :
    Image.newStrideD true buf w h stride g = Image.newStride buf w h stride g ∧
    Image.newFnD true f w h g = Image.newFn f w h g :=
  ⟨newStrideD_eq (fun _ => by norm_num) .., newFnD_eq (fun _ => by norm_num) ..⟩

/-- **C73** (exact). Adding an image to a histogram, with all the assertions. -/
theorem C73_add_image (ho : HashOrder) (h : Histogram ℝ) (attr : Attr ℝ) {img : Image ℝ} (hi : UserImage img)
    (log : List ℝ) : h.addImageD true ho attr img log = h.addImage ho attr img log :=
  addImageD_eq ho h attr hi.good hi.debug.px log

/-- **C73** (exact, partial). Remapping and `palette()`, with all the assertions, for results of quantizing any histogram
that a program can make, after any calls. Missing: the claim for IEEE floats, where `set_output_gamma` accepts NaN and
the assertion that gamma is positive fails (`C73_nan_gamma`, `C73_does_not_hold`). -/
theorem C73_same_partial {env : Env ℝ} {cs : List Call} {cb : Option (List ℝ → Bool)} {h : Histogram ℝ} {freeze : Bool}
    {log log' : List ℝ} {q0 q : QuantizationResult ℝ} {g : ℝ} {s : Option ℝ} (hu : UserHistogram h)
    (e : h.quantizeInternal env (userAttr cs cb) freeze log = (.ok q0, log')) (hc : Called q0 g s q) :
    (∀ (renv : RemapEnv ℝ) (img : Image ℝ) (buf : List (Option UInt8)) (rlog : List ℝ), UserImage img →
      remapIntoD true renv q img buf rlog = remapInto renv q img buf rlog) ∧
    q.getPaletteD true = .ok q.getPalette := by
  have hq := hc.user (.quantized _ _ _ _ _ _ _ e)
  have hg : GammaFine true q.gamma := ⟨fun _ => by simpa using called_gamma_pos hu e hc, fun hn => sound_real.fin hn _⟩
  exact ⟨fun renv img buf rlog hi => remapIntoD_eq renv (checks_trivial sound_real countsOK_real ..) hi.debug
    ⟨hq.good.pos, hq.good.le, hg, trivial⟩ buf rlog, getPaletteD_eq hq.good hg⟩

/-! ### The assertion about gamma fails -/

section nan
variable {F : Type} [Flt F] [FltVal F]
open FltVal

theorem initIntPaletteD_nan {g : F} (hg : isNan g = true) (p : PalF F) (b : UInt8) :
    p.initIntPaletteD true g b = .error .panic := by
  have hn := (isNan_iff g).mp hg
  have : lt (lit64 0) g = false := by
    cases h : lt (lit64 0) g with
    | false => rfl
    | true =>
      obtain ⟨x, hx, -⟩ := (lt_zero64 g).mp h
      rw [hn] at hx; cases hx
  unfold PalF.initIntPaletteD gammaLutD dbgNum
  rw [this]
  rfl

theorem generateDitherMapD_quant (num : Bool) (env : RemapEnv F) (s : RemapState F) (ub : Bool) (p : PalF F) :
    (generateDitherMapD num env s ub p).2.quant = s.quant := by
  unfold generateDitherMapD
  split
  · rfl
  split
  · rfl
  dsimp only
  split <;> rfl

theorem remapDitheredD_nan (env : RemapEnv F) {s : RemapState F} (hg : isNan s.quant.gamma = true) (re : Remapped F) :
    (remapDitheredD true env s).1 ≠ .ok re := by
  unfold remapDitheredD
  have hq := generateDitherMapD_quant true env s s.image.background.isSome s.quant.palette
  cases hd : generateDitherMapD true env s s.image.background.isSome s.quant.palette with
  | mk res s' =>
    rw [hd] at hq
    cases res with
    | error e => simp
    | ok r =>
      dsimp only
      split
      · simp
      · simp
      · have e : s'.quant = s.quant := hq
        rw [e, initIntPaletteD_nan hg]
        simp

theorem writeRemappedD_nan (env : RemapEnv F) {s : RemapState F} (hg : isNan s.quant.gamma = true) :
    (writeRemappedD true env s).1 ≠ .ok () := by
  unfold writeRemappedD
  split
  · simp
  · simp
  next log _ =>
    dsimp only
    split
    · simp
    next re s' h =>
      exfalso
      split at h
      · simp only [remapPlainD, initIntPaletteD_nan hg] at h
        cases h
      · refine remapDitheredD_nan env (s := { s with log := log, image := s.image.freeHistogramInputs }) hg re ?_
        rw [h]

/-- **C73** does not hold: `set_output_gamma` accepts NaN, after which no remap to a large enough buffer succeeds in a
debug build: an undithered one without progress callback panics, and so does `palette()` unless it has a palette from
before. The release build does not panic. -/
theorem C73_nan_gamma [FltSign F] {q : QuantizationResult F} (hq : UserResult q) {v : F} (hv : isNan v = true) :
    ∃ q', q.setOutputGamma v = .ok q' ∧ UserResult q' ∧
      (q.intPalette = [] → q'.getPaletteD true = .error .panic) ∧
      ∀ (env : RemapEnv F) (img : Image F) (buf : List (Option UInt8)) (log : List F), UserImage img →
        (remapInto env q' img buf log).res ≠ .error .panic ∧
        (remapIntoD true env q' img buf log).res ≠ .ok () ∧
        (q.progressCallback = none → eq q.ditherLevel (lit32 0) = true → img.width * img.height ≤ buf.length →
          (remapIntoD true env q' img buf log).res = .error .panic) := by
  have e := (C30_output_gamma_nan q v hv).2
  refine ⟨_, e, .gamma hq e, fun hint => ?_, fun env img buf log hi => ⟨?_, ?_, ?_⟩⟩
  · unfold QuantizationResult.getPaletteD
    dsimp only
    rw [hint]
    simp only [List.isEmpty_nil, if_true, initIntPaletteD_nan hv]
    rfl
  · intro hp
    by_cases hb : buf.length < img.width * img.height
    · rw [(user_spec env (UserResult.gamma hq e) hi buf log).small hb] at hp
      cases hp
    · obtain ⟨new, -, h | h | h⟩ := C48_outcomes env (UserResult.gamma hq e) hi buf log (by omega)
      all_goals
        have h1 := h.1
        rw [hp] at h1
        cases h1
  · unfold remapIntoD
    dsimp only
    split
    · simp
    · exact writeRemappedD_nan env (s := ⟨_, img, _, log, false⟩) hv
  · intro hcb hl hb
    unfold remapIntoD
    dsimp only
    rw [if_neg (by omega)]
    unfold writeRemappedD
    dsimp only
    rw [hcb]
    simp only [progress, hl, if_true, remapPlainD, initIntPaletteD_nan hv]

end nan

/-- an image over the extended reals -/
theorem ext_image : ∃ img : Image Ext, UserImage img ∧ img.width = 1 ∧ img.height = 1 := by
  have h0 : le (lit64 0 : Ext) (lit64 0) = true := (le_zero64 _).2 ⟨0, FltVal.val_zero64, le_rfl⟩
  have h1 : le (lit64 0 : Ext) (lit64 1) = true := (le_zero64 _).2 ⟨1, FltVal.val_one64, zero_le_one⟩
  have : ∃ img : Image Ext, Image.newFn (fun _ _ => ⟨1, 2, 3, 255⟩) 1 1 (lit64 0) = .ok img := by
    unfold Image.newFn Image.toU32
    rw [if_pos (by omega)]
    simp only [bind, Except.bind]
    unfold Image.newInternal
    rw [show Image.checkImageSize 1 1 = true from by decide, h0, h1]
    exact ⟨_, rfl⟩
  obtain ⟨img, e⟩ := this
  exact ⟨img, .fromCallback e, (newFn_good e).2.1, (newFn_good e).2.2.1⟩

/-- a fresh result over the extended reals, with dithering turned off -/
theorem ext_result : ∃ q : QuantizationResult Ext, UserResult q ∧ q.progressCallback = none ∧ q.intPalette = [] ∧
    eq q.ditherLevel (lit32 0) = true := by
  obtain ⟨r, log', e⟩ := C42_succeeds (F := Ext) Env.simple [] exampleHistogram true [] rfl
    (Or.inl (by simp [exampleHistogram]))
  obtain ⟨h1, h2⟩ : r.progressCallback = none ∧ r.intPalette = [] := by
    rcases user_outcome Env.simple [] (none : Option (List Ext → Bool)) exampleHistogram true [] with ⟨-, -, e'⟩ | ⟨-, e'⟩
    · rw [e] at e'; cases e'
    · rw [e] at e'
      cases e' with
      | ok _ _ _ _ hr => rw [hr.rest]; exact ⟨rfl, rfl⟩
  have h0 : le (lit32 0 : Ext) (lit32 0) = true :=
    (FltVal.le_iff _ _).2 ⟨0, 0, FltVal.val_zero32, FltVal.val_zero32, le_rfl⟩
  have h1' : le (lit32 0 : Ext) (lit32 1) = true :=
    (FltVal.le_iff _ _).2 ⟨0, 1, FltVal.val_zero32, FltVal.val_one32, zero_le_one⟩
  have e2 : r.setDitheringLevel (lit32 0) = .ok { r with ditherLevel := lit32 0, remapped := none } := by
    unfold QuantizationResult.setDitheringLevel
    rw [h0, h1']; rfl
  refine ⟨_, .level (.quantized _ _ _ _ _ _ _ e) e2, h1, h2, ?_⟩
  exact (Ext.rel_iff _ _ _).2 ⟨_, _, rfl, rfl, rfl⟩

/-- **C73** does not hold: a program can give a result NaN as gamma so that remapping an image and asking for the palette
panic in a debug build, and do not in a release build. -/
theorem C73_does_not_hold : ∃ (q q' : QuantizationResult Ext) (img : Image Ext), UserResult q ∧ UserImage img ∧
    q.setOutputGamma Flt.nan = .ok q' ∧ q'.getPaletteD true = .error .panic ∧
    ∀ (env : RemapEnv Ext) (log : List Ext), (remapIntoD true env q' img [none] log).res = .error .panic ∧
      (remapInto env q' img [none] log).res ≠ .error .panic := by
  obtain ⟨q, hq, hcb, hint, hl⟩ := ext_result
  obtain ⟨img, hi, hw, hh⟩ := ext_image
  obtain ⟨q', e, -, hp, hr⟩ := C73_nan_gamma hq (v := (Flt.nan : Ext)) rfl
  exact ⟨q, q', img, hq, hi, e, hp hint, fun env log => ⟨(hr env img [none] log hi).2.2 hcb hl (by rw [hw, hh]; simp),
    (hr env img [none] log hi).1⟩⟩

/-- hypotheses of `C73_same_partial`, with a changed gamma -/
example : ∃ (h : Histogram ℝ) (q0 q : QuantizationResult ℝ) (log' : List ℝ), UserHistogram h ∧
    h.quantizeInternal Env.simple (userAttr [] none) true [] = (.ok q0, log') ∧ Called q0 (1/2) none q := by
  obtain ⟨h, hu, -, hf⟩ := three_fixed (F := ℝ)
  obtain ⟨r, log', e⟩ := C42_succeeds (F := ℝ) Env.simple [] h true [] rfl (.inr (by rw [hf]; simp))
  have e2 : r.setOutputGamma (1/2) = .ok { r with gamma := 1/2, remapped := none } := by
    unfold QuantizationResult.setOutputGamma
    rw [if_neg (by norm_num)]
  exact ⟨h, r, _, log', hu, e, .gamma .start e2⟩

end Verif
