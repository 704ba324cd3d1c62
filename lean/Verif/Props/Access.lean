import Verif.Props.Ownership
import Verif.Props.Ffi

/-! # C59: what a call of the C API touches, and what the small functions of the C API do -/

set_option linter.unusedSectionVars false

namespace Verif
open Flt Spec

variable {F : Type} [Flt F]

namespace Spec

/-- the handles that a call is given -/
def _root_.Verif.CCall.handles : CCall F → List Handle
  | .version | .attrCreate | .attrCreateWithAllocator _ | .malloc _ | .free _ => []
  | .setMinOpacity h _ | .getMinOpacity h | .setLastIndexTransparent h _ | .getPalette h | .attrSetProgressCallback h _
  | .resultSetProgressCallback h _ | .setLogCallback h | .setLogFlushCallback h | .setMaxColors h _ | .getMaxColors h
  | .setMinPosterization h _ | .getMinPosterization h | .setSpeed h _ | .getSpeed h | .setQuality h _ _ | .getMinQuality h
  | .getMaxQuality h | .imageAddFixedColor h _ | .histogramAddFixedColor h _ _ | .imageGetWidth h | .imageGetHeight h
  | .imageDestroy h | .imageSetImportanceMap h _ _ _ | .imageSetMemoryOwnership h _ | .histogramCreate h | .histogramDestroy h
  | .attrCopy h | .attrDestroy h | .resultDestroy h | .setOutputGamma h _ | .setDitheringLevel h _ | .getOutputGamma h
  | .getQuantizationError h | .getRemappingError h | .getQuantizationQuality h | .getRemappingQuality h
  | .imageCreateCustom h _ _ _ _ | .imageCreateRgbaRows h _ _ _ _ | .imageCreateRgba h _ _ _ _ => [h]
  | .quantizeImage a i _ | .imageQuantize i a _ | .writeRemappedImage a i _ _ | .writeRemappedImageRows a i _ _
  | .imageSetBackground i a | .histogramQuantize i a _ | .histogramAddColors i a _ _ _ => [a, i]
  | .histogramAddImage h a i _ => [h, a, i]

/-- the handles whose objects a call may change: settings are only read by the calls that work with them -/
def _root_.Verif.CCall.changes : CCall F → List Handle
  | .setLastIndexTransparent h _ | .getPalette h | .attrSetProgressCallback h _ | .resultSetProgressCallback h _
  | .setMaxColors h _ | .setMinPosterization h _ | .setSpeed h _ | .setQuality h _ _ | .imageAddFixedColor h _
  | .histogramAddFixedColor h _ _ | .imageDestroy h | .imageSetImportanceMap h _ _ _ | .imageSetMemoryOwnership h _
  | .histogramDestroy h | .attrDestroy h | .resultDestroy h | .setOutputGamma h _ | .setDitheringLevel h _
  | .quantizeImage _ h _ | .imageQuantize h _ _ | .histogramQuantize h _ _ | .histogramAddColors h _ _ _ _ => [h]
  | .writeRemappedImage a i _ _ | .writeRemappedImageRows a i _ _ | .imageSetBackground i a => [a, i]
  | .histogramAddImage h _ i _ => [h, i]
  | _ => []

/-- the calls that report progress -/
def _root_.Verif.CCall.works : CCall F → Bool
  | .quantizeImage _ _ _ | .imageQuantize _ _ _ | .histogramQuantize _ _ _ | .histogramAddImage _ _ _ _
  | .writeRemappedImage _ _ _ _ | .writeRemappedImageRows _ _ _ _ => true
  | _ => false

end Spec

/-- the object `j` and, if `b`, the log of progress reports are as in `w` -/
def Frame (w : World F) (j : ℕ) (b : Bool) (w' : World F) : Prop := w'.objs j = w.objs j ∧ w'.next = w.next ∧ (b = true → w'.log = w.log)

namespace Frame

variable {w w' : World F} {j : ℕ} {b : Bool}

theorem refl : Frame w j b w := ⟨rfl, rfl, fun _ => rfl⟩

theorem set (f : Frame w j b w') {h : Handle} (hne : h ≠ some j) (s : Slot F) : Frame w j b (w'.set h s) := by
  cases h with
  | none => exact f
  | some i =>
    refine ⟨?_, f.2.1, f.2.2⟩
    rw [World.objs_set, if_neg (fun h => hne (by rw [h]))]
    exact f.1

theorem heap (f : Frame w j b w') (hp : Heap) : Frame w j b { w' with heap := hp } := f
theorem ub (f : Frame w j b w') : Frame w j b w'.ub := f
theorem log (f : Frame w j false w') (l : List F) : Frame w j false { w' with log := l } := ⟨f.1, f.2.1, fun h => by cases h⟩

end Frame

/-- like `Frame`, after a call that may have made a new object -/
def Calls (w : World F) (j : ℕ) (b : Bool) (x : World F × Reply F) : Prop :=
  x.1.objs j = w.objs j ∧ w.next ≤ x.1.next ∧ (b = true → x.1.log = w.log)

namespace Calls

variable {w w' : World F} {j : ℕ} {b : Bool} {r : Reply F}

theorem of (f : Frame w j b w') : Calls w j b (w', r) := ⟨f.1, f.2.1.ge, f.2.2⟩

theorem create (f : Frame w j b w') (hj : j < w.next) (s : Slot F) : Calls w j b ((w'.create s).1, r) := by
  refine ⟨?_, ?_, f.2.2⟩
  · show (w'.create s).1.objs j = _
    rw [World.objs_create, if_neg (by have := f.2.1; omega)]
    exact f.1
  · show w.next ≤ w'.next + 1
    have := f.2.1; omega

theorem withAttr {h : Handle} {bad : Reply F} {k : Attr F → ℕ → World F × Reply F} (f : Frame w j b w')
    (hk : ∀ a fn, Calls w j b (k a fn)) : Calls w j b (w'.withAttr h bad k) := by
  unfold World.withAttr; split
  · exact hk _ _
  · exact .of f

theorem withImage {h : Handle} {bad : Reply F} {k : HImage F → ℕ → World F × Reply F} (f : Frame w j b w')
    (hk : ∀ a fn, Calls w j b (k a fn)) : Calls w j b (w'.withImage h bad k) := by
  unfold World.withImage; split
  · exact hk _ _
  · exact .of f.ub
  · exact .of f

theorem withResult {h : Handle} {bad : Reply F} {k : QuantizationResult F → World F × Reply F} (f : Frame w j b w')
    (hk : ∀ q, Calls w j b (k q)) : Calls w j b (w'.withResult h bad k) := by
  unfold World.withResult; split
  · exact hk _
  · exact .of f

theorem withHistogram {h : Handle} {bad : Reply F} {k : Histogram F → World F × Reply F} (f : Frame w j b w')
    (hk : ∀ q, Calls w j b (k q)) : Calls w j b (w'.withHistogram h bad k) := by
  unfold World.withHistogram; split
  · exact hk _
  · exact .of f

theorem update {α : Type} {h : Handle} (f : Frame w j b w') (hne : h ≠ some j) (r : Res α) (slot : α → Slot F) :
    Calls w j b (w'.update h r slot) := by
  unfold World.update
  split
  · exact .of (f.set hne _)
  · exact .of f
  · exact .of f

theorem results (f : Frame w j b w') (hj : j < w.next) (r : Res (QuantizationResult F)) :
    Calls w j b (w'.storeResult r) ∧ Calls w j b (w'.returnResult r) := by
  unfold World.storeResult World.returnResult
  match r with
  | .ok q => exact ⟨create f hj _, create f hj _⟩
  | .error (.err e) => exact ⟨.of f, .of f⟩
  | .error .panic => exact ⟨.of f, .of f⟩

theorem returnImage (f : Frame w j b w') (hj : j < w.next) (r : Res (HRows F)) (fn : ℕ) : Calls w j b (w'.returnImage r fn) := by
  unfold World.returnImage
  split
  · exact create f hj _
  · exact .of f

theorem destroy {h : Handle} (hne : h ≠ some j) {k : Slot F → Option (World F)} (hk : ∀ s w', k s = some w' → Frame w j b w') :
    Calls w j b (w.destroy h k) := by
  unfold World.destroy
  split
  · exact .of .refl
  · split
    · rename_i e; exact .of ((hk _ _ e).set hne _)
    · exact .of ((Frame.refl.set hne _).ub)

theorem dropImage {h : Handle} (hne : h ≠ some j) : Frame w j b (w.dropImage h) := by
  unfold World.dropImage
  split
  · exact .refl
  · split
    · exact (Frame.refl.heap _).set hne _
    · exact (Frame.refl.set hne _).ub

theorem remap {hr hi : Handle} (h1 : hr ≠ some j) (h2 : hi ≠ some j) (q : QuantizationResult F) (i : HImage F) (fn : ℕ)
    (rows : List (List (Option UInt8))) (env : RemapEnv F) : Calls w j false (w.remap hr hi q i fn rows env) := by
  unfold World.remap
  dsimp only
  have f : ∀ hp l s t, Frame w j false (({ w with heap := hp, log := l }.set hi s).set hr t) := fun hp l s t =>
    Frame.set (Frame.set (show Frame w j false { w with heap := hp, log := l } from ⟨rfl, rfl, (fun h => by cases h)⟩) h2 s) h1 t
  split
  · exact .of (f _ _ _ _)
  · exact .of (f _ _ _ _)
  · exact .of (f _ _ _ _)

end Calls

theorem exec_frame (w : World F) (c : CCall F) (j : ℕ) (hj : j < w.next) (hc : some j ∉ c.changes) :
    Calls w j (!c.works) (exec w c) := by
  have idle : ∀ {b} {r : Reply F}, Calls w j b (w, r) := .of .refl
  cases c <;> simp only [CCall.changes, List.mem_cons, List.not_mem_nil, or_false, not_or] at hc
  case version => exact idle
  case setMinOpacity => exact idle
  case getMinOpacity => exact idle
  case setLastIndexTransparent => exact .withAttr .refl fun _ _ => .of (Frame.refl.set (Ne.symm hc) _)
  case getPalette => exact .withResult .refl fun _ => .of (Frame.refl.set (Ne.symm hc) _)
  case attrSetProgressCallback => exact .withAttr .refl fun _ _ => .of (Frame.refl.set (Ne.symm hc) _)
  case resultSetProgressCallback => exact .withResult .refl fun _ => .of (Frame.refl.set (Ne.symm hc) _)
  case setLogCallback => exact .withAttr .refl fun _ _ => idle
  case setLogFlushCallback => exact .withAttr .refl fun _ _ => idle
  case setMaxColors => exact .withAttr .refl fun _ _ => .update .refl (Ne.symm hc) _ _
  case getMaxColors => exact .withAttr .refl fun _ _ => idle
  case setMinPosterization => exact .withAttr .refl fun _ _ => .update .refl (Ne.symm hc) _ _
  case getMinPosterization => exact .withAttr .refl fun _ _ => idle
  case setSpeed =>
    simp only [exec]
    split
    · exact .update .refl (Ne.symm hc) _ _
    · exact .of Frame.refl.ub
  case getSpeed => exact .withAttr .refl fun _ _ => idle
  case setQuality => exact .withAttr .refl fun _ _ => .update .refl (Ne.symm hc) _ _
  case getMinQuality => exact .withAttr .refl fun _ _ => idle
  case getMaxQuality => exact .withAttr .refl fun _ _ => idle
  case quantizeImage =>
    exact .withAttr .refl fun _ _ => .withImage .refl fun _ _ =>
      (Calls.results (Frame.set (Frame.refl.log _) (Ne.symm hc) _) hj _).2
  case imageQuantize =>
    exact .withAttr .refl fun _ _ => .withImage .refl fun _ _ =>
      (Calls.results (Frame.set (Frame.refl.log _) (Ne.symm hc) _) hj _).1
  case histogramQuantize =>
    exact .withAttr .refl fun _ _ => .withHistogram .refl fun _ =>
      (Calls.results (Frame.set (Frame.refl.log _) (Ne.symm hc) _) hj _).1
  case writeRemappedImage =>
    refine .withResult .refl fun _ => .withImage .refl fun _ _ => ?_
    split
    · exact idle
    · split
      · exact idle
      · exact .remap (Ne.symm hc.1) (Ne.symm hc.2) _ _ _ _ _
  case writeRemappedImageRows =>
    refine .withResult .refl fun _ => .withImage .refl fun _ _ => ?_
    split
    · exact idle
    · exact .remap (Ne.symm hc.1) (Ne.symm hc.2) _ _ _ _ _
  case imageAddFixedColor => exact .withImage .refl fun _ _ => .update .refl (Ne.symm hc) _ _
  case histogramAddFixedColor => exact .withHistogram .refl fun _ => .update .refl (Ne.symm hc) _ _
  case imageGetWidth => exact .withImage .refl fun _ _ => idle
  case imageGetHeight => exact .withImage .refl fun _ _ => idle
  case imageDestroy => exact .of (Calls.dropImage (Ne.symm hc))
  case imageSetBackground =>
    simp only [exec]
    split
    · split
      · exact .of Frame.refl.ub
      · exact .of (((Frame.refl.heap _).set (Ne.symm hc.2) _).set (Ne.symm hc.1) _)
    · exact .of Frame.refl.ub
    · exact .of Frame.refl.ub
    · exact .of Frame.refl.ub
    · exact .of (Calls.dropImage (Ne.symm hc.1))
  case imageSetImportanceMap =>
    refine .withImage .refl fun _ _ => ?_
    split
    · exact idle
    · split
      · exact idle
      · split
        · exact idle
        · dsimp only
          split
          · exact .update .refl (Ne.symm hc) _ _
          · split
            · split
              · exact .of (((Frame.refl.heap _).set (Ne.symm hc) _))
              · exact .of (Frame.refl.heap _)
              · exact .of (Frame.refl.heap _)
            · exact idle
  case imageSetMemoryOwnership =>
    refine .withImage .refl fun _ _ => ?_
    split
    · exact idle
    · exact .of (Frame.refl.set (Ne.symm hc) _)
  case histogramCreate => exact .withAttr .refl fun _ _ => .create .refl hj _
  case histogramDestroy =>
    refine .destroy (Ne.symm hc) fun s w' e => ?_
    split at e
    · cases e; exact .refl
    · cases e
  case attrCreateWithAllocator => exact .create .refl hj _
  case attrCreate => exact .create .refl hj _
  case attrCopy => exact .withAttr .refl fun _ _ => .create .refl hj _
  case attrDestroy =>
    refine .destroy (Ne.symm hc) fun s w' e => ?_
    split at e
    · cases e; exact .refl
    · cases e
  case resultDestroy =>
    refine .destroy (Ne.symm hc) fun s w' e => ?_
    split at e
    · cases e; exact .refl
    · cases e
  case setOutputGamma => exact .withResult .refl fun _ => .update .refl (Ne.symm hc) _ _
  case setDitheringLevel => exact .withResult .refl fun _ => .update .refl (Ne.symm hc) _ _
  case getOutputGamma => exact .withResult .refl fun _ => idle
  case getQuantizationError => exact .withResult .refl fun _ => idle
  case getRemappingError => exact .withResult .refl fun _ => idle
  case getQuantizationQuality => exact .withResult .refl fun _ => idle
  case getRemappingQuality => exact .withResult .refl fun _ => idle
  case imageCreateCustom =>
    simp only [exec]
    split
    · exact .returnImage .refl hj _ _
    · exact .of Frame.refl.ub
  case imageCreateRgbaRows =>
    refine .withAttr .refl fun _ _ => ?_
    split
    · exact idle
    · split
      · exact idle
      · split
        · exact idle
        · exact .returnImage .refl hj _ _
  case imageCreateRgba =>
    simp only [exec]
    split
    · exact idle
    · refine .withAttr .refl fun _ _ => ?_
      split
      · exact idle
      · split
        · exact .returnImage (Frame.refl.heap _) hj _ _
        · exact .of (Frame.refl.heap _)
  case histogramAddColors =>
    refine .withAttr .refl fun _ _ => .withHistogram .refl fun _ => ?_
    split
    · exact idle
    · split
      · exact idle
      · split
        · exact idle
        · exact .update .refl (Ne.symm hc) _ _
  case histogramAddImage =>
    exact .withAttr .refl fun _ _ => .withHistogram .refl fun _ => .withImage .refl fun _ _ =>
      .of (Frame.set (Frame.set (Frame.refl.log _) (Ne.symm hc.2) _) (Ne.symm hc.1) _)
  case malloc => exact .of (Frame.refl.heap _)
  case free => exact .of (Frame.refl.heap _)

/-- **C59**: a call changes no object but those it is documented to change: an object that exists is as before, unless the
call was given its handle as something to change. Settings are never changed by work done with them. -/
theorem C59_frame (w : World F) (c : CCall F) (j : ℕ) (hj : j < w.next) (hc : some j ∉ c.changes) :
    (exec w c).1.objs j = w.objs j ∧ w.next ≤ (exec w c).1.next :=
  ⟨(exec_frame w c j hj hc).1, (exec_frame w c j hj hc).2.1⟩

/-- the same for a whole program -/
theorem C59_frame_run (cs : List (CCall F)) (w : World F) (j : ℕ) (hj : j < w.next) (hc : ∀ c ∈ cs, some j ∉ c.changes) :
    (runC w cs).1.objs j = w.objs j := by
  induction cs generalizing w with
  | nil => rfl
  | cons c cs ih =>
    obtain ⟨h1, h2⟩ := C59_frame w c j hj (hc c (by simp))
    simp only [runC]
    rw [ih _ (by omega) fun c h => hc c (by simp [h]), h1]

theorem CCall.changes_handles (c : CCall F) (h : Handle) (hc : h ∈ c.changes) : h ∈ c.handles := by
  cases c <;> simp_all [CCall.changes, CCall.handles]
  tauto

/-- **C59**: only the functions that quantize, remap or read an image into a histogram report progress. -/
theorem C59_progress (w : World F) (c : CCall F) (hc : c.works = false) : (exec w c).1.log = w.log := by
  have hs : ∀ (w : World F) (h : Handle) (s : Slot F), (w.set h s).log = w.log := fun w h s => by cases h <;> rfl
  have hu : ∀ {α : Type} (h : Handle) (r : Res α) (slot : α → Slot F), (w.update h r slot).1.log = w.log := by
    intro α h r slot
    unfold World.update
    split
    · exact hs _ _ _
    · rfl
    · rfl
  have hd : ∀ h, (w.dropImage h).log = w.log := by
    intro h
    unfold World.dropImage
    split
    · rfl
    · split <;> exact hs _ _ _
  cases c <;> first | (simp [CCall.works] at hc; done) | skip
  all_goals
    simp only [exec, World.withAttr, World.withImage, World.withResult, World.withHistogram, World.returnImage, World.destroy]
    repeat' split
    all_goals first
      | rfl
      | exact hs _ _ _
      | exact hu _ _ _
      | exact hd _
      | exact (hs _ _ _).trans (hs _ _ _)
      | (rename_i e; split at e <;> cases e; exact hs _ _ _)

/-- two settings objects: work with the first and changes to it leave the second alone -/
example (w : World F) (b : Attr F) (h1 : w.objs 1 = .attr b 0) (hn : w.next = 2) (env : Env F) :
    (runC w [.setMaxColors (some 0) 16, .histogramCreate (some 1), .histogramQuantize (some 2) (some 1) env, .attrDestroy (some 0)]).1.objs 1
      = .attr b 0 := by
  rw [C59_frame_run _ w 1 (by omega) (by simp [CCall.changes]), h1]

/-- **C59** (exact). `liq_set_dithering_level` accepts exactly 0 to 1. It stores the level, forgets a remap, and changes
nothing else; otherwise it returns `LIQ_VALUE_OUT_OF_RANGE` and nothing changes. -/
theorem C59_dithering_level (w : World ℝ) (i : ℕ) (q : QuantizationResult ℝ) (hl : w.objs i = .result q) (l : ℝ) :
    (0 ≤ l ∧ l ≤ 1 → ∃ w', exec w (.setDitheringLevel (some i) l) = (w', .code none) ∧
      w'.objs i = .result { q with ditherLevel := l, remapped := none } ∧ w.SameBut w' i) ∧
    (¬ (0 ≤ l ∧ l ≤ 1) → exec w (.setDitheringLevel (some i) l) = (w, .code (some .valueOutOfRange))) := by
  have hg : w.get (some i) = .result q := hl
  have hc : (le (lit32 0) l && le l (lit32 1) : Bool) = decide (0 ≤ l ∧ l ≤ 1) := by
    simp [le, lit32, Bool.decide_and]
  constructor
  · intro h
    refine ⟨w.set (some i) (.result { q with ditherLevel := l, remapped := none }), ?_, by simp [World.set], w.set_sameBut i _⟩
    simp only [exec, World.withResult, hg, QuantizationResult.setDitheringLevel, hc, h, and_self, decide_true, if_true, World.update]
  · intro h
    simp only [exec, World.withResult, hg, QuantizationResult.setDitheringLevel, hc, decide_eq_false h, Bool.false_eq_true, if_false,
      World.update]

/-- **C59** (exact). `liq_set_output_gamma` accepts exactly the numbers between 0 and 1, which `liq_get_output_gamma`
returns afterwards; a remap is forgotten and nothing else changes. Otherwise nothing changes. -/
theorem C59_output_gamma (w : World ℝ) (i : ℕ) (q : QuantizationResult ℝ) (hl : w.objs i = .result q) (g : ℝ) :
    (0 < g ∧ g < 1 → ∃ w', exec w (.setOutputGamma (some i) g) = (w', .code none) ∧
      w'.objs i = .result { q with gamma := g, remapped := none } ∧ w.SameBut w' i ∧
      exec w' (.getOutputGamma (some i)) = (w', .float g)) ∧
    (¬ (0 < g ∧ g < 1) → exec w (.setOutputGamma (some i) g) = (w, .code (some .valueOutOfRange)) ∧
      exec w (.getOutputGamma (some i)) = (w, .float q.gamma)) := by
  have hg : w.get (some i) = .result q := hl
  have hc : (le g (lit64 0) || le (lit64 1) g : Bool) = !decide (0 < g ∧ g < 1) := by
    rw [Bool.eq_iff_iff]
    simp only [le, lit64, Bool.or_eq_true, decide_eq_true_eq, Bool.not_eq_true', decide_eq_false_iff_not, not_and_or, not_lt]
    norm_num
  constructor
  · intro h
    refine ⟨w.set (some i) (.result { q with gamma := g, remapped := none }), ?_, by simp [World.set], w.set_sameBut i _, ?_⟩
    · simp only [exec, World.withResult, hg, QuantizationResult.setOutputGamma, hc, h, and_self, decide_true, Bool.not_true,
        Bool.false_eq_true, if_false, World.update]
    · simp only [exec, World.withResult, World.get_set]
  · intro h
    constructor
    · simp only [exec, World.withResult, hg, QuantizationResult.setOutputGamma, hc, decide_eq_false h, Bool.not_false, if_true,
        World.update]
    · simp only [exec, World.withResult, hg]

/-- the sizes and gammas for which `new_internal` makes an image -/
def Spec.Sizes (g : ℝ) (width height : ℕ) : Prop :=
  0 < width ∧ 0 < height ∧ width < 2 ^ 31 ∧ height < 2 ^ 31 ∧ 16 * (width * height) < 2 ^ 63 ∧ 0 ≤ g ∧ g ≤ 1

theorem newInternal_iff (s : HSource) (width height : ℕ) (g : ℝ) :
    (Sizes g width height → ∃ r, HRows.newInternal s width height g = .ok r ∧ r.width = width ∧ r.height = height) ∧
    (¬ Sizes g width height → ∃ e, HRows.newInternal s width height g = .error e) := by
  have hc : (Flt.le (Flt.lit64 0) g && Flt.le g (Flt.lit64 1) : Bool) = decide (0 ≤ g ∧ g ≤ 1) := by
    simp [le, lit64, Bool.decide_and]
  have hs : Image.checkImageSize width height = decide (0 < width ∧ 0 < height ∧ width < 2 ^ 31 ∧ height < 2 ^ 31 ∧
      16 * (width * height) < 2 ^ 63) := by
    unfold Image.checkImageSize
    by_cases h0 : width = 0 ∨ height = 0
    · rw [if_pos h0]
      symm
      rw [decide_eq_false_iff_not]
      omega
    · rw [if_neg h0]
      have hh : 0 < height := by omega
      have hdiv : width > (2 ^ 63 - 1) / 16 / height ↔ ¬ 16 * (width * height) < 2 ^ 63 := by
        rw [gt_iff_lt, Nat.div_lt_iff_lt_mul hh]
        norm_num
        omega
      simp only [hdiv]
      split
      · symm
        rw [decide_eq_false_iff_not]
        omega
      · symm
        rw [decide_eq_true_eq]
        omega
  unfold HRows.newInternal Sizes
  rw [hs, hc]
  constructor
  · rintro ⟨h1, h2, h3, h4, h5, h6, h7⟩
    rw [decide_eq_true ⟨h1, h2, h3, h4, h5⟩, decide_eq_true ⟨h6, h7⟩]
    exact ⟨_, rfl, rfl, rfl⟩
  · intro h
    split
    · exact ⟨_, rfl⟩
    · split
      · exact ⟨_, rfl⟩
      · rename_i k1 k2
        rw [Bool.not_eq_true', Bool.not_eq_false, decide_eq_true_eq] at k1 k2
        exact absurd ⟨k1.1, k1.2.1, k1.2.2.1, k1.2.2.2.1, k1.2.2.2.2, k2⟩ h

/-- **C59** (exact). `liq_image_create_custom` makes an image exactly for sizes from 1 to 2³¹−1 whose pixels fit in memory and
gammas from 0 to 1. The functions that return the width and the height give the arguments back. -/
theorem C59_create_custom (w : World ℝ) (i : ℕ) (a : Attr ℝ) (fn : ℕ) (hl : w.objs i = .attr a fn) (f : ℕ → ℕ → RGBA)
    (width height : UInt32) (g : ℝ) :
    (Sizes g width.toNat height.toNat → ∃ w', exec w (.imageCreateCustom (some i) f width height g) = (w', .object (some w.next)) ∧
      exec w' (.imageGetWidth (some w.next)) = (w', .uint width.toNat) ∧
      exec w' (.imageGetHeight (some w.next)) = (w', .uint height.toNat)) ∧
    (¬ Sizes g width.toNat height.toNat → exec w (.imageCreateCustom (some i) f width height g) = (w, .object none)) := by
  have hg : w.get (some i) = .attr a fn := hl
  obtain ⟨h1, h2⟩ := newInternal_iff (.callback f) width.toNat height.toNat g
  constructor
  · intro h
    obtain ⟨r, hr, e1, e2⟩ := h1 h
    refine ⟨(w.create (.image (.ofRows r) fn)).1, ?_, ?_, ?_⟩
    · simp only [exec, hg, World.returnImage, hr]; rfl
    · simp [exec, World.withImage, World.create, World.get, HImage.ofRows, e1]
    · simp [exec, World.withImage, World.create, World.get, HImage.ofRows, e2]
  · intro h
    obtain ⟨e, he⟩ := h2 h
    simp only [exec, hg, World.returnImage, he]

/-- **C59** (any float). A copy of settings is a new object that says the same, and no program that does not change the copy
itself changes what it says. -/
theorem C59_attr_copy (w : World F) (i : ℕ) (a : Attr F) (fn : ℕ) (hl : w.objs i = .attr a fn) :
    ∃ w', exec w (.attrCopy (some i)) = (w', .object (some w.next)) ∧ w'.objs w.next = .attr a fn ∧
      (i ≠ w.next → w'.objs i = .attr a fn) ∧
      ∀ cs, (∀ c ∈ cs, some w.next ∉ c.changes) → (runC w' cs).1.objs w.next = .attr a fn := by
  have hg : w.get (some i) = .attr a fn := hl
  refine ⟨(w.create (.attr a fn)).1, ?_, by simp [World.create], fun h => by simp [World.create, h, hl], fun cs hc => ?_⟩
  · simp only [exec, World.withAttr, hg]; rfl
  · rw [C59_frame_run cs _ w.next (by simp [World.create]) hc]
    simp [World.create]

/-- settings with 16 colours are copied, then the original is changed and destroyed: the copy still says 16 -/
example (w : World F) (a : Attr F) (ha : a.maxColors = 16) (hl : w.objs 0 = .attr a 0) (hn : w.next = 1) :
    ∃ w', exec w (.attrCopy (some 0)) = (w', .object (some 1)) ∧
      ∃ b, (runC w' [.setMaxColors (some 0) 32, .attrDestroy (some 0)]).1.objs 1 = .attr b 0 ∧ b.maxColors = 16 := by
  obtain ⟨w', h1, _, _, h4⟩ := C59_attr_copy w 0 a 0 hl
  rw [hn] at h1 h4
  exact ⟨w', h1, a, h4 _ (by simp [CCall.changes]), ha⟩

end Verif
