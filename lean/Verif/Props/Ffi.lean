import Verif.Model.Ffi
import Verif.Props.Settings

/-! # C32 and C33: checks of arguments and handles in the C API -/

set_option linter.unusedSectionVars false

namespace Verif
open Flt

variable {F : Type} [Flt F]

/-! ### C32 -/

@[simp] theorem World.get_set (w : World F) (i : ℕ) (s : Slot F) : (w.set (some i) s).get (some i) = s := by
  simp [World.set, World.get]

/-- the world in which only the settings behind one handle differ -/
def World.SameBut (w w' : World F) (i : ℕ) : Prop :=
  w'.heap = w.heap ∧ w'.next = w.next ∧ w'.log = w.log ∧ w'.undefined = w.undefined ∧ ∀ j, j ≠ i → w'.objs j = w.objs j

theorem World.set_sameBut (w : World F) (i : ℕ) (s : Slot F) : w.SameBut (w.set (some i) s) i :=
  ⟨rfl, rfl, rfl, rfl, fun j hj => by simp [World.set, hj]⟩

theorem World.withAttr_live {w : World F} {h : Handle} {a : Attr F} {fn : ℕ} (e : w.get h = .attr a fn) (bad : Reply F)
    (k : Attr F → ℕ → World F × Reply F) : w.withAttr h bad k = k a fn := by
  unfold World.withAttr; rw [e]

/-- **C32** (any float). `liq_set_max_colors` accepts exactly 2 to 256 and stores the argument, which
`liq_get_max_colors` returns; otherwise it returns `LIQ_VALUE_OUT_OF_RANGE` and nothing changes. -/
theorem C32_max_colors (w : World F) (i : ℕ) (a : Attr F) (fn : ℕ) (hl : w.objs i = .attr a fn) (n : UInt32) :
    (2 ≤ n.toNat ∧ n.toNat ≤ 256 → ∃ w', exec w (.setMaxColors (some i) n) = (w', .code none) ∧
      w'.objs i = .attr { a with maxColors := n.toNat } fn ∧ w.SameBut w' i ∧
      exec w' (.getMaxColors (some i)) = (w', .uint n.toNat)) ∧
    (¬ (2 ≤ n.toNat ∧ n.toNat ≤ 256) → exec w (.setMaxColors (some i) n) = (w, .code (some .valueOutOfRange))) := by
  have hg : w.get (some i) = .attr a fn := hl
  refine ⟨fun h => ⟨w.set (some i) (.attr { a with maxColors := n.toNat } fn), ?_, by simp [World.set], w.set_sameBut i _, ?_⟩,
    fun h => ?_⟩
  · simp only [exec, World.withAttr_live hg, Attr.setMaxColors, if_pos h, World.update]
  · simp [exec, World.withAttr_live (World.get_set _ _ _), Attr.getMaxColors]
  · simp only [exec, World.withAttr_live hg, Attr.setMaxColors, if_neg h, World.update]

/-- **C32** (any float). `liq_set_speed` accepts exactly 1 to 10 and `liq_get_speed` returns what was set. -/
theorem C32_speed (w : World F) (i : ℕ) (a : Attr F) (fn : ℕ) (hl : w.objs i = .attr a fn) (n : Int32) :
    (1 ≤ n.toInt ∧ n.toInt ≤ 10 → ∃ w' a', exec w (.setSpeed (some i) n) = (w', .code none) ∧
      w'.objs i = .attr a' fn ∧ w.SameBut w' i ∧ exec w' (.getSpeed (some i)) = (w', .uint n.toInt.toNat)) ∧
    (¬ (1 ≤ n.toInt ∧ n.toInt ≤ 10) → exec w (.setSpeed (some i) n) = (w, .code (some .valueOutOfRange))) := by
  have hg : w.get (some i) = .attr a fn := hl
  refine ⟨fun h => ?_, fun h => ?_⟩
  · obtain ⟨a', e, hs, _⟩ := setSpeed_ok a h.1 h.2
    refine ⟨w.set (some i) (.attr a' fn), a', ?_, by simp [World.set], w.set_sameBut i _, ?_⟩
    · simp only [exec, hg, e, World.update]
    · simp [exec, World.withAttr_live (World.get_set _ _ _), Attr.getSpeed, hs]
  · simp only [exec, hg, Attr.setSpeed, if_pos h, World.update]

/-- **C32**, what is wrong: `liq_set_quality` and `liq_set_min_posterization` look at the lowest 8 bits of their
arguments only. -/
theorem C32_truncates (w : World F) (h : Handle) :
    (∀ m t m' t' : UInt32, m.toNat % 256 = m'.toNat % 256 → t.toNat % 256 = t'.toNat % 256 →
      exec w (.setQuality h m t) = exec w (.setQuality h m' t')) ∧
    ∀ n n' : Int32, n.toInt % 256 = n'.toInt % 256 → exec w (.setMinPosterization h n) = exec w (.setMinPosterization h n') := by
  refine ⟨fun m t m' t' h1 h2 => ?_, fun n n' h1 => ?_⟩
  · simp only [exec, uintAsU8, h1, h2]
  · have : intAsU8 n = intAsU8 n' := by
      unfold intAsU8
      have e : ∀ k : Int32, ((k.toBitVec.toNat % 256 : ℕ) : ℤ) = k.toInt % 256 := by
        intro k
        rw [show k.toInt = k.toBitVec.toInt from rfl, BitVec.toInt_eq_toNat_cond]
        split <;> push_cast <;> omega
      have := (e n).trans (h1.trans (e n').symm)
      exact_mod_cast this
    simp only [exec, this]

/-- **C32** (part; exact). For arguments below 256 `liq_set_quality` accepts exactly `minimum ≤ target ≤ 100` and the
getters return them. Missing: larger arguments, see `C32_truncates`. -/
theorem C32_quality_partial (w : World ℝ) (i : ℕ) (a : Attr ℝ) (fn : ℕ) (hl : w.objs i = .attr a fn) (m t : UInt32)
    (hm : m.toNat < 256) (ht : t.toNat < 256) :
    (m.toNat ≤ t.toNat ∧ t.toNat ≤ 100 → ∃ w' a', exec w (.setQuality (some i) m t) = (w', .code none) ∧
      w'.objs i = .attr a' fn ∧ w.SameBut w' i ∧ exec w' (.getMinQuality (some i)) = (w', .uint m.toNat) ∧
      exec w' (.getMaxQuality (some i)) = (w', .uint t.toNat)) ∧
    (¬ (m.toNat ≤ t.toNat ∧ t.toNat ≤ 100) →
      exec w (.setQuality (some i) m t) = (w, .code (some .valueOutOfRange))) := by
  have hg : w.get (some i) = .attr a fn := hl
  have e1 : uintAsU8 m = m.toNat := Nat.mod_eq_of_lt hm
  have e2 : uintAsU8 t = t.toNat := Nat.mod_eq_of_lt ht
  refine ⟨fun h => ?_, fun h => ?_⟩
  · obtain ⟨a', e, hq⟩ := C12_quality_roundtrip a h.1 h.2
    refine ⟨w.set (some i) (.attr a' fn), a', ?_, by simp [World.set], w.set_sameBut i _, ?_, ?_⟩
    · simp only [exec, World.withAttr_live hg, e1, e2, e, World.update]
    · simp [exec, World.withAttr_live (World.get_set _ _ _), hq]
    · simp [exec, World.withAttr_live (World.get_set _ _ _), hq]
  · have : ¬ t.toNat ≤ 100 ∨ t.toNat < m.toNat := by omega
    simp only [exec, World.withAttr_live hg, e1, e2, Attr.setQuality, if_pos this, World.update]

/-- **C32** (part; any float). For arguments from 0 to 255 `liq_set_min_posterization` accepts exactly 0 to 4 and
stores the argument. Missing: other arguments, see `C32_truncates`. -/
theorem C32_posterization_partial (w : World F) (i : ℕ) (a : Attr F) (fn : ℕ) (hl : w.objs i = .attr a fn) (n : Int32)
    (h0 : 0 ≤ n.toInt) (h1 : n.toInt < 256) :
    (n.toInt ≤ 4 → ∃ w', exec w (.setMinPosterization (some i) n) = (w', .code none) ∧
      w'.objs i = .attr { a with minPosterizationOutput := n.toInt.toNat } fn ∧ w.SameBut w' i ∧
      exec w' (.getMinPosterization (some i)) = (w', .uint n.toInt.toNat)) ∧
    (¬ n.toInt ≤ 4 → exec w (.setMinPosterization (some i) n) = (w, .code (some .valueOutOfRange))) := by
  have hg : w.get (some i) = .attr a fn := hl
  have e1 : intAsU8 n = n.toInt.toNat := by
    unfold intAsU8
    have e : n.toInt = n.toBitVec.toInt := rfl
    rw [e, BitVec.toInt_eq_toNat_cond] at h0 h1 ⊢
    have := n.toBitVec.isLt
    split at h1 <;> split at h0 <;> split <;> omega
  refine ⟨fun h => ?_, fun h => ?_⟩
  · have h4 : n.toInt.toNat ≤ 4 := by omega
    refine ⟨w.set (some i) (.attr { a with minPosterizationOutput := n.toInt.toNat } fn), ?_, by simp [World.set],
      w.set_sameBut i _, ?_⟩
    · simp only [exec, World.withAttr_live hg, e1, Attr.setMinPosterization, if_pos h4, World.update]
    · simp [exec, World.withAttr_live (World.get_set _ _ _), Attr.getMinPosterization]
  · have h4 : ¬ n.toInt.toNat ≤ 4 := by omega
    simp only [exec, World.withAttr_live hg, e1, Attr.setMinPosterization, if_neg h4, World.update]

/-- a world with one settings object -/
def oneAttr (F : Type) [Flt F] : World F := (exec (World.init : World F) .attrCreate).1

theorem oneAttr_live : (oneAttr F).objs 0 = .attr Attr.new 0 := by
  simp [oneAttr, exec, World.create, World.init]

/-- the hypothesis of the C32 theorems is met -/
example : (oneAttr ℝ).objs 0 = .attr Attr.new 0 := oneAttr_live

/-- **C32** does not hold. `liq_set_quality(attr, 0, 256)` returns `LIQ_OK` and sets the maximum quality to 0, and
`liq_set_quality(attr, 356, 100)` is accepted although the minimum is larger than the target;
`liq_set_min_posterization(attr, 256)` and `(attr, -252)` return `LIQ_OK`. -/
theorem C32_does_not_hold :
    (∃ w', exec (oneAttr ℝ) (.setQuality (some 0) 0 256) = (w', .code none) ∧
      exec w' (.getMaxQuality (some 0)) = (w', .uint 0)) ∧
    (∃ w', exec (oneAttr ℝ) (.setQuality (some 0) 356 100) = (w', .code none)) ∧
    (∃ w', exec (oneAttr ℝ) (.setMinPosterization (some 0) 256) = (w', .code none)) ∧
    (∃ w', exec (oneAttr ℝ) (.setMinPosterization (some 0) (-252)) = (w', .code none) ∧
      exec w' (.getMinPosterization (some 0)) = (w', .uint 4)) := by
  refine ⟨?_, ?_, ?_, ?_⟩
  · rw [(C32_truncates (oneAttr ℝ) (some 0)).1 0 256 0 0 (by decide) (by decide)]
    obtain ⟨w', a', h1, _, _, _, h2⟩ := (C32_quality_partial (oneAttr ℝ) 0 _ _ oneAttr_live 0 0 (by decide) (by decide)).1
      (by decide)
    exact ⟨w', h1, h2⟩
  · rw [(C32_truncates (oneAttr ℝ) (some 0)).1 356 100 100 100 (by decide) (by decide)]
    obtain ⟨w', a', h1, _⟩ := (C32_quality_partial (oneAttr ℝ) 0 _ _ oneAttr_live 100 100 (by decide) (by decide)).1
      (by decide)
    exact ⟨w', h1⟩
  · rw [(C32_truncates (oneAttr ℝ) (some 0)).2 256 0 (by decide)]
    obtain ⟨w', h1, _⟩ := (C32_posterization_partial (oneAttr ℝ) 0 _ _ oneAttr_live 0 (by decide) (by decide)).1 (by decide)
    exact ⟨w', h1⟩
  · rw [(C32_truncates (oneAttr ℝ) (some 0)).2 (-252) 4 (by decide)]
    obtain ⟨w', h1, _, _, h2⟩ := (C32_posterization_partial (oneAttr ℝ) 0 _ _ oneAttr_live 4 (by decide) (by decide)).1 (by decide)
    exact ⟨w', h1, h2⟩

/-! ### C33 -/

namespace Spec

/-- the tag at the beginning of an object -/
inductive Tag where
  | attr | image | result | histogram | freed | unknown
  deriving DecidableEq

end Spec

open Spec

def Slot.tag : Slot F → Tag
  | .attr _ _ => .attr
  | .image _ _ => .image
  | .taken => .image
  | .result _ => .result
  | .histogram _ => .histogram
  | .freed => .freed
  | .other => .unknown

/-- The handles that a function has to check, with the tags it has to find. Not in this list: the functions that take
a handle over (`liq_image_set_background`, the `destroy` functions), and those that do not check
(`liq_set_speed`, `liq_image_create_custom`, `liq_set_min_opacity`, `liq_get_min_opacity`). -/
def CCall.checked : CCall F → List (Handle × Tag)
  | .setLastIndexTransparent a _ | .attrSetProgressCallback a _ | .setLogCallback a | .setLogFlushCallback a
  | .setMaxColors a _ | .getMaxColors a | .setMinPosterization a _ | .getMinPosterization a | .getSpeed a
  | .setQuality a _ _ | .getMinQuality a | .getMaxQuality a | .histogramCreate a | .attrCopy a
  | .imageCreateRgbaRows a _ _ _ _ | .imageCreateRgba a _ _ _ _ => [(a, .attr)]
  | .getPalette r | .resultSetProgressCallback r _ | .setOutputGamma r _ | .setDitheringLevel r _ | .getOutputGamma r
  | .getQuantizationError r | .getRemappingError r | .getQuantizationQuality r | .getRemappingQuality r => [(r, .result)]
  | .imageAddFixedColor i _ | .imageGetWidth i | .imageGetHeight i | .imageSetImportanceMap i _ _ _
  | .imageSetMemoryOwnership i _ => [(i, .image)]
  | .histogramAddFixedColor h _ _ => [(h, .histogram)]
  | .quantizeImage a i _ | .imageQuantize i a _ => [(a, .attr), (i, .image)]
  | .writeRemappedImage r i _ _ | .writeRemappedImageRows r i _ _ => [(r, .result), (i, .image)]
  | .histogramQuantize h a _ | .histogramAddColors h a _ _ _ => [(a, .attr), (h, .histogram)]
  | .histogramAddImage h a i _ => [(a, .attr), (h, .histogram), (i, .image)]
  | _ => []

/-- how a function says that a handle is bad -/
def CCall.rejection : CCall F → Reply F
  | .setLastIndexTransparent _ _ | .attrSetProgressCallback _ _ | .setLogCallback _ | .setLogFlushCallback _
  | .resultSetProgressCallback _ _ => .nothing
  | .getMaxColors _ | .getMinPosterization _ | .getSpeed _ | .getMinQuality _ | .getMaxQuality _ | .imageGetWidth _
  | .imageGetHeight _ => .uint (2 ^ 32 - 1)
  | .getOutputGamma _ | .getQuantizationError _ | .getRemappingError _ => .float (lit64 (-1))
  | .getQuantizationQuality _ | .getRemappingQuality _ => .int (-1)
  | .getPalette _ => .palette none
  | .histogramCreate _ | .attrCopy _ | .imageCreateRgbaRows _ _ _ _ _ | .imageCreateRgba _ _ _ _ _
  | .quantizeImage _ _ _ => .object none
  | .imageQuantize _ _ _ | .histogramQuantize _ _ _ => .stored (some .invalidPointer) .unwritten
  | _ => .code (some .invalidPointer)

theorem World.withAttr_bad {w : World F} {h : Handle} (hb : (w.get h).tag ≠ .attr) (bad : Reply F)
    (k : Attr F → ℕ → World F × Reply F) : w.withAttr h bad k = (w, bad) := by
  unfold World.withAttr
  split
  next e => rw [e] at hb; exact absurd rfl hb
  · rfl

theorem World.withResult_bad {w : World F} {h : Handle} (hb : (w.get h).tag ≠ .result) (bad : Reply F)
    (k : QuantizationResult F → World F × Reply F) : w.withResult h bad k = (w, bad) := by
  unfold World.withResult
  split
  next e => rw [e] at hb; exact absurd rfl hb
  · rfl

theorem World.withHistogram_bad {w : World F} {h : Handle} (hb : (w.get h).tag ≠ .histogram) (bad : Reply F)
    (k : Histogram F → World F × Reply F) : w.withHistogram h bad k = (w, bad) := by
  unfold World.withHistogram
  split
  next e => rw [e] at hb; exact absurd rfl hb
  · rfl

theorem World.withImage_bad {w : World F} {h : Handle} (hb : (w.get h).tag ≠ .image) (bad : Reply F)
    (k : HImage F → ℕ → World F × Reply F) : w.withImage h bad k = (w, bad) := by
  unfold World.withImage
  split
  next e => rw [e] at hb; exact absurd rfl hb
  next e => rw [e] at hb; exact absurd rfl hb
  · rfl

/-- a check that every later step would also answer with the same reply -/
theorem World.withAttr_const {w : World F} {h : Handle} {bad : Reply F} {k : Attr F → ℕ → World F × Reply F}
    (e : ∀ a fn, k a fn = (w, bad)) : w.withAttr h bad k = (w, bad) := by
  unfold World.withAttr
  split
  · exact e _ _
  · rfl

theorem World.withHistogram_const {w : World F} {h : Handle} {bad : Reply F} {k : Histogram F → World F × Reply F}
    (e : ∀ x, k x = (w, bad)) : w.withHistogram h bad k = (w, bad) := by
  unfold World.withHistogram
  split
  · exact e _
  · rfl

theorem World.withResult_const {w : World F} {h : Handle} {bad : Reply F} {k : QuantizationResult F → World F × Reply F}
    (e : ∀ x, k x = (w, bad)) : w.withResult h bad k = (w, bad) := by
  unfold World.withResult
  split
  · exact e _
  · rfl

/-- **C33** (part). Every function that checks a handle answers a handle with the wrong tag (NULL, destroyed, of another
type, foreign) with its error value and changes nothing, whatever the other arguments are.
Missing: `liq_image_set_background` and the `destroy` functions (`C33_set_background_consumes`,
`C33_destroy_unchecked`), and the functions that do not check (`C33_unchecked`); the output of
`liq_image_quantize` and `liq_histogram_quantize` is not set to NULL (`C33_output_unwritten`). -/
theorem C33_rejects_partial (w : World F) (c : CCall F) (h : Handle) (t : Tag) (hc : (h, t) ∈ c.checked)
    (hb : (w.get h).tag ≠ t) : exec w c = (w, c.rejection) := by
  cases c with
  | version | setMinOpacity | getMinOpacity | setSpeed | imageDestroy | imageSetBackground | histogramDestroy
  | attrCreateWithAllocator | attrCreate | attrDestroy | resultDestroy | imageCreateCustom | malloc | free =>
    simp [CCall.checked] at hc
  | imageCreateRgba a p wd hg g =>
    simp only [CCall.checked, List.mem_singleton, Prod.mk.injEq] at hc
    obtain ⟨rfl, rfl⟩ := hc
    cases p with
    | none => rfl
    | some p => exact World.withAttr_bad hb _ _
  | quantizeImage a i env | imageQuantize i a env =>
    simp only [CCall.checked, List.mem_cons, Prod.mk.injEq, List.not_mem_nil, or_false] at hc
    rcases hc with ⟨rfl, rfl⟩ | ⟨rfl, rfl⟩
    · exact World.withAttr_bad hb _ _
    · exact World.withAttr_const fun _ _ => World.withImage_bad hb _ _
  | writeRemappedImage r i b env | writeRemappedImageRows r i b env =>
    simp only [CCall.checked, List.mem_cons, Prod.mk.injEq, List.not_mem_nil, or_false] at hc
    rcases hc with ⟨rfl, rfl⟩ | ⟨rfl, rfl⟩
    · exact World.withResult_bad hb _ _
    · exact World.withResult_const fun _ => World.withImage_bad hb _ _
  | histogramQuantize x a env | histogramAddColors x a es n g =>
    simp only [CCall.checked, List.mem_cons, Prod.mk.injEq, List.not_mem_nil, or_false] at hc
    rcases hc with ⟨rfl, rfl⟩ | ⟨rfl, rfl⟩
    · exact World.withAttr_bad hb _ _
    · exact World.withAttr_const fun _ _ => World.withHistogram_bad hb _ _
  | histogramAddImage x a i ho =>
    simp only [CCall.checked, List.mem_cons, Prod.mk.injEq, List.not_mem_nil, or_false] at hc
    rcases hc with ⟨rfl, rfl⟩ | ⟨rfl, rfl⟩ | ⟨rfl, rfl⟩
    · exact World.withAttr_bad hb _ _
    · exact World.withAttr_const fun _ _ => World.withHistogram_bad hb _ _
    · exact World.withAttr_const fun _ _ => World.withHistogram_const fun _ => World.withImage_bad hb _ _
  | _ =>
    simp only [CCall.checked, List.mem_singleton, Prod.mk.injEq] at hc
    obtain ⟨rfl, rfl⟩ := hc
    first
      | exact World.withAttr_bad hb _ _
      | exact World.withResult_bad hb _ _
      | exact World.withImage_bad hb _ _
      | exact World.withHistogram_bad hb _ _

/-- a result handle given to a function that wants settings, and NULL -/
example (w : World F) (q : QuantizationResult F) (h : w.objs 3 = .result q) :
    exec w (.setMaxColors (some 3) 16) = (w, .code (some .invalidPointer)) ∧
    exec w (.setMaxColors none 16) = (w, .code (some .invalidPointer)) :=
  ⟨C33_rejects_partial w _ (some 3) .attr (by simp [CCall.checked]) (by simp [World.get, h, Slot.tag]),
   C33_rejects_partial w _ none .attr (by simp [CCall.checked]) (by simp [World.get, Slot.tag])⟩

/-- **C33** (any float). When both handles are good, `liq_image_quantize` and `liq_histogram_quantize` set the output to
NULL on failure, and on success to a new object that is a live result. (The alternative is a panic.) -/
theorem C33_output (w : World F) (c : CCall F) (env : Env F) (ha : Handle) (a : Attr F) (fn : ℕ) (hal : w.get ha = .attr a fn)
    (hc : (∃ hi i fi, c = .imageQuantize hi ha env ∧ w.get hi = .image i fi) ∨
      ∃ hh x, c = .histogramQuantize hh ha env ∧ w.get hh = .histogram x) :
    (∃ e, (exec w c).2 = .stored (some e) .null) ∨
    (∃ q, (exec w c).2 = .stored none (.object w.next) ∧ (exec w c).1.objs w.next = .result q) ∨
    (exec w c).2 = .crash := by
  have key : ∀ (w' : World F) (r : Res (QuantizationResult F)), w'.next = w.next →
      (∃ e, (w'.storeResult r).2 = .stored (some e) .null) ∨
      (∃ q, (w'.storeResult r).2 = .stored none (.object w.next) ∧ (w'.storeResult r).1.objs w.next = .result q) ∨
      (w'.storeResult r).2 = .crash := by
    intro w' r hn
    unfold World.storeResult
    match r with
    | .ok q => exact .inr (.inl ⟨q, by simp [World.create, hn], by simp [World.create, hn]⟩)
    | .error (.err e) => exact .inl ⟨e, rfl⟩
    | .error .panic => exact .inr (.inr rfl)
  have next_set : ∀ (w' : World F) (h : Handle) (s : Slot F), (w'.set h s).next = w'.next := by
    intro w' h s; cases h <;> rfl
  rcases hc with ⟨hi, i, fi, rfl, him⟩ | ⟨hh, x, rfl, hx⟩
  · simp only [exec, World.withAttr_live hal]
    unfold World.withImage
    rw [him]
    simp only
    exact key _ _ (by unfold World.quantize; exact next_set _ _ _)
  · simp only [exec, World.withAttr_live hal]
    unfold World.withHistogram
    rw [hx]
    simp only
    exact key _ _ (next_set _ _ _)

/-- **C33**, what is wrong: with a bad handle `liq_image_quantize` and `liq_histogram_quantize` fail without writing
the output. -/
theorem C33_output_unwritten (w : World F) (h : Handle) (env : Env F) :
    exec w (.imageQuantize h none env) = (w, .stored (some .invalidPointer) .unwritten) ∧
    exec w (.histogramQuantize h none env) = (w, .stored (some .invalidPointer) .unwritten) :=
  ⟨C33_rejects_partial w _ none .attr (by simp [CCall.checked]) (by simp [World.get, Slot.tag]),
   C33_rejects_partial w _ none .attr (by simp [CCall.checked]) (by simp [World.get, Slot.tag])⟩

/-- **C33**, what is wrong: `liq_image_set_background` with a bad image returns `LIQ_INVALID_POINTER` but destroys the
background that was passed; and with a background that is not an image it deallocates that object. -/
theorem C33_set_background_consumes (w : World F) (h : Handle) (b : ℕ) :
    (∀ img fn, w.objs b = .image img fn → (w.get h).tag ≠ .image →
      (exec w (.imageSetBackground h (some b))).2 = .code (some .invalidPointer) ∧
      (exec w (.imageSetBackground h (some b))).1.objs b = .freed ∧
      (exec w (.imageSetBackground h (some b))).1.heap = img.drop w.heap) ∧
    (∀ a fn, w.objs b = .attr a fn →
      (exec w (.imageSetBackground h (some b))).2 = .code (some .invalidPointer) ∧
      (exec w (.imageSetBackground h (some b))).1.objs b = .freed ∧
      (exec w (.imageSetBackground h (some b))).1.undefined = true) := by
  refine ⟨fun img fn e hb => ?_, fun a fn e => ?_⟩
  · have hx : exec w (.imageSetBackground h (some b)) = (w.dropImage (some b), .code (some .invalidPointer)) := by
      have hgb : w.get (some b) = .image img fn := e
      simp only [exec, hgb]
      cases hg : w.get h <;> simp_all [Slot.tag]
    rw [hx]
    simp [World.dropImage, e, World.set]
  · have hx : exec w (.imageSetBackground h (some b)) = (w.dropImage (some b), .code (some .invalidPointer)) := by
      have hgb : w.get (some b) = .attr a fn := e
      simp only [exec, hgb]
      cases hg : w.get h <;> simp_all
    rw [hx]
    simp [World.dropImage, e, World.set, World.ub]

/-- **C33**, what is wrong: the `destroy` functions deallocate whatever they are given. -/
theorem C33_destroy_unchecked (w : World F) (i : ℕ) :
    ((w.objs i).tag ≠ .image → (exec w (.imageDestroy (some i))).1.undefined = true) ∧
    ((w.objs i).tag ≠ .attr → (exec w (.attrDestroy (some i))).1.undefined = true) ∧
    ((w.objs i).tag ≠ .result → (exec w (.resultDestroy (some i))).1.undefined = true) ∧
    ((w.objs i).tag ≠ .histogram → (exec w (.histogramDestroy (some i))).1.undefined = true) := by
  refine ⟨fun h => ?_, fun h => ?_, fun h => ?_, fun h => ?_⟩
  · simp only [exec, World.dropImage]
    cases e : w.objs i <;> simp_all [Slot.tag, World.ub]
  all_goals
    simp only [exec, World.destroy]
    cases e : w.objs i <;> simp_all [Slot.tag, World.ub]

/-- **C33**, what is wrong: `liq_set_speed` and `liq_image_create_custom` use settings without looking at the tag. -/
theorem C33_unchecked (w : World F) (h : Handle) (hb : (w.get h).tag ≠ .attr) (n : Int32) (f : ℕ → ℕ → RGBA)
    (wd hg : UInt32) (g : F) :
    (exec w (.setSpeed h n)).1.undefined = true ∧ (exec w (.imageCreateCustom h f wd hg g)).1.undefined = true := by
  refine ⟨?_, ?_⟩ <;> simp only [exec] <;> cases e : w.get h <;> simp_all [Slot.tag, World.ub]

/-- **C33** (any float). `destroy` of a live object leaves a handle that every checking function rejects, and
`destroy(NULL)` does nothing. -/
theorem C33_after_destroy (w : World F) (i : ℕ) (c : CCall F) (t : Tag) (hc : (some i, t) ∈ c.checked) :
    ∀ d ∈ [CCall.imageDestroy (some i), .attrDestroy (some i), .resultDestroy (some i), .histogramDestroy (some i)],
      exec (exec w d).1 c = ((exec w d).1, c.rejection) := by
  intro d hd
  have hf : (exec w d).1.objs i = .freed := by
    simp only [List.mem_cons, List.not_mem_nil, or_false] at hd
    rcases hd with rfl | rfl | rfl | rfl
    · simp only [exec, World.dropImage]
      cases e : w.objs i <;> simp [World.set, World.ub]
    all_goals
      simp only [exec, World.destroy]
      cases e : w.objs i <;> simp [World.set, World.ub]
  have ht : t ≠ .freed := by
    intro h; subst h
    cases c <;> simp [CCall.checked] at hc
  exact C33_rejects_partial _ c (some i) t hc (by simp only [World.get, hf, Slot.tag]; exact fun h => ht h.symm)

theorem C33_destroy_null (w : World F) :
    ∀ d ∈ [CCall.imageDestroy none, .attrDestroy none, .resultDestroy none, .histogramDestroy none],
      exec w d = (w, .nothing) := by
  intro d hd
  simp only [List.mem_cons, List.not_mem_nil, or_false] at hd
  rcases hd with rfl | rfl | rfl | rfl <;> rfl

/-- **C33** does not hold: a function that checks its handles fails with `LIQ_INVALID_POINTER` and yet changes the
state of the world. -/
theorem C33_does_not_hold : ∃ (w : World F) (b : ℕ), (w.objs b).tag = .image ∧
    (exec w (.imageSetBackground none (some b))).2 = .code (some .invalidPointer) ∧
    (exec w (.imageSetBackground none (some b))).1 ≠ w := by
  let w : World F := { (World.init : World F) with
    objs := fun _ => .image (.ofRows ⟨1, 1, none, .callback fun _ _ => ⟨0, 0, 0, 0⟩, lit64 1⟩) 0 }
  have h := (C33_set_background_consumes w none 0).1 _ _ rfl (by simp [World.get, Slot.tag])
  refine ⟨w, 0, rfl, h.1, fun e => ?_⟩
  have := h.2.1
  rw [e] at this
  cases this

end Verif
