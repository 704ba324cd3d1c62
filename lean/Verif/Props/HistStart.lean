import Verif.Props.Histogram
import Verif.Props.Importance
import Verif.Props.Image
import Verif.Lemmas.Reach

/-! # Properties C19, C27: what the user has set is what counts -/

set_option linter.unusedSectionVars false

namespace Verif
open Flt Spec

variable {F : Type} [Flt F]

theorem after_posterization_range (cs : List Call) (s : Settings) (h : s.minPosterization ≤ 4) :
    (s.after cs).minPosterization ≤ 4 := by
  induction cs generalizing s with
  | nil => exact h
  | cons c cs ih =>
    apply ih
    cases c with
    | maxColors n => simp only [Settings.call]; split <;> exact h
    | quality m t => simp only [Settings.call]; split <;> exact h
    | speed v => simp only [Settings.call]; split <;> exact h
    | minPosterization v =>
      simp only [Settings.call]
      split
      next hn => exact hn
      · exact h
    | lastIndexTransparent b => exact h

/-- low bits that are ignored from the start: those that the user asked for, and one at the highest speeds -/
def Spec.Settings.ignoredBits (s : Settings) : ℕ := max s.minPosterization (if 8 ≤ s.speed then 1 else 0)

theorem userAttr_ignoredBits (cs : List Call) (cb : Option (List F → Bool)) :
    (userAttr (F := F) cs cb).posterizeBits = (Settings.default.after cs).ignoredBits := by
  have hi := (userAttr_speedOK (F := F) cs cb).input
  have h := C13_settings_registers_any_float (F := F) cs
  simp only [Attr.observeInt, Attr.getSpeed, Attr.getMinPosterization, Prod.mk.injEq] at h
  have h2 : (userAttr (F := F) cs cb).speed = (Settings.default.after cs).speed := h.2.1
  have h3 : (userAttr (F := F) cs cb).minPosterizationOutput = (Settings.default.after cs).minPosterization := h.2.2
  unfold Attr.posterizeBits Settings.ignoredBits
  rw [hi, h2, h3]

/-- **C19** (any float arithmetic). The same for histograms as users make them: a new histogram ignores exactly the low bits
that the settings say, and counts every pixel once as long as it did not have to ignore more. -/
theorem C19_from_settings (ho : HashOrder) (cs : List Call) (cb : Option (List F → Bool)) (h' : Histogram F)
    (l : List (Addition F)) (hw : ∀ a ∈ l, a.WellFormed) (e : (Histogram.new (userAttr cs cb)).applyAll ho l = .ok h')
    (hsame : h'.posterizeBits = (Settings.default.after cs).ignoredBits) (c : RGBA) :
    h'.weight c = (let s := importanceOf (Settings.default.after cs).ignoredBits (l.flatMap Addition.pixels) c
      if s = 0 then none else some (min s u32Max)) := by
  have hb : (Histogram.new (userAttr (F := F) cs cb)).posterizeBits = (Settings.default.after cs).ignoredBits :=
    userAttr_ignoredBits cs cb
  have h4 : (Settings.default.after cs).ignoredBits ≤ 4 := by
    have := after_posterization_range cs Settings.default (by decide)
    unfold Settings.ignoredBits
    split <;> omega
  have := C19_weights ho _ h' l hw rfl (by rw [hb]; exact h4) e (by rw [hb]; exact hsame) c
  rw [hb] at this
  exact this

/-- two bits are ignored after `set_min_posterization(2)`, one at speed 10, none by default -/
example : (Settings.default.after [.minPosterization 2]).ignoredBits = 2 ∧ (Settings.default.after [.speed 10]).ignoredBits = 1 ∧
    (Settings.default.after []).ignoredBits = 0 := by decide

example : ∃ h' : Histogram ℝ, (Histogram.new (userAttr [.minPosterization 2] none)).applyAll HashOrder.insertion
    [.colors [(⟨4, 2, 3, 255⟩, 7), (⟨5, 1, 0, 255⟩, 3)] 0] = .ok h' ∧ h'.weight ⟨6, 0, 0, 255⟩ = some 10 := by
  have hok : ∃ h' : Histogram ℝ, (Histogram.new (userAttr [.minPosterization 2] none)).applyAll HashOrder.insertion
      [.colors [(⟨4, 2, 3, 255⟩, 7), (⟨5, 1, 0, 255⟩, 3)] 0] = .ok h' ∧
      h'.posterizeBits = (Settings.default.after [.minPosterization 2]).ignoredBits := by
    obtain ⟨c1, c2, c3⟩ := C43_add_colors (Histogram.new (userAttr (F := ℝ) [.minPosterization 2] none))
      [(⟨4, 2, 3, 255⟩, 7), (⟨5, 1, 0, 255⟩, 3)] 0
    have hb : (Histogram.new (userAttr (F := ℝ) [.minPosterization 2] none)).posterizeBits = _ := userAttr_ignoredBits _ _
    cases e : (Histogram.new (userAttr (F := ℝ) [.minPosterization 2] none)).addColors
        [(⟨4, 2, 3, 255⟩, 7), (⟨5, 1, 0, 255⟩, 3)] 0 with
    | ok h' =>
      refine ⟨h', ?_, (c2 h' e).2.2.1.trans hb⟩
      unfold Histogram.applyAll
      rw [List.foldlM_cons]
      simp only [Histogram.apply, e]
      rfl
    | error x =>
      exfalso
      unfold Histogram.addColors at e
      simp at e
  obtain ⟨h', e, hs⟩ := hok
  refine ⟨h', e, ?_⟩
  rw [C19_from_settings _ _ _ h' _ (by simp only [List.mem_singleton, forall_eq, Addition.WellFormed]; decide) e hs]
  decide

/-- **C27** (any float arithmetic). A map of the user is accepted exactly if it has one entry for each pixel; then the
histogram counts the pixels with the entries of this map, without those that have entry 0. -/
theorem C27_user_map (ho : HashOrder) (h h' : Histogram F) (attr : Attr F) (img : Image F) (m : List UInt8) (hg : img.Good) :
    ((∃ img1, img.setImportanceMap m = .ok img1) ↔ m.length = img.width * img.height) ∧
    ∀ img1 img2 log log', img.setImportanceMap m = .ok img1 → h.addImage ho attr img1 log = ((.ok (), h', img2), log') →
      ∃ rows, img.px.rgbaRows = .ok rows ∧ ∃ h0 : Histogram F, h0.hashmap = h.hashmap ∧ h0.posterizeBits = h.posterizeBits ∧
        h' = (((rows.flatten.zip (m.map UInt8.toNat)).filter fun p => decide (p.2 ≠ 0)).foldl
          (fun h p => h.addColor p.1 p.2) h0).finishRows ho attr.posterizeBits := by
  rw [C46_importance_map]
  refine ⟨by by_cases hm : m.length = img.width * img.height <;> simp [hm], ?_⟩
  intro img1 img2 log log' e1 e
  have hg1 : img1.Good := setImportanceMap_good hg (by rw [C46_importance_map]; exact e1)
  split at e1
  · cases e1
    exact (C27_zero_ignored ho h h' attr _ img2 m log log' hg1 rfl e).2.2
  · cases e1

/-- a 2×1 image takes a map of two entries, and is added with it -/
example : ∃ img img1 : Image ℝ, img.Good ∧ img.setImportanceMap [200, 0] = .ok img1 ∧ img.setImportanceMap [200] = .error (.err .bufferTooSmall) ∧
    ∃ h' img2 log', (Histogram.new (userAttr [] none)).addImage HashOrder.insertion (userAttr [] none) img1 [] = ((.ok (), h', img2), log') := by
  obtain ⟨img, hi⟩ : ∃ a, Image.newFn (F := ℝ) (fun _ x => ⟨UInt8.ofNat x, 0, 0, 255⟩) 2 1 0 = .ok a := by
    unfold Image.newFn Image.newInternal Image.toU32
    simp [Image.checkImageSize, bind, Except.bind]
    norm_num
  obtain ⟨hg, hw, hh, hr⟩ := newFn_good hi
  have e1 : img.setImportanceMap [200, 0] = .ok { img with importanceMap := some [200, 0] } := by
    rw [C46_importance_map, if_pos (by rw [hw, hh]; rfl)]
  refine ⟨img, _, hg, e1, ?_, ?_⟩
  · rw [C46_importance_map, if_neg (by rw [hw, hh]; decide)]
  · apply addImage_succeeds _ _ _ _ _ (setImportanceMap_good hg e1) rfl
    unfold Image.newFn at hi
    simp [Image.toU32, bind, Except.bind] at hi
    obtain ⟨-, -, rfl⟩ := newInternal_ok hi
    exact ⟨_, rfl⟩

end Verif
