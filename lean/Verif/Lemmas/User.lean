import Verif.Lemmas.RemapRun
import Verif.Props.Importance
import Verif.Props.Quantize

/-! # Images and results that a program can get hold of -/

set_option linter.unusedSectionVars false

namespace Verif
open Flt Spec

variable {F : Type} [Flt F]

theorem addImage_image (ho : HashOrder) (h : Histogram F) (attr : Attr F) {img : Image F} (log : List F) (hg : img.Good) :
    (h.addImage ho attr img log).1.2.2.Good ∧
    (img.importanceMap.isSome → (h.addImage ho attr img log).1.2.2 = img) := by
  unfold Histogram.addImage
  have hgood : ∃ i, (if img.importanceMap.isNone && attr.useContrastMaps then img.contrastMaps else .ok img) = .ok i ∧
      i.Good ∧ (img.importanceMap.isSome → i = img) := by
    split
    next hc =>
      obtain ⟨i', e', g', _⟩ := contrastMaps_ok hg
      refine ⟨i', e', g', fun h => ?_⟩
      rw [Option.isSome_iff_ne_none] at h
      simp at hc
      exact absurd hc.1 h
    · exact ⟨img, rfl, hg, fun _ => rfl⟩
  obtain ⟨i, e, g, k⟩ := hgood
  rw [e]
  simp only
  split
  · exact ⟨g, k⟩
  · exact ⟨g, k⟩
  · split
    · exact ⟨g, k⟩
    · exact ⟨g, k⟩

/-- A result with 1 to 256 palette entries whose cached palettes have the same number of entries. -/
structure QuantizationResult.Good (q : QuantizationResult F) : Prop where
  pos : 1 ≤ q.palette.length
  le : q.palette.length ≤ 256
  int : q.intPalette = [] ∨ q.intPalette.length = q.palette.length
  rem : ∀ re, q.remapped = some re → re.intPalette.length = q.palette.length

/-- images made by the constructors and changed by any of the functions that take `&mut Image` (a result passed to
`remap_into` has 1 to 256 palette entries; that is what `UserResult.good` shows of all results) -/
inductive UserImage : Image F → Prop
  | fromPixels {buf : List RGBA} {w h stride : ℕ} {gamma : F} {img : Image F} :
      Image.newStride buf w h stride gamma = .ok img → UserImage img
  | fromCallback {f : ℕ → ℕ → RGBA} {w h : ℕ} {gamma : F} {img : Image F} :
      Image.newFn f w h gamma = .ok img → UserImage img
  | importance {img img' : Image F} {m : List UInt8} : UserImage img → img.setImportanceMap m = .ok img' → UserImage img'
  | background {img img' bg : Image F} : UserImage img → UserImage bg → img.setBackground bg = .ok img' → UserImage img'
  | fixed {img img' : Image F} {c : RGBA} : UserImage img → img.addFixedColor c = .ok img' → UserImage img'
  | histogram {img : Image F} (ho : HashOrder) (h : Histogram F) (attr : Attr F) (log : List F) :
      UserImage img → UserImage (h.addImage ho attr img log).1.2.2
  | remap {img : Image F} (env : RemapEnv F) (q : QuantizationResult F) (buf : List (Option UInt8)) (log : List F) :
      UserImage img → q.Good → UserImage (remapInto env q img buf log).image

/-- results of quantization after any use -/
inductive UserResult : QuantizationResult F → Prop
  | quantized (env : Env F) (cs : List Call) (cb : Option (List F → Bool)) (h : Histogram F) (freeze : Bool)
      (log log' : List F) {r : QuantizationResult F} :
      h.quantizeInternal env (userAttr cs cb) freeze log = (.ok r, log') → UserResult r
  | level {r r' : QuantizationResult F} {v : F} : UserResult r → r.setDitheringLevel v = .ok r' → UserResult r'
  | gamma {r r' : QuantizationResult F} {v : F} : UserResult r → r.setOutputGamma v = .ok r' → UserResult r'
  | callback {r : QuantizationResult F} (cb : Option (List F → Bool)) :
      UserResult r → UserResult { r with progressCallback := cb }
  | palette {r : QuantizationResult F} : UserResult r → UserResult r.getPalette.1
  | clone {r : QuantizationResult F} : UserResult r → UserResult r.clone
  | remap {r : QuantizationResult F} {img : Image F} (env : RemapEnv F) (buf : List (Option UInt8)) (log : List F) :
      UserResult r → UserImage img → UserResult (remapInto env r img buf log).quant

/-- the state in which `remap_into` begins -/
def remapStart (q : QuantizationResult F) (img : Image F) (buf : List (Option UInt8)) (log : List F) : RemapState F :=
  ⟨q, img, chunksExact img.width (buf.take (img.width * img.height)), log, false⟩

/-- What `remap_into` does for every kind of float arithmetic. -/
structure RemapIntoSpec (env : RemapEnv F) (q : QuantizationResult F) (img : Image F) (buf : List (Option UInt8))
    (log : List F) (r : RemapIntoOut F) : Prop where
  small : buf.length < img.width * img.height →
    r = ⟨.error (.err .bufferTooSmall), q, img, buf, log, false⟩
  run : img.width * img.height ≤ buf.length →
    (∃ s : RemapState F, RemapDone env (remapStart q img buf log) r.res s ∧ r.quant = s.quant ∧ r.image = s.image ∧
      r.log = s.log ∧ r.uninit = s.uninit ∧ r.buf = s.out.flatten ++ buf.drop (img.width * img.height) ∧
      writeRemapped env (remapStart q img buf log) = (r.res, s))

theorem remapInto_spec (env : RemapEnv F) {q : QuantizationResult F} {img : Image F} (buf : List (Option UInt8))
    (log : List F) (hq : q.Good) (hi : img.Good) : RemapIntoSpec env q img buf log (remapInto env q img buf log) := by
  unfold remapInto
  refine ⟨fun h => ?_, fun h => ?_⟩
  · dsimp only; rw [if_pos h]
  · dsimp only
    rw [if_neg (by omega)]
    obtain ⟨c1, c2, _⟩ := chunksExact_rows (h := img.height) hi.width_pos (buf.take (img.width * img.height))
      (by rw [List.length_take]; omega)
    have spec := writeRemapped_spec env (s := remapStart q img buf log) hi ⟨c1, c2⟩ hq.pos hq.le
    exact ⟨_, spec, rfl, rfl, rfl, rfl, rfl, rfl⟩

theorem RemapIntoSpec.good {env : RemapEnv F} {q : QuantizationResult F} {img : Image F} {buf : List (Option UInt8)}
    {log : List F} {r : RemapIntoOut F} (h : RemapIntoSpec env q img buf log r) (hq : q.Good) (hi : img.Good) :
    r.quant.Good ∧ r.image.Good := by
  by_cases hb : buf.length < img.width * img.height
  · rw [h.small hb]; exact ⟨hq, hi⟩
  · obtain ⟨s, d, e1, e2, _⟩ := h.run (by omega)
    refine ⟨?_, by rw [e2]; exact d.good⟩
    rw [e1]
    by_cases hok : r.res = .ok ()
    · obtain ⟨re, hre, hl, _⟩ := d.done hok
      rw [hre]
      exact ⟨hq.pos, hq.le, hq.int, fun x hx => by cases hx; exact hl⟩
    · rw [d.failed hok]; exact hq

theorem UserImage.good {img : Image F} (h : UserImage img) : img.Good := by
  induction h with
  | fromPixels e => exact newStride_good e
  | fromCallback e => exact (newFn_good e).1
  | importance _ e ih => exact setImportanceMap_good ih e
  | background _ _ e ih1 ih2 => exact setBackground_good ih1 ih2 e
  | fixed _ e ih =>
    unfold Image.addFixedColor at e
    split at e
    · cases e
    · cases e
      exact ⟨ih.px, ih.width_pos, ih.height_pos, ih.importance, ih.edges, ih.ditherMap, ih.background⟩
  | histogram ho h attr log _ ih => exact (addImage_image ho h attr log ih).1
  | remap env q buf log _ hq ih => exact ((remapInto_spec env buf log hq ih).good hq ih).2

theorem getPalette_good {r : QuantizationResult F} (h : r.Good) :
    r.getPalette.1.Good ∧ r.getPalette.2.length = r.palette.length ∧ r.getPalette.1.palette.length = r.palette.length := by
  unfold QuantizationResult.getPalette
  cases hre : r.remapped with
  | some re => exact ⟨h, h.rem re hre, rfl⟩
  | none =>
    simp only
    split
    · have := initIntPalette_length r.palette r.gamma (UInt8.ofNat r.minPosterizationOutput)
      refine ⟨⟨by simp only; rw [this.1]; exact h.pos, by simp only; rw [this.1]; exact h.le, .inr (by simp only; rw [this.1, this.2]),
        (fun re hx => by simp at hx)⟩, this.2, this.1⟩
    next hne =>
      refine ⟨h, ?_, rfl⟩
      rcases h.int with h | h
      · rw [h] at hne; simp at hne
      · exact h

variable [FltSign F]

theorem quantize_good (env : Env F) (cs : List Call) (cb : Option (List F → Bool)) (h : Histogram F) (freeze : Bool)
    (log log' : List F) {r : QuantizationResult F}
    (hq : h.quantizeInternal env (userAttr cs cb) freeze log = (.ok r, log')) :
    r.Good ∧ r.remapped = none ∧ r.intPalette = [] := by
  obtain ⟨h1, h2, h3, _⟩ := C01_palette_size env cs cb h freeze log log' r hq
  have hn : r.remapped = none ∧ r.intPalette = [] := by
    rcases user_outcome env cs cb h freeze log with ⟨-, -, e⟩ | ⟨-, e⟩
    · rw [hq] at e; cases e
    · rw [hq] at e
      cases e with
      | ok _ _ _ _ hr => rw [hr.rest]; exact ⟨rfl, rfl⟩
  exact ⟨⟨h1, by omega, .inl hn.2, fun re hre => by rw [hn.1] at hre; cases hre⟩, hn⟩

theorem UserResult.good {r : QuantizationResult F} (h : UserResult r) : r.Good := by
  induction h with
  | quantized env cs cb h freeze log log' e => exact (quantize_good env cs cb h freeze log log' e).1
  | level _ e ih =>
    unfold QuantizationResult.setDitheringLevel at e
    split at e
    · cases e; exact ⟨ih.pos, ih.le, ih.int, fun re h => by cases h⟩
    · cases e
  | gamma _ e ih =>
    unfold QuantizationResult.setOutputGamma at e
    split at e
    · cases e
    · cases e; exact ⟨ih.pos, ih.le, ih.int, fun re h => by cases h⟩
  | callback cb _ ih => exact ⟨ih.pos, ih.le, ih.int, ih.rem⟩
  | palette _ ih => exact (getPalette_good ih).1
  | clone _ ih => exact ⟨ih.pos, ih.le, ih.int, ih.rem⟩
  | remap env buf log _ hi ih => exact ((remapInto_spec env buf log ih hi.good).good ih hi.good).1

end Verif
