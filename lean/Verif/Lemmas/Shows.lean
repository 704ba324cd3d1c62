import Verif.Lemmas.RemapRows
import Verif.Lemmas.Metric
import Verif.Lemmas.Convert

/-! # The pixels of an image never change -/

set_option linter.unusedSectionVars false

namespace Verif
open Flt Spec

variable {F : Type} [Flt F]

namespace Rows

/-- every row reads as the conversion of the given 8-bit pixels with the gamma of the image -/
def Shows (r : Rows F) (f : ℕ → ℕ → RGBA) : Prop :=
  ∀ y < r.height, r.rowF y = .ok ((List.range r.width).map fun x => FPixel.fromRgba (gammaLut r.gamma) (f y x))

theorem Same.shows {r r' : Rows F} (h : Same r r') {f : ℕ → ℕ → RGBA} (hs : r.Shows f) : r'.Shows f := by
  intro y hy
  rw [h.height] at hy
  rw [h.rowF y hy, hs y hy, h.width, h.gamma]

theorem Shows.pixel {r : Rows F} {f : ℕ → ℕ → RGBA} (h : r.Shows f) {y x : ℕ} (hy : y < r.height) (hx : x < r.width) :
    (r.pixelsF y)[x]? = some (FPixel.fromRgba (gammaLut r.gamma) (f y x)) := by
  unfold pixelsF
  rw [h y hy]
  simp only
  rw [List.getElem?_map, List.getElem?_range hx]; rfl

end Rows

theorem newFn_shows {f : ℕ → ℕ → RGBA} {w h : ℕ} {gamma : F} {img : Image F}
    (e : Image.newFn f w h gamma = .ok img) : img.px.Shows f ∧ img.background = none := by
  have hr := (newFn_good e).2.2.2
  have hn : img.px.fPixels = none ∧ img.width = w ∧ img.background = none := by
    unfold Image.newFn at e
    rw [toU32_eq, toU32_eq] at e
    split at e
    · split at e
      · simp only [bind, Except.bind] at e
        obtain ⟨_, _, rfl⟩ := newInternal_ok e
        exact ⟨rfl, rfl, rfl⟩
      · cases e
    · cases e
  refine ⟨fun y hy => ?_, hn.2.2⟩
  unfold Rows.rowF
  rw [hn.1]
  simp only
  rw [hr]
  simp only [Except.map, Rows.convertRow, List.map_map]
  rw [show img.px.width = w from hn.2.1]
  rfl

theorem newStride_shows {buf : List RGBA} {w h stride : ℕ} {gamma : F} {img : Image F}
    (e : Image.newStride buf w h stride gamma = .ok img) :
    img.px.Shows (fun y x => buf.getD (y * stride + x) ⟨0, 0, 0, 0⟩) ∧ img.background = none := by
  obtain ⟨hw, hh, hrows⟩ := C16_rows buf w h stride gamma img e
  have hn : img.px.fPixels = none ∧ img.background = none := by
    rw [newStride_eq] at e
    split at e
    · split at e
      · obtain ⟨_, _, rfl⟩ := newInternal_ok e
        exact ⟨rfl, rfl⟩
      · cases e
    · cases e
  refine ⟨fun y hy => ?_, hn.2⟩
  obtain ⟨hin, row, hrow, hlen, hval⟩ := hrows y (by rw [← hh]; exact hy)
  unfold Rows.rowF
  rw [hn.1]
  simp only
  rw [hrow]
  simp only [Except.map, Rows.convertRow]
  have : row = (List.range w).map fun x => buf.getD (y * stride + x) ⟨0, 0, 0, 0⟩ := by
    apply List.ext_getElem?
    intro x
    by_cases hx : x < w
    · rw [hval x hx, List.getElem?_map, List.getElem?_range hx, List.getElem?_eq_getElem (by omega)]
      simp only [Option.map_some, List.getD_eq_getElem?_getD]
      rw [List.getElem?_eq_getElem (by omega)]; rfl
    · rw [List.getElem?_eq_none (by omega), List.getElem?_eq_none (by simp; omega)]
  rw [this, show img.px.width = w from hw, List.map_map]
  rfl

theorem addImage_same (ho : HashOrder) (h : Histogram F) (attr : Attr F) {img : Image F} (log : List F) (hg : img.Good) :
    Rows.Same img.px (h.addImage ho attr img log).1.2.2.px ∧
    (h.addImage ho attr img log).1.2.2.background = img.background := by
  unfold Histogram.addImage
  have hgood : ∃ i, (if img.importanceMap.isNone && attr.useContrastMaps then img.contrastMaps else .ok img) = .ok i ∧
      Rows.Same img.px i.px ∧ i.background = img.background := by
    split
    next hc =>
      obtain ⟨i', e', _, s', _, b', _⟩ := contrastMaps_ok hg
      exact ⟨i', e', s', b'⟩
    · exact ⟨img, rfl, Rows.Same.refl _, rfl⟩
  obtain ⟨i, e, g⟩ := hgood
  rw [e]
  simp only
  split
  · exact g
  · exact g
  · split
    · exact g
    · exact g

theorem remapInto_same (env : RemapEnv F) {q : QuantizationResult F} {img : Image F} (buf : List (Option UInt8))
    (log : List F) (hq : q.Good) (hi : img.Good) :
    Rows.Same img.px (remapInto env q img buf log).image.px ∧
    BgSame img.background (remapInto env q img buf log).image.background := by
  have spec := remapInto_spec env buf log hq hi
  by_cases hb : buf.length < img.width * img.height
  · rw [spec.small hb]; exact ⟨Rows.Same.refl _, BgSame.refl _⟩
  · obtain ⟨s, d, _, e2, _⟩ := spec.run (by omega)
    rw [e2]; exact ⟨d.samePx, d.sameBg⟩

theorem setBackground_px {img bg img' : Image F} (e : img.setBackground bg = .ok img') :
    img'.px = img.px ∧ img'.background = some bg.px := by
  obtain ⟨_, _, _, rfl⟩ := ((C46_background img bg).2.2 img').mp e
  exact ⟨rfl, rfl⟩

/-- the pixels of a user's image and of its background, and the gamma of both -/
theorem UserImage.shows {img : Image F} (h : UserImage img) :
    (∃ f, img.px.Shows f) ∧ ∀ b, img.background = some b → ∃ g, b.Shows g := by
  induction h with
  | fromPixels e =>
    have := newStride_shows e
    exact ⟨⟨_, this.1⟩, fun b hb => by rw [this.2] at hb; cases hb⟩
  | fromCallback e =>
    have := newFn_shows e
    exact ⟨⟨_, this.1⟩, fun b hb => by rw [this.2] at hb; cases hb⟩
  | importance _ e ih =>
    rw [C46_importance_map] at e
    split at e
    · cases e; exact ih
    · cases e
  | background _ _ e ih1 ih2 =>
    obtain ⟨h1, h2⟩ := setBackground_px e
    rw [h1, h2]
    exact ⟨ih1.1, fun b hb => by cases hb; exact ih2.1⟩
  | fixed _ e ih =>
    unfold Image.addFixedColor at e
    split at e
    · cases e
    · cases e; exact ih
  | histogram ho h attr log hi ih =>
    obtain ⟨s, b⟩ := addImage_same ho h attr log hi.good
    rw [b]
    obtain ⟨⟨f, hf⟩, hb⟩ := ih
    exact ⟨⟨f, s.shows hf⟩, hb⟩
  | @remap img env q buf log hi hq ih =>
    obtain ⟨s, b⟩ := remapInto_same env buf log hq hi.good
    obtain ⟨⟨f, hf⟩, hb⟩ := ih
    refine ⟨⟨f, s.shows hf⟩, fun b' hb' => ?_⟩
    rw [hb'] at b
    cases hbg : img.background with
    | none => rw [hbg] at b; simp only [BgSame] at b
    | some b0 =>
      rw [hbg] at b
      simp only [BgSame] at b
      obtain ⟨g, hg⟩ := hb b0 hbg
      exact ⟨g, b.shows hg⟩

namespace Spec

/-- the colour, in the space in which differences are measured, of an 8-bit colour of an image with gamma `γ`:
premultiplied, with exponent `0.57 / γ` and the weights 0.625, 0.5, 1 and 0.45 of alpha, red, green and blue -/
noncomputable def colorOf (γ : ℝ) (c : RGBA) : Color :=
  let α : ℝ := (c.a.toNat : ℝ) / 255
  let lin (x : UInt8) : ℝ := ((x.toNat : ℝ) / 255) ^ (0.57 / γ)
  ⟨α * 0.625, lin c.r * α * 0.5, lin c.g * α * 1, lin c.b * α * 0.45⟩

end Spec

theorem fromRgba_spec (γ : ℝ) (c : RGBA) : (FPixel.fromRgba (gammaLut γ) c).spec = colorOf γ c := by
  unfold FPixel.fromRgba FPixel.spec colorOf
  simp only [gammaLut_real, Color.mk.injEq, real_mul32, real_div32, real_lit32, weightA, weightR, weightG, weightB]
  refine ⟨?_, ?_, ?_, ?_⟩ <;> push_cast <;> norm_num <;> ring

end Verif
