import Verif.Lemmas.Contrast
import Verif.Lemmas.Shows
import Verif.Lemmas.RemapExact
import Verif.Spec.Contrast

/-! # Contrast maps: what their bytes are -/

set_option linter.unusedSectionVars false

namespace Verif
open Flt Blur Spec

variable {F : Type} [Flt F]

theorem max3_grown {src dst : List UInt8} {w h : ℕ} (hsrc : src.length = w * h) (hdst : dst.length = w * h) (hw : 0 < w) :
    ∃ out, max3 src dst w h = .ok out ∧ out.length = w * h ∧ Grown w h (Spec.px src w) (Spec.px out w) := C35_max src dst w h hsrc hdst hw

theorem min3_shrunk {src dst : List UInt8} {w h : ℕ} (hsrc : src.length = w * h) (hdst : dst.length = w * h) (hw : 0 < w) :
    ∃ out, min3 src dst w h = .ok out ∧ out.length = w * h ∧ Shrunk w h (Spec.px src w) (Spec.px out w) := C35_min src dst w h hsrc hdst hw

theorem blur_blurred {src tmp : List UInt8} {w h : ℕ} (s : ℕ) (hsrc : src.length = w * h) (htmp : tmp.length = w * h)
    (hs : 0 < s) (hs' : s ≤ 128) :
    ∃ out tmp', blur src tmp w h s = .ok (out, tmp') ∧ out.length = w * h ∧ tmp'.length = w * h ∧
      Blurred w h s (Spec.px src w) (Spec.px out w) := by
  obtain ⟨o, t, e, l1, l2, h1, h2⟩ := C35_blur src tmp w h s hsrc htmp hs hs'
  exact ⟨o, t, e, l1, l2, h1, fun h y _ x _ => by rw [h2 h]⟩

/-- the filters -/
theorem filterMaps_at {noise edges : List UInt8} {w h : ℕ} (hn : noise.length = w * h) (he : edges.length = w * h) (hw : 0 < w) :
    ∃ n e, Image.filterMaps noise edges w h = .ok (n, e) ∧ NoiseMap w h (Spec.px noise w) (Spec.px n w) ∧
      EdgeMap w h (Spec.px edges w) (Spec.px n w) (Spec.px e w) := by
  unfold Image.filterMaps
  have h0 : (List.replicate (w * h) (0 : UInt8)).length = w * h := by simp
  obtain ⟨t1, e1, l1, r1⟩ := max3_grown hn h0 hw
  obtain ⟨n1, e2, l2, r2⟩ := max3_grown l1 hn hw
  obtain ⟨n2, t2, e3, l3, l3', r3⟩ := blur_blurred 3 l2 l1 (by omega) (by omega)
  obtain ⟨t3, e4, l4, r4⟩ := max3_grown l3 l3' hw
  obtain ⟨n3, e5, l5, r5⟩ := min3_shrunk l4 l3 hw
  obtain ⟨t4, e6, l6, r6⟩ := min3_shrunk l5 l4 hw
  obtain ⟨n4, e7, l7, r7⟩ := min3_shrunk l6 l5 hw
  obtain ⟨t5, e8, l8, r8⟩ := min3_shrunk he l6 hw
  obtain ⟨g1, e9, l9, r9⟩ := max3_grown l8 he hw
  simp only [bind, Except.bind]
  rw [e1]; simp only
  rw [e2]; simp only
  rw [e3]; simp only
  rw [e4]; simp only
  rw [e5]; simp only
  rw [e6]; simp only
  rw [e7]; simp only
  rw [e8]; simp only
  rw [e9]
  refine ⟨n4, _, rfl, ⟨_, _, _, _, _, _, r1, r2, r3, r4, r5, r6, r7⟩, _, _, r8, r9, fun y hy x hx => ?_⟩
  have hlt : y * w + x < w * h := by rw [Nat.mul_comm w h]; exact pos_lt hy hx
  unfold Spec.px
  simp only [List.getD_eq_getElem?_getD, List.getElem?_zipWith]
  rw [List.getElem?_eq_getElem (by omega), List.getElem?_eq_getElem (by omega)]
  simp only [Option.getD_some]
  generalize n4[y * w + x] = a
  generalize g1[y * w + x] = b
  show (if a ≤ b then a else b).toNat = _
  by_cases h : a ≤ b
  · have h' : a.toNat ≤ b.toNat := UInt8.le_iff_toNat_le.mp h
    rw [if_pos h]; omega
  · have h' : ¬ a.toNat ≤ b.toNat := fun k => h (UInt8.le_iff_toNat_le.mpr k)
    rw [if_neg h]; omega

/-- the raw bytes, one pixel after the other -/
theorem clampedMaps_at (rows : List (List (FPixel F))) {w h y x : ℕ} (hy : y < h) (hx : x < w) :
    (clampedMaps rows w h)[y * w + x]? =
      some (Image.noisePixel ((rows.getD y []).getD (x - 1) FPixel.default) ((rows.getD y []).getD x FPixel.default)
        ((rows.getD y []).getD (min (x + 1) (w - 1)) FPixel.default)
        ((rows.getD (y - 1) []).getD x FPixel.default) ((rows.getD (min (y + 1) (h - 1)) []).getD x FPixel.default)) := by
  unfold clampedMaps clampedRows
  simp only
  rw [List.flatMap_def, flatten_getElem? (w := w) (y := y) (x := x) ?_ (by rw [List.getElem?_map, List.getElem?_range hy]; rfl) hx,
    List.getElem?_map, List.getElem?_range hx]
  · rfl
  · intro r hr
    obtain ⟨y, -, rfl⟩ := List.mem_map.mp hr
    simp

theorem Spec.Grown.congr {w h : ℕ} {a a' b : ℕ → ℕ → ℕ} (he : ∀ y < h, ∀ x < w, a y x = a' y x) (hg : Grown w h a b) : Grown w h a' b := by
  have : ∀ y x, around a w h y x = around a' w h y x := by
    intro y x
    ext v
    constructor
    · rintro ⟨y', x', h1, h2, h3, h4⟩
      exact ⟨y', x', h1, h2, h3, h4.trans (he _ h1 _ h2)⟩
    · rintro ⟨y', x', h1, h2, h3, h4⟩
      exact ⟨y', x', h1, h2, h3, h4.trans (he _ h1 _ h2).symm⟩
  intro y hy x hx
  rw [← this y x]
  exact hg y hy x hx

theorem Spec.Shrunk.congr {w h : ℕ} {a a' b : ℕ → ℕ → ℕ} (he : ∀ y < h, ∀ x < w, a y x = a' y x) (hg : Shrunk w h a b) : Shrunk w h a' b := by
  have : ∀ y x, around a w h y x = around a' w h y x := by
    intro y x
    ext v
    constructor
    · rintro ⟨y', x', h1, h2, h3, h4⟩
      exact ⟨y', x', h1, h2, h3, h4.trans (he _ h1 _ h2)⟩
    · rintro ⟨y', x', h1, h2, h3, h4⟩
      exact ⟨y', x', h1, h2, h3, h4.trans (he _ h1 _ h2).symm⟩
  intro y hy x hx
  rw [← this y x]
  exact hg y hy x hx

/-! ### Exact arithmetic -/

theorem contrast_real (a b c : FPixel ℝ) : Image.contrast a b c = curvature a.spec b.spec c.spec := by
  unfold Image.contrast curvature FPixel.spec
  simp only [real_abs, real_max, real_sub32, real_add32, real_mul32, real_lit32]
  push_cast
  simp only [mul_comm _ (2 : ℝ)]

theorem byteOf_real (v : ℝ) : (toU8 v).toNat = byteOf v := by
  rw [real_toU8]
  have : Nat.min 255 ⌊v⌋₊ = min 255 ⌊v⌋₊ := rfl
  rw [this, UInt8.toNat_ofNat_of_lt' (by simp only [UInt8.size]; omega)]
  rfl

/-- the bytes of a pixel: the noise depends on the mean of the curvatures and the edge on the larger one -/
theorem noisePixel_real (p c n u d : FPixel ℝ) :
    (Image.noisePixel p c n u d).1.toNat = byteOf (80 + 176 * (1 - (curvature p.spec n.spec c.spec + curvature u.spec d.spec c.spec) / 2) ^ 4) ∧
    (Image.noisePixel p c n u d).2.toNat = byteOf (256 * (1 - max (curvature p.spec n.spec c.spec) (curvature u.spec d.spec c.spec))) := by
  unfold Image.noisePixel
  simp only [byteOf_real, contrast_real, real_abs, real_max, real_min, real_sub32, real_mul32, real_fma32, real_lit32]
  generalize curvature p.spec n.spec c.spec = H
  generalize curvature u.spec d.spec c.spec = V
  push_cast
  constructor
  · congr 1
    have : max (|H - V| * (-1 / 2) + max H V) (min H V) = (H + V) / 2 := by
      rcases le_total H V with h | h
      · rw [max_eq_right h, min_eq_left h, abs_of_nonpos (by linarith), max_eq_left (by linarith)]; ring
      · rw [max_eq_left h, min_eq_right h, abs_of_nonneg (by linarith), max_eq_left (by linarith)]; ring
    rw [this]; ring
  · congr 1; ring

/-- what `contrast_maps` computes -/
theorem contrastMaps_at {img img' : Image ℝ} (hg : img.Good) {f : ℕ → ℕ → RGBA} (hf : img.px.Shows f)
    (hs : Image.skipsContrastMaps img.width img.height = false) (hok : img.contrastMaps = .ok img') :
    ∃ noise edges, img'.importanceMap = some noise ∧ img'.edges = some edges ∧
      NoiseMap img.width img.height (rawNoise (fun y x => colorOf img.px.gamma (f y x)) img.width img.height) (Spec.px noise img.width) ∧
      EdgeMap img.width img.height (rawEdge (fun y x => colorOf img.px.gamma (f y x)) img.width img.height)
        (Spec.px noise img.width) (Spec.px edges img.width) := by
  unfold Image.contrastMaps at hok
  rw [if_neg (by rw [hs]; simp)] at hok
  obtain ⟨r', rows, e, same, hfp⟩ := Rows.allRowsF_ok hg.px
  simp only [bind, Except.bind] at hok
  rw [e] at hok
  simp only at hok
  rw [rawMaps_eq hg.width_pos hg.height_pos (allRows_shape hg.px same hfp)] at hok
  simp only at hok
  have hl := clampedMaps_length rows img.width img.height
  have hl1 : ((clampedMaps rows img.width img.height).map (·.1)).length = img.width * img.height := by simpa using hl
  have hl2 : ((clampedMaps rows img.width img.height).map (·.2)).length = img.width * img.height := by simpa using hl
  obtain ⟨n, g, ef, hN, hE⟩ := filterMaps_at hl1 hl2 hg.width_pos
  rw [ef] at hok
  cases hok
  have hat : ∀ y < img.height, ∀ x < img.width, ((rows.getD y []).getD x FPixel.default).spec = colorOf img.px.gamma (f y x) := by
    intro y hy x hx
    have h1 := (same.shows hf) y (by rw [same.height]; exact hy)
    unfold Rows.rowF at h1
    rw [hfp] at h1
    simp only [index] at h1
    cases hrow : rows[y]? with
    | none => rw [hrow] at h1; cases h1
    | some row =>
      rw [hrow] at h1
      have h2 : row = _ := Except.ok.inj h1
      rw [List.getD_eq_getElem?_getD, List.getD_eq_getElem?_getD, hrow, Option.getD_some, h2, List.getElem?_map,
        List.getElem?_range (by rw [same.width]; exact hx)]
      simp only [Option.map_some, Option.getD_some]
      rw [fromRgba_spec, same.gamma]
  have hw := hg.width_pos
  have hh := hg.height_pos
  have hraw : ∀ y < img.height, ∀ x < img.width,
      Spec.px ((clampedMaps rows img.width img.height).map (·.1)) img.width y x =
        rawNoise (fun y x => colorOf img.px.gamma (f y x)) img.width img.height y x ∧
      Spec.px ((clampedMaps rows img.width img.height).map (·.2)) img.width y x =
        rawEdge (fun y x => colorOf img.px.gamma (f y x)) img.width img.height y x := by
    intro y hy x hx
    have h1 := clampedMaps_at rows hy hx
    unfold Spec.px
    rw [List.getD_eq_getElem?_getD, List.getD_eq_getElem?_getD, List.getElem?_map, List.getElem?_map, h1]
    simp only [Option.map_some, Option.getD_some]
    rw [(noisePixel_real _ _ _ _ _).1, (noisePixel_real _ _ _ _ _).2]
    rw [hat y hy (x - 1) (by omega), hat y hy x hx, hat y hy (min (x + 1) (img.width - 1)) (by omega),
      hat (y - 1) (by omega) x hx, hat (min (y + 1) (img.height - 1)) (by omega) x hx]
    unfold rawNoise rawEdge curvedH curvedV
    have c1 : clampPos ((x : ℤ) - 1) img.width = x - 1 := by unfold clampPos; omega
    have c2 : clampPos ((x : ℤ) + 1) img.width = min (x + 1) (img.width - 1) := by unfold clampPos; omega
    have c3 : clampPos ((y : ℤ) - 1) img.height = y - 1 := by unfold clampPos; omega
    have c4 : clampPos ((y : ℤ) + 1) img.height = min (y + 1) (img.height - 1) := by unfold clampPos; omega
    rw [c1, c2, c3, c4]
    exact ⟨rfl, rfl⟩
  refine ⟨n, g, rfl, rfl, ?_, ?_⟩
  · obtain ⟨a, b, c, d, e, f, h1, rest⟩ := hN
    exact ⟨a, b, c, d, e, f, h1.congr fun y hy x hx => (hraw y hy x hx).1, rest⟩
  · obtain ⟨a, b, h1, rest⟩ := hE
    exact ⟨a, b, h1.congr fun y hy x hx => (hraw y hy x hx).2, rest⟩

end Verif
