import Verif.Lemmas.ContrastSpec
import Verif.Lemmas.DitherPrep
import Verif.Props.Remap

/-! # C64: the noise map and the edge map -/

set_option linter.unusedSectionVars false

namespace Verif
open Flt Spec

theorem skips_iff (w h : ℕ) : Image.skipsContrastMaps w h = false ↔ 4 ≤ w ∧ 4 ≤ h ∧ 3 * w * h ≤ 2 ^ 26 := by
  unfold Image.skipsContrastMaps highMemoryLimit
  simp [and_assoc]

/-- the image after `add_image` -/
theorem addImage_mapped {F : Type} [Flt F] (ho : HashOrder) (hist : Histogram F) (attr : Attr F) (img : Image F) (log : List F)
    {img' : Image F} (h : (if img.importanceMap.isNone && attr.useContrastMaps then img.contrastMaps else .ok img) = .ok img') :
    (hist.addImage ho attr img log).1.2.2 = img' := by
  unfold Histogram.addImage
  rw [h]
  simp only
  split
  · rfl
  · rfl
  · split <;> rfl

/-- **C64** (exact arithmetic). Adding an image without importance map to a histogram makes its noise map (which becomes the
importance map) and its edge map, unless the settings do not want them or the image is smaller than four pixels or very large. The
bytes of the raw maps are given by the curvature of the image in both directions, and those of the final maps by the filters.
An importance map that the user has set is kept. -/
theorem C64_maps (ho : HashOrder) (hist : Histogram ℝ) (attr : Attr ℝ) {img : Image ℝ} (hi : UserImage img)
    {f : ℕ → ℕ → RGBA} (hf : img.px.Shows f) (log : List ℝ) :
    let img' := (hist.addImage ho attr img log).1.2.2
    let px := fun y x => colorOf img.px.gamma (f y x)
    (img.importanceMap = none → attr.useContrastMaps = true → 4 ≤ img.width → 4 ≤ img.height →
      3 * img.width * img.height ≤ 2 ^ 26 →
      ∃ noise edges, img'.importanceMap = some noise ∧ img'.edges = some edges ∧
        NoiseMap img.width img.height (rawNoise px img.width img.height) (Spec.px noise img.width) ∧
        EdgeMap img.width img.height (rawEdge px img.width img.height) (Spec.px noise img.width) (Spec.px edges img.width)) ∧
    (img.importanceMap ≠ none ∨ attr.useContrastMaps = false ∨ img.width < 4 ∨ img.height < 4 ∨
      2 ^ 26 < 3 * img.width * img.height → img'.importanceMap = img.importanceMap ∧ img'.edges = img.edges) := by
  intro img' px
  obtain ⟨img1, e1, -, -, -, -, -, -, hc⟩ := contrastMaps_ok hi.good
  constructor
  · intro h1 h2 h3 h4 h5
    have hs := (skips_iff _ _).mpr ⟨h3, h4, h5⟩
    have : img' = img1 := addImage_mapped ho hist attr img log (by rw [h1, h2]; simpa using e1)
    rw [this]
    exact contrastMaps_at hi.good hf hs e1
  · intro h
    have hsame : img' = img := by
      by_cases hm : (img.importanceMap.isNone && attr.useContrastMaps) = true
      · rcases hc with ⟨-, rfl⟩ | ⟨hs, -⟩
        · exact addImage_mapped ho hist attr img1 log (by rw [if_pos hm]; exact e1)
        · exfalso
          simp only [Bool.and_eq_true, Option.isNone_iff_eq_none] at hm
          have := (skips_iff _ _).mp hs
          rcases h with h | h | h | h | h
          · exact h hm.1
          · rw [hm.2] at h; cases h
          · omega
          · omega
          · omega
      · exact addImage_mapped ho hist attr img log (by rw [if_neg hm])
    rw [hsame]
    exact ⟨rfl, rfl⟩

/-- The maps are determined by the image. -/
theorem C64_unique {w h : ℕ} {raw rawE noise noise' edges edges' : ℕ → ℕ → ℕ} (h1 : NoiseMap w h raw noise) (h2 : NoiseMap w h raw noise')
    (h3 : EdgeMap w h rawE noise edges) (h4 : EdgeMap w h rawE noise' edges') :
    ∀ y < h, ∀ x < w, noise y x = noise' y x ∧ edges y x = edges' y x := by
  have grown : ∀ {a a' b b' : ℕ → ℕ → ℕ}, (∀ y < h, ∀ x < w, a y x = a' y x) → Grown w h a b → Grown w h a' b' →
      ∀ y < h, ∀ x < w, b y x = b' y x := fun he g g' y hy x hx => ((g.congr he) y hy x hx).unique (g' y hy x hx)
  have shrunk : ∀ {a a' b b' : ℕ → ℕ → ℕ}, (∀ y < h, ∀ x < w, a y x = a' y x) → Shrunk w h a b → Shrunk w h a' b' →
      ∀ y < h, ∀ x < w, b y x = b' y x := fun he g g' y hy x hx => ((g.congr he) y hy x hx).unique (g' y hy x hx)
  have blurred : ∀ {a a' b b' : ℕ → ℕ → ℕ}, (∀ y < h, ∀ x < w, a y x = a' y x) → Blurred w h 3 a b → Blurred w h 3 a' b' →
      ∀ y < h, ∀ x < w, b y x = b' y x := by
    intro a a' b b' he g g' y hy x hx
    by_cases hc : 2 * 3 < w ∧ 2 * 3 < h
    · rw [g.1 hc y hy x hx, g'.1 hc y hy x hx]
      unfold boxColumn boxRow
      congr 1
      refine Finset.sum_congr rfl fun o _ => ?_
      congr 1
      refine Finset.sum_congr rfl fun o' _ => ?_
      exact he _ (by unfold clampPos; omega) _ (by unfold clampPos; omega)
    · rw [g.2 hc y hy x hx, g'.2 hc y hy x hx, he y hy x hx]
  obtain ⟨a, b, c, d, e, f, a1, a2, a3, a4, a5, a6, a7⟩ := h1
  obtain ⟨a', b', c', d', e', f', b1, b2, b3, b4, b5, b6, b7⟩ := h2
  obtain ⟨g, i, c1, c2, c3⟩ := h3
  obtain ⟨g', i', d1, d2, d3⟩ := h4
  have k1 := grown (fun _ _ _ _ => rfl) a1 b1
  have k2 := grown k1 a2 b2
  have k3 := blurred k2 a3 b3
  have k4 := grown k3 a4 b4
  have k5 := shrunk k4 a5 b5
  have k6 := shrunk k5 a6 b6
  have k7 := shrunk k6 a7 b7
  have m1 := shrunk (fun _ _ _ _ => rfl) c1 d1
  have m2 := grown m1 c2 d2
  intro y hy x hx
  exact ⟨k7 y hy x hx, by rw [c3 y hy x hx, d3 y hy x hx, k7 y hy x hx, m2 y hy x hx]⟩

/-- a flat image: both maps are 255 everywhere -/
theorem C64_flat {w h : ℕ} {px : ℕ → ℕ → Color} {noise edges : ℕ → ℕ → ℕ} {c : Color} (hpx : ∀ y x, px y x = c)
    (h1 : NoiseMap w h (rawNoise px w h) noise) (h2 : EdgeMap w h (rawEdge px w h) noise edges) :
    ∀ y < h, ∀ x < w, noise y x = 255 ∧ edges y x = 255 := by
  have hcurv : curvature c c c = 0 := by
    unfold curvature
    have : ∀ t : ℝ, |t + t - 2 * t| = 0 := fun t => by rw [abs_eq_zero]; ring
    simp [this]
  have hb : byteOf 256 = 255 := by
    unfold byteOf
    have : ⌊(256 : ℝ)⌋₊ = 256 := by exact_mod_cast Nat.floor_natCast (R := ℝ) 256
    rw [this]; rfl
  have hr1 : ∀ y < h, ∀ x < w, rawNoise px w h y x = 255 := by
    intro y _ x _
    unfold rawNoise curvedH curvedV
    simp only [hpx, hcurv]
    rw [show (80 : ℝ) + 176 * (1 - (0 + 0) / 2) ^ 4 = 256 by norm_num, hb]
  have hr2 : ∀ y < h, ∀ x < w, rawEdge px w h y x = 255 := by
    intro y _ x _
    unfold rawEdge curvedH curvedV
    simp only [hpx, hcurv]
    rw [show (256 : ℝ) * (1 - max 0 0) = 256 by norm_num, hb]
  have grown : ∀ {a b : ℕ → ℕ → ℕ}, (∀ y < h, ∀ x < w, a y x = 255) → Grown w h a b → ∀ y < h, ∀ x < w, b y x = 255 := by
    intro a b ha g y hy x hx
    obtain ⟨y', x', k1, k2, -, k3⟩ := (g y hy x hx).1
    rw [k3, ha y' k1 x' k2]
  have shrunk : ∀ {a b : ℕ → ℕ → ℕ}, (∀ y < h, ∀ x < w, a y x = 255) → Shrunk w h a b → ∀ y < h, ∀ x < w, b y x = 255 := by
    intro a b ha g y hy x hx
    obtain ⟨y', x', k1, k2, -, k3⟩ := (g y hy x hx).1
    rw [k3, ha y' k1 x' k2]
  have blurred : ∀ {a b : ℕ → ℕ → ℕ}, (∀ y < h, ∀ x < w, a y x = 255) → Blurred w h 3 a b → ∀ y < h, ∀ x < w, b y x = 255 := by
    intro a b ha g y hy x hx
    by_cases hc : 2 * 3 < w ∧ 2 * 3 < h
    · rw [g.1 hc y hy x hx]
      have hrow : ∀ y < h, ∀ x < w, boxRow a w 3 y x = 255 := by
        intro y hy x hx
        unfold boxRow
        rw [Finset.sum_congr rfl (g := fun _ => 255) fun o _ => ha y hy _ (by unfold clampPos; omega)]
        simp
      unfold boxColumn
      rw [Finset.sum_congr rfl (g := fun _ => 255) fun o _ => hrow _ (by unfold clampPos; omega) x hx]
      simp
    · rw [g.2 hc y hy x hx, ha y hy x hx]
  obtain ⟨a, b, c, d, e, f, a1, a2, a3, a4, a5, a6, a7⟩ := h1
  obtain ⟨g, i, c1, c2, c3⟩ := h2
  have k := shrunk (shrunk (shrunk (grown (blurred (grown (grown hr1 a1) a2) a3) a4) a5) a6) a7
  have m := grown (shrunk hr2 c1) c2
  intro y hy x hx
  exact ⟨k y hy x hx, by rw [c3 y hy x hx, k y hy x hx, m y hy x hx]; rfl⟩

/-! ### Examples -/

/-- an image that gets maps -/
example : ∃ (img : Image ℝ) (f : ℕ → ℕ → RGBA), UserImage img ∧ img.px.Shows f ∧ img.importanceMap = none ∧
    4 ≤ img.width ∧ 4 ≤ img.height ∧ 3 * img.width * img.height ≤ 2 ^ 26 ∧ (Attr.new : Attr ℝ).useContrastMaps = true := by
  obtain ⟨img, hi, w, h, hm, -⟩ := example_image (fun y x => ⟨UInt8.ofNat y, UInt8.ofNat x, 3, 255⟩) (w := 5) (h := 5) (by omega) (by omega) (by omega) (by omega)
  obtain ⟨⟨f, hf⟩, -⟩ := hi.shows
  exact ⟨img, f, hi, hf, hm, by omega, by omega, by rw [w, h]; norm_num, rfl⟩

/-- A pixel beside an edge: its left neighbour is brighter by a half, all others are equal to it. -/
example : rawNoise (fun _ x => ⟨1, 0, if x = 0 then 1/2 else 0, 0⟩) 5 5 2 1 = 135 ∧
    rawEdge (fun _ x => ⟨1, 0, if x = 0 then 1/2 else 0, 0⟩) 5 5 2 1 = 128 := by
  have h1 : curvedH (fun _ x => ⟨1, 0, if x = 0 then 1/2 else 0, 0⟩) 5 2 1 = 1/2 := by
    norm_num [curvedH, curvature, clampPos]
  have h2 : curvedV (fun _ x => ⟨1, 0, if x = 0 then 1/2 else 0, 0⟩) 5 2 1 = 0 := by
    norm_num [curvedV, curvature, clampPos]
  unfold rawNoise rawEdge byteOf
  rw [h1, h2]
  constructor
  · have : ⌊(80 + 176 * (1 - (1/2 + 0) / 2) ^ 4 : ℝ)⌋₊ = 135 := by
      rw [Nat.floor_eq_iff (by norm_num)]; norm_num
    rw [this]; rfl
  · have : ⌊(256 * (1 - max (1/2) 0) : ℝ)⌋₊ = 128 := by
      rw [Nat.floor_eq_iff (by norm_num)]; norm_num
    rw [this]; rfl

end Verif
