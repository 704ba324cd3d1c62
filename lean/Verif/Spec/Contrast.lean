import Verif.Spec.Filters
import Verif.Spec.Color
import Mathlib.Algebra.Order.Floor.Ring
import Mathlib.Algebra.Order.Archimedean.Real.Basic

/-!
# Specification: the noise map and the edge map of an image

Independent of the model. Both maps are made from the curvature of the image: how far a pixel is from the mean of its
neighbours on both sides.
-/

namespace Verif.Spec

/-- twice the distance from the mean of two colours, in the channel in which that is largest -/
noncomputable def curvature (p q c : Color) : ℝ :=
  max (max |p.a + q.a - 2 * c.a| |p.r + q.r - 2 * c.r|) (max |p.g + q.g - 2 * c.g| |p.b + q.b - 2 * c.b|)

/-- curvature along the row; pixels at the border are their own neighbours -/
noncomputable def curvedH (px : ℕ → ℕ → Color) (w y x : ℕ) : ℝ :=
  curvature (px y (clampPos ((x : ℤ) - 1) w)) (px y (clampPos ((x : ℤ) + 1) w)) (px y x)

/-- curvature along the column -/
noncomputable def curvedV (px : ℕ → ℕ → Color) (h y x : ℕ) : ℝ :=
  curvature (px (clampPos ((y : ℤ) - 1) h) x) (px (clampPos ((y : ℤ) + 1) h) x) (px y x)

/-- a number as a byte: rounded down, at most 255 -/
noncomputable def byteOf (v : ℝ) : ℕ := min 255 ⌊v⌋₊

/-- flat pixels have 255 and pixels whose curvature is 1 in the mean of both directions have 80 -/
noncomputable def rawNoise (px : ℕ → ℕ → Color) (w h y x : ℕ) : ℕ :=
  byteOf (80 + 176 * (1 - (curvedH px w y x + curvedV px h y x) / 2) ^ 4)

/-- flat pixels have 255 and pixels whose curvature is 1 in some direction have 0 -/
noncomputable def rawEdge (px : ℕ → ℕ → Color) (w h y x : ℕ) : ℕ :=
  byteOf (256 * (1 - max (curvedH px w y x) (curvedV px h y x)))

/-- values at the pixels of the image that are at most one step away -/
def around (m : ℕ → ℕ → ℕ) (w h y x : ℕ) : Set ℕ :=
  {v | ∃ y' x', y' < h ∧ x' < w ∧ |(y : ℤ) - y'| + |(x : ℤ) - x'| ≤ 1 ∧ v = m y' x'}

/-- every pixel of `b` is the largest around it in `a` -/
def Grown (w h : ℕ) (a b : ℕ → ℕ → ℕ) : Prop := ∀ y < h, ∀ x < w, IsGreatest (around a w h y x) (b y x)

/-- every pixel of `b` is the smallest around it in `a` -/
def Shrunk (w h : ℕ) (a b : ℕ → ℕ → ℕ) : Prop := ∀ y < h, ∀ x < w, IsLeast (around a w h y x) (b y x)

/-- `b` is the box blur of `a`, unless the map is not larger than the box -/
def Blurred (w h size : ℕ) (a b : ℕ → ℕ → ℕ) : Prop :=
  (2 * size < w ∧ 2 * size < h → ∀ y < h, ∀ x < w, b y x = boxColumn (boxRow a w size) h size y x) ∧
  (¬ (2 * size < w ∧ 2 * size < h) → ∀ y < h, ∀ x < w, b y x = a y x)

/-- The noise map: the flat areas of the raw map are grown twice, which closes thin gaps between them, blurred, grown once
more and shrunk three times. -/
def NoiseMap (w h : ℕ) (raw noise : ℕ → ℕ → ℕ) : Prop :=
  ∃ a b c d e f, Grown w h raw a ∧ Grown w h a b ∧ Blurred w h 3 b c ∧ Grown w h c d ∧ Shrunk w h d e ∧ Shrunk w h e f ∧
    Shrunk w h f noise

/-- The edge map: flat areas are shrunk and grown, and nothing is flatter than in the noise map. -/
def EdgeMap (w h : ℕ) (raw noise edges : ℕ → ℕ → ℕ) : Prop :=
  ∃ a b, Shrunk w h raw a ∧ Grown w h a b ∧ ∀ y < h, ∀ x < w, edges y x = min (noise y x) (b y x)

end Verif.Spec
