import Verif.Spec.Kmeans

/-!
# Specification: the palette is refined on the image

Independent of the model. Before an image is dithered each pixel goes to a nearest colour of the palette, and each
colour moves to the mean of its pixels.
-/

namespace Verif.Spec

/-- the pixels of an image in reading order, as pairs of row and column -/
def reading (w h : ℕ) : List (ℕ × ℕ) := (List.range h).flatMap fun y => (List.range w).map fun x => (y, x)

/-- Every pixel goes to the entry `index y x`, a nearest one, and counts `weight y x`. The palette is `p'` afterwards. -/
structure RefinedOn (w h : ℕ) (px : ℕ → ℕ → Color) (weight : ℕ → ℕ → ℝ) (p : List Slot) (index : ℕ → ℕ → ℕ) (p' : List Slot) :
    Prop where
  nearest : ∀ y < h, ∀ x < w, IsNearest (colorsOf p) (px y x) (index y x)
  length : p'.length = p.length
  moved : ∀ (i : ℕ) (s s' : Slot), p[i]? = some s → p'[i]? = some s' →
    Moved (((reading w h).filter fun z => index z.1 z.2 = i).map fun z => (px z.1 z.2, weight z.1 z.2)) s s'

end Verif.Spec
