import Verif.Model.Flt
import Verif.Model.Pal

/-! What a histogram is supposed to record, without hash maps: pixels with importances, colours told apart by their
upper bits. -/

namespace Verif.Spec

/-- What a histogram ignoring the lowest `b` bits sees of a colour: the upper bits of the channels; nothing of a fully
transparent one. -/
def seen (b : ℕ) (c : RGBA) : ℕ × ℕ × ℕ × ℕ :=
  if c.a = 0 then (0, 0, 0, 0)
  else (c.r.toNat / 2 ^ b, c.g.toNat / 2 ^ b, c.b.toNat / 2 ^ b, c.a.toNat / 2 ^ b)

/-- total importance of the pixels that look like `c` -/
def importanceOf (b : ℕ) (pixels : List (RGBA × ℕ)) (c : RGBA) : ℕ :=
  ((pixels.filter fun p => decide (seen b p.1 = seen b c)).map (·.2)).sum

/-- the largest `u32` -/
def u32Max : ℕ := 2 ^ 32 - 1

/-- one addition to a histogram: `add_colors`, or the rows of an image with its importance map -/
inductive Addition (F : Type) where
  | colors (entries : List (RGBA × ℕ)) (gamma : F)
  | image (width : ℕ) (rows : List (List RGBA)) (importance : Option (List ℕ)) (posterize : ℕ)

/-- an image has rows of equal length, and as many importances (bytes) as pixels; counts are `u32` -/
def Addition.WellFormed {F : Type} : Addition F → Prop
  | .colors es _ => ∀ e ∈ es, e.2 ≤ u32Max
  | .image w rows imp _ => 0 < w ∧ (∀ r ∈ rows, r.length = w) ∧
      ∀ m, imp = some m → m.length = w * rows.length ∧ ∀ x ∈ m, x ≤ 255

/-- the weighted pixels of an addition; without a map every pixel weighs 255 -/
def Addition.pixels {F : Type} : Addition F → List (RGBA × ℕ)
  | .colors es _ => es
  | .image _ rows none _ => rows.flatten.map fun c => (c, 255)
  | .image _ rows (some m) _ => rows.flatten.zip m

end Verif.Spec
