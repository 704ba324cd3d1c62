import Mathlib.Algebra.BigOperators.Group.Finset.Basic
import Mathlib.Data.Int.Interval
import Mathlib.Order.Interval.Finset.Basic

/-! # Specification: the filters of the noise maps -/

namespace Verif.Spec

/-- pixel at column `x` of row `y` of a map of the given width -/
def px (m : List UInt8) (width y x : ℕ) : ℕ := (m.getD (y * width + x) 0).toNat

/-- the nearest position inside `0..n` -/
def clampPos (i : ℤ) (n : ℕ) : ℕ := (max 0 (min i ((n : ℤ) - 1))).toNat

/-- mean (rounded down) of the `2 * size` pixels at columns `x - size + 1 … x + size`, clamped at the border -/
noncomputable def boxRow (f : ℕ → ℕ → ℕ) (width size y x : ℕ) : ℕ :=
  (∑ o ∈ Finset.Ioc (-(size : ℤ)) size, f y (clampPos (x + o) width)) / (2 * size)

/-- the same for rows -/
noncomputable def boxColumn (f : ℕ → ℕ → ℕ) (height size y x : ℕ) : ℕ :=
  (∑ o ∈ Finset.Ioc (-(size : ℤ)) size, f (clampPos (y + o) height) x) / (2 * size)

/-- values of a map at the pixels of the image that are at most one step away from `(x, y)` -/
def plusValues (m : List UInt8) (width height y x : ℕ) : Set ℕ :=
  {v | ∃ y' x', y' < height ∧ x' < width ∧
    |(y : ℤ) - y'| + |(x : ℤ) - x'| ≤ 1 ∧ v = Spec.px m width y' x'}

end Verif.Spec
