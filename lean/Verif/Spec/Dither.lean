import Verif.Model.Pal
import Mathlib.Algebra.BigOperators.Group.Finset.Basic
import Mathlib.Data.Fin.VecNotation
import Mathlib.Data.Real.Basic

/-! # Specification: error diffusion

Floyd-Steinberg in exact arithmetic: the error of the pixel at column `c` goes with 7/16 to the next pixel in the direction
of the scan, and with 3/16, 5/16 and 1/16 to the previous, the same and the next column of the row below. Error rows have
one more cell on each side, so that the cell of column `c` is `c + 1`.
-/

namespace Verif

/-- the four channels -/
def FPixel.chan (p : FPixel ℝ) : Fin 4 → ℝ := ![p.a, p.r, p.g, p.b]

/-- every channel is at most `m` in absolute value -/
def FPixel.Within (p : FPixel ℝ) (m : ℝ) : Prop := ∀ i, |p.chan i| ≤ m

/-- colour channels within [-0.1, 1.1], alpha within [0, 1] -/
def FPixel.InBox (p : FPixel ℝ) : Prop :=
  (-0.1 ≤ p.r ∧ p.r ≤ 1.1) ∧ (-0.1 ≤ p.g ∧ p.g ≤ 1.1) ∧ (-0.1 ≤ p.b ∧ p.b ≤ 1.1) ∧ 0 ≤ p.a ∧ p.a ≤ 1

/-- all channels within [0, 1] -/
def FPixel.InUnit (p : FPixel ℝ) : Prop := ∀ i, 0 ≤ p.chan i ∧ p.chan i ≤ 1

/-- channel `i` of cell `j` of a row of errors -/
noncomputable def cellChan (l : List (FPixel ℝ)) (i : Fin 4) (j : ℕ) : ℝ := ((l[j]?).map (·.chan i)).getD 0

/-- the error `err` of the pixel at column `col` was added to the cells of this row (`a` becomes `a'`) and of the row below
(`b` becomes `b'`); `even` rows are scanned from left to right, the others from right to left -/
def Spreads (w : ℕ) (even : Bool) (col : ℕ) (err : FPixel ℝ) (a b a' b' : List (FPixel ℝ)) : Prop :=
  let ahead := if even then col + 2 else col
  let behind := if even then col else col + 2
  ∀ j ≤ w + 1, ∀ i,
    cellChan a' i j = cellChan a i j + (if j = ahead then 7/16 * err.chan i else 0) ∧
    cellChan b' i j = cellChan b i j + (if j = behind then 3/16 * err.chan i else 0) +
      (if j = col + 1 then 5/16 * err.chan i else 0) + (if j = ahead then 1/16 * err.chan i else 0)

/-- total of a channel over a row of errors -/
noncomputable def totalChan (w : ℕ) (l : List (FPixel ℝ)) (i : Fin 4) : ℝ := ∑ j ∈ Finset.range (w + 2), cellChan l i j

end Verif
