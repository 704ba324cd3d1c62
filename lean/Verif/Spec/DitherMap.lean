import Mathlib.Algebra.Order.Floor.Ring
import Mathlib.Algebra.Order.Archimedean.Real.Basic
import Mathlib.Order.Interval.Finset.Nat

/-!
# Specification: the dither map

Independent of the model. Before an image is dithered its pixels are matched with the palette. A row of the indices found
is divided into runs of the same index, and the map of edges is dimmed where the runs are short and have few equal
neighbours in the rows above and below: dithering is useful in large areas of the same index.
-/

namespace Verif.Spec

/-- A run of the index `v` that begins in column `s` ends in column `e`: the first column in which another index is found,
or the last column of the row. Ignored columns do not end runs. The column in which a run ends is dimmed with it, even
though another index is found there. Column 0 ends no run. -/
structure RunEnd (w : ℕ) (row : ℕ → ℕ) (ignored : ℕ → Prop) (s v e : ℕ) : Prop where
  inside : s ≤ e ∧ 1 ≤ e ∧ e < w
  counts : ¬ ignored (row e)
  last : row e ≠ v ∨ e + 1 = w
  first : ∀ x, s ≤ x → 1 ≤ x → x < e → ignored (row x) ∨ row x = v

/-- runs begin in column 0, and after the ends of runs with the index found there -/
inductive RunStart (w : ℕ) (row : ℕ → ℕ) (ignored : ℕ → Prop) : ℕ → ℕ → Prop
  | first : RunStart w row ignored 0 (row 0)
  | next {s v e : ℕ} : RunStart w row ignored s v → RunEnd w row ignored s v e → RunStart w row ignored (e + 1) (row e)

/-- 10 for each pixel of the run (without its end), and 15 for each pixel above or below it that has the same index -/
def runWeight (h : ℕ) (index : ℕ → ℕ → ℕ) (y s v e : ℕ) : ℕ :=
  10 * (e - s) + 15 * ((Finset.Ico s e).filter fun x => 0 < y ∧ index (y - 1) x = v).card +
    15 * ((Finset.Ico s e).filter fun x => y + 1 < h ∧ index (y + 1) x = v).card

/-- the edge value `e` (0 to 255) is raised to at least a third of the range and multiplied by `n / (n + 20)` -/
noncomputable def dimmed (e n : ℕ) : ℕ := ⌊((e : ℝ) + 128) * (255 / 383) * (n / (n + 20))⌋₊

/-- value of the dither map in row `y` and column `x`; `dim` says what becomes of an edge value in a run of some weight -/
def DitherMapAt (dim : ℕ → ℕ → ℕ) (w h : ℕ) (index : ℕ → ℕ → ℕ) (ignored : ℕ → Prop) (edge : ℕ → ℕ → ℕ) (y x value : ℕ) :
    Prop :=
  ∃ s v, RunStart w (index y) ignored s v ∧ s ≤ x ∧
    ((∃ e, RunEnd w (index y) ignored s v e ∧ x ≤ e ∧ value = dim (edge y x) (runWeight h index y s v e)) ∨
     (∀ e, ¬ RunEnd w (index y) ignored s v e) ∧ value = edge y x)

end Verif.Spec
