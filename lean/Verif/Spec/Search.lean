import Verif.Spec.Color
import Mathlib.Order.ConditionallyCompleteLattice.Basic
import Mathlib.Algebra.Order.Archimedean.Real.Basic

/-!
# Specification: error of a palette, one step of refinement

Independent of the model: `colours` is a list of colours with weights, a palette a list of colours.
-/

namespace Verif.Spec

/-- difference of a colour to the nearest colour of a palette -/
noncomputable def distTo (pal : List Color) (c : Color) : ℝ := sInf {d | ∃ e ∈ pal, d = diff c e}

/-- weighted mean of the differences of the colours to their nearest palette colours -/
noncomputable def meanError (colours : List (Color × ℝ)) (pal : List Color) : ℝ :=
  (colours.map fun x => x.2 * distTo pal x.1).sum / (colours.map (·.2)).sum

/-- weighted mean of colours -/
noncomputable def meanColor (l : List (Color × ℝ)) : Color :=
  let w := (l.map (·.2)).sum
  ⟨(l.map fun x => x.1.a * x.2).sum / w, (l.map fun x => x.1.r * x.2).sum / w,
    (l.map fun x => x.1.g * x.2).sum / w, (l.map fun x => x.1.b * x.2).sum / w⟩

/-- The palette `new` is one refinement of the palette `old` (whose colours may be marked as fixed): with some
weights `≥ 0` given to the colours and each colour assigned to an entry nearest to it, fixed entries stay, and every other
entry that has some weight and is not transparent moves to the weighted mean of the colours assigned to it. -/
def Refined (colours : List Color) (old : List (Color × Bool)) (new : List Color) : Prop :=
  ∃ l : List (Color × ℝ × ℕ), (l.map (·.1)).Perm colours ∧
    (∀ x ∈ l, 0 ≤ x.2.1 ∧ IsNearest (old.map (·.1)) x.1 x.2.2) ∧ new.length = old.length ∧
    ∀ i c f, old[i]? = some (c, f) →
      let mine := (l.filter fun x => x.2.2 = i).map fun x => (x.1, x.2.1)
      (f = true → new[i]? = some c) ∧
      (f = false → c.a ≠ 0 → 0 < (mine.map (·.2)).sum → new[i]? = some (meanColor mine))

end Verif.Spec
