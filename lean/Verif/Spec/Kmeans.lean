import Verif.Spec.Search

/-!
# Specification: one pass of k-means

Independent of the model. A pass is one step of Lloyd's algorithm with two additions: colours that are represented badly
may gain weight, and entries that nobody uses are given to the colours that fit worst.
-/

namespace Verif.Spec

/-- a colour of the histogram, its weight, and its weight after feedback from earlier passes -/
structure Counted where
  color : Color
  weight : ℝ
  boosted : ℝ

/-- an entry of the palette -/
structure Slot where
  color : Color
  popularity : ℝ
  fixed : Bool

def colorsOf (p : List Slot) : List Color := p.map (·.color)

/-- `e` reflected at `c` -/
def reflected (c e : Color) : Color := ⟨2 * c.a - e.a, 2 * c.r - e.r, 2 * c.g - e.g, 2 * c.b - e.b⟩

/-- The colour `x` of the histogram goes to entry `i`, a nearest one, and is `x'` afterwards; `d` is the difference that is
measured. With feedback it is measured at the reflection of the entry at the colour, and the weight grows with it. -/
structure Matched (feedback : Bool) (p : List Color) (x x' : Counted) (i : ℕ) (d : ℝ) : Prop where
  color : x'.color = x.color
  weight : x'.weight = x.weight
  nearest : IsNearest p x.color i
  plain : feedback = false → x'.boosted = x.boosted ∧ d = distTo p x.color
  boosted : feedback = true → x'.boosted = (2 * x.boosted + x.weight) * (1/2 + d) ∧
    ∃ e, p[i]? = some e ∧ d = distTo p (reflected x.color e)

/-- What becomes of an entry to which the colours `mine` were assigned: a fixed one stays; any other counts their weight and
moves to their mean, unless there is no weight or it is fully transparent. -/
def Moved (mine : List (Color × ℝ)) (s s' : Slot) : Prop :=
  (s.fixed = true → s' = s) ∧
  (s.fixed = false → s'.fixed = false ∧ s'.popularity = (mine.map (·.2)).sum ∧
    (0 < (mine.map (·.2)).sum ∧ s.color.a ≠ 0 → s'.color = meanColor mine) ∧
    (¬ (0 < (mine.map (·.2)).sum ∧ s.color.a ≠ 0) → s'.color = s.color))

/-- Entry `i` is looked after: if it is not fixed and nobody uses it, it gets a colour whose difference to the palette is
greatest, unless all colours are in the palette. -/
def Refilled (items : List Counted) (i : ℕ) (p p' : List Slot) : Prop :=
  ∀ s, p[i]? = some s →
    (s.popularity ≠ 0 ∨ s.fixed = true → p' = p) ∧
    (s.popularity = 0 → s.fixed = false →
      ((∀ x ∈ items, distTo (colorsOf p) x.color = 0) ∧ p' = p) ∨
      ∃ x ∈ items, 0 < distTo (colorsOf p) x.color ∧
        (∀ y ∈ items, distTo (colorsOf p) y.color ≤ distTo (colorsOf p) x.color) ∧
        p' = p.set i ⟨x.color, x.boosted, false⟩)

/-- One pass over the histogram `items` with the palette `p`. Afterwards the histogram is `items'`, each colour with the
entry it went to, and the palette is `p'`; `diffs` are the differences measured. -/
structure Pass (feedback : Bool) (items : List Counted) (p : List Slot) (items' : List (Counted × ℕ)) (p' : List Slot)
    (diffs : List ℝ) : Prop where
  length : items'.length = items.length ∧ diffs.length = items.length
  matched : ∀ (k : ℕ) (x : Counted) (x' : Counted × ℕ) (d : ℝ), items[k]? = some x → items'[k]? = some x' →
    diffs[k]? = some d → Matched feedback (colorsOf p) x x'.1 x'.2 d
  palette : ∃ stage : ℕ → List Slot, (stage 0).length = p.length ∧
    (∀ (i : ℕ) (s s' : Slot), p[i]? = some s → (stage 0)[i]? = some s' →
      Moved ((items'.filter fun x => x.2 = i).map fun x => (x.1.color, x.1.boosted)) s s') ∧
    (∀ i < p.length, Refilled (items'.map (·.1)) i (stage i) (stage (i + 1))) ∧
    stage p.length = p'

end Verif.Spec
