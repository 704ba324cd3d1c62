import Verif.Spec.Search
import Verif.Spec.Settings

/-!
# Specification: median cut

Independent of the model: a greedy algorithm on boxes of weighted colours, over the real numbers.
-/

namespace Verif.Spec

/-- A colour of a histogram with its weight and its share of the image. -/
structure Item where
  color : Color
  weight : ℝ
  share : ℝ

/-- the four channels of a colour -/
def Color.chan (c : Color) (k : Fin 4) : ℝ := ![c.a, c.r, c.g, c.b] k

/-- A box: some colours and the colour that stands for them in the palette. -/
structure Box where
  items : List Item
  rep : Color

/-- weighted mean of the colours -/
noncomputable def mean (l : List Item) : Color := meanColor (l.map fun x => (x.color, x.weight))

namespace Box

/-- weighted squared deviation from the representative in channel `k` -/
noncomputable def spread (b : Box) (k : Fin 4) : ℝ :=
  (b.items.map fun x => x.weight * (b.rep.chan k - x.color.chan k) ^ 2).sum

/-- total weight -/
noncomputable def weight (b : Box) : ℝ := (b.items.map (·.weight)).sum

/-- the error made in the image when the colours are replaced by the representative -/
noncomputable def error (b : Box) : ℝ := (b.items.map fun x => x.share * diff b.rep x.color).sum

/-- `s` is the greatest spread of a channel -/
def IsWidth (b : Box) (s : ℝ) : Prop := (∃ k, b.spread k = s) ∧ ∀ k, b.spread k ≤ s

/-- `e` is the greatest difference between the representative and a colour -/
def IsWorst (b : Box) (e : ℝ) : Prop :=
  ((b.items = [] ∧ e = 0) ∨ ∃ x ∈ b.items, diff b.rep x.color = e) ∧ ∀ x ∈ b.items, diff b.rep x.color ≤ e

/-- `p` is the priority of the box: its weight times its greatest spread, increased in proportion if some colour is
further from the representative than `limit` -/
def IsPriority (limit : ℝ) (b : Box) (p : ℝ) : Prop :=
  ∃ s e, b.IsWidth s ∧ b.IsWorst e ∧ p = b.weight * s * max 1 (e / limit)

end Box

/-- resolution of the order of colours: two steps of a 16-bit scale -/
noncomputable def tick : ℝ := 2 / 65535

/-- `y` is not above `x` in channel `k`, up to the resolution -/
def Below (k : Fin 4) (y x : Item) : Prop := y.color.chan k < x.color.chan k + tick

/-- `m` is a median of the colours in channel `k` -/
def IsMedian (k : Fin 4) (l : List Item) (m : Item) : Prop :=
  ∃ lo hi, l.Perm (lo ++ m :: hi) ∧ lo.length = l.length / 2 ∧ (∀ x ∈ lo, Below k x m) ∧ ∀ x ∈ hi, Below k m x

/-- weight of a colour in the division of a box with the median `m` -/
noncomputable def pull (m x : Item) : ℝ := dist m.color x.color * Real.sqrt (1 + x.weight)

/-- The colours of the box `b` are divided into `left` and `right` along the channel with the greatest spread, where half of
the pull is reached: `left` has less than a half, and at least a half together with the next colour; or `left` is a single
colour that has a half on its own. -/
def Halved (b : Box) (left right : List Item) : Prop :=
  (left ++ right).Perm b.items ∧ left ≠ [] ∧ right ≠ [] ∧
  ∃ k, (∀ j, b.spread j ≤ b.spread k) ∧ (∀ x ∈ left, ∀ y ∈ right, Below k y x) ∧
  ∃ m, IsMedian k b.items m ∧
    let half := (b.items.map (pull m)).sum / 2
    (((left.map (pull m)).sum < half ∧
        ∃ x ∈ right, (∀ y ∈ right, Below k y x) ∧ half ≤ (left.map (pull m)).sum + pull m x) ∨
      ∃ x, left = [x] ∧ half ≤ pull m x)

/-- `c` represents the colours `l` when `others` are the other boxes: the mean, or the colour closest to the mean if there
are between 3 and 499 colours or if for every colour another box is closer than the mean. -/
def Represents (others : List Box) (l : List Item) (c : Color) : Prop :=
  if (3 ≤ l.length ∧ l.length < 500) ∨ ∀ x ∈ l, ∃ o ∈ others, diff o.rep x.color < diff (mean l) x.color then
    ∃ x ∈ l, x.color = c ∧ ∀ y ∈ l, diff (mean l) c ≤ diff (mean l) y.color
  else c = mean l

/-- One step: of the boxes with several colours, one of the highest priority is divided. -/
def CutStep (target : ℕ) (limit : ℝ) (l l' : List Box) : Prop :=
  l.length < target ∧ ∃ b rest left right, l.Perm (b :: rest) ∧ 1 < b.items.length ∧
    (∀ b' ∈ l, 1 < b'.items.length → ∀ p p', b.IsPriority ((1 + 16 * (l.length / target)) * limit) p →
      b'.IsPriority ((1 + 16 * (l.length / target)) * limit) p' → p' ≤ p) ∧
    Halved b left.items right.items ∧ Represents rest left.items left.rep ∧ Represents rest right.items right.rep ∧
    l'.Perm (left :: right :: rest)

/-- Median cut: boxes are divided until there are `target` of them, or none has several colours, or (after a division) the
error of the image is at most `goal`. -/
inductive Cut (target : ℕ) (limit goal : ℝ) : List Box → List Box → Prop
  | enough (l : List Box) : target ≤ l.length → Cut target limit goal l l
  | single (l : List Box) : l.length < target → (∀ b ∈ l, b.items.length ≤ 1) → Cut target limit goal l l
  | good (l l' : List Box) : CutStep target limit l l' → (l'.map Box.error).sum ≤ goal → Cut target limit goal l l'
  | more (l l' l'' : List Box) : CutStep target limit l l' → goal < (l'.map Box.error).sum →
      Cut target limit goal l' l'' → Cut target limit goal l l''

/-- The boxes at the start: one for each non-empty range of a partition of the histogram, if there are at most a third of
`target`, and one for everything otherwise; they are represented by their means. -/
def IsStart (items : List Item) (ranges : List (ℕ × ℕ)) (target : ℕ) (l : List Box) : Prop :=
  let used := ranges.filter fun c => decide (c.1 ≠ c.2)
  l.map Box.items = (if used.length ≤ target / 3 then used.map fun c => (items.drop c.1).take (c.2 - c.1) else [items]) ∧
  ∀ b ∈ l, b.rep = mean b.items

end Verif.Spec
