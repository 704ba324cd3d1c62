import Mathlib.Analysis.Real.Sqrt

/-!
# Specification: colour difference and nearest colour

Independent of the model: colours are quadruples of reals.
-/

namespace Verif.Spec

/-- A colour with premultiplied channels and alpha. -/
structure Color where
  a : ℝ
  r : ℝ
  g : ℝ
  b : ℝ

/-- Squared difference of one channel seen on the worse of a black and a white background. -/
noncomputable def chanDiff (Δc Δa : ℝ) : ℝ := max (Δc ^ 2) ((Δc - Δa) ^ 2)

/-- Colour difference. -/
noncomputable def diff (x y : Color) : ℝ :=
  chanDiff (x.r - y.r) (x.a - y.a) + chanDiff (x.g - y.g) (x.a - y.a) +
  chanDiff (x.b - y.b) (x.a - y.a)

/-- Distance: root of the difference. -/
noncomputable def dist (x y : Color) : ℝ := Real.sqrt (diff x y)

/-- Channel `c` with alpha `a` over a background of brightness `t`. -/
def over (c a t : ℝ) : ℝ := c + (1 - a) * t

/-- Squared visible difference over one background of brightness `t` (per channel). -/
noncomputable def visibleDiff (x y : Color) (tr tg tb : ℝ) : ℝ :=
  (over x.r x.a tr - over y.r y.a tr) ^ 2 + (over x.g x.a tg - over y.g y.a tg) ^ 2 +
  (over x.b x.a tb - over y.b y.a tb) ^ 2

/-- `i` is an index of a palette colour with the least difference from `px`. -/
def IsNearest (pal : List Color) (px : Color) (i : ℕ) : Prop :=
  ∃ c, pal[i]? = some c ∧ ∀ c' ∈ pal, diff px c ≤ diff px c'

end Verif.Spec

namespace Verif.Spec

/-- A colour as displayed: opacity and premultiplied channels, all between 0 and 1. -/
structure Display where
  α : ℝ
  r : ℝ
  g : ℝ
  b : ℝ

/-- Squared difference of what is seen of two colours over a background colour `(tr, tg, tb)`, with the
channel weights 0.5, 1, 0.45 the library gives to red, green and blue. -/
def seenDiff (x y : Display) (tr tg tb : ℝ) : ℝ :=
  (0.5 * (over x.r x.α tr - over y.r y.α tr)) ^ 2 + (1 * (over x.g x.α tg - over y.g y.α tg)) ^ 2 +
  (0.45 * (over x.b x.α tb - over y.b y.α tb)) ^ 2

end Verif.Spec
