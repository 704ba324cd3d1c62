import Verif.Spec.Kmeans
import Verif.Spec.Contrast
import Verif.Spec.Posterize
import Mathlib.Analysis.SpecialFunctions.Pow.Real

/-!
# Specification: how the palette is reported

Independent of the model. Inside the library the channels of a colour are multiplied by its opacity and weighted (opacity
0.625, red 0.5, green 1, blue 0.45) and have the gamma 0.57. They are reported as bytes with the gamma of the output.
-/

namespace Verif.Spec

/-- a value from 0 to 1 as a posterized byte: there are 256 equal steps -/
noncomputable def shownByte (bits : ℕ) (v : ℝ) : ℕ := posterize bits (byteOf (256 * v))

/-- opacity of a colour -/
noncomputable def opacity (c : Color) : ℝ := c.a / 0.625

/-- The entry `s` is reported as `r g b a`. Colours with an opacity less than a 256th are reported as transparent. A
colour whose opacity is reported as 0 has the channels 71, 112 and 76, unless it is fixed. -/
structure Reported (γ : ℝ) (bits : ℕ) (s : Slot) (r g b a : ℕ) : Prop where
  faint : opacity s.color < 1/256 → a = 0
  alpha : 1/256 ≤ opacity s.color → a = shownByte bits (opacity s.color)
  hidden : a = 0 → s.fixed = false → r = 71 ∧ g = 112 ∧ b = 76
  black : opacity s.color < 1/256 → s.fixed = true → r = 0 ∧ g = 0 ∧ b = 0
  channels : 1/256 ≤ opacity s.color → a ≠ 0 ∨ s.fixed = true →
    r = shownByte bits ((s.color.r / 0.5 / opacity s.color) ^ (γ / 0.57)) ∧
    g = shownByte bits ((s.color.g / opacity s.color) ^ (γ / 0.57)) ∧
    b = shownByte bits ((s.color.b / 0.45 / opacity s.color) ^ (γ / 0.57))

/-- The entries of `p` are reported as `report`, four bytes each. -/
def ReportedAll (γ : ℝ) (bits : ℕ) (p : List Slot) (report : List (ℕ × ℕ × ℕ × ℕ)) : Prop :=
  report.length = p.length ∧ ∀ (i : ℕ) (s : Slot) (c : ℕ × ℕ × ℕ × ℕ), p[i]? = some s → report[i]? = some c →
    Reported γ bits s c.1 c.2.1 c.2.2.1 c.2.2.2

end Verif.Spec
