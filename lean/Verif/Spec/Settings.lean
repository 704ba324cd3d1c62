import Mathlib.Analysis.SpecialFunctions.Pow.Real

/-!
# Specification: quality scale and settings registers
-/

namespace Verif.Spec

/-- Squared-error limit of a quality 1..99 (the documented-in-code curve, in exact reals). -/
noncomputable def qualityCurve (q : ℕ) : ℝ :=
  0.45 * (max (0.016 / (0.001 + (q : ℝ)) - 0.001) 0 + 2.5 / (210 + (q : ℝ)) ^ (1.2 : ℝ) * (100.1 - q) / 100)

/-- Squared-error limit of a quality: practically unlimited for 0, zero for 100. -/
noncomputable def qualityLimit (q : ℕ) : ℝ :=
  if q = 0 then 10 ^ 20 else if 100 ≤ q then 0 else qualityCurve q

/-- The settings a user can read back. -/
structure Settings where
  maxColors : ℕ
  quality : ℕ × ℕ
  speed : ℕ
  minPosterization : ℕ
  deriving DecidableEq, Repr

/-- Defaults documented for a new handle. -/
def Settings.default : Settings := ⟨256, (0, 100), 4, 0⟩

/-- Setter calls. -/
inductive Call where
  | maxColors (n : ℕ)
  | quality (minimum target : ℕ)
  | speed (v : ℤ)
  | minPosterization (v : ℕ)
  | lastIndexTransparent (b : Bool)
  deriving DecidableEq, Repr

/-- What the manual says about a call: `some` new settings if accepted. -/
def Settings.call (s : Settings) : Call → Option Settings
  | .maxColors n => if 2 ≤ n ∧ n ≤ 256 then some { s with maxColors := n } else none
  | .quality m t => if m ≤ t ∧ t ≤ 100 then some { s with quality := (m, t) } else none
  | .speed v => if 1 ≤ v ∧ v ≤ 10 then some { s with speed := v.toNat } else none
  | .minPosterization v => if v ≤ 4 then some { s with minPosterization := v } else none
  | .lastIndexTransparent _ => some s

/-- Settings after a history of calls; rejected calls have no effect. -/
def Settings.after (s : Settings) (cs : List Call) : Settings :=
  cs.foldl (fun s c => (s.call c).getD s) s

end Verif.Spec
