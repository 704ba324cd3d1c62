import Mathlib.Data.Nat.Basic

/-! # Specification: posterized 8-bit values -/

namespace Verif.Spec

/-- `v` is a posterized value for `b` bits: its low `b` bits repeat its top `b` bits. -/
def Posterized (b v : ℕ) : Prop := v < 256 ∧ v % 2 ^ b = v / 2 ^ (8 - b)

/-- `v` without its low `b` bits, which repeat its top `b` bits instead -/
def posterize (b v : ℕ) : ℕ := v / 2 ^ b * 2 ^ b + v / 2 ^ (8 - b)

instance (b v : ℕ) : Decidable (Posterized b v) := inferInstanceAs (Decidable (_ ∧ _))

end Verif.Spec
