import Verif.Model.Flt
import Mathlib.Tactic.Linarith
import Mathlib.Tactic.Positivity
import Mathlib.Tactic.NormNum

/-!
# Arithmetic with rounding

The class `FltRound` lists facts about IEEE floats: every operation returns the exact result up to the usual
relative error, plus an absolute error below the smallest subnormal number, as long as the result does not
overflow. `powf` is allowed an error of eight units in the last place, because the standard library does not
promise correct rounding for it. Nothing is assumed about NaN, infinities and overflow.
Theorems marked *rounded* hold for every type with these laws, so for `f32`/`f64`, and for exact reals.
-/

namespace Verif
open Flt

/-- half a unit in the last place of `f32` -/
noncomputable def u32 : ℝ := 2⁻¹ ^ 24
/-- smallest positive `f32` -/
noncomputable def tiny32 : ℝ := 2⁻¹ ^ 149
/-- relative error allowed for `f32::powf` -/
noncomputable def upow32 : ℝ := 2⁻¹ ^ 20
/-- half a unit in the last place of `f64` -/
noncomputable def u64 : ℝ := 2⁻¹ ^ 53
/-- smallest positive `f64` -/
noncomputable def tiny64 : ℝ := 2⁻¹ ^ 1074
/-- relative error allowed for `f64::powf` -/
noncomputable def upow64 : ℝ := 2⁻¹ ^ 49

/-- results of this size do not overflow in `f32` -/
def Fits32 (r : ℝ) : Prop := |r| ≤ 2 ^ 127
/-- results of this size do not overflow in `f64` -/
def Fits64 (r : ℝ) : Prop := |r| ≤ 2 ^ 1023

/-- `v` is `r` rounded with relative error `u` and absolute error `η`; zero is exact -/
def RoundsTo (u η r v : ℝ) : Prop := |v - r| ≤ u * |r| + η ∧ (r = 0 → v = 0)

theorem RoundsTo.refl {u η : ℝ} (hu : 0 ≤ u) (hη : 0 ≤ η) (r : ℝ) : RoundsTo u η r r :=
  ⟨by rw [sub_self, abs_zero]; positivity, fun h => h⟩

theorem u32_nonneg : 0 ≤ u32 := by unfold u32; positivity
theorem u64_nonneg : 0 ≤ u64 := by unfold u64; positivity
theorem tiny32_nonneg : 0 ≤ tiny32 := by unfold tiny32; positivity
theorem tiny64_nonneg : 0 ≤ tiny64 := by unfold tiny64; positivity
theorem upow32_nonneg : 0 ≤ upow32 := by unfold upow32; positivity
theorem upow64_nonneg : 0 ≤ upow64 := by unfold upow64; positivity

theorem u32_le_upow32 : u32 ≤ upow32 := by unfold u32 upow32; norm_num
theorem u64_le_upow64 : u64 ≤ upow64 := by unfold u64 upow64; norm_num

theorem RoundsTo.mono {u u' η r v : ℝ} (h : RoundsTo u η r v) (hu : u ≤ u') : RoundsTo u' η r v :=
  ⟨h.1.trans (by have := abs_nonneg r; gcongr), h.2⟩

/-- Laws of IEEE arithmetic on finite values. `val` is the real number a finite float stands for. -/
class FltRound (F : Type) [Flt F] where
  val : F → ℝ
  /-- neither infinite nor NaN -/
  fin : F → Prop
  lit32 : ∀ q : ℚ, Fits32 q → fin (lit32 q) ∧ RoundsTo u32 tiny32 q (val (Flt.lit32 q))
  lit64 : ∀ q : ℚ, Fits64 q → fin (lit64 q) ∧ RoundsTo u64 tiny64 q (val (Flt.lit64 q))
  add32 : ∀ x y, fin x → fin y → Fits32 (val x + val y) →
    fin (x +₃ y) ∧ RoundsTo u32 tiny32 (val x + val y) (val (x +₃ y))
  sub32 : ∀ x y, fin x → fin y → Fits32 (val x - val y) →
    fin (x -₃ y) ∧ RoundsTo u32 tiny32 (val x - val y) (val (x -₃ y))
  mul32 : ∀ x y, fin x → fin y → Fits32 (val x * val y) →
    fin (x *₃ y) ∧ RoundsTo u32 tiny32 (val x * val y) (val (x *₃ y))
  div32 : ∀ x y, fin x → fin y → val y ≠ 0 → Fits32 (val x / val y) →
    fin (x /₃ y) ∧ RoundsTo u32 tiny32 (val x / val y) (val (x /₃ y))
  fma32 : ∀ x y z, fin x → fin y → fin z → Fits32 (val x * val y + val z) →
    fin (fma32 x y z) ∧ RoundsTo u32 tiny32 (val x * val y + val z) (val (Flt.fma32 x y z))
  pow32 : ∀ x y, fin x → fin y → 0 ≤ val x → (0 < val x ∨ 0 < val y) → Fits32 (val x ^ val y) →
    fin (pow32 x y) ∧ RoundsTo upow32 tiny32 (val x ^ val y) (val (Flt.pow32 x y))
  sqrt32 : ∀ x, fin x → 0 ≤ val x → Fits32 (Real.sqrt (val x)) →
    fin (sqrt32 x) ∧ RoundsTo u32 tiny32 (Real.sqrt (val x)) (val (Flt.sqrt32 x))
  add64 : ∀ x y, fin x → fin y → Fits64 (val x + val y) →
    fin (x +₆ y) ∧ RoundsTo u64 tiny64 (val x + val y) (val (x +₆ y))
  sub64 : ∀ x y, fin x → fin y → Fits64 (val x - val y) →
    fin (x -₆ y) ∧ RoundsTo u64 tiny64 (val x - val y) (val (x -₆ y))
  mul64 : ∀ x y, fin x → fin y → Fits64 (val x * val y) →
    fin (x *₆ y) ∧ RoundsTo u64 tiny64 (val x * val y) (val (x *₆ y))
  div64 : ∀ x y, fin x → fin y → val y ≠ 0 → Fits64 (val x / val y) →
    fin (x /₆ y) ∧ RoundsTo u64 tiny64 (val x / val y) (val (x /₆ y))
  fma64 : ∀ x y z, fin x → fin y → fin z → Fits64 (val x * val y + val z) →
    fin (fma64 x y z) ∧ RoundsTo u64 tiny64 (val x * val y + val z) (val (Flt.fma64 x y z))
  pow64 : ∀ x y, fin x → fin y → 0 ≤ val x → (0 < val x ∨ 0 < val y) → Fits64 (val x ^ val y) →
    fin (pow64 x y) ∧ RoundsTo upow64 tiny64 (val x ^ val y) (val (Flt.pow64 x y))
  sqrt64 : ∀ x, fin x → 0 ≤ val x → Fits64 (Real.sqrt (val x)) →
    fin (sqrt64 x) ∧ RoundsTo u64 tiny64 (Real.sqrt (val x)) (val (Flt.sqrt64 x))
  to32 : ∀ x, fin x → Fits32 (val x) → fin (to32 x) ∧ RoundsTo u32 tiny32 (val x) (val (Flt.to32 x))
  neg : ∀ x, fin x → fin (fneg x) ∧ val (fneg x) = - val x
  abs : ∀ x, fin x → fin (fabs x) ∧ val (fabs x) = |val x|
  max : ∀ x y, fin x → fin y → fin (Flt.fmax x y) ∧ val (Flt.fmax x y) = Max.max (val x) (val y)
  min : ∀ x y, fin x → fin y → fin (Flt.fmin x y) ∧ val (Flt.fmin x y) = Min.min (val x) (val y)
  lt : ∀ x y, fin x → fin y → (lt x y = true ↔ val x < val y)
  le : ∀ x y, fin x → fin y → (le x y = true ↔ val x ≤ val y)
  eq : ∀ x y, fin x → fin y → (eq x y = true ↔ val x = val y)
  toU8 : ∀ x, fin x → toU8 x = UInt8.ofNat (Nat.min 255 ⌊val x⌋₊)

/-- exact arithmetic is one example -/
noncomputable instance : FltRound ℝ where
  val x := x
  fin _ := True
  lit32 _ _ := ⟨trivial, RoundsTo.refl u32_nonneg tiny32_nonneg _⟩
  lit64 _ _ := ⟨trivial, RoundsTo.refl u64_nonneg tiny64_nonneg _⟩
  add32 _ _ _ _ _ := ⟨trivial, RoundsTo.refl u32_nonneg tiny32_nonneg _⟩
  sub32 _ _ _ _ _ := ⟨trivial, RoundsTo.refl u32_nonneg tiny32_nonneg _⟩
  mul32 _ _ _ _ _ := ⟨trivial, RoundsTo.refl u32_nonneg tiny32_nonneg _⟩
  div32 _ _ _ _ _ _ := ⟨trivial, RoundsTo.refl u32_nonneg tiny32_nonneg _⟩
  fma32 _ _ _ _ _ _ _ := ⟨trivial, RoundsTo.refl u32_nonneg tiny32_nonneg _⟩
  pow32 _ _ _ _ _ _ _ := ⟨trivial, RoundsTo.refl upow32_nonneg tiny32_nonneg _⟩
  sqrt32 _ _ _ _ := ⟨trivial, RoundsTo.refl u32_nonneg tiny32_nonneg _⟩
  add64 _ _ _ _ _ := ⟨trivial, RoundsTo.refl u64_nonneg tiny64_nonneg _⟩
  sub64 _ _ _ _ _ := ⟨trivial, RoundsTo.refl u64_nonneg tiny64_nonneg _⟩
  mul64 _ _ _ _ _ := ⟨trivial, RoundsTo.refl u64_nonneg tiny64_nonneg _⟩
  div64 _ _ _ _ _ _ := ⟨trivial, RoundsTo.refl u64_nonneg tiny64_nonneg _⟩
  fma64 _ _ _ _ _ _ _ := ⟨trivial, RoundsTo.refl u64_nonneg tiny64_nonneg _⟩
  pow64 _ _ _ _ _ _ _ := ⟨trivial, RoundsTo.refl upow64_nonneg tiny64_nonneg _⟩
  sqrt64 _ _ _ _ := ⟨trivial, RoundsTo.refl u64_nonneg tiny64_nonneg _⟩
  to32 _ _ _ := ⟨trivial, RoundsTo.refl u32_nonneg tiny32_nonneg _⟩
  neg _ _ := ⟨trivial, rfl⟩
  abs _ _ := ⟨trivial, rfl⟩
  max _ _ _ _ := ⟨trivial, rfl⟩
  min _ _ _ _ := ⟨trivial, rfl⟩
  lt _ _ _ _ := real_lt _ _
  le _ _ _ _ := real_le _ _
  eq _ _ _ _ := real_eq _ _
  toU8 _ _ := rfl

/-- Rounding functions for the two widths, e.g. "to nearest even". -/
structure Rounding where
  r32 : ℝ → ℝ
  r64 : ℝ → ℝ
  ok32 : ∀ r, Fits32 r → RoundsTo u32 tiny32 r (r32 r)
  ok64 : ∀ r, Fits64 r → RoundsTo u64 tiny64 r (r64 r)

/-- Real numbers with the result of every operation rounded. -/
structure RoundedReal (ρ : Rounding) where
  val : ℝ

namespace RoundedReal
variable (ρ : Rounding)

noncomputable instance : Flt (RoundedReal ρ) where
  lit32 q := ⟨ρ.r32 q⟩
  lit64 q := ⟨ρ.r64 q⟩
  add32 x y := ⟨ρ.r32 (x.val + y.val)⟩
  sub32 x y := ⟨ρ.r32 (x.val - y.val)⟩
  mul32 x y := ⟨ρ.r32 (x.val * y.val)⟩
  div32 x y := ⟨ρ.r32 (x.val / y.val)⟩
  fma32 x y z := ⟨ρ.r32 (x.val * y.val + z.val)⟩
  pow32 x y := ⟨ρ.r32 (x.val ^ y.val)⟩
  sqrt32 x := ⟨ρ.r32 (Real.sqrt x.val)⟩
  add64 x y := ⟨ρ.r64 (x.val + y.val)⟩
  sub64 x y := ⟨ρ.r64 (x.val - y.val)⟩
  mul64 x y := ⟨ρ.r64 (x.val * y.val)⟩
  div64 x y := ⟨ρ.r64 (x.val / y.val)⟩
  fma64 x y z := ⟨ρ.r64 (x.val * y.val + z.val)⟩
  pow64 x y := ⟨ρ.r64 (x.val ^ y.val)⟩
  sqrt64 x := ⟨ρ.r64 (Real.sqrt x.val)⟩
  to32 x := ⟨ρ.r32 x.val⟩
  fneg x := ⟨-x.val⟩
  fabs x := ⟨|x.val|⟩
  fmax x y := ⟨Max.max x.val y.val⟩
  fmin x y := ⟨Min.min x.val y.val⟩
  lt x y := Flt.lt x.val y.val
  le x y := Flt.le x.val y.val
  eq x y := Flt.eq x.val y.val
  isNan _ := false
  toU8 x := Flt.toU8 x.val
  toU32 x := Flt.toU32 x.val
  inf := ⟨Flt.inf⟩
  f32Max := ⟨Flt.f32Max⟩
  f64Max := ⟨Flt.f64Max⟩
  nan := ⟨0⟩

/-- Rounding every operation satisfies the laws. -/
noncomputable instance : FltRound (RoundedReal ρ) where
  val := RoundedReal.val
  fin _ := True
  lit32 _ h := ⟨trivial, ρ.ok32 _ h⟩
  lit64 _ h := ⟨trivial, ρ.ok64 _ h⟩
  add32 _ _ _ _ h := ⟨trivial, ρ.ok32 _ h⟩
  sub32 _ _ _ _ h := ⟨trivial, ρ.ok32 _ h⟩
  mul32 _ _ _ _ h := ⟨trivial, ρ.ok32 _ h⟩
  div32 _ _ _ _ _ h := ⟨trivial, ρ.ok32 _ h⟩
  fma32 _ _ _ _ _ _ h := ⟨trivial, ρ.ok32 _ h⟩
  pow32 _ _ _ _ _ _ h := ⟨trivial, (ρ.ok32 _ h).mono u32_le_upow32⟩
  sqrt32 _ _ _ h := ⟨trivial, ρ.ok32 _ h⟩
  add64 _ _ _ _ h := ⟨trivial, ρ.ok64 _ h⟩
  sub64 _ _ _ _ h := ⟨trivial, ρ.ok64 _ h⟩
  mul64 _ _ _ _ h := ⟨trivial, ρ.ok64 _ h⟩
  div64 _ _ _ _ _ h := ⟨trivial, ρ.ok64 _ h⟩
  fma64 _ _ _ _ _ _ h := ⟨trivial, ρ.ok64 _ h⟩
  pow64 _ _ _ _ _ _ h := ⟨trivial, (ρ.ok64 _ h).mono u64_le_upow64⟩
  sqrt64 _ _ _ h := ⟨trivial, ρ.ok64 _ h⟩
  to32 _ _ h := ⟨trivial, ρ.ok32 _ h⟩
  neg _ _ := ⟨trivial, rfl⟩
  abs _ _ := ⟨trivial, rfl⟩
  max _ _ _ _ := ⟨trivial, rfl⟩
  min _ _ _ _ := ⟨trivial, rfl⟩
  lt _ _ _ _ := real_lt _ _
  le _ _ _ _ := real_le _ _
  eq _ _ _ _ := real_eq _ _
  toU8 _ _ := rfl

end RoundedReal
end Verif
