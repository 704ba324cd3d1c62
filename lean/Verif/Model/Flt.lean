import Mathlib.Analysis.SpecialFunctions.Pow.Real

/-!
# Float operations and result types

The Rust code computes with `f32` and `f64`. The model is generic over a type `F` of float values
with one operation per Rust operation and width. The class `Flt` has **no laws**, so a theorem
stated for every `[Flt F]` holds for IEEE arithmetic with rounding, NaN and infinities.

Every `f32` is exactly an `f64`, so one carrier is enough: `f64::from(x)` is the identity,
`x as f32` is `to32`, and the `…32` operations are the single-precision operations.
-/

namespace Verif

/-- `error.rs:9-30`. Error codes of the library (`LIQ_OK` is the `ok` side of `Except`). -/
inductive Error where
  | qualityTooLow | valueOutOfRange | outOfMemory | aborted
  | internalError | bufferTooSmall | invalidPointer | unsupported
  deriving DecidableEq, Repr

/-- A call can fail with an error code or panic (index out of bounds, `expect`/`unwrap` on `None`,
ArrayVec overflow, integer overflow). -/
inductive Fail where
  | err (e : Error)
  | panic
  deriving DecidableEq, Repr

/-- `Result<T, Error>` of the Rust code, with panics made explicit. -/
abbrev Res (α : Type) := Except Fail α

/-- Float operations used by the code, without any law. -/
class Flt (F : Type) where
  /-- `f32` literal, or an integer converted to `f32` -/
  lit32 : ℚ → F
  /-- `f64` literal, or an integer converted to `f64` -/
  lit64 : ℚ → F
  add32 : F → F → F
  sub32 : F → F → F
  mul32 : F → F → F
  div32 : F → F → F
  /-- `a.mul_add(b, c)` on `f32` -/
  fma32 : F → F → F → F
  /-- `f32::powf` -/
  pow32 : F → F → F
  /-- `f32::sqrt` -/
  sqrt32 : F → F
  add64 : F → F → F
  sub64 : F → F → F
  mul64 : F → F → F
  div64 : F → F → F
  /-- `a.mul_add(b, c)` on `f64` -/
  fma64 : F → F → F → F
  /-- `f64::powf` -/
  pow64 : F → F → F
  /-- `f64::sqrt` -/
  sqrt64 : F → F
  /-- `x as f32` -/
  to32 : F → F
  /-- negation, `abs`, `max`, `min`: exact, so shared by both widths -/
  fneg : F → F
  fabs : F → F
  fmax : F → F → F
  fmin : F → F → F
  /-- comparisons `<`, `<=`, `==` (all false on NaN) -/
  lt : F → F → Bool
  le : F → F → Bool
  eq : F → F → Bool
  isNan : F → Bool
  /-- `x as u8`: truncation towards zero, saturating, NaN ↦ 0 -/
  toU8 : F → UInt8
  /-- `x as u32`, as a natural number below 2^32 -/
  toU32 : F → ℕ
  /-- `f32::INFINITY` -/
  inf : F
  /-- `f32::MAX` -/
  f32Max : F
  /-- `f64::MAX` -/
  f64Max : F
  /-- `f64::NAN` -/
  nan : F

namespace Flt
variable {F : Type} [Flt F]

scoped infixl:65 " +₃ " => Flt.add32
scoped infixl:65 " -₃ " => Flt.sub32
scoped infixl:70 " *₃ " => Flt.mul32
scoped infixl:70 " /₃ " => Flt.div32
scoped infixl:65 " +₆ " => Flt.add64
scoped infixl:65 " -₆ " => Flt.sub64
scoped infixl:70 " *₆ " => Flt.mul64
scoped infixl:70 " /₆ " => Flt.div64

/-- `0.0` (the same value in both widths) -/
def zero : F := lit32 0

/-- `f32::clamp` / `f64::clamp`: `if x < lo {lo} else if x > hi {hi} else {x}` -/
def clamp (x lo hi : F) : F := if lt x lo then lo else if lt hi x then hi else x

end Flt

/-- The two sign facts about floats that the fixed-colour flag relies on (`pal.rs:173-203`); both
hold for IEEE floats, NaN included. -/
class FltSign (F : Type) [Flt F] : Prop where
  neg_lt : ∀ x : F, Flt.lt Flt.zero x = true → Flt.lt (Flt.fneg x) Flt.zero = true
  neg_one_lt : Flt.lt (Flt.lit32 (-1) : F) Flt.zero = true

open Classical in
/-- Exact real arithmetic. The infinities and maxima are the real numbers `2^128`, `f32::MAX` and `f64::MAX`;
NaN does not occur (`nan` is a dummy and `isNan` is always false). -/
noncomputable instance instFltReal : Flt ℝ where
  lit32 q := q
  lit64 q := q
  add32 := (· + ·)
  sub32 := (· - ·)
  mul32 := (· * ·)
  div32 := (· / ·)
  fma32 a b c := a * b + c
  pow32 := Real.rpow
  sqrt32 := Real.sqrt
  add64 := (· + ·)
  sub64 := (· - ·)
  mul64 := (· * ·)
  div64 := (· / ·)
  fma64 a b c := a * b + c
  pow64 := Real.rpow
  sqrt64 := Real.sqrt
  to32 := id
  fneg := Neg.neg
  fabs := fun x => |x|
  fmax := Max.max
  fmin := Min.min
  lt a b := decide (a < b)
  le a b := decide (a ≤ b)
  eq a b := decide (a = b)
  isNan _ := false
  toU8 x := UInt8.ofNat (Nat.min 255 ⌊x⌋₊)
  toU32 x := Nat.min 4294967295 ⌊x⌋₊
  inf := 2 ^ 128
  f32Max := (2 - 1 / 2 ^ 23) * 2 ^ 127
  f64Max := (2 - 1 / 2 ^ 52) * 2 ^ 1023
  nan := 0

namespace Flt
section RealLemmas
@[simp] theorem real_lit32 (q : ℚ) : (lit32 q : ℝ) = q := rfl
@[simp] theorem real_lit64 (q : ℚ) : (lit64 q : ℝ) = q := rfl
@[simp] theorem real_add32 (a b : ℝ) : add32 a b = a + b := rfl
@[simp] theorem real_sub32 (a b : ℝ) : sub32 a b = a - b := rfl
@[simp] theorem real_mul32 (a b : ℝ) : mul32 a b = a * b := rfl
@[simp] theorem real_div32 (a b : ℝ) : div32 a b = a / b := rfl
@[simp] theorem real_fma32 (a b c : ℝ) : fma32 a b c = a * b + c := rfl
@[simp] theorem real_pow32 (a b : ℝ) : pow32 a b = a ^ b := rfl
@[simp] theorem real_sqrt32 (a : ℝ) : sqrt32 a = Real.sqrt a := rfl
@[simp] theorem real_add64 (a b : ℝ) : add64 a b = a + b := rfl
@[simp] theorem real_sub64 (a b : ℝ) : sub64 a b = a - b := rfl
@[simp] theorem real_mul64 (a b : ℝ) : mul64 a b = a * b := rfl
@[simp] theorem real_div64 (a b : ℝ) : div64 a b = a / b := rfl
@[simp] theorem real_fma64 (a b c : ℝ) : fma64 a b c = a * b + c := rfl
@[simp] theorem real_pow64 (a b : ℝ) : pow64 a b = a ^ b := rfl
@[simp] theorem real_sqrt64 (a : ℝ) : sqrt64 a = Real.sqrt a := rfl
@[simp] theorem real_to32 (a : ℝ) : to32 a = a := rfl
@[simp] theorem real_neg (a : ℝ) : fneg a = -a := rfl
@[simp] theorem real_abs (a : ℝ) : fabs a = |a| := rfl
@[simp] theorem real_max (a b : ℝ) : Flt.fmax a b = Max.max a b := rfl
@[simp] theorem real_min (a b : ℝ) : Flt.fmin a b = Min.min a b := rfl
@[simp] theorem real_lt (a b : ℝ) : (lt a b = true) ↔ a < b := by
  show decide (a < b) = true ↔ _; simp
@[simp] theorem real_lt_false (a b : ℝ) : (lt a b = false) ↔ b ≤ a := by
  show decide (a < b) = false ↔ _; simp
@[simp] theorem real_le (a b : ℝ) : (le a b = true) ↔ a ≤ b := by
  show decide (a ≤ b) = true ↔ _; simp
@[simp] theorem real_le_false (a b : ℝ) : (le a b = false) ↔ b < a := by
  show decide (a ≤ b) = false ↔ _; simp
@[simp] theorem real_eq (a b : ℝ) : (eq a b = true) ↔ a = b := by
  show decide (a = b) = true ↔ _; simp
@[simp] theorem real_eq_false (a b : ℝ) : (eq a b = false) ↔ a ≠ b := by
  show decide (a = b) = false ↔ _; simp
@[simp] theorem real_isNan (a : ℝ) : isNan a = false := rfl
@[simp] theorem real_zero : (zero : ℝ) = 0 := by simp [zero]
theorem real_toU8 (x : ℝ) : toU8 x = UInt8.ofNat (Nat.min 255 ⌊x⌋₊) := rfl
theorem real_toU32 (x : ℝ) : toU32 x = Nat.min 4294967295 ⌊x⌋₊ := rfl
end RealLemmas
end Flt

instance : FltSign ℝ where
  neg_lt x h := by simp at h ⊢; exact h
  neg_one_lt := by simp

end Verif
