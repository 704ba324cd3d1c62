import Verif.Model.Rounded
import Mathlib.Data.Int.Log
import Mathlib.Algebra.Order.Floor.Ring

/-!
# Arithmetic with monotone rounding

`FltOrd` adds to the error bounds of `FltRound` that rounding keeps the order: the exact value of a sum lies on the same side
of a float as the rounded one. This holds for IEEE floats also when the sum overflows.
-/

namespace Verif
open Flt

/-- Further laws of IEEE arithmetic. -/
class FltOrd (F : Type) [Flt F] extends FltRound F where
  sqrt_mono : ∀ x y, fin x → fin y → 0 ≤ val x → val x ≤ val y → val (Flt.sqrt32 x) ≤ val (Flt.sqrt32 y)
  sqrt_le_add : ∀ w x y, fin w → 0 ≤ val w → fin x → fin y → val (Flt.sqrt32 w) ≤ val x + val y →
    Flt.le (Flt.sqrt32 w) (x +₃ y) = true
  sub_le_sqrt : ∀ w x y, fin w → 0 ≤ val w → fin x → fin y → val x - val y ≤ val (Flt.sqrt32 w) →
    Flt.le (x -₃ y) (Flt.sqrt32 w) = true
  mul_nonneg : ∀ x y, fin x → fin y → Fits32 (val x * val y) → 0 ≤ val x * val y → 0 ≤ val (x *₃ y)
  add_nonneg : ∀ x y, fin x → fin y → Fits32 (val x + val y) → 0 ≤ val x + val y → 0 ≤ val (x +₃ y)
  /-- the largest finite number -/
  f32Max : fin (Flt.f32Max : F) ∧ 2 ^ 127 ≤ val (Flt.f32Max : F) ∧ val (Flt.f32Max : F) ≤ 2 ^ 128
  lt_inf : ∀ x, fin x → val x ≤ 2 ^ 127 → Flt.lt x (Flt.inf : F) = true
  not_nan : ∀ x, fin x → isNan x = false

/-- exact arithmetic is one example -/
noncomputable instance : FltOrd ℝ where
  sqrt_mono _ _ _ _ _ h := Real.sqrt_le_sqrt h
  sqrt_le_add _ _ _ _ _ _ _ h := (real_le _ _).2 h
  sub_le_sqrt _ _ _ _ _ _ _ h := (real_le _ _).2 h
  mul_nonneg _ _ _ _ _ h := h
  add_nonneg _ _ _ _ _ h := h
  f32Max := by
    refine ⟨trivial, ?_, ?_⟩
    · show (2:ℝ) ^ 127 ≤ (2 - 1 / 2 ^ 23) * 2 ^ 127
      norm_num
    · show ((2:ℝ) - 1 / 2 ^ 23) * 2 ^ 127 ≤ 2 ^ 128
      norm_num
  lt_inf x _ h := (real_lt _ _).2 (lt_of_le_of_lt h (show (2:ℝ) ^ 127 < 2 ^ 128 by norm_num))
  not_nan _ _ := rfl

/-- Rounding functions that keep the order and leave rounded numbers alone. -/
structure OrdRounding extends Rounding where
  mono32 : Monotone r32
  idem32 : ∀ x, r32 (r32 x) = r32 x

theorem OrdRounding.nonneg (ρ : OrdRounding) {x : ℝ} (h : 0 ≤ x) : 0 ≤ ρ.r32 x := by
  have h0 : ρ.r32 0 = 0 := (ρ.ok32 0 (by unfold Fits32; norm_num)).2 rfl
  exact h0 ▸ ρ.mono32 h

/-- Rounding every operation in this way satisfies the laws. -/
noncomputable instance (ρ : OrdRounding) : FltOrd (RoundedReal ρ.toRounding) where
  sqrt_mono _ _ _ _ _ h := ρ.mono32 (Real.sqrt_le_sqrt h)
  sqrt_le_add w x y _ _ _ _ h := by
    refine (real_le _ _).2 ?_
    have := ρ.mono32 h
    exact le_trans (le_of_eq (ρ.idem32 _).symm) this
  sub_le_sqrt w x y _ _ _ _ h := by
    refine (real_le _ _).2 ?_
    have := ρ.mono32 h
    exact le_trans this (le_of_eq (ρ.idem32 _))
  mul_nonneg _ _ _ _ _ h := ρ.nonneg h
  add_nonneg _ _ _ _ _ h := ρ.nonneg h
  f32Max := by
    refine ⟨trivial, ?_, ?_⟩
    · show (2:ℝ) ^ 127 ≤ (2 - 1 / 2 ^ 23) * 2 ^ 127
      norm_num
    · show ((2:ℝ) - 1 / 2 ^ 23) * 2 ^ 127 ≤ 2 ^ 128
      norm_num
  lt_inf x _ h := (real_lt _ _).2 (lt_of_le_of_lt h (show (2:ℝ) ^ 127 < 2 ^ 128 by norm_num))
  not_nan _ _ := rfl

/-! ### An example: numbers cut off after a fixed number of significant bits -/

/-- a non-negative number without the bits after the first `p + 1` -/
noncomputable def cutBits (p : ℤ) (x : ℝ) : ℝ := ⌊x * 2 ^ (p - Int.log 2 x)⌋ / 2 ^ (p - Int.log 2 x)

theorem cutBits_le {p : ℤ} {x : ℝ} : cutBits p x ≤ x := by
  unfold cutBits
  have : (0:ℝ) < 2 ^ (p - Int.log 2 x) := by positivity
  rw [div_le_iff₀ this]
  exact Int.floor_le _

theorem cutBits_err {p : ℤ} {x : ℝ} (hx : 0 < x) : x - cutBits p x ≤ x * 2 ^ (-p) := by
  unfold cutBits
  have h2 : (0:ℝ) < 2 ^ (p - Int.log 2 x) := by positivity
  have h3 := Int.lt_floor_add_one (x * 2 ^ (p - Int.log 2 x))
  have h1 : ((2:ℕ):ℝ) ^ Int.log 2 x ≤ x := Int.zpow_log_le_self (by norm_num) hx
  have h4 : x - ⌊x * 2 ^ (p - Int.log 2 x)⌋ / 2 ^ (p - Int.log 2 x) ≤ 1 / 2 ^ (p - Int.log 2 x) := by
    rw [sub_le_iff_le_add, ← add_div, le_div_iff₀ h2]
    linarith
  refine h4.trans ?_
  have e : (1:ℝ) / 2 ^ (p - Int.log 2 x) = 2 ^ (Int.log 2 x) * 2 ^ (-p) := by
    rw [one_div, ← zpow_neg, ← zpow_add₀ (by norm_num)]
    congr 1; ring
  rw [e]
  have : (0:ℝ) < 2 ^ (-p) := by positivity
  push_cast at h1
  exact mul_le_mul_of_nonneg_right h1 this.le

theorem cutBits_ge {p : ℤ} (hp : 0 ≤ p) {x : ℝ} (hx : 0 < x) : (2:ℝ) ^ Int.log 2 x ≤ cutBits p x := by
  unfold cutBits
  have h2 : (0:ℝ) < 2 ^ (p - Int.log 2 x) := by positivity
  rw [le_div_iff₀ h2]
  have h1 : ((2:ℕ):ℝ) ^ Int.log 2 x ≤ x := Int.zpow_log_le_self (by norm_num) hx
  push_cast at h1
  have e : (2:ℝ) ^ Int.log 2 x * 2 ^ (p - Int.log 2 x) = ((2 ^ p.toNat : ℤ) : ℝ) := by
    rw [← zpow_add₀ (by norm_num)]
    push_cast
    rw [← zpow_natCast]
    congr 1
    rw [Int.toNat_of_nonneg hp]; ring
  rw [e]
  have : (2 ^ p.toNat : ℤ) ≤ ⌊x * 2 ^ (p - Int.log 2 x)⌋ := by
    rw [Int.le_floor, ← e]
    exact mul_le_mul_of_nonneg_right h1 h2.le
  exact_mod_cast this

theorem cutBits_pos {p : ℤ} (hp : 0 ≤ p) {x : ℝ} (hx : 0 < x) : 0 < cutBits p x :=
  lt_of_lt_of_le (by positivity) (cutBits_ge hp hx)

theorem cutBits_log {p : ℤ} (hp : 0 ≤ p) {x : ℝ} (hx : 0 < x) : Int.log 2 (cutBits p x) = Int.log 2 x := by
  apply le_antisymm
  · exact Int.log_mono_right (cutBits_pos hp hx) cutBits_le
  · have h := cutBits_ge hp hx
    have h2 := Int.log_mono_right (b := 2) (r₁ := (2:ℝ) ^ Int.log 2 x) (by positivity) h
    have e : Int.log 2 ((2:ℝ) ^ Int.log 2 x) = Int.log 2 x := by
      have := Int.log_zpow (R := ℝ) (b := 2) (by norm_num) (Int.log 2 x)
      push_cast at this
      exact this
    rwa [e] at h2

theorem cutBits_idem {p : ℤ} (hp : 0 ≤ p) {x : ℝ} (hx : 0 < x) : cutBits p (cutBits p x) = cutBits p x := by
  have hl := cutBits_log hp hx
  have h2 : (2:ℝ) ^ (p - Int.log 2 x) ≠ 0 := by positivity
  conv_lhs => unfold cutBits
  have e : Int.log 2 (cutBits p x) = Int.log 2 x := hl
  rw [show (⌊x * 2 ^ (p - Int.log 2 x)⌋ : ℝ) / 2 ^ (p - Int.log 2 x) = cutBits p x from rfl, e]
  unfold cutBits
  rw [div_mul_cancel₀ _ h2, Int.floor_intCast]

theorem cutBits_mono {p : ℤ} (hp : 0 ≤ p) {x y : ℝ} (hx : 0 < x) (hxy : x ≤ y) : cutBits p x ≤ cutBits p y := by
  have hy := lt_of_lt_of_le hx hxy
  rcases (Int.log_mono_right (b := 2) hx hxy).eq_or_lt with h | h
  · unfold cutBits
    rw [h]
    have h2 : (0:ℝ) < 2 ^ (p - Int.log 2 y) := by positivity
    apply div_le_div_of_nonneg_right _ h2.le
    exact_mod_cast Int.floor_mono (mul_le_mul_of_nonneg_right hxy h2.le)
  · refine cutBits_le.trans ?_
    refine le_trans ?_ (cutBits_ge hp hy)
    have h1 : x < ((2:ℕ):ℝ) ^ (Int.log 2 x + 1) := Int.lt_zpow_succ_log_self (by norm_num) x
    push_cast at h1
    exact h1.le.trans (zpow_le_zpow_right₀ (by norm_num) (by omega))

/-- towards zero -/
noncomputable def cutOff (p : ℤ) (x : ℝ) : ℝ := if 0 < x then cutBits p x else if x < 0 then -cutBits p (-x) else 0

theorem cutOff_rounds {p : ℤ} {η : ℝ} (hη : 0 ≤ η) (x : ℝ) : RoundsTo (2 ^ (-p)) η x (cutOff p x) := by
  unfold cutOff
  rcases lt_trichotomy x 0 with h | h | h
  · rw [if_neg (by linarith), if_pos h]
    refine ⟨?_, fun h0 => by linarith⟩
    have h1 := cutBits_err (p := p) (x := -x) (by linarith)
    have h2 := cutBits_le (p := p) (x := -x)
    rw [abs_of_neg h, abs_of_nonneg (by linarith)]
    linarith [mul_comm (-x) ((2:ℝ) ^ (-p))]
  · subst h
    simp [RoundsTo, hη]
  · rw [if_pos h]
    refine ⟨?_, fun h0 => by linarith⟩
    have h1 := cutBits_err (p := p) h
    have h2 := cutBits_le (p := p) (x := x)
    rw [abs_of_pos h, abs_of_nonpos (by linarith)]
    linarith [mul_comm x ((2:ℝ) ^ (-p))]

theorem cutOff_of_pos {p : ℤ} {x : ℝ} (h : 0 < x) : cutOff p x = cutBits p x := if_pos h

theorem cutOff_of_neg {p : ℤ} {x : ℝ} (h : x < 0) : cutOff p x = -cutBits p (-x) := by
  unfold cutOff
  rw [if_neg (by linarith), if_pos h]

theorem cutOff_idem {p : ℤ} (hp : 0 ≤ p) (x : ℝ) : cutOff p (cutOff p x) = cutOff p x := by
  rcases lt_trichotomy x 0 with h | h | h
  · have := cutBits_pos hp (x := -x) (by linarith)
    rw [cutOff_of_neg h, cutOff_of_neg (by linarith), neg_neg, cutBits_idem hp (by linarith)]
  · subst h; simp [cutOff]
  · rw [cutOff_of_pos h, cutOff_of_pos (cutBits_pos hp h), cutBits_idem hp h]

theorem cutOff_mono {p : ℤ} (hp : 0 ≤ p) : Monotone (cutOff p) := by
  intro x y hxy
  unfold cutOff
  rcases lt_trichotomy x 0 with h | h | h
  · rw [if_neg (by linarith), if_pos h]
    have h1 := cutBits_pos hp (x := -x) (by linarith)
    rcases lt_trichotomy y 0 with h' | h' | h'
    · rw [if_neg (by linarith), if_pos h']
      exact neg_le_neg (cutBits_mono hp (by linarith) (by linarith))
    · subst h'; simp; exact h1.le
    · rw [if_pos h']
      have := cutBits_pos hp h'
      linarith
  · subst h
    simp only [lt_irrefl, if_false]
    split
    next h' => exact (cutBits_pos hp h').le
    · rw [if_neg (by linarith)]
  · rw [if_pos h, if_pos (by linarith)]
    exact cutBits_mono hp h hxy

/-- numbers cut off after 25 and 54 significant bits -/
noncomputable def cutRounding : OrdRounding where
  r32 := cutOff 24
  r64 := cutOff 53
  ok32 r _ := by
    have := cutOff_rounds (p := 24) tiny32_nonneg r
    have e : (2:ℝ) ^ (-(24:ℤ)) = u32 := by unfold u32; norm_num
    rwa [e] at this
  ok64 r _ := by
    have := cutOff_rounds (p := 53) tiny64_nonneg r
    have e : (2:ℝ) ^ (-(53:ℤ)) = u64 := by unfold u64; norm_num
    rwa [e] at this
  mono32 := cutOff_mono (by norm_num)
  idem32 := cutOff_idem (by norm_num)

end Verif
