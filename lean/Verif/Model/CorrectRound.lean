import Verif.Model.RoundedOrder

/-!
# Correct rounding

IEEE operations return the exact result rounded by one function that keeps the order and the whole numbers that have a
representation. `FltCorrect` has this for the `f32` operations that progress values are computed with, `FltFull` adds the
`f64` operations that weights are added up with, and that `powf` does not leave the unit interval.
-/

namespace Verif
open Flt

/-- `f32` operations round the exact result. -/
class FltCorrect (F : Type) [Flt F] extends FltRound F where
  r32 : ℝ → ℝ
  r32_mono : Monotone r32
  /-- whole numbers up to 2²⁴ are represented -/
  r32_nat : ∀ n : ℕ, n ≤ 2 ^ 24 → r32 n = n
  lit32_eq : ∀ q : ℚ, Fits32 q → val (Flt.lit32 q) = r32 q
  add32_eq : ∀ x y, fin x → fin y → Fits32 (val x + val y) → val (x +₃ y) = r32 (val x + val y)
  sub32_eq : ∀ x y, fin x → fin y → Fits32 (val x - val y) → val (x -₃ y) = r32 (val x - val y)
  mul32_eq : ∀ x y, fin x → fin y → Fits32 (val x * val y) → val (x *₃ y) = r32 (val x * val y)
  div32_eq : ∀ x y, fin x → fin y → val y ≠ 0 → Fits32 (val x / val y) → val (x /₃ y) = r32 (val x / val y)
  fma32_eq : ∀ x y z, fin x → fin y → fin z → Fits32 (val x * val y + val z) →
    val (Flt.fma32 x y z) = r32 (val x * val y + val z)

/-- exact arithmetic is one example -/
noncomputable instance : FltCorrect ℝ where
  r32 := id
  r32_mono := monotone_id
  r32_nat _ _ := rfl
  lit32_eq _ _ := rfl
  add32_eq _ _ _ _ _ := rfl
  sub32_eq _ _ _ _ _ := rfl
  mul32_eq _ _ _ _ _ := rfl
  div32_eq _ _ _ _ _ _ := rfl
  fma32_eq _ _ _ _ _ _ _ := rfl

theorem cutOff_nat {p : ℕ} {n : ℕ} (h : n ≤ 2 ^ p) : cutOff (p : ℤ) (n : ℝ) = n := by
  rcases Nat.eq_zero_or_pos n with h0 | h0
  · subst h0; simp [cutOff]
  · have hn : (0:ℝ) < n := by exact_mod_cast h0
    rw [cutOff_of_pos hn]
    unfold cutBits
    have hlog : Int.log 2 (n : ℝ) = (Nat.log 2 n : ℤ) := Int.log_natCast 2 n
    have hle : Nat.log 2 n ≤ p := by
      have := Nat.log_mono_right (b := 2) h
      rwa [Nat.log_pow (by norm_num)] at this
    have e : (2:ℝ) ^ ((p : ℤ) - Int.log 2 (n : ℝ)) = ((2 ^ (p - Nat.log 2 n) : ℕ) : ℝ) := by
      rw [hlog, ← Nat.cast_sub hle, zpow_natCast]
      push_cast; rfl
    rw [e, ← Nat.cast_mul, Int.floor_natCast]
    have : ((2 ^ (p - Nat.log 2 n) : ℕ) : ℝ) ≠ 0 := by positivity
    push_cast at this ⊢
    field_simp

/-- numbers cut off after 25 significant bits are another -/
noncomputable instance : FltCorrect (RoundedReal cutRounding.toRounding) where
  r32 := cutRounding.r32
  r32_mono := cutRounding.mono32
  r32_nat _ h := cutOff_nat (p := 24) h
  lit32_eq _ _ := rfl
  add32_eq _ _ _ _ _ := rfl
  sub32_eq _ _ _ _ _ := rfl
  mul32_eq _ _ _ _ _ := rfl
  div32_eq _ _ _ _ _ _ := rfl
  fma32_eq _ _ _ _ _ _ _ := rfl

section
variable {F : Type} [Flt F] [FltCorrect F]
open FltRound FltCorrect

theorem r32_le {e : ℝ} {n : ℕ} (hn : n ≤ 2 ^ 24) (h : e ≤ n) : r32 F e ≤ n := r32_nat (F := F) n hn ▸ r32_mono h
theorem le_r32 {e : ℝ} {n : ℕ} (hn : n ≤ 2 ^ 24) (h : n ≤ e) : (n : ℝ) ≤ r32 F e := r32_nat (F := F) n hn ▸ r32_mono h

theorem r32_nonneg {e : ℝ} (h : 0 ≤ e) : 0 ≤ r32 F e := by
  have := le_r32 (F := F) (n := 0) (by norm_num) (e := e) (by rwa [Nat.cast_zero])
  rwa [Nat.cast_zero] at this

theorem r32_le_one {e : ℝ} (h : e ≤ 1) : r32 F e ≤ 1 := by
  have := r32_le (F := F) (n := 1) (by norm_num) (e := e) (by rwa [Nat.cast_one])
  rwa [Nat.cast_one] at this

end

/-- All laws: error bounds, order, and correct rounding in both widths. -/
class FltFull (F : Type) [Flt F] extends FltCorrect F, FltOrd F where
  r32_idem : ∀ x, r32 (r32 x) = r32 x
  r64 : ℝ → ℝ
  r64_mono : Monotone r64
  r64_idem : ∀ x, r64 (r64 x) = r64 x
  /-- whole numbers up to 2⁵³ are represented -/
  r64_nat : ∀ n : ℕ, n ≤ 2 ^ 53 → r64 n = n
  lit64_eq : ∀ q : ℚ, Fits64 q → val (Flt.lit64 q) = r64 q
  add64_eq : ∀ x y, fin x → fin y → Fits64 (val x + val y) → val (x +₆ y) = r64 (val x + val y)
  div64_eq : ∀ x y, fin x → fin y → val y ≠ 0 → Fits64 (val x / val y) → val (x /₆ y) = r64 (val x / val y)
  to32_eq : ∀ x, fin x → Fits32 (val x) → val (Flt.to32 x) = r32 (val x)
  pow32_unit : ∀ x y, fin x → fin y → 0 ≤ val x → val x ≤ 1 → 0 < val y →
    0 ≤ val (Flt.pow32 x y) ∧ val (Flt.pow32 x y) ≤ 1

/-- exact arithmetic is one example -/
noncomputable instance : FltFull ℝ where
  r32_idem _ := rfl
  r64 := id
  r64_mono := monotone_id
  r64_idem _ := rfl
  r64_nat _ _ := rfl
  lit64_eq _ _ := rfl
  add64_eq _ _ _ _ _ := rfl
  div64_eq _ _ _ _ _ _ := rfl
  to32_eq _ _ _ := rfl
  pow32_unit _ _ _ _ h0 h1 hy := ⟨Real.rpow_nonneg h0 _, Real.rpow_le_one h0 h1 hy.le⟩

/-- numbers cut off after 25 and 54 significant bits are another -/
noncomputable instance : FltFull (RoundedReal cutRounding.toRounding) where
  r32_idem := cutRounding.idem32
  r64 := cutRounding.r64
  r64_mono := cutOff_mono (by norm_num)
  r64_idem := cutOff_idem (by norm_num)
  r64_nat _ h := cutOff_nat (p := 53) h
  lit64_eq _ _ := rfl
  add64_eq _ _ _ _ _ := rfl
  div64_eq _ _ _ _ _ _ := rfl
  to32_eq _ _ _ := rfl
  pow32_unit x y _ _ h0 h1 hy := by
    refine ⟨cutRounding.nonneg (Real.rpow_nonneg h0 _), ?_⟩
    have := cutRounding.mono32 (Real.rpow_le_one h0 h1 (z := y.val) (le_of_lt hy))
    have e : cutRounding.r32 1 = 1 := by
      have := cutOff_nat (p := 24) (n := 1) (by norm_num)
      rw [Nat.cast_one] at this
      exact this
    rw [e] at this
    exact this

/-! ### The smallest number -/

/-- `FltFull`, and numbers of type `f32` that are not zero are at least the smallest subnormal number. -/
class FltMin (F : Type) [Flt F] extends FltFull F where
  pos32 : ∀ x, 0 < r32 x → 2⁻¹ ^ 149 ≤ r32 x

open Classical in
/-- cut off, and 0 for numbers below 2⁻¹⁴⁹ -/
noncomputable def flush (x : ℝ) : ℝ := if |x| < 2⁻¹ ^ 149 then 0 else cutOff 24 x

theorem flush_small {x : ℝ} (h : |x| < 2⁻¹ ^ 149) : flush x = 0 := if_pos h

theorem flush_big {x : ℝ} (h : 2⁻¹ ^ 149 ≤ |x|) : flush x = cutOff 24 x := if_neg (not_lt.2 h)

theorem cutOff_min {x : ℝ} (h : 2⁻¹ ^ 149 ≤ x) : 2⁻¹ ^ 149 ≤ cutOff 24 x := by
  have h0 : (0:ℝ) < 2⁻¹ ^ 149 := by positivity
  have hx := lt_of_lt_of_le h0 h
  rw [cutOff_of_pos hx]
  refine le_trans ?_ (cutBits_ge (by norm_num) hx)
  have e : (2⁻¹ : ℝ) ^ 149 = 2 ^ (-149 : ℤ) := by
    rw [zpow_neg, inv_pow]; norm_cast
  rw [e] at h ⊢
  apply zpow_le_zpow_right₀ (by norm_num)
  have := Int.log_mono_right (b := 2) (r₁ := (2:ℝ) ^ (-149 : ℤ)) (by positivity) h
  have e2 : Int.log 2 ((2:ℝ) ^ (-149 : ℤ)) = -149 := by
    have := Int.log_zpow (R := ℝ) (b := 2) (by norm_num) (-149)
    push_cast at this
    exact this
  rwa [e2] at this

theorem cutOff_neg (p : ℤ) (x : ℝ) : cutOff p (-x) = -cutOff p x := by
  rcases lt_trichotomy x 0 with h | h | h
  · rw [cutOff_of_neg h, cutOff_of_pos (by linarith), neg_neg]
  · subst h; simp [cutOff]
  · rw [cutOff_of_pos h, cutOff_of_neg (by linarith), neg_neg]

theorem flush_cases (x : ℝ) : flush x = 0 ∨ (2⁻¹ ^ 149 ≤ |flush x| ∧ flush x = cutOff 24 x) := by
  rcases lt_or_ge |x| (2⁻¹ ^ 149) with h | h
  · exact .inl (flush_small h)
  · right
    rw [flush_big h]
    refine ⟨?_, rfl⟩
    rcases le_total 0 x with h0 | h0
    · rw [abs_of_nonneg h0] at h
      exact (cutOff_min h).trans (le_abs_self _)
    · rw [abs_of_nonpos h0] at h
      have := cutOff_min h
      rw [cutOff_neg] at this
      exact this.trans (neg_le_abs _)

theorem flush_idem (x : ℝ) : flush (flush x) = flush x := by
  rcases flush_cases x with h | ⟨h1, h2⟩
  · rw [h]; exact flush_small (by simp)
  · rw [flush_big h1, h2, cutOff_idem (by norm_num)]

theorem flush_nonneg {x : ℝ} (h : 0 ≤ x) : 0 ≤ flush x := by
  rcases flush_cases x with h1 | ⟨-, h2⟩
  · rw [h1]
  · rw [h2]
    have := cutOff_mono (p := 24) (by norm_num) h
    simpa [cutOff] using this

theorem flush_neg (x : ℝ) : flush (-x) = -flush x := by
  rcases lt_or_ge |x| (2⁻¹ ^ 149) with h | h
  · rw [flush_small h, flush_small (by rwa [abs_neg]), neg_zero]
  · rw [flush_big h, flush_big (by rwa [abs_neg]), cutOff_neg]

theorem flush_mono : Monotone flush := by
  have pos : ∀ x y : ℝ, 0 ≤ x → x ≤ y → flush x ≤ flush y := by
    intro x y h0 hxy
    rcases lt_or_ge |x| (2⁻¹ ^ 149) with h | h
    · rw [flush_small h]; exact flush_nonneg (h0.trans hxy)
    · rw [flush_big h, flush_big (h.trans (abs_le_abs_of_nonneg h0 hxy))]
      exact cutOff_mono (by norm_num) hxy
  intro x y hxy
  rcases le_total 0 x with h | h
  · exact pos x y h hxy
  · rcases le_total 0 y with h' | h'
    · have h1 := flush_nonneg (x := -x) (by linarith)
      rw [flush_neg] at h1
      linarith [flush_nonneg h']
    · have := pos (-y) (-x) (by linarith) (by linarith)
      rw [flush_neg, flush_neg] at this
      linarith

theorem flush_nat (n : ℕ) (h : n ≤ 2 ^ 24) : flush n = n := by
  rcases Nat.eq_zero_or_pos n with h0 | h0
  · subst h0; rw [Nat.cast_zero]; exact flush_small (by simp)
  · rw [flush_big]
    · exact cutOff_nat h
    · have : (1:ℝ) ≤ n := by exact_mod_cast h0
      rw [abs_of_nonneg (by linarith)]
      refine le_trans ?_ this
      exact pow_le_one₀ (by norm_num) (by norm_num)

theorem flush_rounds (x : ℝ) : RoundsTo u32 tiny32 x (flush x) := by
  rcases lt_or_ge |x| (2⁻¹ ^ 149) with h | h
  · rw [flush_small h]
    refine ⟨?_, fun _ => rfl⟩
    rw [zero_sub, abs_neg]
    have : 0 ≤ u32 * |x| := mul_nonneg (by unfold u32; positivity) (abs_nonneg _)
    unfold tiny32
    linarith
  · rw [flush_big h]
    have e : (2:ℝ) ^ (-24 : ℤ) = u32 := by
      unfold u32; rw [zpow_neg, inv_pow]; norm_cast
    rw [← e]; exact cutOff_rounds (by unfold tiny32; positivity) x

theorem flush_pos (x : ℝ) (h : 0 < flush x) : 2⁻¹ ^ 149 ≤ flush x := by
  rcases flush_cases x with h1 | ⟨h1, -⟩
  · linarith
  · rwa [abs_of_pos h] at h1

theorem flush_le {x : ℝ} (h : 0 ≤ x) : flush x ≤ x := by
  rcases lt_or_ge |x| (2⁻¹ ^ 149) with h1 | h1
  · rw [flush_small h1]; exact h
  · have : (0:ℝ) < x := by
      rcases h.eq_or_lt with h0 | h0
      · rw [← h0, abs_zero] at h1
        have : (0:ℝ) < 2⁻¹ ^ 149 := by positivity
        linarith
      · exact h0
    rw [flush_big h1, cutOff_of_pos this]; exact cutBits_le

end Verif
