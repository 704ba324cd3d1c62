import Verif.Model.Attr
import Verif.Spec.Settings
import Mathlib.Tactic.Linarith
import Mathlib.Tactic.NormNum
import Mathlib.Tactic.Positivity
import Mathlib.Tactic.IntervalCases

/-! The quality curve is strictly decreasing with a gap larger than the tolerance `1e-6`. -/

namespace Verif
open Flt Spec

theorem qualityToMse_spec (q : ℕ) : (qualityToMse q : ℝ) = qualityLimit q := by
  unfold qualityToMse qualityLimit qualityCurve
  by_cases h0 : q = 0
  · simp [h0]
  by_cases h1 : 100 ≤ q
  · simp [h0, h1]
  · simp only [h0, h1, if_false, weightMSE, real_lit64, real_mul64, real_add64, real_div64,
      real_sub64, real_max, real_pow64]
    push_cast
    norm_num

/-- `309^1.2 < 1000` -/
theorem pow309 : (309 : ℝ) ^ (1.2 : ℝ) ≤ 1000 := by
  have h : ((309 : ℝ) ^ (1.2 : ℝ)) ^ (5 : ℕ) ≤ 1000 ^ (5 : ℕ) := by
    rw [← Real.rpow_natCast, ← Real.rpow_mul (by norm_num)]
    have : (1.2 : ℝ) * ((5 : ℕ) : ℝ) = ((6 : ℕ) : ℝ) := by norm_num
    rw [this, Real.rpow_natCast]; norm_num
  exact le_of_pow_le_pow_left₀ (by norm_num) (by norm_num) h

theorem curve_pow_le {q : ℕ} (h : q ≤ 99) : (210 + (q : ℝ)) ^ (1.2 : ℝ) ≤ 1000 := by
  refine le_trans (Real.rpow_le_rpow (by positivity) ?_ (by norm_num)) pow309
  have : (q : ℝ) ≤ 99 := by exact_mod_cast h
  linarith

theorem curve_pow_pos (q : ℕ) : 0 < (210 + (q : ℝ)) ^ (1.2 : ℝ) := by positivity

theorem qualityCurve_succ {q : ℕ} (h : q + 1 ≤ 99) : qualityCurve (q + 1) + 1 / 100000 ≤ qualityCurve q := by
  unfold qualityCurve
  have hf : max (0.016 / (0.001 + ((q + 1 : ℕ) : ℝ)) - 0.001) 0 ≤ max (0.016 / (0.001 + (q : ℝ)) - 0.001) (0 : ℝ) := by
    apply max_le_max_right
    have : 0.016 / (0.001 + ((q + 1 : ℕ) : ℝ)) ≤ 0.016 / (0.001 + (q : ℝ)) := by
      apply div_le_div_of_nonneg_left (by norm_num) (by positivity)
      push_cast; linarith
    linarith
  have hq : (q : ℝ) + 1 ≤ 99 := by exact_mod_cast h
  set P := (210 + (q : ℝ)) ^ (1.2 : ℝ) with hP
  have hPpos : 0 < P := curve_pow_pos q
  have hP1 : P ≤ 1000 := curve_pow_le (by omega)
  have hmono : 2.5 / (210 + ((q + 1 : ℕ) : ℝ)) ^ (1.2 : ℝ) ≤ 2.5 / P := by
    apply div_le_div_of_nonneg_left (by norm_num) hPpos
    apply Real.rpow_le_rpow (by positivity) _ (by norm_num)
    push_cast; linarith
  have hge : 2.5 / 1000 ≤ 2.5 / P := div_le_div_of_nonneg_left (by norm_num) hPpos hP1
  have h2 : 2.5 / (210 + ((q + 1 : ℕ) : ℝ)) ^ (1.2 : ℝ) * (100.1 - ((q + 1 : ℕ) : ℝ)) / 100
      ≤ 2.5 / P * (100.1 - ((q + 1 : ℕ) : ℝ)) / 100 := by
    have : 0 ≤ 100.1 - ((q + 1 : ℕ) : ℝ) := by push_cast; linarith
    gcongr
  have h3 : 2.5 / P * (100.1 - ((q + 1 : ℕ) : ℝ)) / 100 = 2.5 / P * (100.1 - q) / 100 - 2.5 / P / 100 := by
    push_cast; ring
  rw [h3] at h2
  linarith

theorem qualityCurve_99 : 1 / 100000 ≤ qualityCurve 99 := by
  unfold qualityCurve
  have hPpos := curve_pow_pos 99
  have hP1 := curve_pow_le (q := 99) le_rfl
  have hge : 2.5 / 1000 ≤ 2.5 / (210 + ((99 : ℕ) : ℝ)) ^ (1.2 : ℝ) :=
    div_le_div_of_nonneg_left (by norm_num) hPpos hP1
  have h0 := le_max_right (0.016 / (0.001 + ((99 : ℕ) : ℝ)) - 0.001) (0 : ℝ)
  have h2 : 2.5 / 1000 * (100.1 - ((99 : ℕ) : ℝ)) / 100 ≤
      2.5 / (210 + ((99 : ℕ) : ℝ)) ^ (1.2 : ℝ) * (100.1 - ((99 : ℕ) : ℝ)) / 100 := by
    have : (0 : ℝ) ≤ 100.1 - ((99 : ℕ) : ℝ) := by norm_num
    gcongr
  norm_num at h2 h0 ⊢
  linarith

theorem qualityCurve_le (q : ℕ) (h1 : 1 ≤ q) (h : q ≤ 99) : qualityCurve q ≤ 100 := by
  unfold qualityCurve
  have hq : (1 : ℝ) ≤ q := by exact_mod_cast h1
  have hq2 : (q : ℝ) ≤ 99 := by exact_mod_cast h
  have hP : 1 ≤ (210 + (q : ℝ)) ^ (1.2 : ℝ) := Real.one_le_rpow (by linarith) (by norm_num)
  have h1 : 2.5 / (210 + (q : ℝ)) ^ (1.2 : ℝ) ≤ 2.5 := div_le_self (by norm_num) hP
  have h2 : 2.5 / (210 + (q : ℝ)) ^ (1.2 : ℝ) * (100.1 - q) / 100 ≤ 2.5 * 100.1 / 100 := by
    have : (0 : ℝ) ≤ 100.1 - q := by linarith
    gcongr
    linarith
  have h3 : max (0.016 / (0.001 + (q : ℝ)) - 0.001) 0 ≤ (1 : ℝ) := by
    apply max_le _ (by norm_num)
    have : 0.016 / (0.001 + (q : ℝ)) ≤ 0.016 := div_le_self (by norm_num) (by linarith)
    linarith
  linarith

theorem qualityLimit_succ {q : ℕ} (h : q + 1 ≤ 100) : qualityLimit (q + 1) + 1 / 100000 ≤ qualityLimit q := by
  unfold qualityLimit
  rcases Nat.lt_or_ge q 99 with h9 | h9
  · rcases Nat.eq_zero_or_pos q with rfl | hpos
    · have := qualityCurve_le 1 le_rfl (by norm_num)
      simp only [Nat.zero_add, one_ne_zero, if_false, if_true, show ¬ (100 ≤ 1) by norm_num]
      norm_num; linarith
    · rw [if_neg (by omega), if_neg (by omega), if_neg (by omega), if_neg (by omega)]
      exact qualityCurve_succ (by omega)
  · obtain rfl : q = 99 := by omega
    rw [if_neg (by omega), if_pos (by omega), if_neg (by omega), if_neg (by omega)]
    linarith [qualityCurve_99]

theorem qualityLimit_lt {p q : ℕ} (h : p < q) (hq : q ≤ 100) : qualityLimit q + 1 / 100000 ≤ qualityLimit p := by
  induction q with
  | zero => omega
  | succ n ih =>
    have h1 := qualityLimit_succ hq
    rcases Nat.lt_or_ge p n with h2 | h2
    · have := ih h2 (by omega); linarith
    · obtain rfl : p = n := by omega
      exact h1

theorem qualityLimit_nonneg (q : ℕ) : 0 ≤ qualityLimit q := by
  rcases Nat.lt_or_ge q 100 with h | h
  · have := qualityLimit_lt h le_rfl
    have h100 : qualityLimit 100 = 0 := by simp [qualityLimit]
    rw [h100] at this; linarith
  · unfold qualityLimit; rw [if_neg (by omega), if_pos h]

/-- the loop returns the largest admissible quality -/
theorem mseToQualityFrom_spec (mse : ℝ) (n : ℕ) :
    IsGreatest {q : ℕ | q ≤ n ∧ (q = 0 ∨ mse ≤ qualityLimit q + 1 / 1000000)} (mseToQualityFrom mse n) := by
  induction n with
  | zero => exact ⟨⟨le_rfl, Or.inl rfl⟩, fun q hq => hq.1⟩
  | succ n ih =>
    unfold mseToQualityFrom
    have e : (le mse (qualityToMse (n + 1) +₆ lit64 (1/1000000)) = true) ↔
        mse ≤ qualityLimit (n + 1) + 1 / 1000000 := by
      rw [real_le, real_add64, real_lit64, qualityToMse_spec]; norm_num
    by_cases h : mse ≤ qualityLimit (n + 1) + 1 / 1000000
    · rw [if_pos (e.2 h)]
      exact ⟨⟨le_rfl, Or.inr h⟩, fun q hq => hq.1⟩
    · rw [if_neg (fun hh => h (e.1 hh))]
      refine ⟨⟨le_trans ih.1.1 (Nat.le_succ n), ih.1.2⟩, fun q hq => ?_⟩
      rcases Nat.lt_or_ge n q with h2 | h2
      · obtain rfl : q = n + 1 := le_antisymm hq.1 h2
        rcases hq.2 with h3 | h3
        · omega
        · exact absurd h3 h
      · exact ih.2 ⟨h2, hq.2⟩

theorem mseToQuality_limit {q : ℕ} (h : q ≤ 100) : mseToQuality (qualityToMse q : ℝ) = q := by
  have hg := mseToQualityFrom_spec (qualityToMse q : ℝ) 100
  rw [qualityToMse_spec] at hg ⊢
  apply le_antisymm
  · by_contra hlt
    push Not at hlt
    have h1 := hg.1
    unfold mseToQuality at hlt
    rcases h1.2 with h2 | h2
    · omega
    · have := qualityLimit_lt hlt h1.1
      norm_num at h2 this
      linarith
  · exact hg.2 ⟨h, Or.inr (by linarith)⟩

end Verif
