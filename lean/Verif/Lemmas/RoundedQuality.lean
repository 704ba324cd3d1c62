import Verif.Lemmas.RoundedConvert
import Verif.Lemmas.Quality

/-! The quality curve with rounding errors. -/

set_option linter.unusedSectionVars false

namespace Verif
open Flt Spec

variable {F : Type} [Flt F] [FltRound F]
open FltRound (val fin)

theorem wpow64_val : wpow64 = 1 / 281474976710656 := by unfold wpow64; norm_num

/-- `x` is finite and within `e` of `r` -/
structure Near (e : ℝ) (x : F) (r : ℝ) : Prop where
  fin : fin x
  near : |val x - r| ≤ e

/-- one part in 10¹² -/
noncomputable def ppt : ℝ := 1 / 1000000000000

theorem Approx.near {k r : ℝ} {x : F} (h : Approx k x r) (hr : 0 ≤ r) (hk : k ≤ 1) : Near (2 * k * r) x r :=
  ⟨h.fin, h.rel.sub_le hr hk⟩

theorem Near.mono {e e' r : ℝ} {x : F} (h : Near e x r) (he : e ≤ e') : Near e' x r := ⟨h.fin, h.near.trans he⟩

theorem fits64_small {r : ℝ} (h : |r| ≤ 1000000) : Fits64 r := by
  unfold Fits64
  refine h.trans (le_trans (by norm_num : (1000000 : ℝ) ≤ 2 ^ 20) ?_)
  exact pow_le_pow_right₀ (by norm_num) (by norm_num)

theorem rounds64_abs {r v : ℝ} (h : RoundsTo u64 tiny64 r v) (hr : |r| ≤ 1000) : |v - r| ≤ ppt := by
  refine h.1.trans ?_
  have h1 : u64 * |r| ≤ u64 * 1000 := mul_le_mul_of_nonneg_left hr u64_nonneg
  have h2 : tiny64 ≤ 2⁻¹ ^ 60 := by
    unfold tiny64
    exact pow_le_pow_of_le_one (by norm_num) (by norm_num) (by norm_num)
  have h3 : u64 * 1000 + 2⁻¹ ^ 60 ≤ ppt := by unfold u64 ppt; norm_num
  linarith

theorem Near.lit {q : ℚ} {r : ℝ} (e : (q : ℝ) = r) (h : |r| ≤ 1000) : Near ppt (Flt.lit64 q : F) r := by
  subst e
  obtain ⟨h1, h2⟩ := FltRound.lit64 (F := F) q (fits64_small (by linarith))
  exact ⟨h1, rounds64_abs h2 h⟩

theorem Near.sub {e d a b : ℝ} {x y : F} (hx : Near e x a) (hy : Near d y b) (h : |a - b| + e + d ≤ 1000) :
    Near (ppt + (e + d)) (x -₆ y) (a - b) := by
  have h0 : |val x - val y - (a - b)| ≤ e + d := by
    have : val x - val y - (a - b) = (val x - a) - (val y - b) := by ring
    rw [this]
    exact (abs_sub _ _).trans (add_le_add hx.near hy.near)
  have h1 : |val x - val y| ≤ 1000 := by
    have := abs_sub_abs_le_abs_sub (val x - val y) (a - b)
    linarith
  obtain ⟨h2, h3⟩ := FltRound.sub64 x y hx.fin hy.fin (fits64_small (by linarith))
  refine ⟨h2, ?_⟩
  have := abs_add_le (val (x -₆ y) - (val x - val y)) (val x - val y - (a - b))
  have h4 := rounds64_abs h3 h1
  have e5 : val (x -₆ y) - (val x - val y) + (val x - val y - (a - b)) = val (x -₆ y) - (a - b) := by ring
  rw [e5] at this
  linarith

theorem Near.add {e d a b : ℝ} {x y : F} (hx : Near e x a) (hy : Near d y b) (h : |a + b| + e + d ≤ 1000) :
    Near (ppt + (e + d)) (x +₆ y) (a + b) := by
  have h0 : |val x + val y - (a + b)| ≤ e + d := by
    have : val x + val y - (a + b) = (val x - a) + (val y - b) := by ring
    rw [this]
    exact (abs_add_le _ _).trans (add_le_add hx.near hy.near)
  have h1 : |val x + val y| ≤ 1000 := by
    have := abs_sub_abs_le_abs_sub (val x + val y) (a + b)
    linarith
  obtain ⟨h2, h3⟩ := FltRound.add64 x y hx.fin hy.fin (fits64_small (by linarith))
  refine ⟨h2, ?_⟩
  have := abs_add_le (val (x +₆ y) - (val x + val y)) (val x + val y - (a + b))
  have h4 := rounds64_abs h3 h1
  have e5 : val (x +₆ y) - (val x + val y) + (val x + val y - (a + b)) = val (x +₆ y) - (a + b) := by ring
  rw [e5] at this
  linarith

theorem Near.mul {e d a b : ℝ} {x y : F} (hx : Near e x a) (hy : Near d y b) (ha : |a| ≤ 1) (hb : |b| ≤ 100)
    (he : e ≤ 1) (hd : d ≤ 1) : Near (ppt + (101 * e + d)) (x *₆ y) (a * b) := by
  have h0 : |val x * val y - a * b| ≤ 101 * e + d := by
    have : val x * val y - a * b = (val x - a) * val y + a * (val y - b) := by ring
    rw [this]
    have hvy : |val y| ≤ 101 := by
      have := abs_sub_abs_le_abs_sub (val y) b
      linarith [hy.near]
    have h1 : |(val x - a) * val y| ≤ e * 101 := by
      rw [abs_mul]
      exact mul_le_mul hx.near hvy (abs_nonneg _) ((abs_nonneg _).trans hx.near)
    have h2 : |a * (val y - b)| ≤ 1 * d := by
      rw [abs_mul]
      exact mul_le_mul ha hy.near (abs_nonneg _) (by norm_num)
    have := abs_add_le ((val x - a) * val y) (a * (val y - b))
    linarith
  have h1 : |val x * val y| ≤ 1000 := by
    have h2 := abs_sub_abs_le_abs_sub (val x * val y) (a * b)
    have h3 : |a * b| ≤ 1 * 100 := by
      rw [abs_mul]
      exact mul_le_mul ha hb (abs_nonneg _) (by norm_num)
    linarith
  obtain ⟨h2, h3⟩ := FltRound.mul64 x y hx.fin hy.fin (fits64_small (by linarith))
  refine ⟨h2, ?_⟩
  have := abs_add_le (val (x *₆ y) - (val x * val y)) (val x * val y - a * b)
  have h4 := rounds64_abs h3 h1
  have e5 : val (x *₆ y) - (val x * val y) + (val x * val y - a * b) = val (x *₆ y) - a * b := by ring
  rw [e5] at this
  linarith

theorem Near.max {e d a b : ℝ} {x y : F} (hx : Near e x a) (hy : Near d y b) :
    Near (e + d) (Flt.fmax x y) (Max.max a b) := by
  obtain ⟨h1, h2⟩ := FltRound.max x y hx.fin hy.fin
  refine ⟨h1, ?_⟩
  rw [h2]
  have h3 := abs_max_sub_max_le_max (val x) (val y) a b
  have := (abs_nonneg _).trans hx.near
  have := (abs_nonneg _).trans hy.near
  exact h3.trans (max_le (by linarith [hx.near]) (by linarith [hy.near]))

/-- relative error below one part in 10¹² -/
theorem Near.approx {e r : ℝ} {x : F} (h : Near e x r) (hr : 1 ≤ r) (he : e ≤ 1 / 3) : Approx (3 / 2 * e) x r := by
  refine ⟨h.fin, Rel.of_near (by linarith) (h.near.trans ?_) he⟩
  have := (abs_nonneg _).trans h.near
  rw [abs_of_pos (by linarith)]
  nlinarith

theorem Approx.lit {q : ℚ} {r : ℝ} (e : (q : ℝ) = r) (h1 : 1 / 1000 ≤ r) (h2 : r ≤ 1000) :
    Approx w64 (Flt.lit64 q : F) r := by
  subst e
  exact Approx.lit64 (mid_of (by linarith) (by linarith))

/-- the power in the curve -/
theorem curvePow_rounded {q : ℕ} (h1 : 1 ≤ q) (h : q ≤ 99) :
    Approx (20 * wpow64) (pow64 (lit64 210 +₆ lit64 (q : ℚ)) (lit64 (12/10)) : F) ((210 + (q : ℝ)) ^ (1.2 : ℝ)) := by
  have hq : (1 : ℝ) ≤ q := by exact_mod_cast h1
  have hq2 : (q : ℝ) ≤ 99 := by exact_mod_cast h
  have a1 := Approx.lit (F := F) (q := 210) (r := 210) (by norm_num) (by norm_num) (by norm_num)
  have a2 := Approx.lit (F := F) (q := (q : ℚ)) (r := q) (by norm_num) (by linarith) (by linarith)
  have a3 := a1.add64 a2 (by norm_num) (by linarith) (mid_of (by linarith) (by linarith)) (by rw [w64_val]; norm_num)
  have a4 := Approx.lit (F := F) (q := 12/10) (r := 1.2) (by norm_num) (by norm_num) (by norm_num)
  set y := (lit64 (12/10) : F)
  have h4 := a4.rel.sub_le (by norm_num) (by rw [w64_val]; norm_num)
  have h5 := abs_le.1 h4
  rw [w64_val] at h5
  have hx : (1 : ℝ) ≤ 210 + q := by linarith
  have hlog0 : 0 ≤ Real.log (210 + q) := Real.log_nonneg hx
  have hlog : Real.log (210 + q) ≤ 6 := by
    rw [Real.log_le_iff_le_exp (by linarith)]
    have h6 : Real.exp 6 = Real.exp 1 ^ 6 := by rw [← Real.exp_nat_mul]; norm_num
    have h7 : (2.7 : ℝ) ^ 6 ≤ Real.exp 1 ^ 6 := by
      have := Real.exp_one_gt_d9
      exact pow_le_pow_left₀ (by norm_num) (by linarith) 6
    have h8 : (309 : ℝ) ≤ 2.7 ^ 6 := by norm_num
    linarith
  have hp1 : 1 ≤ (210 + (q : ℝ)) ^ val y := Real.one_le_rpow hx (by linarith)
  have hp2 : (210 + (q : ℝ)) ^ val y ≤ 1000000 := by
    have h6 : (210 + (q : ℝ)) ^ val y ≤ (210 + (q : ℝ)) ^ (2 : ℝ) :=
      Real.rpow_le_rpow_of_exponent_le hx (by linarith)
    have h7 : (210 + (q : ℝ)) ^ (2 : ℝ) = (210 + (q : ℝ)) ^ (2 : ℕ) := by
      rw [← Real.rpow_natCast]; norm_num
    rw [h7] at h6
    nlinarith
  have a5 := a3.pow64 a4.fin (by linarith) (by linarith) (mid_of (by linarith) hp2) (by rw [w64_val]; linarith)
  have a6 : Rel (6 * (2 * w64 * 1.2)) ((210 + (q : ℝ)) ^ val y) ((210 + (q : ℝ)) ^ (1.2 : ℝ)) := by
    refine ⟨Real.log (210 + q) * (val y - 1.2), ?_, ?_⟩
    · rw [abs_mul, abs_of_nonneg hlog0]
      exact mul_le_mul hlog h4 (abs_nonneg _) (by norm_num)
    · rw [Real.rpow_def_of_pos (by linarith), Real.rpow_def_of_pos (by linarith), ← Real.exp_add]
      congr 1; ring
  refine ⟨a5.fin, (a5.rel.trans a6).mono ?_⟩
  rw [w64_val, wpow64_val]
  linarith

theorem qualityToMse_rounded {q : ℕ} (h1 : 1 ≤ q) (h : q ≤ 99) :
    Near (1 / 100000000) (qualityToMse q : F) (qualityCurve q) := by
  have hq : (1 : ℝ) ≤ q := by exact_mod_cast h1
  have hq2 : (q : ℝ) ≤ 99 := by exact_mod_cast h
  unfold qualityToMse
  rw [if_neg (by omega), if_neg (by omega)]
  have aq := Approx.lit (F := F) (q := (q : ℚ)) (r := q) (by norm_num) (by linarith) (by linarith)
  have nq := Near.lit (F := F) (q := (q : ℚ)) (r := q) (by norm_num) (by rw [abs_of_pos (by linarith)]; linarith)
  -- the first summand
  have f1 := Approx.lit (F := F) (q := 16/1000) (r := 0.016) (by norm_num) (by norm_num) (by norm_num)
  have f2 := Approx.lit (F := F) (q := 1/1000) (r := 0.001) (by norm_num) (by norm_num) (by norm_num)
  have f3 := f2.add64 aq (by norm_num) (by linarith) (mid_of (by linarith) (by linarith)) (by rw [w64_val]; norm_num)
  have hd : 0.016 / 1000 ≤ 0.016 / (0.001 + (q : ℝ)) :=
    div_le_div_of_nonneg_left (by norm_num) (by linarith) (by linarith)
  have hd2 : 0.016 / (0.001 + (q : ℝ)) ≤ 0.016 := div_le_self (by norm_num) (by linarith)
  have f4 := f1.div64 f3 (by linarith) (mid_of (by linarith) (by linarith)) (by rw [w64_val]; norm_num)
  have f5 : Near ppt _ _ := (f4.near (by linarith) (by rw [w64_val]; norm_num)).mono (by rw [w64_val]; unfold ppt; linarith)
  have f6 := Near.lit (F := F) (q := 1/1000) (r := 0.001) (by norm_num) (by rw [abs_of_pos (by norm_num)]; norm_num)
  have f7 := f5.sub f6 (by
    have : |0.016 / (0.001 + (q : ℝ)) - 0.001| ≤ 1 := by rw [abs_le]; constructor <;> linarith
    unfold ppt; linarith)
  have f8 := f7.max (Near.lit (F := F) (q := 0) (r := 0) (by norm_num) (by norm_num))
  -- the second one
  have p0 := curvePow_rounded (F := F) h1 h
  set P := (210 + (q : ℝ)) ^ (1.2 : ℝ) with hP
  have hP1 : 1 ≤ P := Real.one_le_rpow (by linarith) (by norm_num)
  have hP2 : P ≤ 1000 := curve_pow_le h
  have s1 := Approx.lit (F := F) (q := 25/10) (r := 2.5) (by norm_num) (by norm_num) (by norm_num)
  have hD1 : 2.5 / 1000 ≤ 2.5 / P := div_le_div_of_nonneg_left (by norm_num) (by linarith) hP2
  have hD2 : 2.5 / P ≤ 2.5 := div_le_self (by norm_num) hP1
  have s2 := s1.div64 p0 (by linarith) (mid_of (by linarith) (by linarith)) (by rw [w64_val, wpow64_val]; norm_num)
  have s3 := (Near.lit (F := F) (q := 1001/10) (r := 100.1) (by norm_num)
    (by rw [abs_of_pos (by norm_num)]; norm_num)).sub nq (by
      rw [abs_of_pos (by linarith)]; unfold ppt; linarith)
  have s4 := s3.approx (by linarith) (by unfold ppt; norm_num)
  have hM1 : 2.5 / 1000 * 1 ≤ 2.5 / P * (100.1 - q) := mul_le_mul hD1 (by linarith) (by norm_num) (by linarith)
  have hM2 : 2.5 / P * (100.1 - q) ≤ 2.5 * 100 := mul_le_mul hD2 (by linarith) (by linarith) (by norm_num)
  have s5 := s2.mul64 s4 (mid_of (by linarith) (by linarith)) (by rw [w64_val, wpow64_val]; unfold ppt; norm_num)
  have s6 := Approx.lit (F := F) (q := 100) (r := 100) (by norm_num) (by norm_num) (by norm_num)
  have s7 := s5.div64 s6 (by norm_num) (mid_of (by linarith) (by linarith)) (by rw [w64_val, wpow64_val]; unfold ppt; norm_num)
  have s8 : Near (1000 * ppt) _ _ := (s7.near (by linarith) (by rw [w64_val, wpow64_val]; unfold ppt; norm_num)).mono
    (by rw [w64_val, wpow64_val]; unfold ppt; linarith)
  -- sum and weight
  have hm1 : (0 : ℝ) ≤ max (0.016 / (0.001 + (q : ℝ)) - 0.001) 0 := le_max_right _ _
  have hm2 : max (0.016 / (0.001 + (q : ℝ)) - 0.001) 0 ≤ (1 : ℝ) := max_le (by linarith) (by norm_num)
  have hs : |max (0.016 / (0.001 + (q : ℝ)) - 0.001) 0 + 2.5 / P * (100.1 - q) / 100| ≤ 100 := by
    rw [abs_of_nonneg (by linarith)]; linarith
  have t1 := f8.add s8 (by unfold ppt; linarith)
  have t2 := (Near.lit (F := F) (q := 45/100) (r := 0.45) (by norm_num)
    (by rw [abs_of_pos (by norm_num)]; norm_num)).mul t1 (by rw [abs_of_pos (by norm_num)]; norm_num) hs
    (by unfold ppt; norm_num) (by unfold ppt; norm_num)
  unfold qualityCurve
  exact t2.mono (by unfold ppt; norm_num)

/-- the limit of every quality up to rounding -/
theorem qualityToMse_near {q : ℕ} (h1 : 1 ≤ q) (h : q ≤ 100) :
    Near (1 / 100000000) (qualityToMse q : F) (qualityLimit q) := by
  rcases Nat.lt_or_ge q 100 with h9 | h9
  · have := qualityToMse_rounded (F := F) h1 (by omega)
    unfold qualityLimit
    rwa [if_neg (by omega), if_neg (by omega)]
  · unfold qualityToMse qualityLimit
    rw [if_neg (by omega), if_pos h9, if_neg (by omega), if_pos h9]
    exact (Near.lit (by norm_num) (by norm_num)).mono (by unfold ppt; norm_num)

theorem qualityLimit_le {q : ℕ} (h1 : 1 ≤ q) : qualityLimit q ≤ 100 := by
  unfold qualityLimit
  rw [if_neg (by omega)]
  split
  · norm_num
  · exact qualityCurve_le q h1 (by omega)

theorem qualityToMse_zero_rounded : fin (qualityToMse 0 : F) ∧ 1000 ≤ val (qualityToMse 0 : F) := by
  have h := Approx.lit64 (F := F) (q := 10 ^ 20) (by
    unfold Mid
    constructor <;> norm_num)
  unfold qualityToMse
  rw [if_pos rfl]
  refine ⟨h.fin, ?_⟩
  have := h.rel.ge (by norm_num)
  rw [w64_val] at this
  refine le_trans ?_ this
  norm_num

/-- the limit with the tolerance added -/
theorem limitPlus_near {q : ℕ} (h1 : 1 ≤ q) (h : q ≤ 100) :
    Near (1 / 10000000) (qualityToMse q +₆ lit64 (1/1000000) : F) (qualityLimit q + 1 / 1000000) := by
  have a := qualityToMse_near (F := F) h1 h
  have b := Near.lit (F := F) (q := 1/1000000) (r := 1 / 1000000) (by norm_num)
    (by rw [abs_of_pos (by norm_num)]; norm_num)
  have h2 := qualityLimit_le h1
  have h3 := qualityLimit_nonneg q
  exact (a.add b (by rw [abs_of_nonneg (by linarith)]; unfold ppt; linarith)).mono (by unfold ppt; norm_num)

theorem mseToQualityFrom_rounded (mse : F) (hm : fin mse) (n : ℕ) (hn : n ≤ 100) (q : ℕ) (hq : q ≤ n)
    (hok : q = 0 ∨ val mse ≤ qualityLimit q + 5 / 10000000)
    (hgt : ∀ i, q < i → i ≤ n → qualityLimit i + 2 / 1000000 < val mse) : mseToQualityFrom mse n = q := by
  induction n with
  | zero => obtain rfl : q = 0 := by omega
            rfl
  | succ n ih =>
    unfold mseToQualityFrom
    have hl := limitPlus_near (F := F) (q := n + 1) (by omega) hn
    have habs := abs_le.1 hl.near
    rcases Nat.lt_or_ge n q with h2 | h2
    · obtain rfl : q = n + 1 := by omega
      rw [if_pos]
      refine (FltRound.le _ _ hm hl.fin).2 ?_
      rcases hok with h3 | h3
      · omega
      · linarith
    · rw [if_neg]
      · exact ih (by omega) h2 (fun i h3 h4 => hgt i h3 (by omega))
      · intro hle
        have h3 := (FltRound.le _ _ hm hl.fin).1 hle
        have h4 := hgt (n + 1) (by omega) le_rfl
        linarith

theorem mseToQuality_limit_rounded {q : ℕ} (h : q ≤ 100) : mseToQuality (qualityToMse q : F) = q := by
  unfold mseToQuality
  rcases Nat.eq_zero_or_pos q with rfl | hpos
  · obtain ⟨h1, h2⟩ := qualityToMse_zero_rounded (F := F)
    refine mseToQualityFrom_rounded _ h1 100 le_rfl 0 (by omega) (Or.inl rfl) (fun i h3 _ => ?_)
    have := qualityLimit_le (q := i) h3
    linarith
  · have hn := qualityToMse_near (F := F) hpos h
    have habs := abs_le.1 hn.near
    refine mseToQualityFrom_rounded _ hn.fin 100 le_rfl q h (Or.inr (by linarith)) (fun i h3 h4 => ?_)
    have := qualityLimit_lt h3 h4
    linarith

end Verif
