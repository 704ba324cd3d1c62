import Verif.Model.Rounded
import Mathlib.Analysis.SpecialFunctions.Log.Basic
import Mathlib.Analysis.Complex.ExponentialBounds
import Mathlib.Tactic.FieldSimp

/-! Calculus of relative errors: a computed value is the exact one times `exp t` with a small `t`. Errors of
products and quotients add up, those of powers are multiplied by the exponent. -/

namespace Verif
open Flt

/-- `y` is `x` up to a factor between `exp (-k)` and `exp k` -/
def Rel (k y x : ℝ) : Prop := ∃ t, |t| ≤ k ∧ y = x * Real.exp t

namespace Rel

theorem refl (x : ℝ) : Rel 0 x x := ⟨0, by simp, by simp⟩

theorem mono {k l y x : ℝ} (h : Rel k y x) (hk : k ≤ l) : Rel l y x := by
  obtain ⟨t, h1, h2⟩ := h
  exact ⟨t, h1.trans hk, h2⟩

theorem trans {k l z y x : ℝ} (h1 : Rel k z y) (h2 : Rel l y x) : Rel (k + l) z x := by
  obtain ⟨s, hs, rfl⟩ := h1
  obtain ⟨t, ht, rfl⟩ := h2
  exact ⟨s + t, (abs_add_le _ _).trans (add_le_add hs ht), by rw [Real.exp_add]; ring⟩

theorem mul {k l y x y' x' : ℝ} (h1 : Rel k y x) (h2 : Rel l y' x') : Rel (k + l) (y * y') (x * x') := by
  obtain ⟨s, hs, rfl⟩ := h1
  obtain ⟨t, ht, rfl⟩ := h2
  exact ⟨s + t, (abs_add_le _ _).trans (add_le_add hs ht), by rw [Real.exp_add]; ring⟩

theorem div {k l y x y' x' : ℝ} (h1 : Rel k y x) (h2 : Rel l y' x') : Rel (k + l) (y / y') (x / x') := by
  obtain ⟨s, hs, rfl⟩ := h1
  obtain ⟨t, ht, rfl⟩ := h2
  refine ⟨s - t, (abs_sub _ _).trans (add_le_add hs ht), ?_⟩
  rw [Real.exp_sub]
  have := (Real.exp_pos t).ne'
  by_cases hx : x' = 0
  · simp [hx]
  · field_simp

theorem rpow {k y x : ℝ} (h : Rel k y x) (hx : 0 ≤ x) {b : ℝ} (hb : 0 ≤ b) : Rel (k * b) (y ^ b) (x ^ b) := by
  obtain ⟨t, ht, rfl⟩ := h
  refine ⟨t * b, by rw [abs_mul, abs_of_nonneg hb]; gcongr, ?_⟩
  rw [Real.mul_rpow hx (Real.exp_pos t).le, ← Real.exp_mul]

theorem pos {k y x : ℝ} (h : Rel k y x) (hx : 0 < x) : 0 < y := by
  obtain ⟨t, -, rfl⟩ := h
  exact mul_pos hx (Real.exp_pos t)

theorem le_three {k y x : ℝ} (h : Rel k y x) (hx : 0 ≤ x) (hk : k ≤ 1) : y ≤ 3 * x := by
  obtain ⟨t, ht, rfl⟩ := h
  have h1 : Real.exp t ≤ Real.exp 1 := Real.exp_le_exp.2 ((le_abs_self t).trans (ht.trans hk))
  have h2 := Real.exp_one_lt_d9
  nlinarith

theorem ge_third {k y x : ℝ} (h : Rel k y x) (hx : 0 ≤ x) (hk : k ≤ 1) : x / 3 ≤ y := by
  obtain ⟨t, ht, rfl⟩ := h
  have h1 : Real.exp (-1) ≤ Real.exp t := Real.exp_le_exp.2 (by have := neg_abs_le t; linarith)
  have h2 := Real.exp_one_lt_d9
  have h3 : (1 : ℝ) / 3 ≤ Real.exp (-1) := by
    rw [Real.exp_neg, one_div]
    exact inv_anti₀ (Real.exp_pos 1) (by linarith)
  nlinarith

theorem le {k y x : ℝ} (h : Rel k y x) (hx : 0 ≤ x) (hk : k ≤ 1) : y ≤ x * (1 + 2 * k) := by
  obtain ⟨t, ht, rfl⟩ := h
  have h1 := Real.abs_exp_sub_one_le (ht.trans hk)
  have h2 := le_abs_self (Real.exp t - 1)
  nlinarith

theorem ge {k y x : ℝ} (h : Rel k y x) (hx : 0 ≤ x) : x * (1 - k) ≤ y := by
  obtain ⟨t, ht, rfl⟩ := h
  have h1 := Real.add_one_le_exp t
  have h2 := neg_abs_le t
  nlinarith

/-- a small relative error as a factor -/
theorem of_near {r v δ : ℝ} (hr : r ≠ 0) (h : |v - r| ≤ δ * |r|) (hδ : δ ≤ 1 / 3) : Rel (3 / 2 * δ) v r := by
  have hr' : 0 < |r| := abs_pos.2 hr
  obtain ⟨d, hd⟩ : ∃ d, d = v / r - 1 := ⟨_, rfl⟩
  have hv : v = r * (1 + d) := by rw [hd]; field_simp; ring
  have hd1 : |d| ≤ δ := by
    have h2 : v - r = r * d := by rw [hv]; ring
    rw [h2, abs_mul, mul_comm] at h
    exact le_of_mul_le_mul_right h hr'
  have hpos : 0 < 1 + d := by have := neg_abs_le d; linarith
  refine ⟨Real.log (1 + d), ?_, by rw [Real.exp_log hpos]; exact hv⟩
  have hup := Real.log_le_sub_one_of_pos hpos
  have hlo := Real.one_sub_inv_le_log_of_pos hpos
  have e : 1 - (1 + d)⁻¹ = d / (1 + d) := by field_simp; ring
  rw [e] at hlo
  have hdd : -(3 / 2 * δ) ≤ d / (1 + d) := by
    rw [le_div_iff₀ hpos]
    have := abs_le.1 hd1
    nlinarith
  have := (abs_le.1 hd1)
  have := abs_nonneg d
  exact abs_le.2 ⟨by linarith, by linarith⟩

/-- rounding error as a factor -/
theorem of_rounds {u η r v δ : ℝ} (h : RoundsTo u η r v) (hr : r ≠ 0) (hη : η ≤ (δ - u) * |r|) (hδ : δ ≤ 1 / 3) :
    Rel (3 / 2 * δ) v r :=
  of_near hr (h.1.trans (by linarith)) hδ

/-- errors of a sum of positive numbers do not add up -/
theorem add {k y x y' x' : ℝ} (h1 : Rel k y x) (h2 : Rel k y' x') (hx : 0 < x) (hx' : 0 < x') :
    Rel k (y + y') (x + x') := by
  obtain ⟨s, hs, rfl⟩ := h1
  obtain ⟨t, ht, rfl⟩ := h2
  have hpos : 0 < (x * Real.exp s + x' * Real.exp t) / (x + x') := by
    have := Real.exp_pos s
    have := Real.exp_pos t
    positivity
  refine ⟨Real.log ((x * Real.exp s + x' * Real.exp t) / (x + x')), ?_, ?_⟩
  · have hs1 := abs_le.1 hs
    have ht1 := abs_le.1 ht
    have a1 := mul_le_mul_of_nonneg_left (Real.exp_le_exp.2 hs1.2) hx.le
    have a2 := mul_le_mul_of_nonneg_left (Real.exp_le_exp.2 ht1.2) hx'.le
    have b1 := mul_le_mul_of_nonneg_left (Real.exp_le_exp.2 hs1.1) hx.le
    have b2 := mul_le_mul_of_nonneg_left (Real.exp_le_exp.2 ht1.1) hx'.le
    rw [abs_le]
    constructor
    · rw [Real.le_log_iff_exp_le hpos, le_div_iff₀ (by linarith)]
      linarith
    · rw [Real.log_le_iff_le_exp hpos, div_le_iff₀ (by linarith)]
      linarith
  · rw [Real.exp_log hpos]
    have : x + x' ≠ 0 := by linarith
    field_simp

theorem sub_le {k y x : ℝ} (h : Rel k y x) (hx : 0 ≤ x) (hk : k ≤ 1) : |y - x| ≤ 2 * k * x := by
  have h1 := h.le hx hk
  have h2 := h.ge hx
  have h3 : 0 ≤ k := by obtain ⟨t, ht, -⟩ := h; exact (abs_nonneg t).trans ht
  rw [abs_le]
  constructor <;> nlinarith

end Rel

/-- error of one `f32` operation -/
noncomputable def w32 : ℝ := 2⁻¹ ^ 23
/-- error of one `f32::powf` -/
noncomputable def wpow32 : ℝ := 2⁻¹ ^ 19
/-- error of one `f64` operation -/
noncomputable def w64 : ℝ := 2⁻¹ ^ 52

/-- error of one `f64::powf` -/
noncomputable def wpow64 : ℝ := 2⁻¹ ^ 48

/-- values far from overflow and underflow in `f32` -/
def Mid (x : ℝ) : Prop := 2⁻¹ ^ 110 ≤ x ∧ x ≤ 2 ^ 100

theorem Mid.pos {x : ℝ} (h : Mid x) : 0 < x := lt_of_lt_of_le (by positivity) h.1

theorem Mid.wide {k y x : ℝ} (h : Mid x) (hr : Rel k y x) (hk : k ≤ 1) : 2⁻¹ ^ 112 ≤ y ∧ y ≤ 2 ^ 102 := by
  have h1 := hr.le_three h.pos.le hk
  have h2 := hr.ge_third h.pos.le hk
  obtain ⟨h3, h4⟩ := h
  constructor
  · have : (2⁻¹ : ℝ) ^ 112 = 2⁻¹ ^ 110 / 4 := by norm_num
    have : (0 : ℝ) < 2⁻¹ ^ 110 := by positivity
    linarith
  · have : (2 : ℝ) ^ 102 = 2 ^ 100 * 4 := by norm_num
    have : (0 : ℝ) < 2 ^ 100 := by positivity
    linarith

theorem fits32_of {y : ℝ} (h : 2⁻¹ ^ 112 ≤ y ∧ y ≤ 2 ^ 102) : Fits32 y := by
  unfold Fits32
  have : (0 : ℝ) < 2⁻¹ ^ 112 := by positivity
  rw [abs_of_pos (by linarith)]
  have : (2 : ℝ) ^ 102 ≤ 2 ^ 127 := by norm_num
  linarith

theorem fits64_of {y : ℝ} (h : 2⁻¹ ^ 112 ≤ y ∧ y ≤ 2 ^ 102) : Fits64 y := by
  unfold Fits64
  have : (0 : ℝ) < 2⁻¹ ^ 112 := by positivity
  rw [abs_of_pos (by linarith)]
  exact h.2.trans (pow_le_pow_right₀ (by norm_num) (by norm_num))

theorem rel32 {r v : ℝ} (h : RoundsTo u32 tiny32 r v) (hr : 2⁻¹ ^ 112 ≤ r) : Rel w32 v r := by
  have h0 : (0 : ℝ) < 2⁻¹ ^ 112 := by positivity
  refine (Rel.of_rounds (δ := 2⁻¹ ^ 24 + 2⁻¹ ^ 30) h (by intro h'; linarith) ?_ (by norm_num)).mono ?_
  · unfold u32 tiny32
    rw [abs_of_pos (by linarith)]
    have : (2⁻¹ : ℝ) ^ 149 ≤ 2⁻¹ ^ 30 * 2⁻¹ ^ 112 := by norm_num
    nlinarith [show (0 : ℝ) < 2⁻¹ ^ 30 by positivity]
  · unfold w32; norm_num

theorem relPow32 {r v : ℝ} (h : RoundsTo upow32 tiny32 r v) (hr : 2⁻¹ ^ 112 ≤ r) : Rel wpow32 v r := by
  have h0 : (0 : ℝ) < 2⁻¹ ^ 112 := by positivity
  refine (Rel.of_rounds (δ := 2⁻¹ ^ 20 + 2⁻¹ ^ 30) h (by intro h'; linarith) ?_ (by norm_num)).mono ?_
  · unfold upow32 tiny32
    rw [abs_of_pos (by linarith)]
    have : (2⁻¹ : ℝ) ^ 149 ≤ 2⁻¹ ^ 30 * 2⁻¹ ^ 112 := by norm_num
    nlinarith [show (0 : ℝ) < 2⁻¹ ^ 30 by positivity]
  · unfold wpow32; norm_num

theorem rel64 {r v : ℝ} (h : RoundsTo u64 tiny64 r v) (hr : 2⁻¹ ^ 112 ≤ r) : Rel w64 v r := by
  have h0 : (0 : ℝ) < 2⁻¹ ^ 112 := by positivity
  refine (Rel.of_rounds (δ := 2⁻¹ ^ 53 + 2⁻¹ ^ 60) h (by intro h'; linarith) ?_ (by norm_num)).mono ?_
  · unfold u64 tiny64
    rw [abs_of_pos (by linarith)]
    have : (2⁻¹ : ℝ) ^ 1074 ≤ 2⁻¹ ^ 60 * 2⁻¹ ^ 112 := by
      rw [← pow_add]
      exact pow_le_pow_of_le_one (by norm_num) (by norm_num) (by norm_num)
    refine this.trans ?_
    rw [add_sub_cancel_left]
    exact mul_le_mul_of_nonneg_left hr (by positivity)
  · unfold w64; norm_num

theorem relPow64 {r v : ℝ} (h : RoundsTo upow64 tiny64 r v) (hr : 2⁻¹ ^ 112 ≤ r) : Rel wpow64 v r := by
  have h0 : (0 : ℝ) < 2⁻¹ ^ 112 := by positivity
  refine (Rel.of_rounds (δ := 2⁻¹ ^ 49 + 2⁻¹ ^ 60) h (by intro h'; linarith) ?_ (by norm_num)).mono ?_
  · unfold upow64 tiny64
    rw [abs_of_pos (by linarith)]
    have : (2⁻¹ : ℝ) ^ 1074 ≤ 2⁻¹ ^ 60 * 2⁻¹ ^ 112 := by
      rw [← pow_add]
      exact pow_le_pow_of_le_one (by norm_num) (by norm_num) (by norm_num)
    refine this.trans ?_
    rw [add_sub_cancel_left]
    exact mul_le_mul_of_nonneg_left hr (by positivity)
  · unfold wpow64; norm_num

variable {F : Type} [Flt F] [FltRound F]
open FltRound (val fin)

/-- `x` is finite and its value is `r` up to a factor `exp (±k)` -/
structure Approx (k : ℝ) (x : F) (r : ℝ) : Prop where
  fin : fin x
  rel : Rel k (val x) r

namespace Approx

theorem exact {x : F} (h : FltRound.fin x) : Approx 0 x (val x) := ⟨h, Rel.refl _⟩

theorem mono {k l r : ℝ} {x : F} (h : Approx k x r) (hk : k ≤ l) : Approx l x r := ⟨h.fin, h.rel.mono hk⟩

theorem lit32 {q : ℚ} (h : Mid q) : Approx w32 (Flt.lit32 q : F) q := by
  have hw := h.wide (Rel.refl _) zero_le_one
  obtain ⟨h1, h2⟩ := FltRound.lit32 (F := F) q (fits32_of hw)
  exact ⟨h1, rel32 h2 hw.1⟩

theorem lit64 {q : ℚ} (h : Mid q) : Approx w64 (Flt.lit64 q : F) q := by
  have hw := h.wide (Rel.refl _) zero_le_one
  obtain ⟨h1, h2⟩ := FltRound.lit64 (F := F) q (fits64_of hw)
  exact ⟨h1, rel64 h2 hw.1⟩

theorem mul32 {k l a b : ℝ} {x y : F} (hx : Approx k x a) (hy : Approx l y b) (hm : Mid (a * b))
    (hk : k + l ≤ 1) : Approx (w32 + (k + l)) (x *₃ y) (a * b) := by
  have hr := hx.rel.mul hy.rel
  have hw := hm.wide hr hk
  obtain ⟨h1, h2⟩ := FltRound.mul32 x y hx.fin hy.fin (fits32_of hw)
  exact ⟨h1, (rel32 h2 hw.1).trans hr⟩

theorem div32 {k l a b : ℝ} {x y : F} (hx : Approx k x a) (hy : Approx l y b) (hb : 0 < b) (hm : Mid (a / b))
    (hk : k + l ≤ 1) : Approx (w32 + (k + l)) (x /₃ y) (a / b) := by
  have hr := hx.rel.div hy.rel
  have hw := hm.wide hr hk
  obtain ⟨h1, h2⟩ := FltRound.div32 x y hx.fin hy.fin (hy.rel.pos hb).ne' (fits32_of hw)
  exact ⟨h1, (rel32 h2 hw.1).trans hr⟩

theorem div64 {k l a b : ℝ} {x y : F} (hx : Approx k x a) (hy : Approx l y b) (hb : 0 < b) (hm : Mid (a / b))
    (hk : k + l ≤ 1) : Approx (w64 + (k + l)) (x /₆ y) (a / b) := by
  have hr := hx.rel.div hy.rel
  have hw := hm.wide hr hk
  obtain ⟨h1, h2⟩ := FltRound.div64 x y hx.fin hy.fin (hy.rel.pos hb).ne' (fits64_of hw)
  exact ⟨h1, (rel64 h2 hw.1).trans hr⟩

theorem mul64 {k l a b : ℝ} {x y : F} (hx : Approx k x a) (hy : Approx l y b) (hm : Mid (a * b))
    (hk : k + l ≤ 1) : Approx (w64 + (k + l)) (x *₆ y) (a * b) := by
  have hr := hx.rel.mul hy.rel
  have hw := hm.wide hr hk
  obtain ⟨h1, h2⟩ := FltRound.mul64 x y hx.fin hy.fin (fits64_of hw)
  exact ⟨h1, (rel64 h2 hw.1).trans hr⟩

theorem add64 {k a b : ℝ} {x y : F} (hx : Approx k x a) (hy : Approx k y b) (ha : 0 < a) (hb : 0 < b)
    (hm : Mid (a + b)) (hk : k ≤ 1) : Approx (w64 + k) (x +₆ y) (a + b) := by
  have hr := hx.rel.add hy.rel ha hb
  have hw := hm.wide hr hk
  obtain ⟨h1, h2⟩ := FltRound.add64 x y hx.fin hy.fin (fits64_of hw)
  exact ⟨h1, (rel64 h2 hw.1).trans hr⟩

theorem pow64 {k a : ℝ} {x y : F} (hx : Approx k x a) (hy : FltRound.fin y) (ha : 0 < a) (hb : 0 ≤ val y)
    (hm : Mid (a ^ val y)) (hk : k * val y ≤ 1) : Approx (wpow64 + k * val y) (Flt.pow64 x y) (a ^ val y) := by
  have hr := hx.rel.rpow ha.le hb
  have hw := hm.wide hr hk
  have hp := hx.rel.pos ha
  obtain ⟨h1, h2⟩ := FltRound.pow64 x y hx.fin hy hp.le (Or.inl hp) (fits64_of hw)
  exact ⟨h1, (relPow64 h2 hw.1).trans hr⟩

theorem to32 {k a : ℝ} {x : F} (hx : Approx k x a) (hm : Mid a) (hk : k ≤ 1) : Approx (w32 + k) (Flt.to32 x) a := by
  have hw := hm.wide hx.rel hk
  obtain ⟨h1, h2⟩ := FltRound.to32 x hx.fin (fits32_of hw)
  exact ⟨h1, (rel32 h2 hw.1).trans hx.rel⟩

/-- the exponent is taken as the computed value, without its error -/
theorem pow32 {k a : ℝ} {x y : F} (hx : Approx k x a) (hy : FltRound.fin y) (ha : 0 < a) (hb : 0 ≤ val y)
    (hm : Mid (a ^ val y)) (hk : k * val y ≤ 1) : Approx (wpow32 + k * val y) (Flt.pow32 x y) (a ^ val y) := by
  have hr := hx.rel.rpow ha.le hb
  have hw := hm.wide hr hk
  have hp := hx.rel.pos ha
  obtain ⟨h1, h2⟩ := FltRound.pow32 x y hx.fin hy hp.le (Or.inl hp) (fits32_of hw)
  exact ⟨h1, (relPow32 h2 hw.1).trans hr⟩

end Approx

/-- `x` is finite and stands for 0 -/
structure IsZero (x : F) : Prop where
  fin : fin x
  zero : val x = 0

namespace IsZero

theorem fits32 : Fits32 0 := by simp [Fits32]

theorem lit32 : IsZero (Flt.lit32 0 : F) := by
  obtain ⟨h1, h2⟩ := FltRound.lit32 (F := F) 0 (by simpa using fits32)
  exact ⟨h1, h2.2 (by simp)⟩

theorem mul32 {x y : F} (hx : IsZero x) (hy : FltRound.fin y) : IsZero (x *₃ y) := by
  obtain ⟨h1, h2⟩ := FltRound.mul32 x y hx.fin hy (by rw [hx.zero, zero_mul]; exact fits32)
  exact ⟨h1, h2.2 (by rw [hx.zero, zero_mul])⟩

theorem mul32' {x y : F} (hx : FltRound.fin x) (hy : IsZero y) : IsZero (x *₃ y) := by
  obtain ⟨h1, h2⟩ := FltRound.mul32 x y hx hy.fin (by rw [hy.zero, mul_zero]; exact fits32)
  exact ⟨h1, h2.2 (by rw [hy.zero, mul_zero])⟩

theorem div32 {x y : F} (hx : IsZero x) (hy : FltRound.fin y) (h0 : val y ≠ 0) : IsZero (x /₃ y) := by
  obtain ⟨h1, h2⟩ := FltRound.div32 x y hx.fin hy h0 (by rw [hx.zero, zero_div]; exact fits32)
  exact ⟨h1, h2.2 (by rw [hx.zero, zero_div])⟩

theorem pow32 {x y : F} (hx : IsZero x) (hy : FltRound.fin y) (h0 : 0 < val y) : IsZero (Flt.pow32 x y) := by
  have e : val x ^ val y = 0 := by rw [hx.zero, Real.zero_rpow h0.ne']
  obtain ⟨h1, h2⟩ := FltRound.pow32 x y hx.fin hy hx.zero.ge (Or.inr h0) (by rw [e]; exact fits32)
  exact ⟨h1, h2.2 e⟩

theorem toU8 {x : F} (hx : IsZero x) : Flt.toU8 x = 0 := by
  rw [FltRound.toU8 x hx.fin, hx.zero]; simp

end IsZero

/-- a byte scaled to the range up to 256 survives an error of this size -/
theorem Approx.toU8 {k : ℝ} {x : F} {n : UInt8} (hx : Approx k x ((n.toNat : ℝ) / 255 * 256))
    (hk : k ≤ 15 / 1000000) : Flt.toU8 x = n := by
  rw [FltRound.toU8 x hx.fin]
  obtain ⟨t, ht, hv⟩ := hx.rel
  rw [hv]
  have hn : n.toNat < 256 := n.toNat_lt
  have ht1 := abs_le.1 (ht.trans hk)
  have hup : Real.exp t ≤ 1 + 151 / 10000000 := by
    refine (Real.exp_le_exp.2 ht1.2).trans ?_
    have := Real.exp_bound_div_one_sub_of_interval (x := 15 / 1000000) (by norm_num) (by norm_num)
    refine this.trans ?_
    norm_num
  have hlo : 1 - 15 / 1000000 ≤ Real.exp t := by
    have := Real.add_one_le_exp t
    linarith
  have h0 : (0 : ℝ) ≤ n.toNat := by positivity
  have key : Nat.min 255 ⌊(n.toNat : ℝ) / 255 * 256 * Real.exp t⌋₊ = n.toNat := by
    have hge : n.toNat ≤ ⌊(n.toNat : ℝ) / 255 * 256 * Real.exp t⌋₊ := by
      apply Nat.le_floor
      nlinarith
    by_cases h : n.toNat = 255
    · rw [h] at hge ⊢
      exact min_eq_left hge
    · have h254 : (n.toNat : ℝ) ≤ 254 := by exact_mod_cast (by omega : n.toNat ≤ 254)
      have hlt : ⌊(n.toNat : ℝ) / 255 * 256 * Real.exp t⌋₊ < n.toNat + 1 := by
        rw [Nat.floor_lt (by positivity)]
        push_cast
        nlinarith
      have : ⌊(n.toNat : ℝ) / 255 * 256 * Real.exp t⌋₊ = n.toNat := by omega
      rw [this]
      exact min_eq_right (by omega)
  rw [key]
  exact UInt8.ofNat_toNat

end Verif
