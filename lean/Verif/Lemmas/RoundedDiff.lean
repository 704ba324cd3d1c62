import Verif.Model.RoundedOrder
import Verif.Model.Pal
import Verif.Lemmas.Metric
import Verif.Lemmas.Rounded

/-! Rounding error of the colour difference and of its root. -/

set_option linter.unusedSectionVars false

namespace Verif
open Flt

/-! ### Real numbers -/

theorem sq_near {x y M e : ℝ} (h : |x - y| ≤ e) (hy : |y| ≤ M) : |x ^ 2 - y ^ 2| ≤ 2 * M * e + e ^ 2 := by
  have e1 : x ^ 2 - y ^ 2 = (x - y) * (2 * y + (x - y)) := by ring
  have h0 := abs_nonneg (x - y)
  have h1 : |2 * y + (x - y)| ≤ 2 * M + e := by
    refine (abs_add_le _ _).trans ?_
    rw [abs_mul, abs_of_pos (by norm_num : (0:ℝ) < 2)]
    linarith
  rw [e1, abs_mul]
  have hM : 0 ≤ 2 * M + e := (abs_nonneg _).trans h1
  calc |x - y| * |2 * y + (x - y)| ≤ e * (2 * M + e) := mul_le_mul h h1 (abs_nonneg _) (h0.trans h)
    _ = 2 * M * e + e ^ 2 := by ring

theorem u32_val : u32 = 1 / 16777216 := by unfold u32; norm_num

theorem tiny32_le : tiny32 ≤ 1 / 10 ^ 40 := by unfold tiny32; norm_num

theorem square_error {M x y s : ℝ} (m3 : M ≤ 9 / 2) (hy : |y| ≤ M) (hx : |x - y| ≤ 4.01 * u32 * M + 4 * tiny32)
    (hs : |s - x * x| ≤ u32 * |x * x| + tiny32) : |s - y ^ 2| ≤ 10 * u32 * M ^ 2 + 50 * tiny32 := by
  have hu := u32_val
  have hu0 := u32_nonneg
  have hτ := tiny32_le
  have hτ0 := tiny32_nonneg
  have hM2 : 0 ≤ u32 * M ^ 2 := by positivity
  have q1 := sq_near hx hy
  have q2 : (4.01 * u32 * M + 4 * tiny32) ^ 2 ≤ 2 * (4.01 * u32 * M) ^ 2 + 2 * (4 * tiny32) ^ 2 := by
    nlinarith [sq_nonneg (4.01 * u32 * M - 4 * tiny32)]
  have q3 : (4.01 * u32 * M) ^ 2 ≤ 1 / 1000 * (u32 * M ^ 2) := by
    have : (4.01 * u32 * M) ^ 2 = 16.0801 * u32 * (u32 * M ^ 2) := by ring
    rw [this]
    exact mul_le_mul_of_nonneg_right (by rw [hu]; norm_num) (by positivity)
  have q4 : tiny32 ^ 2 ≤ 1 / 1000 * tiny32 := by
    rw [sq]; exact mul_le_mul_of_nonneg_right (hτ.trans (by norm_num)) hτ0
  have q5 : 2 * M * (4.01 * u32 * M + 4 * tiny32) ≤ 8.02 * (u32 * M ^ 2) + 36 * tiny32 := by
    have h8 : M * tiny32 ≤ 9 / 2 * tiny32 := mul_le_mul_of_nonneg_right m3 hτ0
    have e8 : 2 * M * (4.01 * u32 * M + 4 * tiny32) = 8.02 * (u32 * M ^ 2) + 8 * (M * tiny32) := by ring
    linarith
  have q6 : |x ^ 2 - y ^ 2| ≤ 8.1 * (u32 * M ^ 2) + 37 * tiny32 := by
    have : (4 * tiny32) ^ 2 = 16 * tiny32 ^ 2 := by ring
    linarith
  have q7 : x * x ≤ M ^ 2 + (8.1 * (u32 * M ^ 2) + 37 * tiny32) := by
    have h8 := (abs_le.1 q6).2
    have h9 : y ^ 2 ≤ M ^ 2 := by rw [← sq_abs y]; exact pow_le_pow_left₀ (abs_nonneg _) hy 2
    have e9 : x * x = x ^ 2 := by ring
    linarith
  have q8 : |x * x| = x * x := abs_of_nonneg (mul_self_nonneg _)
  have q9 : u32 * (x * x) ≤ u32 * (M ^ 2 + (8.1 * (u32 * M ^ 2) + 37 * tiny32)) := mul_le_mul_of_nonneg_left q7 hu0
  have h6 : u32 * (u32 * M ^ 2) ≤ 1 / 1000 * (u32 * M ^ 2) :=
    mul_le_mul_of_nonneg_right (by rw [hu]; norm_num) (by positivity)
  have h7 : u32 * tiny32 ≤ 1 / 1000 * tiny32 := mul_le_mul_of_nonneg_right (by rw [hu]; norm_num) hτ0
  have e1 : s - y ^ 2 = (s - x * x) + (x ^ 2 - y ^ 2) := by ring
  rw [e1]
  refine (abs_add_le _ _).trans ?_
  rw [q8] at hs
  have e10 : u32 * (M ^ 2 + (8.1 * (u32 * M ^ 2) + 37 * tiny32)) = u32 * M ^ 2 + 8.1 * (u32 * (u32 * M ^ 2)) + 37 * (u32 * tiny32) := by ring
  linarith

theorem chan_error {Δ A al b w sb sw : ℝ} (hΔ : |Δ| ≤ 9 / 4) (hA : |A| ≤ 9 / 4) (h1 : |al - A| ≤ u32 * |A| + tiny32)
    (h2 : |b - Δ| ≤ u32 * |Δ| + tiny32) (h3 : |w - (b + al)| ≤ u32 * |b + al| + tiny32)
    (h4 : |sb - b * b| ≤ u32 * |b * b| + tiny32) (h5 : |sw - w * w| ≤ u32 * |w * w| + tiny32) :
    |max sb sw - max (Δ ^ 2) ((Δ + A) ^ 2)| ≤ 10 * u32 * max (Δ ^ 2) ((Δ + A) ^ 2) + 50 * tiny32 := by
  have hu := u32_val
  have hu0 := u32_nonneg
  have hτ := tiny32_le
  have hτ0 := tiny32_nonneg
  obtain ⟨M, hM⟩ : ∃ M, M = max |Δ| |Δ + A| := ⟨_, rfl⟩
  have m1 : |Δ| ≤ M := hM ▸ le_max_left _ _
  have m2 : |Δ + A| ≤ M := hM ▸ le_max_right _ _
  have m0 : 0 ≤ M := (abs_nonneg _).trans m1
  have m3 : M ≤ 9 / 2 := by
    rw [hM]
    refine max_le (by linarith) ((abs_add_le _ _).trans (by linarith))
  have hsq : max (Δ ^ 2) ((Δ + A) ^ 2) = M ^ 2 := by
    rw [hM]
    rcases le_total |Δ| |Δ + A| with h | h
    · rw [max_eq_right h, sq_abs, max_eq_right]
      exact sq_le_sq.2 h
    · rw [max_eq_left h, sq_abs, max_eq_left]
      exact sq_le_sq.2 h
  have mA : |A| ≤ 2 * M := by
    have : A = (Δ + A) - Δ := by ring
    rw [this]
    exact (abs_sub _ _).trans (by linarith)
  have b1 : |b - Δ| ≤ u32 * M + tiny32 := h2.trans (by nlinarith)
  have a1 : |al - A| ≤ 2 * u32 * M + tiny32 := h1.trans (by nlinarith)
  have s1 : |(b + al) - (Δ + A)| ≤ 3 * u32 * M + 2 * tiny32 := by
    have : (b + al) - (Δ + A) = (b - Δ) + (al - A) := by ring
    rw [this]
    exact (abs_add_le _ _).trans (by linarith)
  have s2 : |b + al| ≤ M + (3 * u32 * M + 2 * tiny32) := by
    have : b + al = (Δ + A) + ((b + al) - (Δ + A)) := by ring
    rw [this]
    exact (abs_add_le _ _).trans (by linarith)
  have uM : 0 ≤ u32 * M := mul_nonneg hu0 m0
  have w1 : |w - (Δ + A)| ≤ 4.01 * u32 * M + 4 * tiny32 := by
    have : w - (Δ + A) = (w - (b + al)) + ((b + al) - (Δ + A)) := by ring
    rw [this]
    refine (abs_add_le _ _).trans ?_
    have : u32 * |b + al| ≤ u32 * (M + (3 * u32 * M + 2 * tiny32)) := mul_le_mul_of_nonneg_left s2 hu0
    have h6 : u32 * (u32 * M) ≤ 1 / 1000 * (u32 * M) := mul_le_mul_of_nonneg_right (by rw [hu]; norm_num) uM
    have h7 : u32 * tiny32 ≤ 1 / 1000 * tiny32 := mul_le_mul_of_nonneg_right (by rw [hu]; norm_num) hτ0
    nlinarith
  have b2 : |b - Δ| ≤ 4.01 * u32 * M + 4 * tiny32 := b1.trans (by linarith)
  rw [hsq]
  have k1 := square_error m3 m1 b2 h4
  have k2 := square_error m3 m2 w1 h5
  have hmm : |max sb sw - max (Δ ^ 2) ((Δ + A) ^ 2)| ≤ max |sb - Δ ^ 2| |sw - (Δ + A) ^ 2| := abs_max_sub_max_le_max _ _ _ _
  rw [hsq] at hmm
  exact hmm.trans (max_le k1 k2)

/-- the root of a number known up to a small relative and a tiny absolute error -/
theorem sqrt_error {D E k t : ℝ} (hE : 0 ≤ E) (hk : 0 ≤ k) (hk1 : k ≤ 1) (ht : 0 ≤ t) (hD : |D - E ^ 2| ≤ k * E ^ 2 + t ^ 2) :
    |Real.sqrt D - E| ≤ k * E + t := by
  obtain ⟨h1, h2⟩ := abs_le.1 hD
  rw [abs_le]
  constructor
  · rw [neg_le_sub_iff_le_add]
    have : E - (k * E + t) ≤ Real.sqrt D := by
      rcases le_total (E - (k * E + t)) 0 with h | h
      · exact h.trans (Real.sqrt_nonneg _)
      · apply Real.le_sqrt_of_sq_le
        have hkE : t ≤ (1 - k) * E := by linarith
        have : (E - (k * E + t)) ^ 2 = (1 - k) ^ 2 * E ^ 2 - 2 * t * ((1 - k) * E) + t ^ 2 := by ring
        rw [this]
        have h3 : t * t ≤ t * ((1 - k) * E) := mul_le_mul_of_nonneg_left hkE ht
        have h4 : (1 - k) ^ 2 * E ^ 2 ≤ (1 - k) * E ^ 2 := by
          apply mul_le_mul_of_nonneg_right _ (sq_nonneg _)
          nlinarith
        nlinarith
    linarith
  · have : Real.sqrt D ≤ E + (k * E + t) := by
      apply Real.sqrt_le_iff.2
      refine ⟨by positivity, ?_⟩
      have : (E + (k * E + t)) ^ 2 = E ^ 2 + 2 * E * (k * E + t) + (k * E + t) ^ 2 := by ring
      nlinarith [mul_nonneg hk (sq_nonneg E), mul_nonneg hE ht, mul_nonneg (mul_nonneg hk hE) ht, sq_nonneg (k * E)]
    linarith

/-! ### Floats -/

variable {F : Type} [Flt F]

section
variable [FltOrd F]
open FltRound (val fin)

theorem fits32_small {r : ℝ} (h : |r| ≤ 1000) : Fits32 r := h.trans (by norm_num)

theorem rounds_add {x y : F} (hx : fin x) (hy : fin y) (h : |val x + val y| ≤ 1000) :
    fin (x +₃ y) ∧ |val (x +₃ y) - (val x + val y)| ≤ u32 * |val x + val y| + tiny32 :=
  let r := FltRound.add32 x y hx hy (fits32_small h)
  ⟨r.1, r.2.1⟩

theorem rounds_sub {x y : F} (hx : fin x) (hy : fin y) (h : |val x - val y| ≤ 1000) :
    fin (x -₃ y) ∧ |val (x -₃ y) - (val x - val y)| ≤ u32 * |val x - val y| + tiny32 :=
  let r := FltRound.sub32 x y hx hy (fits32_small h)
  ⟨r.1, r.2.1⟩

theorem rounds_mul {x y : F} (hx : fin x) (hy : fin y) (h : |val x * val y| ≤ 1000) :
    fin (x *₃ y) ∧ |val (x *₃ y) - val x * val y| ≤ u32 * |val x * val y| + tiny32 :=
  let r := FltRound.mul32 x y hx hy (fits32_small h)
  ⟨r.1, r.2.1⟩

/-- a colour with finite channels of moderate size -/
structure FPixel.Reach (c : FPixel F) : Prop where
  a : fin c.a ∧ -1 / 8 ≤ val c.a ∧ val c.a ≤ 9 / 8
  r : fin c.r ∧ -1 / 8 ≤ val c.r ∧ val c.r ≤ 9 / 8
  g : fin c.g ∧ -1 / 8 ≤ val c.g ∧ val c.g ≤ 9 / 8
  b : fin c.b ∧ -1 / 8 ≤ val c.b ∧ val c.b ≤ 9 / 8

/-- the real numbers a colour stands for -/
noncomputable def FPixel.vals (c : FPixel F) : Spec.Color := ⟨val c.a, val c.r, val c.g, val c.b⟩

theorem abs_le_of_near {x y e : ℝ} (h : |x - y| ≤ e) : |x| ≤ |y| + e := by
  have : x = y + (x - y) := by ring
  rw [this]
  exact (abs_add_le _ _).trans (by linarith)

theorem abs_sub_le_of {x y : ℝ} (hx : -1 / 8 ≤ x ∧ x ≤ 9 / 8) (hy : -1 / 8 ≤ y ∧ y ≤ 9 / 8) : |x - y| ≤ 5 / 4 :=
  abs_le.2 ⟨by linarith [hx.1, hy.2], by linarith [hx.2, hy.1]⟩

/-- one channel of the difference -/
theorem chan_rounded {xc yc xa ya : F} (hxc : fin xc ∧ -1 / 8 ≤ val xc ∧ val xc ≤ 9 / 8) (hyc : fin yc ∧ -1 / 8 ≤ val yc ∧ val yc ≤ 9 / 8)
    (hxa : fin xa ∧ -1 / 8 ≤ val xa ∧ val xa ≤ 9 / 8) (hya : fin ya ∧ -1 / 8 ≤ val ya ∧ val ya ≤ 9 / 8) :
    let b := xc -₃ yc
    let w := b +₃ (ya -₃ xa)
    let C := Flt.fmax (b *₃ b) (w *₃ w)
    let E := Spec.chanDiff (val xc - val yc) (val xa - val ya)
    fin C ∧ 0 ≤ val C ∧ |val C - E| ≤ 10 * u32 * E + 50 * tiny32 ∧ E ≤ 25 / 4 ∧ 0 ≤ E := by
  intro b w C E
  have hu := u32_val
  have hτ := tiny32_le
  have dc := abs_sub_le_of hxc.2 hyc.2
  have da := abs_sub_le_of hya.2 hxa.2
  obtain ⟨f1, e1⟩ := rounds_sub hxc.1 hyc.1 (by linarith)
  obtain ⟨f2, e2⟩ := rounds_sub hya.1 hxa.1 (by linarith)
  have hb : |val b| ≤ 3 := (abs_le_of_near e1).trans (by rw [hu]; linarith)
  have ha : |val (ya -₃ xa)| ≤ 3 := (abs_le_of_near e2).trans (by rw [hu]; linarith)
  have hba : |val b + val (ya -₃ xa)| ≤ 6 := (abs_add_le _ _).trans (by linarith)
  obtain ⟨f3, e3⟩ := rounds_add f1 f2 (by show |val b + _| ≤ _; linarith)
  have hw : |val w| ≤ 7 := (abs_le_of_near e3).trans (by
    show |val b + _| + (u32 * |val b + _| + tiny32) ≤ 7
    rw [hu]; linarith)
  obtain ⟨f4, e4⟩ := rounds_mul (x := b) (y := b) f1 f1 (by rw [abs_mul]; nlinarith [abs_nonneg (val b)])
  obtain ⟨f5, e5⟩ := rounds_mul (x := w) (y := w) f3 f3 (by rw [abs_mul]; nlinarith [abs_nonneg (val w)])
  obtain ⟨f6, e6⟩ := FltRound.max (b *₃ b) (w *₃ w) f4 f5
  have hE : E = max ((val xc - val yc) ^ 2) ((val xc - val yc + (val ya - val xa)) ^ 2) := by
    show Spec.chanDiff _ _ = _
    unfold Spec.chanDiff
    congr 2
    ring
  have := chan_error (by linarith) (by linarith) e2 e1 e3 e4 e5
  have z4 := FltOrd.mul_nonneg b b f1 f1 (fits32_small (by rw [abs_mul]; nlinarith [abs_nonneg (val b)])) (mul_self_nonneg _)
  refine ⟨f6, e6 ▸ le_max_of_le_left z4, ?_, ?_, Spec.chanDiff_nonneg _ _⟩
  · rw [hE, e6]; exact this
  · rw [hE]
    refine max_le ?_ ?_
    · rw [← sq_abs]; nlinarith [abs_nonneg (val xc - val yc)]
    · rw [← sq_abs]
      have : |val xc - val yc + (val ya - val xa)| ≤ 5 / 2 := (abs_add_le _ _).trans (by linarith)
      nlinarith [abs_nonneg (val xc - val yc + (val ya - val xa))]

/-- the difference of two colours in floats -/
theorem diff_rounded {x y : FPixel F} (hx : x.Reach) (hy : y.Reach) :
    fin (x.diff y) ∧ 0 ≤ val (x.diff y) ∧ |val (x.diff y) - Spec.diff x.vals y.vals| ≤ 13 * u32 * Spec.diff x.vals y.vals + 200 * tiny32 ∧
      Spec.diff x.vals y.vals ≤ 75 / 4 := by
  obtain ⟨f1, z1, e1, b1, n1⟩ := chan_rounded hx.r hy.r hx.a hy.a
  obtain ⟨f2, z2, e2, b2, n2⟩ := chan_rounded hx.g hy.g hx.a hy.a
  obtain ⟨f3, z3, e3, b3, n3⟩ := chan_rounded hx.b hy.b hx.a hy.a
  have hD : Spec.diff x.vals y.vals = Spec.chanDiff (val x.r - val y.r) (val x.a - val y.a) +
    Spec.chanDiff (val x.g - val y.g) (val x.a - val y.a) + Spec.chanDiff (val x.b - val y.b) (val x.a - val y.a) := rfl
  have hdiff : x.diff y = Flt.fmax ((x.r -₃ y.r) *₃ (x.r -₃ y.r)) (((x.r -₃ y.r) +₃ (y.a -₃ x.a)) *₃ ((x.r -₃ y.r) +₃ (y.a -₃ x.a))) +₃
    Flt.fmax ((x.g -₃ y.g) *₃ (x.g -₃ y.g)) (((x.g -₃ y.g) +₃ (y.a -₃ x.a)) *₃ ((x.g -₃ y.g) +₃ (y.a -₃ x.a))) +₃
    Flt.fmax ((x.b -₃ y.b) *₃ (x.b -₃ y.b)) (((x.b -₃ y.b) +₃ (y.a -₃ x.a)) *₃ ((x.b -₃ y.b) +₃ (y.a -₃ x.a))) := rfl
  rw [hdiff, hD]
  generalize Flt.fmax ((x.r -₃ y.r) *₃ (x.r -₃ y.r)) (((x.r -₃ y.r) +₃ (y.a -₃ x.a)) *₃ ((x.r -₃ y.r) +₃ (y.a -₃ x.a))) = C1 at *
  generalize Flt.fmax ((x.g -₃ y.g) *₃ (x.g -₃ y.g)) (((x.g -₃ y.g) +₃ (y.a -₃ x.a)) *₃ ((x.g -₃ y.g) +₃ (y.a -₃ x.a))) = C2 at *
  generalize Flt.fmax ((x.b -₃ y.b) *₃ (x.b -₃ y.b)) (((x.b -₃ y.b) +₃ (y.a -₃ x.a)) *₃ ((x.b -₃ y.b) +₃ (y.a -₃ x.a))) = C3 at *
  generalize Spec.chanDiff (val x.r - val y.r) (val x.a - val y.a) = E1 at *
  generalize Spec.chanDiff (val x.g - val y.g) (val x.a - val y.a) = E2 at *
  generalize Spec.chanDiff (val x.b - val y.b) (val x.a - val y.a) = E3 at *
  have hu := u32_val
  have hu0 := u32_nonneg
  have hτ := tiny32_le
  have hτ0 := tiny32_nonneg
  have hτ1 : tiny32 ≤ 1 / 1000000 := hτ.trans (by norm_num)
  have g1 := abs_le.1 e1
  have g2 := abs_le.1 e2
  have g3 := abs_le.1 e3
  have a12 : |val C1 + val C2 - (E1 + E2)| ≤ 10 * u32 * (E1 + E2) + 100 * tiny32 := by
    have : val C1 + val C2 - (E1 + E2) = (val C1 - E1) + (val C2 - E2) := by ring
    rw [this]; exact (abs_add_le _ _).trans (by linarith)
  have n12 : |val C1 + val C2| ≤ E1 + E2 + (10 * u32 * (E1 + E2) + 100 * tiny32) := by
    have := abs_le_of_near a12
    rwa [abs_of_nonneg (by linarith : 0 ≤ E1 + E2)] at this
  obtain ⟨f4, e4⟩ := rounds_add f1 f2 (n12.trans (by rw [hu]; linarith))
  have k1 : u32 * |val C1 + val C2| ≤ u32 * (E1 + E2 + (10 * u32 * (E1 + E2) + 100 * tiny32)) :=
    mul_le_mul_of_nonneg_left n12 hu0
  have k2 : u32 * (u32 * (E1 + E2)) ≤ 1 / 10000 * (u32 * (E1 + E2)) :=
    mul_le_mul_of_nonneg_right (by rw [hu]; norm_num) (by positivity)
  have k3 : u32 * tiny32 ≤ 1 / 1000 * tiny32 := mul_le_mul_of_nonneg_right (by rw [hu]; norm_num) hτ0
  have a4 : |val (C1 +₃ C2) - (E1 + E2)| ≤ 11.01 * u32 * (E1 + E2) + 102 * tiny32 := by
    have : val (C1 +₃ C2) - (E1 + E2) = (val (C1 +₃ C2) - (val C1 + val C2)) + (val C1 + val C2 - (E1 + E2)) := by ring
    rw [this]
    refine (abs_add_le _ _).trans ?_
    nlinarith
  have a5 : |val (C1 +₃ C2) + val C3 - (E1 + E2 + E3)| ≤ 11.01 * u32 * (E1 + E2 + E3) + 152 * tiny32 := by
    have : val (C1 +₃ C2) + val C3 - (E1 + E2 + E3) = (val (C1 +₃ C2) - (E1 + E2)) + (val C3 - E3) := by ring
    rw [this]
    refine (abs_add_le _ _).trans ?_
    have : 0 ≤ u32 * E3 := by positivity
    nlinarith
  have n5 : |val (C1 +₃ C2) + val C3| ≤ E1 + E2 + E3 + (11.01 * u32 * (E1 + E2 + E3) + 152 * tiny32) := by
    have := abs_le_of_near a5
    rwa [abs_of_nonneg (by linarith : 0 ≤ E1 + E2 + E3)] at this
  obtain ⟨f6, e6⟩ := rounds_add f4 f3 (n5.trans (by rw [hu]; linarith))
  have z4 : 0 ≤ val (C1 +₃ C2) :=
    FltOrd.add_nonneg C1 C2 f1 f2 (fits32_small (n12.trans (by rw [hu]; linarith))) (add_nonneg z1 z2)
  refine ⟨f6, FltOrd.add_nonneg _ _ f4 f3 (fits32_small (n5.trans (by rw [hu]; linarith))) (add_nonneg z4 z3), ?_, by linarith⟩
  have l1 : u32 * |val (C1 +₃ C2) + val C3| ≤ u32 * (E1 + E2 + E3 + (11.01 * u32 * (E1 + E2 + E3) + 152 * tiny32)) :=
    mul_le_mul_of_nonneg_left n5 hu0
  have l2 : u32 * (u32 * (E1 + E2 + E3)) ≤ 1 / 10000 * (u32 * (E1 + E2 + E3)) :=
    mul_le_mul_of_nonneg_right (by rw [hu]; norm_num) (by positivity)
  have : val (C1 +₃ C2 +₃ C3) - (E1 + E2 + E3) =
    (val (C1 +₃ C2 +₃ C3) - (val (C1 +₃ C2) + val C3)) + (val (C1 +₃ C2) + val C3 - (E1 + E2 + E3)) := by ring
  rw [this]
  refine (abs_add_le _ _).trans ?_
  have : 0 ≤ u32 * (E1 + E2 + E3) := by positivity
  nlinarith

/-- distance that rounding may hide -/
noncomputable def fuzz : ℝ := 4 / 10 ^ 6

/-- distance of two colours -/
noncomputable def FPixel.dist (x y : FPixel F) : ℝ := Spec.dist x.vals y.vals

theorem FPixel.dist_comm (x y : FPixel F) : x.dist y = y.dist x := Spec.dist_comm _ _

theorem FPixel.dist_triangle (x y z : FPixel F) : x.dist z ≤ x.dist y + y.dist z := Spec.dist_triangle _ _ _

theorem FPixel.dist_nonneg (x y : FPixel F) : 0 ≤ x.dist y := Spec.dist_nonneg _ _

theorem FPixel.dist_self (x : FPixel F) : x.dist x = 0 := by
  unfold FPixel.dist Spec.dist; rw [Spec.diff_self, Real.sqrt_zero]

theorem FPixel.dist_sq (x y : FPixel F) : x.dist y ^ 2 = Spec.diff x.vals y.vals := Spec.dist_sq _ _

/-- the root of a difference in floats -/
theorem root_rounded {x y : FPixel F} (hx : x.Reach) (hy : y.Reach) :
    fin (Flt.sqrt32 (x.diff y)) ∧ |val (Flt.sqrt32 (x.diff y)) - x.dist y| ≤ fuzz ∧ x.dist y ≤ 13 / 3 := by
  obtain ⟨f, z, e, b⟩ := diff_rounded hx hy
  have hu := u32_val
  have hτ := tiny32_le
  have hτ0 := tiny32_nonneg
  rw [← FPixel.dist_sq] at e b
  have n := FPixel.dist_nonneg x y
  have hE : x.dist y ≤ 13 / 3 := by nlinarith
  have s1 := sqrt_error (D := val (x.diff y)) (E := x.dist y) (k := 13 * u32) (t := 2 / 10 ^ 19) n (by rw [hu]; norm_num)
    (by rw [hu]; norm_num) (by norm_num) (e.trans (by linarith))
  have s2 : Real.sqrt (val (x.diff y)) ≤ 5 := by
    have := (abs_le.1 s1).2
    rw [hu] at this
    linarith
  have s0 := Real.sqrt_nonneg (val (x.diff y))
  obtain ⟨f2, r⟩ := FltRound.sqrt32 (x.diff y) f z (fits32_small (by rw [abs_of_nonneg s0]; linarith))
  refine ⟨f2, ?_, hE⟩
  have r1 := r.1
  rw [abs_of_nonneg s0] at r1
  have : val (Flt.sqrt32 (x.diff y)) - x.dist y =
    (val (Flt.sqrt32 (x.diff y)) - Real.sqrt (val (x.diff y))) + (Real.sqrt (val (x.diff y)) - x.dist y) := by ring
  rw [this]
  refine (abs_add_le _ _).trans ?_
  unfold fuzz
  rw [hu] at r1 s1
  have s3 := (abs_le.1 s1).2
  linarith

end
end Verif
