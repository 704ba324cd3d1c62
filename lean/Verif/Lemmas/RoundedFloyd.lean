import Verif.Lemmas.Floyd
import Verif.Lemmas.RoundedDither
import Verif.Spec.FloydUpTo

/-! # Error diffusion with rounding errors -/

set_option linter.unusedSectionVars false

namespace Verif
open Flt

variable {F : Type} [Flt F]

/-- the channels of a colour -/
def FPixel.ch (c : FPixel F) : Fin 4 → F := ![c.a, c.r, c.g, c.b]

theorem ch_add (x y : FPixel F) (i : Fin 4) : (x.add y).ch i = x.ch i +₃ y.ch i := by fin_cases i <;> rfl
theorem ch_sub (x y : FPixel F) (i : Fin 4) : (x.sub y).ch i = x.ch i -₃ y.ch i := by fin_cases i <;> rfl
theorem ch_scale (x : FPixel F) (k : F) (i : Fin 4) : (x.scale k).ch i = x.ch i *₃ k := by fin_cases i <;> rfl

variable [FltOrd F]
open FltRound (val fin)

theorem vals_chans (c : FPixel F) (i : Fin 4) : c.vals.chans i = val (c.ch i) := by fin_cases i <;> rfl

theorem fin_default (i : Fin 4) : fin ((FPixel.default : FPixel F).ch i) ∧ val ((FPixel.default : FPixel F).ch i) = 0 := by
  obtain ⟨⟨a1, a2⟩, ⟨b1, b2⟩, ⟨c1, c2⟩, ⟨d1, d2⟩⟩ := FPixel.blank_default (F := F)
  fin_cases i <;> exact ⟨by assumption, by assumption⟩

/-! ### One operation -/

theorem slack {B r : ℝ} (h : |r| ≤ B) (hB : 1 / 20 ≤ B) : u32 * |r| + tiny32 ≤ B / 10 ^ 7 := by
  have hu := u32_val
  have hτ := tiny32_le
  have := mul_le_mul_of_nonneg_left h u32_nonneg
  rw [hu] at this ⊢
  linarith

theorem lit_upTo {q : ℚ} {B : ℝ} (h : |(q : ℝ)| ≤ B) (hB : 1 / 20 ≤ B) (hB' : B ≤ 1000) :
    fin (lit32 q : F) ∧ |val (lit32 q : F) - q| ≤ B / 10 ^ 7 := by
  obtain ⟨h1, h2, -⟩ := FltRound.lit32 (F := F) q (fits32_small (h.trans hB'))
  exact ⟨h1, h2.trans (slack h hB)⟩

theorem add_upTo {x y : F} {B : ℝ} (hx : fin x) (hy : fin y) (h : |val x + val y| ≤ B) (hB : 1 / 20 ≤ B) (hB' : B ≤ 1000) :
    fin (x +₃ y) ∧ |val (x +₃ y) - (val x + val y)| ≤ B / 10 ^ 7 := by
  obtain ⟨h1, h2⟩ := rounds_add hx hy (h.trans hB')
  exact ⟨h1, h2.trans (slack h hB)⟩

theorem sub_upTo {x y : F} {B : ℝ} (hx : fin x) (hy : fin y) (h : |val x - val y| ≤ B) (hB : 1 / 20 ≤ B) (hB' : B ≤ 1000) :
    fin (x -₃ y) ∧ |val (x -₃ y) - (val x - val y)| ≤ B / 10 ^ 7 := by
  obtain ⟨h1, h2⟩ := rounds_sub hx hy (h.trans hB')
  exact ⟨h1, h2.trans (slack h hB)⟩

theorem mul_upTo {x y : F} {B : ℝ} (hx : fin x) (hy : fin y) (h : |val x * val y| ≤ B) (hB : 1 / 20 ≤ B) (hB' : B ≤ 1000) :
    fin (x *₃ y) ∧ |val (x *₃ y) - val x * val y| ≤ B / 10 ^ 7 := by
  obtain ⟨h1, h2⟩ := rounds_mul hx hy (h.trans hB')
  exact ⟨h1, h2.trans (slack h hB)⟩

theorem fma_upTo {x y z : F} {B : ℝ} (hx : fin x) (hy : fin y) (hz : fin z) (h : |val x * val y + val z| ≤ B) (hB : 1 / 20 ≤ B)
    (hB' : B ≤ 1000) : fin (fma32 x y z) ∧ |val (fma32 x y z) - (val x * val y + val z)| ≤ B / 10 ^ 7 := by
  obtain ⟨h1, h2, -⟩ := FltRound.fma32 x y z hx hy hz (fits32_small (h.trans hB'))
  exact ⟨h1, h2.trans (slack h hB)⟩

/-! ### Sums of squares -/

theorem sum_squares {a b x y z : ℝ} (h1 : |x - b * b| ≤ u32 * |b * b| + tiny32) (h2 : |y - (a * a + x)| ≤ u32 * |a * a + x| + tiny32)
    (hz : z = a ^ 2 + b ^ 2) : |y - z| ≤ 2 / 10 ^ 7 * z + 1 / 10 ^ 30 := by
  have hu := u32_val
  have hτ := tiny32_le
  have hτ0 := tiny32_nonneg
  have pa : 0 ≤ a * a := mul_self_nonneg a
  have pb : 0 ≤ b * b := mul_self_nonneg b
  rw [show z = a * a + b * b by rw [hz]; ring]
  rw [abs_of_nonneg pb] at h1
  have h3 : |a * a + x| ≤ a * a + b * b + (u32 * (b * b) + tiny32) := by
    have := abs_le_of_near h1
    rw [abs_of_nonneg pb] at this
    refine (abs_add_le _ _).trans ?_
    rw [abs_of_nonneg pa]; linarith
  have h4 := mul_le_mul_of_nonneg_left h3 u32_nonneg
  have h5 : |y - (a * a + b * b)| ≤ |y - (a * a + x)| + |x - b * b| := by
    have : y - (a * a + b * b) = (y - (a * a + x)) + (x - b * b) := by ring
    rw [this]; exact abs_add_le _ _
  rw [hu] at h1 h2 h4
  linarith

theorem normSq_upTo {s : FPixel F} (h : ∀ i, fin (s.ch i) ∧ |val (s.ch i)| ≤ 2) :
    fin s.normSq ∧ |val s.normSq - Spec.normSq (fun i => val (s.ch i))| ≤
      1 / 10 ^ 6 * Spec.normSq (fun i => val (s.ch i)) + 1 / 10 ^ 20 := by
  have sq : ∀ i, |val (s.ch i) * val (s.ch i)| ≤ 4 := fun i => by
    rw [abs_mul]
    exact (mul_le_mul (h i).2 (h i).2 (abs_nonneg _) (by norm_num)).trans (by norm_num)
  obtain ⟨a1, a2⟩ := h 0
  obtain ⟨r1, r2⟩ := h 1
  obtain ⟨g1, g2⟩ := h 2
  obtain ⟨b1, b2⟩ := h 3
  have sa := sq 0; have sr := sq 1; have sg := sq 2; have sb := sq 3
  obtain ⟨m1, m2⟩ := rounds_mul g1 g1 (sg.trans (by norm_num))
  obtain ⟨n1, n2⟩ := rounds_mul a1 a1 (sa.trans (by norm_num))
  have lim : ∀ {x y : ℝ}, |y| ≤ 4 → |x - y| ≤ u32 * |y| + tiny32 → |x| ≤ 5 := fun {x y} hy hx => by
    have := abs_le_of_near hx
    have hs := slack (B := 4) hy (by norm_num)
    linarith
  have m3 := lim sg m2
  have n3 := lim sa n2
  have p0 : |val (s.ch 1) * val (s.ch 1) + val (s.ch 2 *₃ s.ch 2)| ≤ 9 := (abs_add_le _ _).trans (by linarith)
  have q0 : |val (s.ch 3) * val (s.ch 3) + val (s.ch 0 *₃ s.ch 0)| ≤ 9 := (abs_add_le _ _).trans (by linarith)
  obtain ⟨p1, p2, -⟩ := FltRound.fma32 _ _ _ r1 r1 m1 (fits32_small (p0.trans (by norm_num)))
  obtain ⟨q1, q2, -⟩ := FltRound.fma32 _ _ _ b1 b1 n1 (fits32_small (q0.trans (by norm_num)))
  have sp := sum_squares m2 p2 rfl
  have sq' := sum_squares n2 q2 rfl
  have p3 : |val (fma32 (s.ch 1) (s.ch 1) (s.ch 2 *₃ s.ch 2))| ≤ 10 := by
    have := abs_le_of_near p2
    have hs := slack (B := 9) p0 (by norm_num)
    linarith
  have q3 : |val (fma32 (s.ch 3) (s.ch 3) (s.ch 0 *₃ s.ch 0))| ≤ 10 := by
    have := abs_le_of_near q2
    have hs := slack (B := 9) q0 (by norm_num)
    linarith
  obtain ⟨t1, t2⟩ := rounds_add p1 q1 (((abs_add_le _ _).trans (add_le_add p3 q3)).trans (by norm_num))
  have e : s.normSq = fma32 (s.ch 1) (s.ch 1) (s.ch 2 *₃ s.ch 2) +₃ fma32 (s.ch 3) (s.ch 3) (s.ch 0 *₃ s.ch 0) := rfl
  have eN : Spec.normSq (fun i => val (s.ch i)) = (val (s.ch 1) ^ 2 + val (s.ch 2) ^ 2) + (val (s.ch 3) ^ 2 + val (s.ch 0) ^ 2) := by
    unfold Spec.normSq
    rw [Fin.sum_univ_four]; ring
  rw [e, eN]
  refine ⟨t1, ?_⟩
  generalize val (fma32 (s.ch 1) (s.ch 1) (s.ch 2 *₃ s.ch 2)) = P at *
  generalize val (fma32 (s.ch 3) (s.ch 3) (s.ch 0 *₃ s.ch 0)) = Q at *
  have hA : 0 ≤ val (s.ch 1) ^ 2 + val (s.ch 2) ^ 2 := by positivity
  have hB : 0 ≤ val (s.ch 3) ^ 2 + val (s.ch 0) ^ 2 := by positivity
  generalize val (s.ch 1) ^ 2 + val (s.ch 2) ^ 2 = A at *
  generalize val (s.ch 3) ^ 2 + val (s.ch 0) ^ 2 = B at *
  have h1 : |P + Q - (A + B)| ≤ 2 / 10 ^ 7 * (A + B) + 2 / 10 ^ 30 := by
    have : P + Q - (A + B) = (P - A) + (Q - B) := by ring
    rw [this]
    exact (abs_add_le _ _).trans (by linarith)
  have h2 := abs_le_of_near h1
  rw [abs_of_nonneg (add_nonneg hA hB)] at h2
  have h3 := mul_le_mul_of_nonneg_left h2 u32_nonneg
  have h4 : ∀ v : ℝ, |v - (A + B)| ≤ |v - (P + Q)| + |P + Q - (A + B)| := fun v => by
    have : v - (A + B) = (v - (P + Q)) + (P + Q - (A + B)) := by ring
    rw [this]; exact abs_add_le _ _
  refine (h4 _).trans ?_
  have hu := u32_val
  have hτ := tiny32_le
  rw [hu] at t2 h3
  linarith

/-! ### How much of the error fits -/

theorem abs_min_sub_min {a b c d e : ℝ} (h1 : |a - c| ≤ e) (h2 : |b - d| ≤ e) : |min a b - min c d| ≤ e :=
  (abs_min_sub_min_le_max a b c d).trans (max_le h1 h2)

/-- one bound: the quotient is near the exact one -/
theorem quotient_near {s c n q : ℝ} (hs : 99 / 1000 ≤ s) (hn : |n - c| ≤ 24 / 10 ^ 8)
    (hc : 0 ≤ c) (hc' : c ≤ 13 / 10) (hq : |q - n / s| ≤ u32 * |n / s| + tiny32) : |q - c / s| ≤ 4 / 10 ^ 6 := by
  have s0 : 0 < s := by linarith
  have h1 : |n / s - c / s| ≤ 25 / 10 ^ 7 := by
    rw [← sub_div, abs_div, abs_of_pos s0, div_le_iff₀ s0]
    linarith
  have h2 : |n / s| ≤ 14 := by
    rw [abs_div, abs_of_pos s0, div_le_iff₀ s0]
    have := abs_le_of_near hn
    rw [abs_of_nonneg hc] at this
    linarith
  have h3 := slack h2 (by norm_num)
  have : q - c / s = (q - n / s) + (n / s - c / s) := by ring
  rw [this]
  exact (abs_add_le _ _).trans (by linarith)

/-- the exact quotient is near 1 if the comparison is close -/
theorem quotient_one {s c : ℝ} (hs : 99 / 1000 ≤ s) (h : |c - s| ≤ 42 / 10 ^ 8) : |c / s - 1| ≤ 45 / 10 ^ 7 := by
  have s0 : 0 < s := by linarith
  rw [show c / s - 1 = (c - s) / s by field_simp, abs_div, abs_of_pos s0, div_le_iff₀ s0]
  linarith

theorem div_small {n s : ℝ} (hs : 99 / 1000 ≤ |s|) (hn : |n| ≤ 14 / 10) : |n / s| ≤ 15 := by
  rw [abs_div, div_le_iff₀ (by linarith)]
  linarith

set_option maxHeartbeats 600000 in
theorem limitRatio_upTo {R px s : F} {ρ δ : ℝ} (hR : fin R ∧ |val R - ρ| ≤ δ) (hρ : ρ ≤ 1) (hp : fin px)
    (hp0 : -1 / 10000 ≤ val px) (hp1 : val px ≤ 10001 / 10000) (hs : fin s) (hs2 : |val s| ≤ 2) (hδ : 0 ≤ δ) :
    fin (limitRatio R px s) ∧ |val (limitRatio R px s) - limitRatio (F := ℝ) ρ (val px) (val s)| ≤ δ + 9 / 10 ^ 6 := by
  obtain ⟨s1, s2⟩ := abs_le.1 hs2
  obtain ⟨a1, a2⟩ := add_upTo (B := 301/100) hp hs (abs_le.2 ⟨by linarith, by linarith⟩) (by norm_num) (by norm_num)
  have l1 : |((11/10 : ℚ) : ℝ)| ≤ 11/10 := by rw [abs_of_nonneg (by norm_num)]; norm_num
  have l2 : |((-1/10 : ℚ) : ℝ)| ≤ 1/10 := abs_le.2 ⟨by norm_num, by norm_num⟩
  obtain ⟨c1, c2⟩ := lit_upTo (F := F) l1 (by norm_num) (by norm_num)
  obtain ⟨d1, d2⟩ := lit_upTo (F := F) l2 (by norm_num) (by norm_num)
  push_cast at c2 d2
  have a3 := abs_le.1 a2; have c3 := abs_le.1 c2; have d3 := abs_le.1 d2
  have hR' := abs_le.1 hR.2
  unfold limitRatio
  simp only [real_lt, real_add32, real_sub32, real_div32, real_lit32, real_min]
  push_cast
  have one : ∀ {q c t : ℝ}, |q - c / t| ≤ 4 / 10 ^ 6 → |c / t - 1| ≤ 45 / 10 ^ 7 → |min (val R) q - ρ| ≤ δ + 9 / 10 ^ 6 := by
    intro q c t h1 h2
    have h3 : |q - 1| ≤ 9 / 10 ^ 6 := by
      rw [show q - 1 = (q - c / t) + (c / t - 1) by ring]
      exact (abs_add_le _ _).trans (by linarith)
    have := abs_min_sub_min (e := δ + 9 / 10 ^ 6) (hR.2.trans (by linarith)) (h3.trans (by linarith))
    rwa [min_eq_left hρ] at this
  split
  next h =>
    rw [FltRound.lt _ _ c1 a1] at h
    have hlo : 99 / 1000 ≤ val s := by linarith
    obtain ⟨n1, n2⟩ := sub_upTo (B := 12/10) c1 hp (abs_le.2 ⟨by linarith, by linarith⟩) (by norm_num) (by norm_num)
    have n3 : |val (lit32 (11/10) -₃ px : F) - (11/10 - val px)| ≤ 24 / 10 ^ 8 := by
      have n4 := abs_le.1 n2
      exact abs_le.2 ⟨by linarith, by linarith⟩
    have n5 : |val (lit32 (11/10) -₃ px : F)| ≤ 14 / 10 := by
      have n4 := abs_le.1 n3
      exact abs_le.2 ⟨by linarith, by linarith⟩
    obtain ⟨q1, q2, -⟩ := FltRound.div32 _ _ n1 hs (by linarith)
      (fits32_small ((div_small (by rw [abs_of_nonneg (by linarith)]; exact hlo) n5).trans (by norm_num)))
    have q3 := quotient_near hlo n3 (by linarith) (by linarith) q2
    obtain ⟨m1, m2⟩ := FltRound.min _ _ hR.1 q1
    refine ⟨m1, ?_⟩
    rw [m2]
    split
    next h' => exact abs_min_sub_min (hR.2.trans (by linarith)) (q3.trans (by linarith))
    next h' =>
      rw [if_neg (by linarith)]
      exact one q3 (quotient_one hlo (abs_le.2 ⟨by linarith, by linarith⟩))
  next h =>
    rw [FltRound.lt _ _ c1 a1, not_lt] at h
    split
    next h1 =>
      rw [FltRound.lt _ _ a1 d1] at h1
      have hlo : 99 / 1000 ≤ - val s := by linarith
      obtain ⟨n1, n2⟩ := sub_upTo (B := 12/10) d1 hp (abs_le.2 ⟨by linarith, by linarith⟩) (by norm_num) (by norm_num)
      have n3 : |-val (lit32 (-1/10) -₃ px : F) - (1/10 + val px)| ≤ 24 / 10 ^ 8 := by
        have n4 := abs_le.1 n2
        exact abs_le.2 ⟨by linarith, by linarith⟩
      have n5 : |val (lit32 (-1/10) -₃ px : F)| ≤ 14 / 10 := by
        have n4 := abs_le.1 n3
        exact abs_le.2 ⟨by linarith, by linarith⟩
      obtain ⟨q1, q2, -⟩ := FltRound.div32 _ _ n1 hs (by linarith)
        (fits32_small ((div_small (by rw [abs_of_nonpos (by linarith)]; exact hlo) n5).trans (by norm_num)))
      have q3 := quotient_near hlo n3 (by linarith) (by linarith) (by rw [neg_div_neg_eq]; exact q2)
      obtain ⟨m1, m2⟩ := FltRound.min _ _ hR.1 q1
      refine ⟨m1, ?_⟩
      rw [m2, if_neg (by linarith)]
      have e : (1/10 + val px) / -val s = (-1/10 - val px) / val s := by
        rw [← neg_div_neg_eq, neg_neg]; congr 1; ring
      split
      next h' => rw [e] at q3; exact abs_min_sub_min (hR.2.trans (by linarith)) (q3.trans (by linarith))
      next h' => exact one q3 (quotient_one hlo (abs_le.2 ⟨by linarith, by linarith⟩))
    next h1 =>
      rw [FltRound.lt _ _ a1 d1, not_lt] at h1
      refine ⟨hR.1, ?_⟩
      have two : ∀ {c t : ℝ}, |c / t - 1| ≤ 45 / 10 ^ 7 → |val R - min ρ (c / t)| ≤ δ + 9 / 10 ^ 6 := by
        intro c t h1
        have h2 := abs_min_sub_min (a := ρ) (b := 1) (c := ρ) (d := c / t) (e := 45 / 10 ^ 7)
          (by rw [sub_self, abs_zero]; norm_num) (by rw [abs_sub_comm]; exact h1)
        rw [min_eq_left hρ] at h2
        rw [show val R - min ρ (c / t) = (val R - ρ) + (ρ - min ρ (c / t)) by ring]
        exact (abs_add_le _ _).trans (by linarith [hR.2])
      split
      next h2 => exact two (quotient_one (by linarith) (abs_le.2 ⟨by linarith, by linarith⟩))
      next h2 =>
        split
        next h3 =>
          have hlo : 99 / 1000 ≤ - val s := by linarith
          have e : (1/10 + val px) / -val s = (-1/10 - val px) / val s := by
            rw [← neg_div_neg_eq, neg_neg]; congr 1; ring
          rw [← e]
          exact two (quotient_one hlo (abs_le.2 ⟨by linarith, by linarith⟩))
        next h3 => exact hR.2.trans (by linarith)

/-! ### The colour searched for -/

/-- a colour with finite channels between 0 and 1, up to rounding errors -/
def FPixel.Unit (c : FPixel F) : Prop := ∀ i, fin (c.ch i) ∧ -1 / 10000 ≤ val (c.ch i) ∧ val (c.ch i) ≤ 10001 / 10000

/-- a colour with finite channels of this size at most -/
def FPixel.Limited (B : ℝ) (c : FPixel F) : Prop := ∀ i, fin (c.ch i) ∧ |val (c.ch i)| ≤ B

theorem FPixel.Unit.box {px : FPixel F} (hp : px.Unit) (i : Fin 4) : -0.1 ≤ val (px.ch i) ∧ val (px.ch i) ≤ 1.1 := by
  obtain ⟨-, h1, h2⟩ := hp i
  constructor <;> norm_num <;> linarith

theorem limitRatio_chain {px s : FPixel F} (hp : px.Unit) (hs : s.Limited 2) :
    ∃ T, IsGreatest {t | 0 ≤ t ∧ t ≤ 1 ∧ Spec.Fits (fun i => val (px.ch i)) (fun i => val (s.ch i)) t} T ∧
      fin (limitRatio (limitRatio (limitRatio (lit32 1) px.r s.r) px.g s.g) px.b s.b) ∧
      |val (limitRatio (limitRatio (limitRatio (lit32 1) px.r s.r) px.g s.g) px.b s.b) - T| ≤ 28 / 10 ^ 6 := by
  obtain ⟨t1, t2, t3⟩ := limitRatio_greatest (px := fun i => val (px.ch i)) (s := fun i => val (s.ch i)) (fun i _ => hp.box i)
  refine ⟨_, t3, ?_⟩
  have l1 : |((1 : ℚ) : ℝ)| ≤ 1 := by simp
  have c := lit_upTo (F := F) l1 (by norm_num) (by norm_num)
  push_cast at c
  have r := limitRatio_upTo c (le_refl _) (hp 1).1 (hp 1).2.1 (hp 1).2.2 (hs 1).1 (hs 1).2 (by norm_num)
  have g := limitRatio_upTo r t1 (hp 2).1 (hp 2).2.1 (hp 2).2.2 (hs 2).1 (hs 2).2 (by norm_num)
  have b := limitRatio_upTo g t2 (hp 3).1 (hp 3).2.1 (hp 3).2.2 (hs 3).1 (hs 3).2 (by norm_num)
  exact ⟨b.1, b.2.trans (by norm_num)⟩

/-- the tolerance -/
noncomputable def dev : ℝ := 1 / 20000

theorem large_upTo {limit : Option ℝ} {maxErr n : F} {N : ℝ} (hl : ∀ l, limit = some l → fin maxErr ∧ val maxErr = l) (hn : fin n)
    (h : |val n - N| ≤ 2 / 10 ^ 6 * N + 1 / 10 ^ 19) (hN : 0 ≤ N) : Spec.LargeUpTo dev limit N (lt maxErr n) := by
  intro l e
  obtain ⟨h1, h2⟩ := hl l e
  obtain ⟨h3, h4⟩ := abs_le.1 h
  unfold dev
  constructor
  · intro hlt
    rw [FltRound.lt _ _ h1 hn, h2] at hlt
    norm_num
    linarith
  · intro hlt
    have : ¬ val maxErr < val n := by rw [← FltRound.lt _ _ h1 hn, hlt]; simp
    rw [h2, not_lt] at this
    norm_num
    linarith

theorem normSq_nonneg (v : Fin 4 → ℝ) : 0 ≤ Spec.normSq v := Finset.sum_nonneg fun i _ => sq_nonneg (v i)

/-- what is added to alpha -/
theorem clamp_upTo {x : F} {r : ℝ} (h : fin x ∧ |val x - r| ≤ 1 / 10 ^ 6) :
    fin (clamp x (lit32 0) (lit32 1)) ∧ |val (clamp x (lit32 0) (lit32 1)) - max 0 (min 1 r)| ≤ 3 / 10 ^ 6 := by
  have l1 : |((1 : ℚ) : ℝ)| ≤ 1 := by simp
  have l0 : |((0 : ℚ) : ℝ)| ≤ 1 := by simp
  obtain ⟨c1, c2⟩ := lit_upTo (F := F) l1 (by norm_num) (by norm_num)
  obtain ⟨d1, d2⟩ := lit_upTo (F := F) l0 (by norm_num) (by norm_num)
  push_cast at c2 d2
  have c3 := abs_le.1 c2; have d3 := abs_le.1 d2; have x3 := abs_le.1 h.2
  unfold clamp
  split
  next h1 =>
    rw [FltRound.lt _ _ h.1 d1] at h1
    refine ⟨d1, ?_⟩
    rcases le_total 0 (min 1 r) with h2 | h2
    · rw [max_eq_right h2]
      have := min_le_right 1 r
      exact abs_le.2 ⟨by linarith, by linarith⟩
    · rw [max_eq_left h2]
      exact abs_le.2 ⟨by linarith, by linarith⟩
  next h1 =>
    rw [FltRound.lt _ _ h.1 d1, not_lt] at h1
    split
    next h2 =>
      rw [FltRound.lt _ _ c1 h.1] at h2
      refine ⟨c1, ?_⟩
      rcases le_total 1 r with h3 | h3
      · rw [min_eq_left h3, max_eq_right zero_le_one]
        exact abs_le.2 ⟨by linarith, by linarith⟩
      · rw [min_eq_right h3, max_eq_right (by linarith)]
        exact abs_le.2 ⟨by linarith, by linarith⟩
    next h2 =>
      rw [FltRound.lt _ _ c1 h.1, not_lt] at h2
      refine ⟨h.1, ?_⟩
      have a1 : min 1 r ≤ r := min_le_right _ _
      have a2 : r - 2 / 10 ^ 6 ≤ min 1 r := le_min (by linarith) (by linarith)
      rcases le_total 0 (min 1 r) with h3 | h3
      · rw [max_eq_right h3]
        exact abs_le.2 ⟨by linarith, by linarith⟩
      · rw [max_eq_left h3]
        exact abs_le.2 ⟨by linarith, by linarith⟩

/-- the product with the part that fits -/
theorem push_upTo {s ratio px : F} {t : ℝ} (hs : fin s ∧ |val s| ≤ 5 / 4) (hr : fin ratio ∧ |val ratio - t| ≤ 3 / 10 ^ 5)
    (ht0 : 0 ≤ t) (ht : t ≤ 1) (hp : fin px ∧ -1 / 10000 ≤ val px ∧ val px ≤ 10001 / 10000) :
    fin (fma32 s ratio px) ∧ |val (fma32 s ratio px) - (val px + t * val s)| ≤ dev := by
  have r3 := abs_le.1 hr.2
  have h1 : |val s * val ratio| ≤ 13 / 10 := by
    rw [abs_mul]
    have : |val ratio| ≤ 101 / 100 := abs_le.2 ⟨by linarith, by linarith⟩
    exact (mul_le_mul hs.2 this (abs_nonneg _) (by norm_num)).trans (by norm_num)
  have h1' := abs_le.1 h1
  obtain ⟨f1, f2⟩ := fma_upTo (B := 3) hs.1 hr.1 hp.1 (abs_le.2 ⟨by linarith [hp.2.1], by linarith [hp.2.2]⟩) (by norm_num) (by norm_num)
  refine ⟨f1, ?_⟩
  have h2 : |val s * (val ratio - t)| ≤ 5 / 4 * (3 / 10 ^ 5) := by
    rw [abs_mul]
    exact mul_le_mul hs.2 hr.2 (abs_nonneg _) (by norm_num)
  rw [show val (fma32 s ratio px) - (val px + t * val s) =
    (val (fma32 s ratio px) - (val s * val ratio + val px)) + val s * (val ratio - t) by ring]
  unfold dev
  exact (abs_add_le _ _).trans (by linarith)

theorem mul_chan_upTo {x k : F} (hx : fin x ∧ |val x| ≤ 6 / 5) (hk : fin k ∧ |val k| ≤ 1) :
    (fin (x *₃ k) ∧ |val (x *₃ k)| ≤ 5 / 4) ∧ |val (x *₃ k) - val k * val x| ≤ 2 / 10 ^ 7 := by
  have h1 : |val x * val k| ≤ 6 / 5 := by
    rw [abs_mul]
    exact (mul_le_mul hx.2 hk.2 (abs_nonneg _) (by norm_num)).trans (by norm_num)
  obtain ⟨m1, m2⟩ := mul_upTo hx.1 hk.1 h1 (by norm_num) (by norm_num)
  refine ⟨⟨m1, (abs_le_of_near m2).trans (by linarith)⟩, ?_⟩
  rw [mul_comm (val k)]
  exact m2.trans (by norm_num)

/-- the colour searched for, with rounding errors -/
theorem ditheredPixel_upTo {level maxErr : F} {e px : FPixel F} {limit : Option ℝ}
    (hl : ∀ l, limit = some l → fin maxErr ∧ val maxErr = l) (hlev : fin level ∧ |val level| ≤ 1) (he : e.Limited (6 / 5)) (hp : px.Unit) :
    (∃ s : Fin 4 → ℝ, (∀ i, |s i - val level * val (e.ch i)| ≤ 2 / 10 ^ 7) ∧
      Spec.PushedUpTo dev limit px.vals.chans s (ditheredPixel level maxErr e px).vals.chans) ∧
    ∀ i, fin ((ditheredPixel level maxErr e px).ch i) ∧ -1001 / 10000 ≤ val ((ditheredPixel level maxErr e px).ch i) ∧
      val ((ditheredPixel level maxErr e px).ch i) ≤ 11001 / 10000 := by
  have hs : ∀ i, (fin ((e.scale level).ch i) ∧ |val ((e.scale level).ch i)| ≤ 5 / 4) ∧
      |val ((e.scale level).ch i) - val level * val (e.ch i)| ≤ 2 / 10 ^ 7 := fun i => by
    rw [ch_scale]; exact mul_chan_upTo (he i) hlev
  have hs2 : (e.scale level).Limited 2 := fun i => ⟨(hs i).1.1, (hs i).1.2.trans (by norm_num)⟩
  obtain ⟨n1, n2⟩ := normSq_upTo hs2
  have hN := normSq_nonneg fun i => val ((e.scale level).ch i)
  obtain ⟨n3, n4⟩ := abs_le.1 n2
  have l1 : |((2/65536 : ℚ) : ℝ)| ≤ 1 / 20 := by rw [abs_of_nonneg (by norm_num)]; norm_num
  obtain ⟨c1, c2, -⟩ := FltRound.lit32 (F := F) (2/65536) (fits32_small (l1.trans (by norm_num)))
  have c3 : |val (lit32 (2/65536) : F) - 2/65536| ≤ 2/65536 / 10 ^ 6 := by
    push_cast at c2
    rw [abs_of_nonneg (a := (2 : ℝ)/65536) (by norm_num), u32_val] at c2
    have := tiny32_le
    linarith
  obtain ⟨c4, c5⟩ := abs_le.1 c3
  have ech : ∀ c : FPixel F, c.vals.chans = fun i => val (c.ch i) := fun c => funext (vals_chans c)
  rw [ech, ech]
  unfold ditheredPixel
  dsimp only
  generalize hsc : e.scale level = s at *
  split
  next h =>
    rw [FltRound.lt _ _ n1 c1] at h
    refine ⟨⟨fun i => val (s.ch i), fun i => (hs i).2, .inl ⟨?_, rfl⟩⟩, fun i => ⟨(hp i).1, by linarith [(hp i).2.1], by linarith [(hp i).2.2]⟩⟩
    unfold dev
    linarith
  next h =>
    rw [FltRound.lt _ _ n1 c1, not_lt] at h
    obtain ⟨T, hT, r1, r2⟩ := limitRatio_chain hp hs2
    obtain ⟨T0, T1, Tfit⟩ := hT.1
    obtain ⟨r3, r4⟩ := abs_le.1 r2
    generalize limitRatio (limitRatio (limitRatio (lit32 1) px.r s.r) px.g s.g) px.b s.b = ratio at *
    have hr : fin (if lt maxErr s.normSq = true then ratio *₃ lit32 (8/10) else ratio) ∧
        |val (if lt maxErr s.normSq = true then ratio *₃ lit32 (8/10) else ratio) -
          (if lt maxErr s.normSq = true then 4/5 * T else T)| ≤ 3 / 10 ^ 5 := by
      split
      · have l8 : |((8/10 : ℚ) : ℝ)| ≤ 8/10 := by rw [abs_of_nonneg (by norm_num)]; norm_num
        obtain ⟨d1, d2⟩ := lit_upTo (F := F) l8 (by norm_num) (by norm_num)
        push_cast at d2
        obtain ⟨d3, d4⟩ := abs_le.1 d2
        have hm : |val ratio * val (lit32 (8/10) : F) - 8/10 * T| ≤ 26 / 10 ^ 6 := by
          have e1 : val ratio * val (lit32 (8/10) : F) - 8/10 * T =
            (val ratio - T) * val (lit32 (8/10) : F) + T * (val (lit32 (8/10) : F) - 8/10) := by ring
          rw [e1]
          refine (abs_add_le _ _).trans ?_
          rw [abs_mul, abs_mul, abs_of_nonneg T0]
          have v : |val (lit32 (8/10) : F)| ≤ 81/100 := abs_le.2 ⟨by linarith, by linarith⟩
          have m1 := mul_le_mul r2 v (abs_nonneg _) (by norm_num)
          have m2 := mul_le_mul T1 d2 (abs_nonneg _) (by norm_num)
          linarith
        obtain ⟨hm1, hm2⟩ := abs_le.1 hm
        obtain ⟨p1, p2⟩ := mul_upTo (B := 1) r1 d1 (abs_le.2 ⟨by linarith, by linarith⟩) (by norm_num) (by norm_num)
        refine ⟨p1, ?_⟩
        obtain ⟨p3, p4⟩ := abs_le.1 p2
        exact abs_le.2 ⟨by linarith, by linarith⟩
      · exact ⟨r1, r2.trans (by norm_num)⟩
    have ht0 : 0 ≤ (if lt maxErr s.normSq = true then 4/5 * T else T) ∧ (if lt maxErr s.normSq = true then 4/5 * T else T) ≤ T := by
      split
      · constructor <;> linarith
      · exact ⟨T0, le_refl _⟩
    generalize hgr : (if lt maxErr s.normSq = true then ratio *₃ lit32 (8/10) else ratio) = ratio' at *
    have push : ∀ i, fin (fma32 (s.ch i) ratio' (px.ch i)) ∧ |val (fma32 (s.ch i) ratio' (px.ch i)) -
        (val (px.ch i) + (if lt maxErr s.normSq = true then 4/5 * T else T) * val (s.ch i))| ≤ dev :=
      fun i => push_upTo (hs i).1 hr ht0.1 (ht0.2.trans T1) (hp i)
    obtain ⟨a1, a2⟩ := add_upTo (B := 3) (hp 0).1 (hs 0).1.1 (by
      obtain ⟨b1, b2⟩ := abs_le.1 (hs 0).1.2
      exact abs_le.2 ⟨by linarith [(hp 0).2.1], by linarith [(hp 0).2.2]⟩) (by norm_num) (by norm_num)
    obtain ⟨k1, k2⟩ := clamp_upTo ⟨a1, a2.trans (by norm_num)⟩
    have fits : ∀ i ≠ 0, -0.1 ≤ val (px.ch i) + (if lt maxErr s.normSq = true then 4/5 * T else T) * val (s.ch i) ∧
        val (px.ch i) + (if lt maxErr s.normSq = true then 4/5 * T else T) * val (s.ch i) ≤ 1.1 := by
      intro i hi
      obtain ⟨q1, q2⟩ := Tfit i hi
      obtain ⟨q3, q4⟩ := hp.box i
      dsimp only at q1 q2
      split
      · constructor <;> linarith
      · exact ⟨q1, q2⟩
    refine ⟨⟨fun i => val (s.ch i), fun i => (hs i).2, .inr ⟨?_, ?_, T, lt maxErr s.normSq, hT, large_upTo hl n1 (n2.trans (by linarith)) hN, ?_⟩⟩, ?_⟩
    · unfold dev
      linarith
    · exact k2.trans (by unfold dev; norm_num)
    · intro i hi
      fin_cases i
      · simp at hi
      · exact (push 1).2
      · exact (push 2).2
      · exact (push 3).2
    · have near : ∀ i ≠ 0, -1001 / 10000 ≤ val (fma32 (s.ch i) ratio' (px.ch i)) ∧ val (fma32 (s.ch i) ratio' (px.ch i)) ≤ 11001 / 10000 := by
        intro i hi
        obtain ⟨q1, q2⟩ := fits i hi
        obtain ⟨q3, q4⟩ := abs_le.1 (push i).2
        unfold dev at q3 q4
        generalize val (px.ch i) + (if lt maxErr s.normSq = true then 4/5 * T else T) * val (s.ch i) = m at q1 q2 q3 q4
        norm_num at q1 q2
        constructor <;> linarith
      intro i
      fin_cases i
      · refine ⟨k1, ?_⟩
        obtain ⟨k3, k4⟩ := abs_le.1 k2
        have m0 : (0:ℝ) ≤ max 0 (min 1 (val (px.ch 0) + val (s.ch 0))) := le_max_left _ _
        have m1 : max 0 (min 1 (val (px.ch 0) + val (s.ch 0))) ≤ (1:ℝ) := max_le zero_le_one (min_le_left _ _)
        exact ⟨by show _ ≤ val (clamp (px.ch 0 +₃ s.ch 0) (lit32 0) (lit32 1)); linarith,
          by show val (clamp (px.ch 0 +₃ s.ch 0) (lit32 0) (lit32 1)) ≤ _; linarith⟩
      · exact ⟨(push 1).1, near 1 (by decide)⟩
      · exact ⟨(push 2).1, near 2 (by decide)⟩
      · exact ⟨(push 3).1, near 3 (by decide)⟩

/-- the error of a pixel, with rounding errors -/
theorem pixelError_upTo {maxErr : F} {t s : FPixel F} {limit : Option ℝ} (hl : ∀ l, limit = some l → fin maxErr ∧ val maxErr = l)
    (ht : ∀ i, fin (t.ch i) ∧ -1001 / 10000 ≤ val (t.ch i) ∧ val (t.ch i) ≤ 11001 / 10000) (hs : s.Unit) :
    (∃ large, Spec.LargeUpTo dev limit (Spec.normSq fun i => t.vals.chans i - s.vals.chans i) large ∧
      ∀ i, |val ((pixelError maxErr t s).ch i) - (if large then 3/4 * (t.vals.chans i - s.vals.chans i) else t.vals.chans i - s.vals.chans i)| ≤ dev) ∧
    (pixelError maxErr t s).Limited (111 / 100) := by
  have tr : ∀ {r v : ℝ}, |v - r| ≤ u32 * |r| + tiny32 → |v - r| ≤ 1 / 10 ^ 7 * |r| + 1 / 10 ^ 40 := by
    intro r v h
    have := abs_nonneg r
    have := tiny32_le
    rw [u32_val] at h
    linarith
  have hsub : ∀ i, fin ((t.sub s).ch i) ∧ |val ((t.sub s).ch i) - (val (t.ch i) - val (s.ch i))| ≤
      1 / 10 ^ 7 * |val (t.ch i) - val (s.ch i)| + 1 / 10 ^ 40 ∧ |val (t.ch i) - val (s.ch i)| ≤ 11002 / 10000 := by
    intro i
    rw [ch_sub]
    have hb : |val (t.ch i) - val (s.ch i)| ≤ 11002 / 10000 :=
      abs_le.2 ⟨by linarith [(ht i).2.1, (hs i).2.2], by linarith [(ht i).2.2, (hs i).2.1]⟩
    obtain ⟨h1, h2⟩ := rounds_sub (ht i).1 (hs i).1 (hb.trans (by norm_num))
    exact ⟨h1, tr h2, hb⟩
  have hlim : ∀ i, fin ((t.sub s).ch i) ∧ |val ((t.sub s).ch i)| ≤ 1101 / 1000 := fun i => by
    obtain ⟨h1, h2, h3⟩ := hsub i
    exact ⟨h1, (abs_le_of_near h2).trans (by linarith)⟩
  obtain ⟨n1, n2⟩ := normSq_upTo (s := t.sub s) fun i => ⟨(hlim i).1, (hlim i).2.trans (by norm_num)⟩
  have ech : (fun i => t.vals.chans i - s.vals.chans i) = fun i => val (t.ch i) - val (s.ch i) := by
    funext i; rw [vals_chans, vals_chans]
  have hN := normSq_nonneg fun i => val (t.ch i) - val (s.ch i)
  have hD : |Spec.normSq (fun i => val ((t.sub s).ch i)) - Spec.normSq (fun i => val (t.ch i) - val (s.ch i))| ≤
      3 / 10 ^ 7 * Spec.normSq (fun i => val (t.ch i) - val (s.ch i)) + 1 / 10 ^ 30 := by
    have one : ∀ i, |val ((t.sub s).ch i) ^ 2 - (val (t.ch i) - val (s.ch i)) ^ 2| ≤
        3 / 10 ^ 7 * (val (t.ch i) - val (s.ch i)) ^ 2 + 1 / 10 ^ 31 := by
      intro i
      obtain ⟨-, h2, h3⟩ := hsub i
      generalize val ((t.sub s).ch i) = v at *
      generalize val (t.ch i) - val (s.ch i) = r at *
      rw [show v ^ 2 - r ^ 2 = (v - r) * (v - r) + 2 * r * (v - r) by ring, show r ^ 2 = |r| * |r| by rw [abs_mul_abs_self]; ring]
      refine (abs_add_le _ _).trans ?_
      rw [abs_mul, abs_mul, abs_mul, abs_two]
      have r0 := abs_nonneg r
      have v0 := abs_nonneg (v - r)
      have m1 := mul_le_mul h2 h2 v0 (by positivity)
      have m2 := mul_le_mul_of_nonneg_left h2 r0
      nlinarith [mul_nonneg r0 r0]
    unfold Spec.normSq
    rw [← Finset.sum_sub_distrib]
    refine (Finset.abs_sum_le_sum_abs _ _).trans ?_
    refine (Finset.sum_le_sum fun i _ => one i).trans ?_
    rw [Finset.sum_add_distrib, ← Finset.mul_sum]
    simp only [Finset.sum_const, Finset.card_univ, Fintype.card_fin, nsmul_eq_mul]
    norm_num
  have hn : |val (t.sub s).normSq - Spec.normSq (fun i => val (t.ch i) - val (s.ch i))| ≤
      2 / 10 ^ 6 * Spec.normSq (fun i => val (t.ch i) - val (s.ch i)) + 1 / 10 ^ 19 := by
    obtain ⟨x1, x2⟩ := abs_le.1 n2
    obtain ⟨y1, y2⟩ := abs_le.1 hD
    exact abs_le.2 ⟨by linarith, by linarith⟩
  rw [ech]
  have hl34 : |((3/4 : ℚ) : ℝ)| ≤ 3/4 := by rw [abs_of_nonneg (by norm_num)]; norm_num
  obtain ⟨d1, d2⟩ := lit_upTo (F := F) hl34 (by norm_num) (by norm_num)
  push_cast at d2
  obtain ⟨d3, d4⟩ := abs_le.1 d2
  refine ⟨⟨lt maxErr (t.sub s).normSq, large_upTo hl n1 hn hN, fun i => ?_⟩, fun i => ?_⟩
  all_goals
    unfold pixelError
    dsimp only
    obtain ⟨h1, h2, h3⟩ := hsub i
    obtain ⟨-, h4⟩ := hlim i
    obtain ⟨h5, h6⟩ := abs_le.1 h2
    obtain ⟨h7, h8⟩ := abs_le.1 h4
    have hm : |val ((t.sub s).ch i) * val (lit32 (3/4) : F) - 3/4 * val ((t.sub s).ch i)| ≤ 1 / 10 ^ 6 := by
      rw [show val ((t.sub s).ch i) * val (lit32 (3/4) : F) - 3/4 * val ((t.sub s).ch i) =
        val ((t.sub s).ch i) * (val (lit32 (3/4) : F) - 3/4) by ring, abs_mul]
      exact (mul_le_mul h4 d2 (abs_nonneg _) (by norm_num)).trans (by norm_num)
    obtain ⟨m1, m2⟩ := abs_le.1 hm
    obtain ⟨p1, p2⟩ := mul_upTo (B := 1) h1 d1 (abs_le.2 ⟨by linarith, by linarith⟩) (by norm_num) (by norm_num)
    obtain ⟨p3, p4⟩ := abs_le.1 p2
  · rw [vals_chans, vals_chans]
    unfold dev
    split
    · rw [ch_scale]
      exact abs_le.2 ⟨by linarith, by linarith⟩
    · exact abs_le.2 ⟨by linarith, by linarith⟩
  · split
    · rw [ch_scale]
      exact ⟨p1, abs_le.2 ⟨by linarith, by linarith⟩⟩
    · exact ⟨h1, h4.trans (by norm_num)⟩

/-! ### One row -/

/-- the rounding error of one share of an error -/
noncomputable def tick : ℝ := 25 / 10 ^ 8

/-- the number of shares in cell `j` of the row below after `k` pixels -/
noncomputable def leftCount (k j : ℕ) : ℝ :=
  (if j < k then 1 else 0) + (if 1 ≤ j ∧ j < k + 1 then 1 else 0) + (if 2 ≤ j ∧ j < k + 2 then 1 else 0)

theorem leftCount_le (k j : ℕ) : leftCount k j ≤ 3 := by
  unfold leftCount
  split_ifs <;> norm_num

theorem leftBelow_le {E : ℕ → ℝ} {k : ℕ} {B : ℝ} (hB : 0 ≤ B) (h : ∀ x < k, |E x| ≤ B) (j : ℕ) : |leftBelow E k j| ≤ 9/16 * B := by
  unfold leftBelow
  have t : ∀ {p : Prop} [Decidable p] {q : ℝ} {x : ℕ}, 0 ≤ q → (p → x < k) → |if p then q * E x else 0| ≤ q * B := by
    intro p _ q x hq hp
    split
    next h' =>
      rw [abs_mul, abs_of_nonneg hq]
      exact mul_le_mul_of_nonneg_left (h x (hp h')) hq
    · rw [abs_zero]; exact mul_nonneg hq hB
  have h1 := t (p := j < k) (q := 3/16) (x := j) (by norm_num) id
  have h2 := t (p := 1 ≤ j ∧ j < k + 1) (q := 5/16) (x := j - 1) (by norm_num) (by omega)
  have h3 := t (p := 2 ≤ j ∧ j < k + 2) (q := 1/16) (x := j - 2) (by norm_num) (by omega)
  refine (abs_add_le _ _).trans ?_
  have := abs_add_le (if j < k then 3/16 * E j else 0) (if 1 ≤ j ∧ j < k + 1 then 5/16 * E (j - 1) else 0)
  linarith

theorem leftBeside_le {E : ℕ → ℝ} {k : ℕ} {B : ℝ} (hB : 0 ≤ B) (h : ∀ x < k, |E x| ≤ B) (j : ℕ) : |leftBeside E k j| ≤ 7/16 * B := by
  unfold leftBeside
  split
  next h' =>
    rw [abs_mul, abs_of_nonneg (by norm_num)]
    exact mul_le_mul_of_nonneg_left (h _ (by omega)) (by norm_num)
  · rw [abs_zero]; positivity

/-- one share of an error -/
theorem share_upTo {e : F} {q : ℚ} (he : fin e ∧ |val e| ≤ 111 / 100) (q0 : 0 ≤ (q : ℝ)) (q1 : (q : ℝ) ≤ 7/16) :
    fin (e *₃ lit32 q) ∧ |val (e *₃ lit32 q) - q * val e| ≤ 12 / 10 ^ 8 ∧ |(q : ℝ) * val e| ≤ 49 / 100 := by
  obtain ⟨l1, l2⟩ := lit_upTo (F := F) (q := q) (B := 7/16) (by rw [abs_of_nonneg q0]; exact q1) (by norm_num) (by norm_num)
  have h0 : |(q : ℝ) * val e| ≤ 49 / 100 := by
    rw [abs_mul, abs_of_nonneg q0]
    exact (mul_le_mul q1 he.2 (abs_nonneg _) (by norm_num)).trans (by norm_num)
  have h1 : |val e * val (lit32 q : F) - q * val e| ≤ 5 / 10 ^ 8 := by
    rw [show val e * val (lit32 q : F) - q * val e = val e * (val (lit32 q : F) - q) by ring, abs_mul]
    exact (mul_le_mul he.2 l2 (abs_nonneg _) (by norm_num)).trans (by norm_num)
  have h2 : |val e * val (lit32 q : F)| ≤ 1/2 := (abs_le_of_near h1).trans (by linarith)
  obtain ⟨m1, m2⟩ := mul_upTo he.1 l1 h2 (by norm_num) (by norm_num)
  refine ⟨m1, ?_, h0⟩
  rw [show val (e *₃ lit32 q) - q * val e = (val (e *₃ lit32 q) - val e * val (lit32 q : F)) + (val e * val (lit32 q : F) - q * val e) by ring]
  exact (abs_add_le _ _).trans (by linarith)

theorem plus_upTo {x e : F} {q : ℚ} (hx : fin x ∧ |val x| ≤ 65 / 100) (he : fin e ∧ |val e| ≤ 111 / 100) (q0 : 0 ≤ (q : ℝ))
    (q1 : (q : ℝ) ≤ 7/16) : fin (x +₃ e *₃ lit32 q) ∧ |val (x +₃ e *₃ lit32 q) - (val x + q * val e)| ≤ tick := by
  obtain ⟨m1, m2, m3⟩ := share_upTo he q0 q1
  have h1 : |val x + val (e *₃ lit32 q)| ≤ 12 / 10 := by
    have := abs_le_of_near m2
    exact (abs_add_le _ _).trans (by linarith [hx.2])
  obtain ⟨a1, a2⟩ := add_upTo hx.1 m1 h1 (by norm_num) (by norm_num)
  refine ⟨a1, ?_⟩
  rw [show val (x +₃ e *₃ lit32 q) - (val x + q * val e) =
    (val (x +₃ e *₃ lit32 q) - (val x + val (e *₃ lit32 q))) + (val (e *₃ lit32 q) - q * val e) by ring]
  unfold tick
  exact (abs_add_le _ _).trans (by linarith)

structure RowNear (w : ℕ) (even : Bool) (this0 : List (FPixel F)) (E : ℕ → FPixel F) (k : ℕ) (a b : List (FPixel F)) : Prop where
  lenA : a.length = w + 2
  lenB : b.length = w + 2
  this : ∀ j ≤ w + 1, ∀ i, fin ((cellAt w even a j).ch i) ∧ |val ((cellAt w even a j).ch i) -
    (val ((cellAt w even this0 j).ch i) + leftBeside (fun x => val ((E x).ch i)) k j)| ≤ if 2 ≤ j ∧ j < k + 2 then tick else 0
  next : ∀ j ≤ w + 1, ∀ i, fin ((cellAt w even b j).ch i) ∧ |val ((cellAt w even b j).ch i) -
    leftBelow (fun x => val ((E x).ch i)) k j| ≤ leftCount k j * tick

theorem RowNear.zero {w : ℕ} {even : Bool} {this0 : List (FPixel F)} (E : ℕ → FPixel F) (h : this0.length = w + 2)
    (hf : ∀ j ≤ w + 1, ∀ i, fin ((cellAt w even this0 j).ch i)) :
    RowNear w even this0 E 0 this0 (List.replicate (w + 2) FPixel.default) := by
  refine ⟨h, by simp, fun j hj i => ⟨hf j hj i, ?_⟩, fun j hj i => ?_⟩
  · unfold leftBeside
    rw [if_neg (by omega), if_neg (by omega)]; simp
  · have e : cellAt w even (List.replicate (w + 2) (FPixel.default : FPixel F)) j = FPixel.default := by
      unfold cellAt
      rw [List.getD_eq_getElem?_getD, List.getElem?_replicate]
      split <;> rfl
    rw [e]
    refine ⟨(fin_default i).1, ?_⟩
    unfold leftBelow leftCount
    rw [if_neg (by omega), if_neg (by omega), if_neg (by omega), if_neg (by omega), if_neg (by omega), if_neg (by omega), (fin_default i).2]
    simp

theorem RowNear.step {w : ℕ} {even : Bool} {this0 : List (FPixel F)} {E : ℕ → FPixel F} {k : ℕ} {a b : List (FPixel F)}
    (h : RowNear w even this0 E k a b) (hk : k < w) (hE : ∀ x ≤ k, (E x).Limited (111 / 100))
    (h0 : ∀ j ≤ w + 1, (cellAt w even this0 j).Limited (64 / 100)) :
    RowNear w even this0 E (k + 1) (diffuse even (ditherCol w even k) (E k) a b).1
      (diffuse even (ditherCol w even k) (E k) a b).2 := by
  have hd := diffuse_length even (ditherCol w even k) (E k) a b
  have t0 : 0 ≤ tick := by unfold tick; norm_num
  refine ⟨hd.1.trans h.lenA, hd.2.trans h.lenB, fun j hj i => ?_, fun j hj i => ?_⟩
  · rw [(diffuse_cells_any even hk (E k) h.lenA h.lenB j hj).1]
    obtain ⟨f1, f2⟩ := h.this j hj i
    unfold leftBeside at f2 ⊢
    by_cases hjk : j = k + 2
    · subst hjk
      rw [if_pos rfl, ch_add, ch_scale]
      rw [if_neg (by omega), if_neg (by omega), add_zero] at f2
      rw [if_pos (by omega), if_pos (by omega)]
      have e : val ((cellAt w even a (k + 2)).ch i) = val ((cellAt w even this0 (k + 2)).ch i) := by
        have := abs_nonpos_iff.1 f2; linarith
      have p := plus_upTo (x := (cellAt w even a (k + 2)).ch i) (e := (E k).ch i) (q := 7/16)
        ⟨f1, by rw [e]; exact ((h0 _ hj i).2).trans (by norm_num)⟩ (hE k (le_refl _) i) (by norm_num) (by norm_num)
      simp only [Nat.add_sub_cancel]
      rw [e] at p
      push_cast at p
      exact p
    · rw [if_neg hjk]
      by_cases hc : 2 ≤ j ∧ j < k + 2
      · rw [if_pos hc, if_pos hc] at f2
        rw [if_pos (by omega), if_pos (by omega)]
        exact ⟨f1, f2⟩
      · rw [if_neg hc, if_neg hc] at f2
        rw [if_neg (by omega), if_neg (by omega)]
        exact ⟨f1, f2⟩
  · rw [(diffuse_cells_any even hk (E k) h.lenA h.lenB j hj).2]
    obtain ⟨f1, f2⟩ := h.next j hj i
    have lb := leftBelow_le (E := fun x => val ((E x).ch i)) (k := k) (B := 111/100) (by norm_num) (fun x hx => (hE x hx.le i).2) j
    have cell : |val ((cellAt w even b j).ch i)| ≤ 65/100 := by
      have := abs_le_of_near f2
      have c := mul_le_mul_of_nonneg_right (leftCount_le k j) t0
      unfold tick at c this
      linarith
    have bump : ∀ {q : ℚ}, 0 ≤ (q : ℝ) → (q : ℝ) ≤ 7/16 →
        leftBelow (fun x => val ((E x).ch i)) (k + 1) j = leftBelow (fun x => val ((E x).ch i)) k j + q * val ((E k).ch i) →
        leftCount (k + 1) j = leftCount k j + 1 →
        fin ((cellAt w even b j).ch i +₃ (E k).ch i *₃ lit32 q) ∧
        |val ((cellAt w even b j).ch i +₃ (E k).ch i *₃ lit32 q) - leftBelow (fun x => val ((E x).ch i)) (k + 1) j| ≤ leftCount (k + 1) j * tick := by
      intro q q0 q1 e1 e2
      obtain ⟨p1, p2⟩ := plus_upTo ⟨f1, cell⟩ (hE k (le_refl _) i) q0 q1
      refine ⟨p1, ?_⟩
      rw [e1, e2]
      obtain ⟨x1, x2⟩ := abs_le.1 p2
      obtain ⟨y1, y2⟩ := abs_le.1 f2
      exact abs_le.2 ⟨by linarith, by linarith⟩
    by_cases h0 : j = k
    · subst h0
      rw [if_pos rfl, ch_add, ch_scale]
      refine bump (by norm_num) (by norm_num) ?_ ?_
      · unfold leftBelow
        push_cast
        rw [if_neg (show ¬ j < j by omega), if_pos (show j < j + 1 by omega)]
        by_cases c1 : 1 ≤ j
        · rw [if_pos (⟨c1, by omega⟩ : 1 ≤ j ∧ j < j + 1), if_pos (⟨c1, by omega⟩ : 1 ≤ j ∧ j < j + 1 + 1)]
          by_cases c2 : 2 ≤ j
          · rw [if_pos (⟨c2, by omega⟩ : 2 ≤ j ∧ j < j + 2), if_pos (by omega)]; ring
          · rw [if_neg (by omega), if_neg (by omega)]; ring
        · rw [if_neg (by omega), if_neg (by omega), if_neg (by omega), if_neg (by omega)]; ring
      · unfold leftCount
        split_ifs <;> first | omega | ring
    · rw [if_neg h0]
      by_cases h1 : j = k + 1
      · subst h1
        rw [if_pos rfl, ch_add, ch_scale]
        refine bump (by norm_num) (by norm_num) ?_ ?_
        · unfold leftBelow
          rw [show ((5/16 : ℚ) : ℝ) = 5/16 by norm_num]
          simp only [Nat.add_sub_cancel]
          split_ifs <;> first | omega | ring
        · unfold leftCount
          split_ifs <;> first | omega | ring
      · rw [if_neg h1]
        by_cases h2 : j = k + 2
        · subst h2
          rw [if_pos rfl, ch_scale]
          obtain ⟨m1, m2, -⟩ := share_upTo (q := 1/16) (hE k (le_refl _) i) (by norm_num) (by norm_num)
          refine ⟨m1, ?_⟩
          unfold leftBelow leftCount
          rw [if_neg (by omega), if_neg (by omega), if_pos (by omega), if_neg (by omega), if_neg (by omega), if_pos (by omega)]
          simp only [Nat.add_sub_cancel, zero_add, one_mul]
          push_cast at m2
          exact m2.trans (by unfold tick; norm_num)
        · rw [if_neg h2]
          refine ⟨f1, ?_⟩
          have e1 : leftBelow (fun x => val ((E x).ch i)) (k + 1) j = leftBelow (fun x => val ((E x).ch i)) k j := by
            unfold leftBelow
            split_ifs <;> first | omega | rfl
          have e2 : leftCount (k + 1) j = leftCount k j := by
            unfold leftCount
            split_ifs <;> first | omega | rfl
          rw [e1, e2]
          exact f2

/-- the range of the colours that are searched for -/
def FPixel.Wanted (t : FPixel F) : Prop := ∀ i, fin (t.ch i) ∧ -1001 / 10000 ≤ val (t.ch i) ∧ val (t.ch i) ≤ 11001 / 10000

/-- what one step does if the error it receives is limited -/
theorem StepDone.near {ctx : DitherCtx F} {row bg : List (FPixel F)} {dmap : List UInt8} {even : Bool} {col : ℕ}
    {st st' : DitherState F} {target shown : FPixel F} {byte : UInt8} (h : StepDone ctx row bg dmap even col st st' target shown byte)
    {limit : Option ℝ} (hl : ∀ l, limit = some l → fin ctx.maxErr ∧ val ctx.maxErr = l)
    (hlev : fin (ditherLevelAt ctx dmap col) ∧ |val (ditherLevelAt ctx dmap col)| ≤ 1)
    (hrow : ∀ p ∈ row, p.Unit) (hbg : ∀ p ∈ bg, p.Unit) (hpal : ∀ e ∈ ctx.n.palette, e.color.Unit)
    (hcell : (st.thiserr.getD (col + 1) FPixel.default).Limited (6 / 5)) :
    ∃ px, row[col]? = some px ∧
      (∃ s : Fin 4 → ℝ, (∀ i, |s i - val (ditherLevelAt ctx dmap col) * val ((st.thiserr.getD (col + 1) FPixel.default).ch i)| ≤ 2 / 10 ^ 7) ∧
        Spec.PushedUpTo dev limit px.vals.chans s target.vals.chans) ∧ target.Wanted ∧
      (∃ large, Spec.LargeUpTo dev limit (Spec.normSq fun i => target.vals.chans i - shown.vals.chans i) large ∧
        ∀ i, |val ((pixelError ctx.maxErr target shown).ch i) -
          (if large then 3/4 * (target.vals.chans i - shown.vals.chans i) else target.vals.chans i - shown.vals.chans i)| ≤ dev) ∧
      (pixelError ctx.maxErr target shown).Limited (111 / 100) := by
  obtain ⟨px, e1, e2⟩ := h.searched
  obtain ⟨h1, h2⟩ := ditheredPixel_upTo (maxErr := ctx.maxErr) hl hlev hcell (hrow px (List.mem_of_getElem? e1))
  rw [← e2] at h1 h2
  have hs : shown.Unit := by
    rcases h.isShown with ⟨e, he, rfl⟩ | ⟨-, hb⟩
    · exact hpal e (List.mem_of_getElem? he)
    · exact hbg _ (List.mem_of_getElem? hb)
  obtain ⟨h3, h4⟩ := pixelError_upTo hl h2 hs
  exact ⟨px, e1, h1, h2, h3, h4⟩

/-- the cell of a pixel when it is its turn -/
theorem RowNear.limited {w : ℕ} {even : Bool} {this0 : List (FPixel F)} {E : ℕ → FPixel F} {k : ℕ} {a b : List (FPixel F)}
    (h : RowNear w even this0 E k a b) (hE : ∀ x < k, (E x).Limited (111 / 100)) (h0 : ∀ c ∈ this0, c.Limited (64 / 100))
    (hlen : this0.length = w + 2) :
    (∀ j ≤ w + 1, (cellAt w even a j).Limited (6 / 5)) ∧ ∀ j ≤ w + 1, (cellAt w even b j).Limited (64 / 100) := by
  have t : tick = 25 / 10 ^ 8 := rfl
  refine ⟨fun j hj i => ⟨(h.this j hj i).1, ?_⟩, fun j hj i => ⟨(h.next j hj i).1, ?_⟩⟩
  · have h1 := abs_le_of_near (h.this j hj i).2
    have h2 := leftBeside_le (E := fun x => val ((E x).ch i)) (k := k) (B := 111/100) (by norm_num) (fun x hx => (hE x hx i).2) j
    have h3 := (h0 _ (cellAt_mem even hlen hj) i).2
    have h4 := abs_add_le (val ((cellAt w even this0 j).ch i)) (leftBeside (fun x => val ((E x).ch i)) k j)
    have h5 : (if 2 ≤ j ∧ j < k + 2 then tick else 0) ≤ tick := by
      split
      · exact le_refl _
      · rw [t]; norm_num
    have h6 := h5.trans_eq t
    linarith
  · have h1 := abs_le_of_near (h.next j hj i).2
    have h2 := leftBelow_le (E := fun x => val ((E x).ch i)) (k := k) (B := 111/100) (by norm_num) (fun x hx => (hE x hx i).2) j
    have h3 := mul_le_mul_of_nonneg_right (leftCount_le k j) (show 0 ≤ tick by rw [t]; norm_num)
    rw [t] at h3 h1
    linarith

/-- one row -/
theorem RowDone.near {ctx : DitherCtx F} {row bg : List (FPixel F)} {dmap : List UInt8} {d : Diffusion F} {even : Bool}
    {out : List (Option UInt8)} {r : DitherOut F (List (Option UInt8))} {S : ℕ → DitherState F}
    {target shown : ℕ → FPixel F} {byte : ℕ → UInt8} (h : RowDone ctx row bg dmap d even out r S target shown byte)
    (hd : Diffusion.Len ctx.width d) {limit : Option ℝ} (hl : ∀ l, limit = some l → fin ctx.maxErr ∧ val ctx.maxErr = l)
    (hlev : ∀ x, fin (ditherLevelAt ctx dmap x) ∧ |val (ditherLevelAt ctx dmap x)| ≤ 1)
    (hrow : ∀ p ∈ row, p.Unit) (hbg : ∀ p ∈ bg, p.Unit) (hpal : ∀ e ∈ ctx.n.palette, e.color.Unit)
    (h0 : ∀ c ∈ (if even then d.1 else d.2), c.Limited (64 / 100)) {k : ℕ} (hk : k ≤ ctx.width) :
    RowNear ctx.width even (S 0).thiserr (fun x => pixelError ctx.maxErr (target x) (shown x)) k (S k).thiserr (S k).nexterr ∧
    ∀ x < k, (pixelError ctx.maxErr (target x) (shown x)).Limited (111 / 100) := by
  have hlen : (S 0).thiserr.length = ctx.width + 2 := by
    rw [h.this0]
    cases even
    · exact hd.2
    · exact hd.1
  rw [← h.this0] at h0
  induction k with
  | zero =>
    rw [h.next0]
    exact ⟨RowNear.zero _ hlen fun j hj i => (h0 _ (cellAt_mem even hlen hj) i).1, fun x hx => absurd hx (by omega)⟩
  | succ k ih =>
    obtain ⟨h1, h2⟩ := ih (by omega)
    have hx : k < ctx.width := by omega
    have hst := h.step k hx
    have hc := ditherCol_lt even hx
    have hcell : ((S k).thiserr.getD (ditherCol ctx.width even k + 1) FPixel.default).Limited (6 / 5) := by
      rw [← cellAt_col even hc, ditherCol_ditherCol even hx]
      exact (h1.limited h2 h0 hlen).1 _ (by omega)
    obtain ⟨-, -, -, -, -, h3⟩ := hst.near hl (hlev _) hrow hbg hpal hcell
    have h4 : ∀ x < k + 1, (pixelError ctx.maxErr (target x) (shown x)).Limited (111 / 100) := by
      intro x hx'
      rcases Nat.lt_succ_iff_lt_or_eq.1 hx' with h' | rfl
      · exact h2 x h'
      · exact h3
    refine ⟨?_, h4⟩
    rw [hst.thiserr, hst.nexterr]
    exact h1.step hx (fun x hx' => h4 x (by omega)) fun j hj => h0 _ (cellAt_mem even hlen hj)

/-! ### An uninterrupted run of rows -/

/-- the real numbers of a colour -/
noncomputable def FPixel.toReal (c : FPixel F) : FPixel ℝ := ⟨val c.a, val c.r, val c.g, val c.b⟩

theorem toReal_chan (c : FPixel F) (i : Fin 4) : c.toReal.chan i = val (c.ch i) := by fin_cases i <;> rfl

theorem RowDone.len_any {ctx : DitherCtx F} {row bg : List (FPixel F)} {dmap : List UInt8} {d : Diffusion F} {even : Bool}
    {out : List (Option UInt8)} {r : DitherOut F (List (Option UInt8))} {S : ℕ → DitherState F}
    {target shown : ℕ → FPixel F} {byte : ℕ → UInt8} (h : RowDone ctx row bg dmap d even out r S target shown byte)
    {E : ℕ → FPixel F} (hn : RowNear ctx.width even (S 0).thiserr E ctx.width (S ctx.width).thiserr (S ctx.width).nexterr) :
    Diffusion.Len ctx.width r.diffusion := by
  rw [h.diffusion]
  cases even
  · exact ⟨hn.lenB, hn.lenA⟩
  · exact ⟨hn.lenA, hn.lenB⟩

/-- an uninterrupted run of rows, with rounding errors -/
theorem band_near {ctx : DitherCtx F} {row bg : ℕ → List (FPixel F)} {dmap : ℕ → List UInt8} {top bottom : ℕ}
    {D : ℕ → Diffusion F} {R : ℕ → DitherOut F (List (Option UInt8))} (h0 : D top = Diffusion.zero ctx.width)
    (hrun : ∀ y, top ≤ y → y < bottom → ∃ o,
      ditherRow ctx (row y) (bg y) (dmap y) (D y) (decide (y % 2 = 0)) o = .ok (R y) ∧ D (y + 1) = (R y).diffusion)
    {limit : Option ℝ} (hl : ∀ l, limit = some l → fin ctx.maxErr ∧ val ctx.maxErr = l)
    (hlev : ∀ y x, fin (ditherLevelAt ctx (dmap y) x) ∧ |val (ditherLevelAt ctx (dmap y) x)| ≤ 1)
    (hrow : ∀ y, top ≤ y → y < bottom → ∀ p ∈ row y, p.Unit) (hbg : ∀ y, top ≤ y → y < bottom → ∀ p ∈ bg y, p.Unit)
    (hpal : ∀ e ∈ ctx.n.palette, e.color.Unit) :
    ∃ (target shown : ℕ → ℕ → FPixel F) (byte : ℕ → ℕ → UInt8) (err : ℤ → ℤ → Fin 4 → ℝ),
      Spec.DitheredUpTo dev ctx.width top bottom (fun y x => val (ditherLevelAt ctx (dmap y) x)) limit
        (fun y x => ((row y).getD x FPixel.default).vals) (fun y x => (shown y x).vals) (fun y x => (target y x).vals) err ∧
      ∀ y x, top ≤ y → y < bottom → x < ctx.width →
        (R y).out[x]? = some (some (byte y x)) ∧ (target y x).Wanted ∧ (∀ i, |err y x i| ≤ 111 / 100) ∧
        ((∃ e, ctx.n.palette[(byte y x).toNat]? = some e ∧ shown y x = e.color) ∨
          (byte y x = ctx.ti ∧ (bg y)[x]? = some (shown y x))) ∧
        ((bg y)[x]? = none → ∃ hint, byte y x = UInt8.ofNat (ctx.n.search (target y x) hint).1) ∧
        ∀ b, (bg y)[x]? = some b → ∃ hint px, (row y)[x]? = some px ∧
          Chosen ctx b px (target y x) (ctx.n.search (target y x) hint) (byte y x) (shown y x) := by
  have hex : ∀ y, ∃ (o : List (Option UInt8)) (S : ℕ → DitherState F) (t s : ℕ → FPixel F) (b : ℕ → UInt8), top ≤ y → y < bottom →
      RowDone ctx (row y) (bg y) (dmap y) (D y) (decide (y % 2 = 0)) o (R y) S t s b := by
    intro y
    by_cases hy : top ≤ y ∧ y < bottom
    · obtain ⟨o, hr, -⟩ := hrun y hy.1 hy.2
      obtain ⟨S, t, s, b, h⟩ := ditherRow_done hr
      exact ⟨o, S, t, s, b, fun _ _ => h⟩
    · exact ⟨[], fun _ => ⟨[], [], 0, 0, [], false⟩, fun _ => FPixel.default, fun _ => FPixel.default, fun _ => 0,
        fun h1 h2 => absurd ⟨h1, h2⟩ hy⟩
  choose o S t s b hdone using hex
  let ev : ℕ → Bool := fun y => decide (y % 2 = 0)
  have hflip : ∀ y, ev (y + 1) = !ev y := by
    intro y
    simp only [ev]
    by_cases hp : y % 2 = 0
    · rw [decide_eq_true hp, decide_eq_false (by omega)]; rfl
    · rw [decide_eq_false hp, decide_eq_true (by omega)]; rfl
  have hlim : ∀ k, top + k ≤ bottom → Diffusion.Len ctx.width (D (top + k)) ∧
      ∀ c ∈ (if ev (top + k) then (D (top + k)).1 else (D (top + k)).2), c.Limited (64 / 100) := by
    intro k
    induction k with
    | zero =>
      intro _
      rw [Nat.add_zero, h0]
      refine ⟨Diffusion.zero_len _, fun c hc i => ?_⟩
      have : c = FPixel.default := by
        unfold Diffusion.zero at hc
        split at hc <;> exact List.eq_of_mem_replicate hc
      rw [this, (fin_default i).2]
      exact ⟨(fin_default i).1, by norm_num⟩
    | succ k ih =>
      intro hk
      obtain ⟨i1, i2⟩ := ih (by omega)
      obtain ⟨_, -, e⟩ := hrun (top + k) (by omega) (by omega)
      have hd := hdone (top + k) (by omega) (by omega)
      obtain ⟨n1, n2⟩ := hd.near i1 hl (hlev _) (hrow _ (by omega) (by omega)) (hbg _ (by omega) (by omega)) hpal i2 (le_refl _)
      rw [← Nat.add_assoc, e]
      refine ⟨hd.len_any n1, fun c hc => ?_⟩
      have hc' : c ∈ (S (top + k) ctx.width).nexterr := by
        rw [hflip, hd.diffusion] at hc
        simp only [ev] at hc
        by_cases hp : (top + k) % 2 = 0 <;> simpa [hp] using hc
      obtain ⟨j, hj, rfl⟩ := mem_cellAt (w := ctx.width) (ev (top + k)) n1.lenB hc'
      have hthis := hd.this0
      refine (n1.limited n2 ?_ ?_).2 j hj
      · rw [hthis]; exact i2
      · rw [hthis]
        split
        · exact i1.1
        · exact i1.2
  have hlim' : ∀ y, top ≤ y → y < bottom → Diffusion.Len ctx.width (D y) ∧
      ∀ c ∈ (if ev y then (D y).1 else (D y).2), c.Limited (64 / 100) := by
    intro y h1 h2
    have := hlim (y - top) (by omega)
    rwa [show top + (y - top) = y by omega] at this
  have hnear : ∀ y, top ≤ y → y < bottom → ∀ k ≤ ctx.width,
      RowNear ctx.width (ev y) (S y 0).thiserr (fun x => pixelError ctx.maxErr (t y x) (s y x)) k (S y k).thiserr (S y k).nexterr ∧
      ∀ x < k, (pixelError ctx.maxErr (t y x) (s y x)).Limited (111 / 100) := fun y h1 h2 k hk =>
    (hdone y h1 h2).near (hlim' y h1 h2).1 hl (hlev y) (hrow y h1 h2) (hbg y h1 h2) hpal (hlim' y h1 h2).2 hk
  generalize hw : ctx.width = w at *
  let E : ℕ → ℕ → FPixel ℝ := fun y x => (pixelError ctx.maxErr (t y x) (s y x)).toReal
  have hE : ∀ y x i, (E y x).chan i = val ((pixelError ctx.maxErr (t y x) (s y x)).ch i) := fun y x i => toReal_chan _ i
  -- the errors of a row, by column
  have hrowE : ∀ y, top ≤ y → y < bottom → ∀ (c : ℤ) (i : Fin 4), bandError w top bottom E y c i =
      if 0 ≤ c ∧ c < (w : ℤ) then val ((pixelError ctx.maxErr (t y (ditherCol w (ev y) c.toNat)) (s y (ditherCol w (ev y) c.toNat))).ch i) else 0 := by
    intro y h1 h2 c i
    by_cases hc : 0 ≤ c ∧ c < (w : ℤ)
    · rw [if_pos hc]
      obtain ⟨n, rfl⟩ := Int.eq_ofNat_of_zero_le hc.1
      rw [bandError_nat E h1 h2 (by omega)]
      exact hE _ _ _
    · rw [if_neg hc, bandError_out E (by omega)]; rfl
  have t0 : tick = 25 / 10 ^ 8 := rfl
  -- what a row leaves to the next
  have hbelow : ∀ y, top ≤ y → y < bottom → ∀ c < w, ∀ i,
      |val ((((if ev (y + 1) then (D (y + 1)).1 else (D (y + 1)).2)).getD (c + 1) FPixel.default).ch i) -
      (3/16 * bandError w top bottom E y (c + (if ev y then 1 else -1)) i + 5/16 * bandError w top bottom E y c i +
        1/16 * bandError w top bottom E y (c - (if ev y then 1 else -1)) i)| ≤ 3 * tick := by
    intro y h1 h2 c hc i
    obtain ⟨_, -, e⟩ := hrun y h1 h2
    have hx := ditherCol_lt (ev y) hc
    have hb := ((hnear y h1 h2 w (le_refl _)).1.next (ditherCol w (ev y) c + 1) (by omega) i).2
    have hcol := leftBelow_col (even := ev y) (fun x => val ((pixelError ctx.maxErr (t y x) (s y x)).ch i)) hc
    dsimp only at hcol
    rw [hcol, cellAt_col (ev y) hc, ← hrowE y h1 h2, ← hrowE y h1 h2, ← hrowE y h1 h2] at hb
    have hcount := mul_le_mul_of_nonneg_right (leftCount_le w (ditherCol w (ev y) c + 1)) (show 0 ≤ tick by rw [t0]; norm_num)
    have hnext : (if ev (y + 1) then (D (y + 1)).1 else (D (y + 1)).2) = (S y w).nexterr := by
      rw [e, (hdone y h1 h2).diffusion, hw, hflip]
      show (if (!ev y) = true then (if ev y = true then _ else _ : Diffusion F).1 else (if ev y = true then _ else _ : Diffusion F).2) = _
      cases ev y <;> rfl
    rw [hnext]
    exact hb.trans hcount
  -- what a pixel receives
  have hrec : ∀ y, top ≤ y → y < bottom → ∀ c < w, ∀ i,
      |val (((S y (ditherCol w (ev y) c)).thiserr.getD (c + 1) FPixel.default).ch i) -
      Spec.received (bandError w top bottom E) y c i| ≤ 1 / 10 ^ 6 := by
    intro y h1 h2 c hc i
    have hx := ditherCol_lt (ev y) hc
    have ht := ((hnear y h1 h2 _ hx.le).1.this (ditherCol w (ev y) c + 1) (by omega) i).2
    have hcol := leftBeside_col (even := ev y) (fun x => val ((pixelError ctx.maxErr (t y x) (s y x)).ch i)) hc
    dsimp only at hcol
    rw [hcol, cellAt_col (ev y) hc, cellAt_col (ev y) hc, ← hrowE y h1 h2] at ht
    have ht' : (if 2 ≤ ditherCol w (ev y) c + 1 ∧ ditherCol w (ev y) c + 1 < ditherCol w (ev y) c + 2 then tick else 0) ≤ tick := by
      split
      · exact le_refl _
      · rw [t0]; norm_num
    have hd : (if ev y = true then (1 : ℤ) else -1) = Spec.direction y := by
      unfold Spec.direction
      by_cases hp : y % 2 = 0
      · rw [if_pos (by simp [ev, hp]), if_pos (by omega)]
      · rw [if_neg (by simp [ev, hp]), if_neg (by omega)]
    rw [hd] at ht
    have hthis : (S y 0).thiserr = if ev y then (D y).1 else (D y).2 := (hdone y h1 h2).this0
    rw [hthis] at ht
    obtain ⟨ht1, ht2⟩ := abs_le.1 (ht.trans ht')
    unfold Spec.received
    by_cases hy : y = top
    · have hz0 : ∀ c : ℤ, bandError w top bottom E ((y : ℤ) - 1) c i = 0 := fun c => by rw [bandError_out E (by omega)]; rfl
      have hz : val (((if ev y then (D y).1 else (D y).2).getD (c + 1) FPixel.default).ch i) = 0 := by
        have : (if ev y then (D y).1 else (D y).2) = List.replicate (w + 2) FPixel.default := by
          rw [hy, h0]
          unfold Diffusion.zero; split <;> rfl
        rw [this, List.getD_eq_getElem?_getD, List.getElem?_replicate]
        split <;> exact (fin_default i).2
      rw [hz] at ht1 ht2
      simp only [hz0]
      rw [t0] at ht1 ht2
      exact abs_le.2 ⟨by linarith, by linarith⟩
    · have hb := hbelow (y - 1) (by omega) (by omega) c hc i
      rw [show y - 1 + 1 = y by omega] at hb
      have hd' : (if ev (y - 1) = true then (1 : ℤ) else -1) = - Spec.direction y := by
        unfold Spec.direction
        by_cases hp : y % 2 = 0
        · rw [if_neg (by simp [ev]; omega), if_pos (by omega)]
        · rw [if_pos (by simp [ev]; omega), if_neg (by omega)]; rfl
      rw [hd', show ((y - 1 : ℕ) : ℤ) = (y : ℤ) - 1 by omega, sub_neg_eq_add, ← sub_eq_add_neg] at hb
      obtain ⟨hb1, hb2⟩ := abs_le.1 hb
      rw [t0] at ht1 ht2 hb1 hb2
      exact abs_le.2 ⟨by linarith, by linarith⟩
  -- one pixel
  have hpix : ∀ y x, top ≤ y → y < bottom → x < w →
      ∃ px, (row y)[x]? = some px ∧
      (∃ σ : Fin 4 → ℝ, (∀ i, |σ i - val (ditherLevelAt ctx (dmap y) x) *
          val (((S y (ditherCol w (ev y) x)).thiserr.getD (x + 1) FPixel.default).ch i)| ≤ 2 / 10 ^ 7) ∧
        Spec.PushedUpTo dev limit px.vals.chans σ (t y (ditherCol w (ev y) x)).vals.chans) ∧ (t y (ditherCol w (ev y) x)).Wanted ∧
      (∃ large, Spec.LargeUpTo dev limit (Spec.normSq fun i => (t y (ditherCol w (ev y) x)).vals.chans i - (s y (ditherCol w (ev y) x)).vals.chans i) large ∧
        ∀ i, |val ((pixelError ctx.maxErr (t y (ditherCol w (ev y) x)) (s y (ditherCol w (ev y) x))).ch i) -
          (if large then 3/4 * ((t y (ditherCol w (ev y) x)).vals.chans i - (s y (ditherCol w (ev y) x)).vals.chans i)
            else (t y (ditherCol w (ev y) x)).vals.chans i - (s y (ditherCol w (ev y) x)).vals.chans i)| ≤ dev) ∧
      (pixelError ctx.maxErr (t y (ditherCol w (ev y) x)) (s y (ditherCol w (ev y) x))).Limited (111 / 100) := by
    intro y x h1 h2 hx
    have hx' := ditherCol_lt (ev y) hx
    have hst := (hdone y h1 h2).step (ditherCol w (ev y) x) (by rw [hw]; exact hx')
    rw [hw, show (decide (y % 2 = 0)) = ev y from rfl, ditherCol_ditherCol _ hx] at hst
    refine hst.near hl (hlev y x) (hrow y h1 h2) (hbg y h1 h2) hpal ?_
    obtain ⟨n1, n2⟩ := hnear y h1 h2 _ hx'.le
    have hthis : (S y 0).thiserr = if ev y then (D y).1 else (D y).2 := (hdone y h1 h2).this0
    rw [← cellAt_col (ev y) hx]
    refine (n1.limited n2 ?_ ?_).1 _ (by omega)
    · rw [hthis]; exact (hlim' y h1 h2).2
    · rw [hthis]
      split
      · exact (hlim' y h1 h2).1.1
      · exact (hlim' y h1 h2).1.2
  refine ⟨fun y x => t y (ditherCol w (ev y) x), fun y x => s y (ditherCol w (ev y) x), fun y x => b y (ditherCol w (ev y) x),
    bandError w top bottom E, ⟨?_, ?_, ?_⟩, ?_⟩
  · intro y x h
    exact bandError_out E (by omega)
  · intro y x h1 h2 hx
    obtain ⟨px, e1, ⟨σ, q1, q2⟩, -⟩ := hpix y x h1 h2 hx
    have hpx : (row y).getD x FPixel.default = px := by rw [List.getD_eq_getElem?_getD, e1]; rfl
    refine ⟨σ, fun i => ?_, ?_⟩
    · have r1 := hrec y h1 h2 x hx i
      have r2 := (hlev y x).2
      have q := q1 i
      generalize val (((S y (ditherCol w (ev y) x)).thiserr.getD (x + 1) FPixel.default).ch i) = cell at *
      have r3 : |val (ditherLevelAt ctx (dmap y) x) * (cell - Spec.received (bandError w top bottom E) y x i)| ≤ 1 * (1 / 10 ^ 6) := by
        rw [abs_mul]
        exact mul_le_mul r2 r1 (abs_nonneg _) (by norm_num)
      obtain ⟨r4, r5⟩ := abs_le.1 r3
      obtain ⟨q3, q4⟩ := abs_le.1 q
      rw [mul_sub] at r4 r5
      unfold dev
      exact abs_le.2 ⟨by linarith, by linarith⟩
    · simp only [hpx]
      exact q2
  · intro y x h1 h2 hx
    obtain ⟨px, e1, -, -, ⟨large, q1, q2⟩, -⟩ := hpix y x h1 h2 hx
    refine ⟨large, q1, fun i => ?_⟩
    rw [bandError_nat E h1 h2 hx, hE]
    exact q2 i
  · intro y x h1 h2 hx
    have hx' := ditherCol_lt (ev y) hx
    have hst := (hdone y h1 h2).step (ditherCol w (ev y) x) (by rw [hw]; exact hx')
    have hbo := (hdone y h1 h2).byte_out (x := ditherCol w (ev y) x) (by rw [hw]; exact hx')
    rw [hw, show (decide (y % 2 = 0)) = ev y from rfl, ditherCol_ditherCol _ hx] at hbo hst
    obtain ⟨px, e1, -, q1, -, q2⟩ := hpix y x h1 h2 hx
    refine ⟨hbo, q1, fun i => ?_, hst.isShown, fun h => ⟨_, hst.search h⟩, fun b hb => ⟨_, hst.choice b hb⟩⟩
    rw [bandError_nat E h1 h2 hx, hE]
    exact (q2 i).2

end Verif
