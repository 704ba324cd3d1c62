import Verif.Model.Pal
import Verif.Spec.Color

/-! The colour difference over ℝ: it equals the specification and its root is a metric. -/

namespace Verif
open Flt

/-- View of a model colour as a specification colour. -/
def FPixel.spec (x : FPixel ℝ) : Spec.Color := ⟨x.a, x.r, x.g, x.b⟩

namespace Spec

theorem chanDiff_nonneg (c a : ℝ) : 0 ≤ chanDiff c a := le_max_of_le_left (sq_nonneg _)

theorem diff_nonneg (x y : Color) : 0 ≤ diff x y :=
  add_nonneg (add_nonneg (chanDiff_nonneg _ _) (chanDiff_nonneg _ _)) (chanDiff_nonneg _ _)

theorem chanDiff_neg (c a : ℝ) : chanDiff (-c) (-a) = chanDiff c a := by
  unfold chanDiff; congr 1 <;> ring

theorem diff_comm (x y : Color) : diff x y = diff y x := by
  unfold diff
  rw [← chanDiff_neg (x.r - y.r), ← chanDiff_neg (x.g - y.g), ← chanDiff_neg (x.b - y.b)]
  simp only [neg_sub]

theorem diff_self (x : Color) : diff x x = 0 := by simp [diff, chanDiff]

theorem chanDiff_eq_zero {c a : ℝ} (h : chanDiff c a = 0) : c = 0 ∧ a = 0 := by
  unfold chanDiff at h
  have h1 : c ^ 2 ≤ 0 := h ▸ le_max_left _ _
  have h2 : (c - a) ^ 2 ≤ 0 := h ▸ le_max_right _ _
  have hc : c = 0 := by nlinarith [sq_nonneg c]
  subst hc
  constructor
  · rfl
  · nlinarith [sq_nonneg a]

theorem diff_eq_zero {x y : Color} (h : diff x y = 0) : x = y := by
  unfold diff at h
  have hr := chanDiff_nonneg (x.r - y.r) (x.a - y.a)
  have hg := chanDiff_nonneg (x.g - y.g) (x.a - y.a)
  have hb := chanDiff_nonneg (x.b - y.b) (x.a - y.a)
  obtain ⟨r0, a0⟩ := chanDiff_eq_zero (c := x.r - y.r) (a := x.a - y.a) (by linarith)
  obtain ⟨g0, -⟩ := chanDiff_eq_zero (c := x.g - y.g) (a := x.a - y.a) (by linarith)
  obtain ⟨b0, -⟩ := chanDiff_eq_zero (c := x.b - y.b) (a := x.a - y.a) (by linarith)
  cases x; cases y
  simp only [Color.mk.injEq]
  simp only at *
  refine ⟨?_, ?_, ?_, ?_⟩ <;> linarith

/-- per-channel seminorm -/
noncomputable def chanNorm (c a : ℝ) : ℝ := max |c| |c - a|

theorem chanNorm_nonneg (c a : ℝ) : 0 ≤ chanNorm c a := le_max_of_le_left (abs_nonneg _)

theorem chanNorm_sq (c a : ℝ) : chanNorm c a ^ 2 = chanDiff c a := by
  unfold chanNorm chanDiff
  rcases le_total |c| |c - a| with h | h
  · rw [max_eq_right h, max_eq_right (by nlinarith [sq_abs c, sq_abs (c - a), abs_nonneg c, abs_nonneg (c-a)]),
      sq_abs]
  · rw [max_eq_left h, max_eq_left (by nlinarith [sq_abs c, sq_abs (c - a), abs_nonneg c, abs_nonneg (c-a)]),
      sq_abs]

theorem chanNorm_add (c a c' a' : ℝ) : chanNorm (c + c') (a + a') ≤ chanNorm c a + chanNorm c' a' := by
  unfold chanNorm
  refine max_le ?_ ?_
  · exact (abs_add_le _ _).trans (add_le_add (le_max_left _ _) (le_max_left _ _))
  · have : c + c' - (a + a') = (c - a) + (c' - a') := by ring
    rw [this]
    exact (abs_add_le _ _).trans (add_le_add (le_max_right _ _) (le_max_right _ _))

theorem minkowski3 {p1 p2 p3 q1 q2 q3 : ℝ} :
    Real.sqrt ((p1 + q1) ^ 2 + (p2 + q2) ^ 2 + (p3 + q3) ^ 2) ≤
      Real.sqrt (p1 ^ 2 + p2 ^ 2 + p3 ^ 2) + Real.sqrt (q1 ^ 2 + q2 ^ 2 + q3 ^ 2) := by
  set P := p1 ^ 2 + p2 ^ 2 + p3 ^ 2 with hP
  set Q := q1 ^ 2 + q2 ^ 2 + q3 ^ 2 with hQ
  have hP0 : 0 ≤ P := by positivity
  have hQ0 : 0 ≤ Q := by positivity
  apply Real.sqrt_le_iff.2
  refine ⟨by positivity, ?_⟩
  have hcs : p1 * q1 + p2 * q2 + p3 * q3 ≤ Real.sqrt P * Real.sqrt Q := by
    rw [← Real.sqrt_mul hP0]
    apply Real.le_sqrt_of_sq_le
    rw [hP, hQ]
    nlinarith [sq_nonneg (p1 * q2 - p2 * q1), sq_nonneg (p1 * q3 - p3 * q1), sq_nonneg (p2 * q3 - p3 * q2)]
  have e1 := Real.sq_sqrt hP0
  have e2 := Real.sq_sqrt hQ0
  nlinarith

theorem dist_triangle (x y z : Color) : dist x z ≤ dist x y + dist y z := by
  unfold dist diff
  simp only [← chanNorm_sq]
  have hr := chanNorm_add (x.r - y.r) (x.a - y.a) (y.r - z.r) (y.a - z.a)
  have hg := chanNorm_add (x.g - y.g) (x.a - y.a) (y.g - z.g) (y.a - z.a)
  have hb := chanNorm_add (x.b - y.b) (x.a - y.a) (y.b - z.b) (y.a - z.a)
  simp only [sub_add_sub_cancel] at hr hg hb
  refine le_trans (Real.sqrt_le_sqrt ?_) minkowski3
  have n1 := chanNorm_nonneg (x.r - z.r) (x.a - z.a)
  have n2 := chanNorm_nonneg (x.g - z.g) (x.a - z.a)
  have n3 := chanNorm_nonneg (x.b - z.b) (x.a - z.a)
  gcongr

theorem dist_nonneg (x y : Color) : 0 ≤ dist x y := Real.sqrt_nonneg _
theorem dist_comm (x y : Color) : dist x y = dist y x := by unfold dist; rw [diff_comm]
theorem dist_sq (x y : Color) : dist x y ^ 2 = diff x y := Real.sq_sqrt (diff_nonneg _ _)
theorem dist_le_iff {x y z w : Color} : dist x y ≤ dist z w ↔ diff x y ≤ diff z w :=
  Real.sqrt_le_sqrt_iff (diff_nonneg _ _)

theorem visible_le_chan (Δc Δa t : ℝ) (h0 : 0 ≤ t) (h1 : t ≤ 1) :
    (Δc - t * Δa) ^ 2 ≤ chanDiff Δc Δa := by
  rw [← chanNorm_sq, ← sq_abs]
  have hn := chanNorm_nonneg Δc Δa
  refine pow_le_pow_left₀ (abs_nonneg _) ?_ 2
  have : Δc - t * Δa = (1 - t) * Δc + t * (Δc - Δa) := by ring
  rw [this]
  calc |(1 - t) * Δc + t * (Δc - Δa)| ≤ |(1 - t) * Δc| + |t * (Δc - Δa)| := abs_add_le _ _
    _ = (1 - t) * |Δc| + t * |Δc - Δa| := by
        rw [abs_mul, abs_mul, abs_of_nonneg h0, abs_of_nonneg (by linarith : 0 ≤ 1 - t)]
    _ ≤ (1 - t) * chanNorm Δc Δa + t * chanNorm Δc Δa := by
        have h3 : |Δc| ≤ chanNorm Δc Δa := le_max_left _ _
        have h4 : |Δc - Δa| ≤ chanNorm Δc Δa := le_max_right _ _
        have h5 : 0 ≤ 1 - t := by linarith
        gcongr
    _ = chanNorm Δc Δa := by ring

theorem visible_le_diff (x y : Color) {tr tg tb : ℝ} (hr : tr ∈ Set.Icc (0:ℝ) 1)
    (hg : tg ∈ Set.Icc (0:ℝ) 1) (hb : tb ∈ Set.Icc (0:ℝ) 1) :
    visibleDiff x y tr tg tb ≤ diff x y := by
  unfold visibleDiff diff
  have e : ∀ c a c' a' t : ℝ, over c a t - over c' a' t = (c - c') - t * (a - a') := by
    intros; unfold over; ring
  rw [e, e, e]
  have := visible_le_chan (x.r - y.r) (x.a - y.a) tr hr.1 hr.2
  have := visible_le_chan (x.g - y.g) (x.a - y.a) tg hg.1 hg.2
  have := visible_le_chan (x.b - y.b) (x.a - y.a) tb hb.1 hb.2
  linarith

end Spec

theorem FPixel.diff_spec (x y : FPixel ℝ) : x.diff y = Spec.diff x.spec y.spec := by
  simp only [FPixel.diff, FPixel.sub, Spec.diff, Spec.chanDiff, FPixel.spec, real_add32, real_sub32,
    real_mul32, real_max]
  congr 1
  · congr 1
    · congr 1 <;> ring
    · congr 1 <;> ring
  · congr 1 <;> ring

theorem FPixel.spec_injective : Function.Injective FPixel.spec := by
  intro x y h; cases x; cases y; simpa [FPixel.spec] using h

theorem FPixel.diff_nonneg (x y : FPixel ℝ) : 0 ≤ x.diff y := by
  rw [diff_spec]; exact Spec.diff_nonneg _ _

theorem FPixel.diff_comm (x y : FPixel ℝ) : x.diff y = y.diff x := by
  rw [diff_spec, diff_spec, Spec.diff_comm]

theorem FPixel.diff_self (x : FPixel ℝ) : x.diff x = 0 := by rw [diff_spec, Spec.diff_self]

theorem FPixel.eq_of_diff_eq_zero {x y : FPixel ℝ} (h : x.diff y = 0) : x = y :=
  FPixel.spec_injective (Spec.diff_eq_zero (by rw [← diff_spec]; exact h))

theorem FPixel.sqrt_diff_triangle (x y z : FPixel ℝ) :
    Real.sqrt (x.diff z) ≤ Real.sqrt (x.diff y) + Real.sqrt (y.diff z) := by
  simp only [diff_spec]; exact Spec.dist_triangle _ _ _

end Verif
