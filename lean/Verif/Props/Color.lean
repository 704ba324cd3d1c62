import Verif.Lemmas.NearestSearch
import Mathlib.Tactic.Linarith
import Mathlib.Tactic.NormNum
import Mathlib.Tactic.Positivity

/-! # Properties C05 (colour difference) and C47 (search tree) -/

namespace Verif
open Flt Spec

/-! ## C05 -/

/-- internal form of a displayed colour (weights of `pal.rs:13-16`) -/
noncomputable def FPixel.ofDisplay (d : Display) : FPixel ℝ :=
  ⟨0.625 * d.α, 0.5 * d.r, 1 * d.g, 0.45 * d.b⟩

/-- an 8-bit colour with its table of gamma-corrected levels, as displayed -/
noncomputable def displayOf (lut : UInt8 → ℝ) (px : RGBA) : Display :=
  let α : ℝ := px.a.toNat / 255
  ⟨α, lut px.r * α, lut px.g * α, lut px.b * α⟩

/-- the library's conversion is the weighted internal form of the displayed colour -/
theorem fromRgba_eq_ofDisplay (lut : UInt8 → ℝ) (px : RGBA) :
    FPixel.fromRgba lut px = FPixel.ofDisplay (displayOf lut px) := by
  ext <;> simp only [FPixel.fromRgba, FPixel.ofDisplay, displayOf, weightA, weightR, weightG, weightB,
    real_lit32, real_mul32, real_div32] <;> push_cast <;> norm_num <;> ring

/-- **C05** (exact). The square root of the colour difference is a metric: symmetric, zero exactly for equal
colours, triangle inequality. -/
theorem C05_metric (x y z : FPixel ℝ) :
    x.diff y = y.diff x ∧ 0 ≤ x.diff y ∧ (x.diff y = 0 ↔ x = y) ∧
    Real.sqrt (x.diff z) ≤ Real.sqrt (x.diff y) + Real.sqrt (y.diff z) :=
  ⟨FPixel.diff_comm x y, FPixel.diff_nonneg x y,
   ⟨FPixel.eq_of_diff_eq_zero, fun h => h ▸ FPixel.diff_self x⟩, FPixel.sqrt_diff_triangle x y z⟩

theorem ofDisplay_diff (x y : Display) : (FPixel.ofDisplay x).diff (FPixel.ofDisplay y) =
    chanDiff (0.5 * (x.r - y.r)) (0.625 * (x.α - y.α)) + chanDiff (1 * (x.g - y.g)) (0.625 * (x.α - y.α)) +
    chanDiff (0.45 * (x.b - y.b)) (0.625 * (x.α - y.α)) := by
  rw [FPixel.diff_spec]
  simp only [Spec.diff, FPixel.spec, FPixel.ofDisplay]
  congr 1
  · congr 1
    · congr 1 <;> ring
    · congr 1 <;> ring
  · congr 1 <;> ring

theorem seen_chan {w s : ℝ} (c a t : ℝ) (h0 : 0 ≤ t) (h1 : w * t ≤ 0.625 * s) (hw : 0 ≤ w) (hs : s = 1) :
    (w * (c - t * a)) ^ 2 ≤ chanDiff (w * c) (0.625 * a) := by
  subst hs
  have := Spec.visible_le_chan (w * c) (0.625 * a) (w * t / 0.625) (by positivity) (by
    rw [div_le_one (by norm_num)]; linarith)
  refine le_trans (le_of_eq ?_) this
  ring

theorem seen_chan_wide (c a t : ℝ) (h0 : 0 ≤ t) (h1 : t ≤ 1) :
    (1 * (c - t * a)) ^ 2 ≤ 4.84 * chanDiff (1 * c) (0.625 * a) := by
  have hn := Spec.chanNorm_sq (1 * c) (0.625 * a)
  have h3 : |1 * c| ≤ chanNorm (1 * c) (0.625 * a) := le_max_left _ _
  have h4 : |1 * c - 0.625 * a| ≤ chanNorm (1 * c) (0.625 * a) := le_max_right _ _
  have e : 1 * (c - t * a) = (1 - t / 0.625) * (1 * c) + t / 0.625 * (1 * c - 0.625 * a) := by
    field_simp; ring
  have hb : |1 * (c - t * a)| ≤ 2.2 * chanNorm (1 * c) (0.625 * a) := by
    rw [e]
    refine le_trans (abs_add_le _ _) ?_
    rw [abs_mul (1 - t / 0.625), abs_mul (t / 0.625)]
    have ht : |t / 0.625| = t / 0.625 := abs_of_nonneg (by positivity)
    have hN := Spec.chanNorm_nonneg (1 * c) (0.625 * a)
    have hsum : |1 - t / 0.625| + |t / 0.625| ≤ 2.2 := by
      rw [ht]
      have : t / 0.625 ≤ 1.6 := by rw [div_le_iff₀ (by norm_num)]; linarith
      rcases abs_cases (1 - t / 0.625) with ⟨h, -⟩ | ⟨h, -⟩ <;> rw [h] <;> linarith
    calc |1 - t / 0.625| * |1 * c| + |t / 0.625| * |1 * c - 0.625 * a|
        ≤ |1 - t / 0.625| * chanNorm (1 * c) (0.625 * a) + |t / 0.625| * chanNorm (1 * c) (0.625 * a) := by gcongr
      _ = (|1 - t / 0.625| + |t / 0.625|) * chanNorm (1 * c) (0.625 * a) := by ring
      _ ≤ 2.2 * chanNorm (1 * c) (0.625 * a) := by gcongr
  rw [← hn]
  have h5 := sq_le_sq' (by linarith [neg_abs_le (1 * (c - t * a)), abs_nonneg (1 * (c - t * a))])
    (le_trans (le_abs_self _) hb)
  refine le_trans h5 (le_of_eq ?_)
  ring

theorem over_sub (c a c' a' t : ℝ) : over c a t - over c' a' t = (c - c') - t * (a - a') := by
  unfold over; ring

/-- **C05** (exact, partial). For every background whose green level is at most 0.625 (red and blue arbitrary),
the difference bounds what is seen; over every background it does so up to a factor 4.84. The full claim —
factor 1 for every background — is false, see `C05_visible_bound_fails`: alpha has the weight 0.625 but green
the weight 1. -/
theorem C05_visible_bound_partial (x y : Display) {tr tg tb : ℝ} (hr : tr ∈ Set.Icc (0:ℝ) 1)
    (hg : tg ∈ Set.Icc (0:ℝ) 1) (hb : tb ∈ Set.Icc (0:ℝ) 1) :
    (tg ≤ 0.625 → seenDiff x y tr tg tb ≤ (FPixel.ofDisplay x).diff (FPixel.ofDisplay y)) ∧
    seenDiff x y tr tg tb ≤ 4.84 * (FPixel.ofDisplay x).diff (FPixel.ofDisplay y) := by
  rw [ofDisplay_diff]
  unfold seenDiff
  rw [over_sub, over_sub, over_sub]
  have h1 := seen_chan (w := 0.5) (x.r - y.r) (x.α - y.α) tr hr.1 (by linarith [hr.2]) (by norm_num) rfl
  have h3 := seen_chan (w := 0.45) (x.b - y.b) (x.α - y.α) tb hb.1 (by linarith [hb.2]) (by norm_num) rfl
  constructor
  · intro h
    have h2 := seen_chan (w := 1) (x.g - y.g) (x.α - y.α) tg hg.1 (by linarith) (by norm_num) rfl
    linarith
  · have h2 := seen_chan_wide (x.g - y.g) (x.α - y.α) tg hg.1 hg.2
    have := Spec.chanDiff_nonneg (0.5 * (x.r - y.r)) (0.625 * (x.α - y.α))
    have := Spec.chanDiff_nonneg (0.45 * (x.b - y.b)) (0.625 * (x.α - y.α))
    linarith

/-- **C05 is violated for white backgrounds** (exact): opaque black and full transparency differ by 1.171875
according to the library, but by 1.4525 on white. -/
theorem C05_visible_bound_fails :
    (FPixel.ofDisplay ⟨1, 0, 0, 0⟩).diff (FPixel.ofDisplay ⟨0, 0, 0, 0⟩) <
      seenDiff ⟨1, 0, 0, 0⟩ ⟨0, 0, 0, 0⟩ 1 1 1 := by
  rw [ofDisplay_diff]; unfold seenDiff chanDiff over; norm_num

example : seenDiff ⟨1, 1, 0, 0⟩ ⟨0.5, 0.25, 0.5, 0⟩ 1 0.5 1 ≤
    (FPixel.ofDisplay ⟨1, 1, 0, 0⟩).diff (FPixel.ofDisplay ⟨0.5, 0.25, 0.5, 0⟩) :=
  (C05_visible_bound_partial _ _ (by norm_num) (by norm_num) (by norm_num)).1 (by norm_num)

/-! ## C47 -/

/-- **C47** (any-float). The search tree of every palette of 1 to 256 colours exists, contains every palette
index exactly once, each with its own colour. -/
theorem C47_tree_exhaustive {F : Type} [Flt F] (p : PalF F) (h0 : 0 < p.length) (h1 : p.length ≤ 256) :
    ∃ n, Nearest.new p = .ok n ∧ n.root.idxs.Perm (List.range p.length) ∧ n.root.Colored p := by
  obtain ⟨n, hn⟩ := Nearest.new_of_len h0 h1
  obtain ⟨-, -, -, hr, -⟩ := Nearest.new_ok hn
  refine ⟨n, hn, ?_, ?_⟩
  · rw [hr]
    refine vpCreate_idxs_perm p _ ?_ (by simp)
    rw [ne_eq, List.range_eq_nil]; omega
  · rw [hr]; exact vpCreate_colored p _ (by simp)

/-- **C47** (exact). A colour that is in the palette is always found, with difference 0, whatever the hint. -/
theorem C47_exact_hit {p : PalF ℝ} {n : Nearest ℝ} (hn : Nearest.new p = .ok n) (i : ℕ) (hi : i < p.length)
    (likely : ℕ) : ∃ h : (n.search p[i].color likely).1 < p.length,
      p[(n.search p[i].color likely).1].color = p[i].color ∧ (n.search p[i].color likely).2 = 0 := by
  obtain ⟨h, hc, hz⟩ := Nearest.search_exact hn p[i].color likely ⟨p[i], List.getElem_mem hi, rfl⟩
  refine ⟨h, ?_, hz⟩
  refine Eq.trans ?_ hc
  simp [palColor, List.getElem?_eq_getElem h]

/-- non-vacuity: a palette of two different colours -/
example : ∃ n, Nearest.new (F := ℝ) [⟨FPixel.default, ⟨1⟩⟩, ⟨⟨0.625, 0.5, 1, 0.45⟩, ⟨2⟩⟩] = .ok n :=
  Nearest.new_of_len (by simp) (by simp)

end Verif
