import Verif.Lemmas.RoundedSearch
import Verif.Lemmas.Shows
import Verif.Props.Rounded

/-! Colours converted from 8 bits, with rounding: how far they are from the exact ones and from each other. -/

set_option linter.unusedSectionVars false

namespace Verif
open Flt Spec

variable {F : Type} [Flt F]

section
variable [FltRound F]
open FltRound (val fin)

/-- level of a byte, with the exponent that is used -/
noncomputable def level (γ : F) (i : UInt8) : ℝ := ((i.toNat : ℝ) / 255) ^ val (to32 (internalGamma /₆ γ))

theorem level_zero {γ : F} (h : UsualGamma γ) : level γ 0 = 0 := by
  obtain ⟨⟨-, hB1, -⟩, -, -⟩ := exponents h
  unfold level
  rw [show (((0 : UInt8).toNat : ℝ) / 255) = 0 by norm_num, Real.zero_rpow (by linarith)]

theorem level_nonneg (γ : F) (i : UInt8) : 0 ≤ level γ i := Real.rpow_nonneg (by positivity) _

theorem level_le_one {γ : F} (h : UsualGamma γ) (i : UInt8) : level γ i ≤ 1 := by
  by_cases hi : i = 0
  · rw [hi, level_zero h]; norm_num
  · exact (lut_rounded h hi).2.2

/-- share of a byte in the full range -/
noncomputable def share (i : UInt8) : ℝ := (i.toNat : ℝ) / 255

theorem share_nonneg (i : UInt8) : 0 ≤ share i := by unfold share; positivity

theorem share_le_one (i : UInt8) : share i ≤ 1 := by
  unfold share
  have : (i.toNat : ℝ) ≤ 255 := by have := i.toNat_lt; exact_mod_cast (by omega : i.toNat ≤ 255)
  linarith

theorem share_ge {i : UInt8} (h : i ≠ 0) : 1 / 255 ≤ share i := by
  unfold share
  have : (1 : ℝ) ≤ i.toNat := by
    have : i.toNat ≠ 0 := fun h' => h (by rw [← UInt8.toNat_inj, h']; rfl)
    exact_mod_cast Nat.pos_of_ne_zero this
  linarith

theorem approx_share {i : UInt8} (h : i ≠ 0) : Approx (3 * w32) (lit32 i.toNat /₃ lit32 255 : F) (share i) := by
  have h1 : 1 ≤ i.toNat := by
    have : i.toNat ≠ 0 := fun h' => h (by rw [← UInt8.toNat_inj, h']; rfl)
    omega
  have hn := approx_nat (F := F) (n := i.toNat) h1 (by have := i.toNat_lt; omega)
  have h255 := approx_nat (F := F) (n := 255) (by norm_num) (by norm_num)
  push_cast at h255
  have s1 := share_ge h
  have s2 := share_le_one i
  exact (hn.div32 h255 (by norm_num) (mid_of (le_trans (by norm_num) s1) (s2.trans (by norm_num))) (by rw [w32_val]; norm_num)).mono
    (by rw [w32_val]; norm_num)

theorem isZero_share : IsZero (lit32 (0 : UInt8).toNat /₃ lit32 255 : F) := by
  have h255 := approx_nat (F := F) (n := 255) (by norm_num) (by norm_num)
  push_cast at h255
  have z0 : IsZero (lit32 ((0 : UInt8).toNat : ℚ) : F) := by
    have : (((0 : UInt8).toNat : ℕ) : ℚ) = 0 := by norm_num
    rw [this]; exact IsZero.lit32
  exact z0.div32 h255.fin (h255.rel.pos (by norm_num)).ne'

/-- finite, and within a relative error of an exact value -/
def Within (k : ℝ) (x : F) (r : ℝ) : Prop := fin x ∧ |val x - r| ≤ k * r

theorem Approx.within {k r : ℝ} {x : F} (h : Approx k x r) (hr : 0 ≤ r) (hk : k ≤ 1) : Within (2 * k) x r :=
  ⟨h.fin, h.rel.sub_le hr hk⟩

theorem IsZero.within {x : F} (h : IsZero x) (k : ℝ) : Within k x 0 := ⟨h.fin, by rw [h.zero]; simp⟩

theorem Within.mono {k l r : ℝ} {x : F} (h : Within k x r) (hr : 0 ≤ r) (hkl : k ≤ l) : Within l x r :=
  ⟨h.1, h.2.trans (mul_le_mul_of_nonneg_right hkl hr)⟩

theorem isZero_lut {γ : F} (h : UsualGamma γ) : IsZero (gammaLut γ 0) := by
  obtain ⟨⟨hB, hB1, hB2⟩, -, -⟩ := exponents h
  exact isZero_share.pow32 hB (by linarith)

/-- the colour channel of a converted pixel -/
theorem chan_within {γ : F} (h : UsualGamma γ) {q : ℚ} (h1 : (1 : ℝ) / 3 ≤ q) (h2 : (q : ℝ) ≤ 1) (i a : UInt8) :
    Within (2 * (wpow32 + (3 * val (to32 (internalGamma /₆ γ)) + 6) * w32)) (gammaLut γ i *₃ lit32 q *₃ (lit32 a.toNat /₃ lit32 255))
      (level γ i * q * share a) := by
  obtain ⟨⟨hB, hB1, hB2⟩, -, -⟩ := exponents h
  have hW := weight_lit (F := F) h1 h2
  by_cases ha : a = 0
  · subst ha
    have hz : share 0 = 0 := by unfold share; norm_num
    rw [hz, mul_zero]
    by_cases hi : i = 0
    · subst hi
      exact (((isZero_lut h).mul32 hW.fin).mul32 isZero_share.fin).within _
    · obtain ⟨hl, l1, l2⟩ := lut_rounded h hi
      have m1 := hl.mul32 (Approx.lit32 (F := F) (q := q) (mid_of (by linarith) (by linarith)))
        (mid_of (le_trans (by norm_num) (mul_le_mul l1 h1 (by norm_num) (by linarith [level_nonneg γ i, show level γ i = _ from rfl])))
          (by
            have : level γ i * (q:ℝ) ≤ 1 * 1 := mul_le_mul l2 h2 (by linarith) (by norm_num)
            exact this.trans (by norm_num)))
        (by rw [wpow32_val, w32_val]; linarith)
      exact (IsZero.mul32' m1.fin isZero_share).within _
  · by_cases hi : i = 0
    · subst hi
      rw [level_zero h, zero_mul, zero_mul]
      exact (((isZero_lut h).mul32 hW.fin).mul32 (approx_share ha).fin).within _
    · obtain ⟨hl, l1, l2⟩ := lut_rounded h hi
      have l0 := level_nonneg γ i
      have t0 : (1 : ℝ) / 255 ^ 10 * (1 / 3) ≤ level γ i * q := mul_le_mul l1 h1 (by norm_num) l0
      have t1 : level γ i * (q:ℝ) ≤ 1 * 1 := mul_le_mul l2 h2 (by linarith) (by norm_num)
      have m1 := hl.mul32 (Approx.lit32 (F := F) (q := q) (mid_of (by linarith) (by linarith)))
        (mid_of (le_trans (by norm_num) t0) (t1.trans (by norm_num))) (by rw [wpow32_val, w32_val]; linarith)
      have s1 := share_ge ha
      have s2 := share_le_one a
      have t2 : (1 : ℝ) / 255 ^ 10 * (1 / 3) * (1 / 255) ≤ level γ i * q * share a :=
        mul_le_mul t0 s1 (by norm_num) (by nlinarith)
      have t3 : level γ i * (q:ℝ) * share a ≤ 1 * 1 * 1 := mul_le_mul t1 s2 (share_nonneg a) (by norm_num)
      have m2 := m1.mul32 (approx_share ha) (mid_of (le_trans (by norm_num) t2) (t3.trans (by norm_num)))
        (by rw [wpow32_val, w32_val]; linarith)
      have m3 := m2.mono (l := wpow32 + (3 * val (to32 (internalGamma /₆ γ)) + 6) * w32) (by
        rw [wpow32_val, w32_val]; linarith)
      exact m3.within (le_trans (by positivity) t2) (by rw [wpow32_val, w32_val]; linarith)

/-- the alpha channel of a converted pixel -/
theorem alpha_within (a : UInt8) : Within (10 * w32) ((lit32 a.toNat /₃ lit32 255) *₃ weightA : F) (share a * (5 / 8)) := by
  have e : (((5 / 8 : ℚ)) : ℝ) = 5 / 8 := by norm_num
  have hw : Approx w32 (weightA : F) (5 / 8) := by
    have := Approx.lit32 (F := F) (q := 5 / 8) (mid_of (by norm_num) (by norm_num))
    have e2 : (((5 / 8 : ℚ)) : ℝ) = 5 / 8 := by norm_num
    rw [e2] at this
    exact this
  by_cases ha : a = 0
  · subst ha
    have hz : share 0 = 0 := by unfold share; norm_num
    rw [hz, zero_mul]
    exact (isZero_share.mul32 hw.fin).within _
  · have s1 := share_ge ha
    have s2 := share_le_one a
    have m := (approx_share ha).mul32 hw (mid_of (by linarith) (by linarith)) (by rw [w32_val]; norm_num)
    exact ((m.mono (l := 5 * w32) (by rw [w32_val]; norm_num)).within (by linarith) (by rw [w32_val]; norm_num)).mono (by linarith)
      (by linarith)

/-- a converted pixel: channels as in exact arithmetic up to a relative error -/
structure Converted (γ : F) (k : ℝ) (c : RGBA) (x : FPixel F) : Prop where
  a : Within k x.a (share c.a * (5 / 8))
  r : Within k x.r (level γ c.r * (1 / 2) * share c.a)
  g : Within k x.g (level γ c.g * 1 * share c.a)
  b : Within k x.b (level γ c.b * (9 / 20) * share c.a)

theorem fromRgba_converted {γ : F} (h : UsualGamma γ) (c : RGBA) :
    Converted γ (2 * (wpow32 + (3 * val (to32 (internalGamma /₆ γ)) + 6) * w32)) c (FPixel.fromRgba (gammaLut γ) c) := by
  obtain ⟨⟨hB, hB1, hB2⟩, -, -⟩ := exponents h
  refine ⟨?_, ?_, ?_, ?_⟩
  · have := alpha_within (F := F) c.a
    exact this.mono (mul_nonneg (share_nonneg _) (by norm_num)) (by rw [wpow32_val, w32_val]; linarith)
  · have := chan_within h (q := 1 / 2) (by norm_num) (by norm_num) c.r c.a
    push_cast at this
    exact this
  · have := chan_within h (q := 1) (by norm_num) (by norm_num) c.g c.a
    push_cast at this
    exact this
  · have := chan_within h (q := 45 / 100) (by norm_num) (by norm_num) c.b c.a
    push_cast at this
    rw [show (45:ℝ) / 100 = 9 / 20 by norm_num] at this
    exact this

theorem Converted.mono {γ : F} {k l : ℝ} {c : RGBA} {x : FPixel F} (h : Converted γ k c x) (hkl : k ≤ l) : Converted γ l c x := by
  have s := share_nonneg c.a
  have l1 := level_nonneg γ c.r
  have l2 := level_nonneg γ c.g
  have l3 := level_nonneg γ c.b
  exact ⟨h.a.mono (by positivity) hkl, h.r.mono (by positivity) hkl, h.g.mono (by positivity) hkl, h.b.mono (by positivity) hkl⟩

/-- for all usual gammas -/
theorem fromRgba_converted_wide {γ : F} (h : UsualGamma γ) (c : RGBA) :
    Converted γ (13 / 10 ^ 6) c (FPixel.fromRgba (gammaLut γ) c) := by
  obtain ⟨⟨hB, hB1, hB2⟩, -, -⟩ := exponents h
  exact (fromRgba_converted h c).mono (by rw [wpow32_val, w32_val]; linarith)

end

section
variable [FltOrd F]
open FltRound (val fin)

theorem within_range {k r : ℝ} {x : F} (h : Within k x r) (h0 : 0 ≤ r) (h1 : r ≤ 1) (hk : k ≤ 1 / 8) :
    fin x ∧ -1 / 8 ≤ val x ∧ val x ≤ 9 / 8 := by
  have := abs_le.1 h.2
  have : k * r ≤ 1 / 8 := by nlinarith
  exact ⟨h.1, by linarith, by linarith⟩

theorem Converted.reach {γ : F} (hγ : UsualGamma γ) {k : ℝ} {c : RGBA} {x : FPixel F} (h : Converted γ k c x) (hk : k ≤ 1 / 8) :
    x.Reach := by
  have s := share_nonneg c.a
  have s1 := share_le_one c.a
  have l1 := level_nonneg γ c.r
  have l2 := level_nonneg γ c.g
  have l3 := level_nonneg γ c.b
  have m1 := level_le_one hγ c.r
  have m2 := level_le_one hγ c.g
  have m3 := level_le_one hγ c.b
  refine ⟨within_range h.a (by positivity) (by linarith) hk, within_range h.r (by positivity) ?_ hk,
    within_range h.g (by positivity) ?_ hk, within_range h.b (by positivity) ?_ hk⟩
  · exact (mul_le_mul (by linarith : level γ c.r * (1 / 2) ≤ 1) s1 s (by norm_num)).trans (by norm_num)
  · exact (mul_le_mul (by linarith : level γ c.g * 1 ≤ 1) s1 s (by norm_num)).trans (by norm_num)
  · exact (mul_le_mul (by linarith : level γ c.b * (9 / 20) ≤ 1) s1 s (by norm_num)).trans (by norm_num)

theorem fromRgba_reach {γ : F} (h : UsualGamma γ) (c : RGBA) : (FPixel.fromRgba (gammaLut γ) c).Reach :=
  (fromRgba_converted_wide h c).reach h (by norm_num)

/-! ### Distance from the exact colour -/

theorem chanDiff_le {x y e : ℝ} (hx : |x| ≤ e) (hxy : |x - y| ≤ e) : chanDiff x y ≤ e ^ 2 := by
  unfold chanDiff
  refine max_le ?_ ?_
  · rw [← sq_abs]; exact pow_le_pow_left₀ (abs_nonneg _) hx 2
  · rw [← sq_abs]; exact pow_le_pow_left₀ (abs_nonneg _) hxy 2

/-- colours whose channels are close are close -/
theorem dist_le_of {x y : Color} {d e : ℝ} (hd : 0 ≤ d) (he : 0 ≤ e) (ha : |x.a - y.a| ≤ d) (hr : |x.r - y.r| ≤ e - d)
    (hg : |x.g - y.g| ≤ e - d) (hb : |x.b - y.b| ≤ e - d) : Spec.dist x y ≤ 7 / 4 * e := by
  have key : ∀ u : ℝ, |u| ≤ e - d → chanDiff u (x.a - y.a) ≤ e ^ 2 := fun u hu =>
    chanDiff_le (by linarith) ((abs_sub _ _).trans (by linarith))
  unfold Spec.dist Spec.diff
  apply Real.sqrt_le_iff.2
  refine ⟨by positivity, ?_⟩
  have := key _ hr
  have := key _ hg
  have := key _ hb
  nlinarith

/-- the exponent that is used is the exact one up to rounding -/
theorem exponent_near {γ : F} (h : UsualGamma γ) : Rel (w32 + 2 * w64) (val (to32 (internalGamma /₆ γ))) (57 / 100 / val γ) := by
  have hg := h.lo
  have hg1 := h.hi
  have hl : Approx w64 (internalGamma : F) (((57 / 100 : ℚ) : ℝ)) := Approx.lit64 (mid_of (by norm_num) (by norm_num))
  have e57 : (((57 / 100 : ℚ) : ℝ)) = 57 / 100 := by norm_num
  rw [e57] at hl
  have b1 : 57 / 100 ≤ 57 / 100 / val γ := by rw [le_div_iff₀ (by linarith)]; linarith
  have b2 : 57 / 100 / val γ ≤ 912 / 100 := by rw [div_le_iff₀ (by linarith)]; linarith
  have hb := ((hl.div64 (Approx.exact h.fin) (by linarith) (mid_of (by linarith) (by linarith))
    (by rw [w64_val]; norm_num)).to32 (mid_of (by linarith) (by linarith)) (by rw [w64_val]; norm_num))
  exact hb.rel.mono (by linarith)

theorem log_share {x : ℝ} (h1 : 1 / 255 ≤ x) (h2 : x ≤ 1) : |Real.log x| ≤ 6 := by
  have hxpos : 0 < x := by linarith
  rw [abs_of_nonpos (Real.log_nonpos hxpos.le h2), ← Real.log_inv]
  have h3 : x⁻¹ ≤ 255 := by
    rw [inv_le_comm₀ hxpos (by norm_num)]; linarith
  have h4 : (255 : ℝ) ≤ Real.exp 6 := by
    have h5 : (2.7 : ℝ) ≤ Real.exp 1 := by have := Real.exp_one_gt_d9; linarith
    have h6 : Real.exp 6 = Real.exp 1 ^ 6 := by rw [← Real.exp_nat_mul]; norm_num
    rw [h6]
    refine le_trans ?_ (pow_le_pow_left₀ (by norm_num) h5 6)
    norm_num
  exact (Real.log_le_iff_le_exp (by positivity)).2 (h3.trans h4)

theorem level_near {γ : F} (h : UsualGamma γ) (i : UInt8) : |level γ i - ((i.toNat : ℝ) / 255) ^ (0.57 / val γ)| ≤ 28 / 10 ^ 6 := by
  have hg := h.lo
  have hg1 := h.hi
  have b2 : 57 / 100 / val γ ≤ 912 / 100 := by rw [div_le_iff₀ (by linarith)]; linarith
  have b1 : 57 / 100 ≤ 57 / 100 / val γ := by rw [le_div_iff₀ (by linarith)]; linarith
  rw [show (0.57 : ℝ) = 57 / 100 by norm_num]
  by_cases hi : i = 0
  · subst hi
    rw [level_zero h, show (((0 : UInt8).toNat : ℝ) / 255) = 0 by norm_num, Real.zero_rpow (by linarith)]
    norm_num
  · have s1 := share_ge hi
    have s2 := share_le_one i
    have hpos : 0 < share i := by linarith
    have hE := (exponent_near h).sub_le (by linarith) (by rw [w32_val, w64_val]; norm_num)
    have hlog := log_share s1 s2
    have hrel : Rel (1391 / 10 ^ 8) (level γ i) (share i ^ (57 / 100 / val γ)) := by
      refine ⟨Real.log (share i) * (val (to32 (internalGamma /₆ γ)) - 57 / 100 / val γ), ?_, ?_⟩
      · rw [abs_mul]
        have : |val (to32 (internalGamma /₆ γ)) - 57 / 100 / val γ| ≤ 218 / 10 ^ 8 := hE.trans (by
          rw [w32_val, w64_val]; linarith)
        refine (mul_le_mul hlog this (abs_nonneg _) (by norm_num)).trans (by norm_num)
      · unfold level
        change share i ^ _ = _
        rw [Real.rpow_def_of_pos hpos, Real.rpow_def_of_pos hpos, ← Real.exp_add]
        congr 1; ring
    have h0 : (0:ℝ) ≤ share i ^ (57 / 100 / val γ) := Real.rpow_nonneg hpos.le _
    have h1 : share i ^ (57 / 100 / val γ) ≤ 1 := Real.rpow_le_one hpos.le s2 (by linarith)
    have := hrel.sub_le h0 (by norm_num)
    refine this.trans ?_
    norm_num
    linarith

/-- a converted pixel is close to the exact colour -/
theorem fromRgba_near {γ : F} (h : UsualGamma γ) (c : RGBA) :
    Spec.dist (FPixel.fromRgba (gammaLut γ) c).vals (colorOf (val γ) c) ≤ 9 / 10 ^ 5 := by
  have hc := fromRgba_converted_wide h c
  have s := share_nonneg c.a
  have s1 := share_le_one c.a
  have key : ∀ (i : UInt8) (w : ℝ) (x : F), 0 ≤ w → w ≤ 1 → Within (13 / 10 ^ 6) x (level γ i * w * share c.a) →
      |val x - ((i.toNat : ℝ) / 255) ^ (0.57 / val γ) * share c.a * w| ≤ 50 / 10 ^ 6 - 9 / 10 ^ 6 := by
    intro i w x w0 w1 hx
    have l0 := level_nonneg γ i
    have l1 := level_le_one h i
    have ln := level_near h i
    have ws0 : 0 ≤ w * share c.a := mul_nonneg w0 s
    have ws1 : w * share c.a ≤ 1 := (mul_le_mul w1 s1 s (by norm_num)).trans (by norm_num)
    have e : val x - ((i.toNat : ℝ) / 255) ^ (0.57 / val γ) * share c.a * w =
      (val x - level γ i * w * share c.a) + (level γ i - ((i.toNat : ℝ) / 255) ^ (0.57 / val γ)) * (w * share c.a) := by ring
    rw [e]
    refine (abs_add_le _ _).trans ?_
    rw [abs_mul, abs_of_nonneg ws0]
    have e1 : level γ i * w * share c.a ≤ 1 := by
      rw [mul_assoc]; exact (mul_le_mul l1 ws1 ws0 (by norm_num)).trans (by norm_num)
    have e2 : |level γ i - ((i.toNat : ℝ) / 255) ^ (0.57 / val γ)| * (w * share c.a) ≤ 28 / 10 ^ 6 * 1 :=
      mul_le_mul ln ws1 ws0 (by norm_num)
    have e3 := hx.2
    have e4 : (13:ℝ) / 10 ^ 6 * (level γ i * w * share c.a) ≤ 13 / 10 ^ 6 * 1 := mul_le_mul_of_nonneg_left e1 (by norm_num)
    linarith
  have := dist_le_of (x := (FPixel.fromRgba (gammaLut γ) c).vals) (y := colorOf (val γ) c) (d := 9 / 10 ^ 6) (e := 50 / 10 ^ 6) (by norm_num) (by norm_num)
    (by
      have := hc.a.2
      show |val (FPixel.fromRgba (gammaLut γ) c).a - share c.a * 0.625| ≤ _
      rw [show (0.625:ℝ) = 5 / 8 by norm_num]
      refine this.trans ?_
      linarith)
    (by
      have := key c.r (1 / 2) _ (by norm_num) (by norm_num) hc.r
      show |val (FPixel.fromRgba (gammaLut γ) c).r - ((c.r.toNat : ℝ) / 255) ^ (0.57 / val γ) * share c.a * 0.5| ≤ _
      rw [show (0.5:ℝ) = 1 / 2 by norm_num]
      exact this)
    (key c.g 1 _ (by norm_num) (by norm_num) hc.g)
    (by
      have := key c.b (9 / 20) _ (by norm_num) (by norm_num) hc.b
      show |val (FPixel.fromRgba (gammaLut γ) c).b - ((c.b.toNat : ℝ) / 255) ^ (0.57 / val γ) * share c.a * 0.45| ≤ _
      rw [show (0.45:ℝ) = 9 / 20 by norm_num]
      exact this)
  exact this.trans (by norm_num)

/-! ### Distance of different colours -/

/-- gammas near the default and above -/
structure BrightGamma (γ : F) : Prop extends UsualGamma γ where
  bright : 9 / 20 ≤ val γ

theorem BrightGamma.exponent {γ : F} (h : BrightGamma γ) : val (to32 (internalGamma /₆ γ)) ≤ 41 / 32 := by
  have hg := h.bright
  have b2 : 57 / 100 / val γ ≤ 127 / 100 := by rw [div_le_iff₀ (by linarith)]; linarith
  have b1 : 0 ≤ 57 / 100 / val γ := div_nonneg (by norm_num) (by linarith)
  have := (exponent_near h.toUsualGamma).le b1 (by rw [w32_val, w64_val]; norm_num)
  rw [w32_val, w64_val] at this
  linarith

theorem fromRgba_converted_bright {γ : F} (h : BrightGamma γ) (c : RGBA) :
    Converted γ (63 / 10 ^ 7) c (FPixel.fromRgba (gammaLut γ) c) := by
  have := h.exponent
  exact (fromRgba_converted h.toUsualGamma c).mono (by rw [wpow32_val, w32_val]; linarith)

theorem pow255 : (255 : ℝ) ^ (41 / 32 : ℝ) ≤ 1219 := by
  have h1 : (255 : ℝ) ^ (41 / 32 : ℝ) ≤ (256 : ℝ) ^ (41 / 32 : ℝ) := Real.rpow_le_rpow (by norm_num) (by norm_num) (by norm_num)
  have h2 : (256 : ℝ) ^ (41 / 32 : ℝ) = 2 ^ (41 / 4 : ℝ) := by
    rw [show (256 : ℝ) = 2 ^ (8 : ℝ) by norm_num, ← Real.rpow_mul (by norm_num)]
    norm_num
  have h3 : (2 : ℝ) ^ (41 / 4 : ℝ) = 1024 * 2 ^ (1 / 4 : ℝ) := by
    rw [show (41 / 4 : ℝ) = 10 + 1 / 4 by norm_num, Real.rpow_add (by norm_num)]
    norm_num
  have h4 : (2 : ℝ) ^ (1 / 4 : ℝ) ≤ 119 / 100 := by
    have h5 : ((2 : ℝ) ^ (1 / 4 : ℝ)) ^ 4 = 2 := by
      rw [← Real.rpow_natCast, ← Real.rpow_mul (by norm_num)]
      norm_num
    by_contra hc
    have h6 := pow_lt_pow_left₀ (not_le.1 hc) (by norm_num) (n := 4) (by norm_num)
    rw [h5] at h6
    norm_num at h6
  rw [h2, h3] at h1
  linarith

/-- different levels differ, relative to the higher one, and absolutely -/
theorem level_gap {γ : F} (h : BrightGamma γ) {i j : UInt8} (hij : j.toNat < i.toNat) :
    level γ i / 510 ≤ level γ i - level γ j ∧ 1 / 1219 ≤ level γ i - level γ j := by
  obtain ⟨⟨-, hB1, -⟩, -, -⟩ := exponents h.toUsualGamma
  have hB2 := h.exponent
  unfold level
  generalize val (to32 (internalGamma /₆ γ)) = B at *
  have hn : 1 ≤ i.toNat := by omega
  obtain ⟨n, hn'⟩ : ∃ n : ℝ, n = i.toNat := ⟨_, rfl⟩
  have n1 : 1 ≤ n := by rw [hn']; exact_mod_cast hn
  have n2 : n ≤ 255 := by rw [hn']; have := i.toNat_lt; exact_mod_cast (by omega : i.toNat ≤ 255)
  have hj : (j.toNat : ℝ) ≤ n - 1 := by
    rw [hn']
    have : (j.toNat : ℝ) + 1 ≤ i.toNat := by exact_mod_cast hij
    linarith
  rw [← hn']
  have e1 : (j.toNat : ℝ) / 255 ≤ n / 255 * (1 - 1 / n) := by
    have : n / 255 * (1 - 1 / n) = (n - 1) / 255 := by field_simp
    rw [this]; linarith
  have f0 : 0 ≤ 1 - 1 / n := by
    have : 1 / n ≤ 1 := by rw [div_le_one (by linarith)]; exact n1
    linarith
  have e2 : ((j.toNat : ℝ) / 255) ^ B ≤ (n / 255) ^ B * (1 - 1 / n) ^ B := by
    rw [← Real.mul_rpow (by positivity) f0]
    exact Real.rpow_le_rpow (by positivity) e1 (by linarith)
  have x0 : 0 < (n / 255) ^ B := Real.rpow_pos_of_pos (by positivity) _
  have inv1 : 1 / 255 ≤ 1 / n := one_div_le_one_div_of_le (by linarith) n2
  have f1 : (1 - 1 / n) ^ B ≤ 1 - 1 / n / 2 := by
    have h1 : (1 - 1 / n) ^ B ≤ (1 - 1 / n) ^ (1 / 2 : ℝ) := by
      rcases eq_or_lt_of_le f0 with h0 | h0
      · rw [← h0, Real.zero_rpow (by linarith), Real.zero_rpow (by norm_num)]
      · exact Real.rpow_le_rpow_of_exponent_ge h0 (by have : 0 ≤ 1 / n := by positivity
                                                      linarith) hB1
    rw [← Real.sqrt_eq_rpow] at h1
    refine h1.trans (Real.sqrt_le_iff.2 ⟨?_, ?_⟩)
    · linarith
    · nlinarith [sq_nonneg (1 / n)]
  constructor
  · have : (n / 255) ^ B * (1 - 1 / n) ^ B ≤ (n / 255) ^ B * (1 - 1 / n / 2) := mul_le_mul_of_nonneg_left f1 x0.le
    have : (n / 255) ^ B * (1 / 255) ≤ (n / 255) ^ B * (1 / n) := mul_le_mul_of_nonneg_left inv1 x0.le
    nlinarith
  · rcases le_total 1 B with hB | hB
    · have f2 : (1 - 1 / n) ^ B ≤ 1 - 1 / n := by
        rcases eq_or_lt_of_le f0 with h0 | h0
        · rw [← h0, Real.zero_rpow (by linarith)]
        · have := Real.rpow_le_rpow_of_exponent_ge h0 (by have : 0 ≤ 1 / n := by positivity
                                                          linarith) hB
          rwa [Real.rpow_one] at this
      have : (n / 255) ^ B * (1 - 1 / n) ^ B ≤ (n / 255) ^ B * (1 - 1 / n) := mul_le_mul_of_nonneg_left f2 x0.le
      have g1 : 1 / 1219 ≤ (n / 255) ^ B * (1 / n) := by
        have g2 : (n / 255) ^ B = n ^ B / 255 ^ B := Real.div_rpow (by linarith) (by norm_num) _
        have g3 : n ≤ n ^ B := by
          have := Real.rpow_le_rpow_of_exponent_le n1 hB
          rwa [Real.rpow_one] at this
        have g4 : (255 : ℝ) ^ B ≤ 1219 := (Real.rpow_le_rpow_of_exponent_le (by norm_num) hB2).trans pow255
        have g5 : (0:ℝ) < 255 ^ B := by positivity
        rw [g2, div_mul_div_comm, mul_one, div_le_div_iff₀ (by norm_num) (by positivity)]
        have : 255 ^ B * n ≤ 1219 * n ^ B := mul_le_mul g4 g3 (by linarith) (by norm_num)
        linarith
      nlinarith
    · have : (n / 255) ^ B * (1 - 1 / n) ^ B ≤ (n / 255) ^ B * (1 - 1 / n / 2) := mul_le_mul_of_nonneg_left f1 x0.le
      have g1 : 1 / 255 ≤ (n / 255) ^ B * (1 / n) := by
        have g2 : n / 255 ≤ (n / 255) ^ B := by
          have := Real.rpow_le_rpow_of_exponent_ge (x := n / 255) (by positivity) (by linarith) hB
          rwa [Real.rpow_one] at this
        have : n / 255 * (1 / n) = 1 / 255 := by field_simp
        rw [← this]
        exact mul_le_mul_of_nonneg_right g2 (by positivity)
      nlinarith

/-- fully transparent, or not almost so -/
def RGBA.Solid (c : RGBA) : Prop := c.a = 0 ∨ 16 ≤ c.a.toNat

theorem dist_ge_chan {x y : Color} : |x.r - y.r| ≤ Spec.dist x y ∧ |x.g - y.g| ≤ Spec.dist x y ∧ |x.b - y.b| ≤ Spec.dist x y ∧
    |x.a - y.a| / 2 ≤ Spec.dist x y := by
  have n1 := chanDiff_nonneg (x.r - y.r) (x.a - y.a)
  have n2 := chanDiff_nonneg (x.g - y.g) (x.a - y.a)
  have n3 := chanDiff_nonneg (x.b - y.b) (x.a - y.a)
  have m1 : (x.r - y.r) ^ 2 ≤ chanDiff (x.r - y.r) (x.a - y.a) := le_max_left _ _
  have m2 : (x.g - y.g) ^ 2 ≤ chanDiff (x.g - y.g) (x.a - y.a) := le_max_left _ _
  have m3 : (x.b - y.b) ^ 2 ≤ chanDiff (x.b - y.b) (x.a - y.a) := le_max_left _ _
  have m4 : ((x.r - y.r) - (x.a - y.a)) ^ 2 ≤ chanDiff (x.r - y.r) (x.a - y.a) := le_max_right _ _
  refine ⟨Real.le_sqrt_of_sq_le ?_, Real.le_sqrt_of_sq_le ?_, Real.le_sqrt_of_sq_le ?_, Real.le_sqrt_of_sq_le ?_⟩
  · rw [sq_abs]; unfold Spec.diff; linarith
  · rw [sq_abs]; unfold Spec.diff; linarith
  · rw [sq_abs]; unfold Spec.diff; linarith
  · rw [div_pow, sq_abs]; unfold Spec.diff
    nlinarith [sq_nonneg (2 * (x.r - y.r) - (x.a - y.a))]

/-- colours that can be told apart are farther apart than rounding may hide -/
theorem apart {γ : F} (h : BrightGamma γ) {c d : RGBA} (hc : c.Solid)
    (hne : ¬ (c = d ∨ (c.a = 0 ∧ d.a = 0))) :
    5 * fuzz < (FPixel.fromRgba (gammaLut γ) c).dist (FPixel.fromRgba (gammaLut γ) d) := by
  obtain ⟨k1, k2, k3, k4⟩ := dist_ge_chan (x := (FPixel.fromRgba (gammaLut γ) c).vals) (y := (FPixel.fromRgba (gammaLut γ) d).vals)
  have cc := fromRgba_converted_bright h c
  have cd := fromRgba_converted_bright h d
  have s0 := share_nonneg c.a
  have s1 := share_le_one c.a
  have t0 := share_nonneg d.a
  have t1 := share_le_one d.a
  show _ < Spec.dist _ _
  have hfz : 5 * fuzz = 2 / 10 ^ 5 := by unfold fuzz; norm_num
  rw [hfz]
  by_cases ha : c.a = d.a
  · have hz : c.a ≠ 0 := fun h0 => hne (Or.inr ⟨h0, ha ▸ h0⟩)
    have h16 : (16:ℝ) / 255 ≤ share c.a := by
      rcases hc with h0 | h0
      · exact absurd h0 hz
      · unfold share
        have : (16:ℝ) ≤ c.a.toNat := by exact_mod_cast h0
        linarith
    have key : ∀ (i j : UInt8) (w : ℝ) (x y : F), 9 / 20 ≤ w → w ≤ 1 → i ≠ j →
        Within (63 / 10 ^ 7) x (level γ i * w * share c.a) → Within (63 / 10 ^ 7) y (level γ j * w * share d.a) →
        2 / 10 ^ 5 < |val x - val y| := by
      have main : ∀ (i j : UInt8) (w : ℝ) (x y : F), 9 / 20 ≤ w → w ≤ 1 → j.toNat < i.toNat →
          Within (63 / 10 ^ 7) x (level γ i * w * share c.a) → Within (63 / 10 ^ 7) y (level γ j * w * share c.a) →
          2 / 10 ^ 5 < |val x - val y| := by
        intro i j w x y w0 w1 hij hx hy
        obtain ⟨g1, g2⟩ := level_gap h hij
        have hx' := (abs_le.1 hx.2).1
        have hy' := (abs_le.1 hy.2).2
        have li := level_nonneg γ i
        have lj := level_nonneg γ j
        obtain ⟨q, hq⟩ : ∃ q, q = w * share c.a := ⟨_, rfl⟩
        have q0 : 9 / 20 * (16 / 255) ≤ q := hq ▸ mul_le_mul w0 h16 (by norm_num) (by linarith)
        have ex : level γ i * w * share c.a = level γ i * q := by rw [hq]; ring
        have ey : level γ j * w * share c.a = level γ j * q := by rw [hq]; ring
        rw [ex] at hx'
        rw [ey] at hy'
        have hji : level γ j ≤ level γ i := by linarith
        have r1 : level γ j * q ≤ level γ i * q := mul_le_mul_of_nonneg_right hji (by linarith)
        have r2 : level γ i / 510 * q ≤ (level γ i - level γ j) * q := mul_le_mul_of_nonneg_right g1 (by linarith)
        have r3 : 1 / 1219 * (9 / 20 * (16 / 255)) ≤ (level γ i - level γ j) * q := mul_le_mul g2 q0 (by norm_num) (by linarith)
        refine lt_of_lt_of_le ?_ (le_abs_self _)
        nlinarith
      intro i j w x y w0 w1 hij hx hy
      rw [← ha] at hy
      rcases lt_trichotomy i.toNat j.toNat with hl | hl | hl
      · rw [abs_sub_comm]
        exact main j i w y x w0 w1 hl hy hx
      · exact absurd (UInt8.toNat_inj.1 hl) hij
      · exact main i j w x y w0 w1 hl hx hy
    by_cases hr : c.r = d.r
    · by_cases hg : c.g = d.g
      · by_cases hb : c.b = d.b
        · exfalso
          apply hne
          left
          cases c; cases d
          simp only at ha hr hg hb
          rw [ha, hr, hg, hb]
        · exact lt_of_lt_of_le (key c.b d.b (9 / 20) _ _ (by norm_num) (by norm_num) hb cc.b cd.b) k3
      · exact lt_of_lt_of_le (key c.g d.g 1 _ _ (by norm_num) (by norm_num) hg cc.g cd.g) k2
    · exact lt_of_lt_of_le (key c.r d.r (1 / 2) _ _ (by norm_num) (by norm_num) hr cc.r cd.r) k1
  · refine lt_of_lt_of_le ?_ k4
    show 2 / 10 ^ 5 < |val (FPixel.fromRgba (gammaLut γ) c).a - val (FPixel.fromRgba (gammaLut γ) d).a| / 2
    have hx := abs_le.1 cc.a.2
    have hy := abs_le.1 cd.a.2
    have gap : 1 / 255 ≤ |share c.a - share d.a| := by
      unfold share
      have hn : c.a.toNat ≠ d.a.toNat := fun h => ha (UInt8.toNat_inj.1 h)
      rw [← sub_div, abs_div, abs_of_pos (by norm_num : (0:ℝ) < 255)]
      apply div_le_div_of_nonneg_right _ (by norm_num)
      have : (1:ℤ) ≤ |(c.a.toNat : ℤ) - d.a.toNat| := Int.one_le_abs (by omega)
      exact_mod_cast this
    rcases le_total (share d.a) (share c.a) with hle | hle
    · rw [abs_of_nonneg (by linarith)] at gap
      have := le_abs_self (val (FPixel.fromRgba (gammaLut γ) c).a - val (FPixel.fromRgba (gammaLut γ) d).a)
      linarith [hx.1, hy.2]
    · rw [abs_of_nonpos (by linarith)] at gap
      have := neg_abs_le (val (FPixel.fromRgba (gammaLut γ) c).a - val (FPixel.fromRgba (gammaLut γ) d).a)
      linarith [hx.2, hy.1]

end
end Verif
