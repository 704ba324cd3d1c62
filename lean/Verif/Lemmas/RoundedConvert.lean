import Verif.Lemmas.Rounded
import Verif.Model.Pal

/-! Conversion between 8-bit and internal colours with rounding. -/

namespace Verif
open Flt

variable {F : Type} [Flt F] [FltRound F]
open FltRound (val fin)

theorem w32_val : w32 = 1 / 8388608 := by unfold w32; norm_num
theorem wpow32_val : wpow32 = 1 / 524288 := by unfold wpow32; norm_num
theorem w64_val : w64 = 1 / 4503599627370496 := by unfold w64; norm_num

theorem mid_of {x : ℝ} (h1 : 1 / 1000000000000000000000000000000 ≤ x) (h2 : x ≤ 1000000) : Mid x :=
  ⟨le_trans (by norm_num) h1, h2.trans (by norm_num)⟩

/-- a number between a quarter and 2, e.g. the weight of a channel -/
structure Weight (w : F) : Prop where
  fin : fin w
  lo : 1 / 4 ≤ val w
  hi : val w ≤ 2

theorem weight_lit {q : ℚ} (h1 : (1 : ℝ) / 3 ≤ q) (h2 : (q : ℝ) ≤ 1) : Weight (lit32 q : F) := by
  have h := Approx.lit32 (F := F) (q := q) (mid_of (by linarith) (by linarith))
  have h3 := h.rel.le (by linarith) (by rw [w32_val]; norm_num)
  have h4 := h.rel.ge (by linarith)
  rw [w32_val] at h3 h4
  exact ⟨h.fin, by nlinarith, by nlinarith⟩

/-- gammas for which the table of levels does not underflow -/
structure UsualGamma (γ : F) : Prop where
  fin : fin γ
  lo : 1 / 16 ≤ val γ
  hi : val γ ≤ 1

/-- the two exponents are inverse to each other up to rounding -/
theorem exponents {γ : F} (h : UsualGamma γ) :
    (fin (to32 (internalGamma /₆ γ)) ∧ 1 / 2 ≤ val (to32 (internalGamma /₆ γ)) ∧ val (to32 (internalGamma /₆ γ)) ≤ 10) ∧
    (fin (to32 (γ /₆ internalGamma)) ∧ 1 / 20 ≤ val (to32 (γ /₆ internalGamma)) ∧
      val (to32 (γ /₆ internalGamma)) ≤ 18 / 10) ∧
    Rel (3 * w32) (val (to32 (internalGamma /₆ γ)) * val (to32 (γ /₆ internalGamma))) 1 := by
  have hg := h.lo
  have hg1 := h.hi
  have hl : Approx w64 (internalGamma : F) (((57 / 100 : ℚ) : ℝ)) :=
    Approx.lit64 (mid_of (by norm_num) (by norm_num))
  have e57 : (((57 / 100 : ℚ) : ℝ)) = 57 / 100 := by norm_num
  rw [e57] at hl
  have b1 : 57 / 100 ≤ 57 / 100 / val γ := by rw [le_div_iff₀ (by linarith)]; linarith
  have b2 : 57 / 100 / val γ ≤ 912 / 100 := by rw [div_le_iff₀ (by linarith)]; linarith
  have c1 : 10 / 100 ≤ val γ / (57 / 100) := by rw [le_div_iff₀ (by norm_num)]; linarith
  have c2 : val γ / (57 / 100) ≤ 1755 / 1000 := by rw [div_le_iff₀ (by norm_num)]; linarith
  have hb := ((hl.div64 (Approx.exact h.fin) (by linarith) (mid_of (by linarith) (by linarith))
    (by rw [w64_val]; norm_num)).to32 (mid_of (by linarith) (by linarith)) (by rw [w64_val]; norm_num))
  have hc := (((Approx.exact h.fin).div64 hl (by norm_num) (mid_of (by linarith) (by linarith))
    (by rw [w64_val]; norm_num)).to32 (mid_of (by linarith) (by linarith)) (by rw [w64_val]; norm_num))
  have hb1 := hb.rel.le (by linarith) (by rw [w64_val, w32_val]; norm_num)
  have hb2 := hb.rel.ge (by linarith)
  have hc1 := hc.rel.le (by linarith) (by rw [w64_val, w32_val]; norm_num)
  have hc2 := hc.rel.ge (by linarith)
  have hbc := (hb.rel.mul hc.rel).mono (l := 3 * w32) (by rw [w64_val, w32_val]; norm_num)
  have e1 : 57 / 100 / val γ * (val γ / (57 / 100)) = 1 := by
    have : val γ ≠ 0 := by linarith
    field_simp
  rw [e1] at hbc
  rw [w64_val, w32_val] at hb1 hb2 hc1 hc2
  refine ⟨⟨hb.fin, by nlinarith, by nlinarith⟩, ⟨hc.fin, by nlinarith, by nlinarith⟩, hbc⟩

/-- level of a byte in the table -/
theorem lut_rounded {γ : F} (h : UsualGamma γ) {i : UInt8} (hi : i ≠ 0) :
    let B := val (to32 (internalGamma /₆ γ))
    Approx (wpow32 + 3 * w32 * B) (gammaLut γ i) (((i.toNat : ℝ) / 255) ^ B) ∧
      1 / 255 ^ 10 ≤ ((i.toNat : ℝ) / 255) ^ B ∧ ((i.toNat : ℝ) / 255) ^ B ≤ 1 := by
  intro B
  obtain ⟨⟨hB, hB1, hB2⟩, -, -⟩ := exponents h
  have hi1 : (1 : ℝ) ≤ i.toNat := by
    have : i.toNat ≠ 0 := fun h => hi (by rw [← UInt8.toNat_inj, h]; rfl)
    exact_mod_cast Nat.pos_of_ne_zero this
  have hi2 : (i.toNat : ℝ) ≤ 255 := by have := i.toNat_lt; exact_mod_cast (by omega : i.toNat ≤ 255)
  have e1 : (((i.toNat : ℚ)) : ℝ) = i.toNat := by norm_num
  have e2 : (((255 : ℚ)) : ℝ) = 255 := by norm_num
  have hn : Approx w32 (lit32 i.toNat : F) (i.toNat : ℝ) := by
    have := Approx.lit32 (F := F) (q := i.toNat) (by rw [e1]; exact mid_of (by linarith) (by linarith))
    rwa [e1] at this
  have hd : Approx w32 (lit32 255 : F) 255 := by
    have := Approx.lit32 (F := F) (q := 255) (by rw [e2]; exact mid_of (by norm_num) (by norm_num))
    rwa [e2] at this
  have hx0 : (1 : ℝ) / 255 ≤ (i.toNat : ℝ) / 255 := by linarith
  have hx1 : (i.toNat : ℝ) / 255 ≤ 1 := by linarith
  have hx := hn.div32 hd (by norm_num) (mid_of (by linarith) (by linarith)) (by rw [w32_val]; norm_num)
  have hlo : 1 / 255 ^ 10 ≤ ((i.toNat : ℝ) / 255) ^ B := by
    have h1 : ((1 : ℝ) / 255) ^ B ≤ ((i.toNat : ℝ) / 255) ^ B :=
      Real.rpow_le_rpow (by norm_num) hx0 (by linarith)
    have h2 : ((1 : ℝ) / 255) ^ (10 : ℝ) ≤ ((1 : ℝ) / 255) ^ B :=
      Real.rpow_le_rpow_of_exponent_ge (by norm_num) (by norm_num) hB2
    have h3 : ((1 : ℝ) / 255) ^ (10 : ℝ) = 1 / 255 ^ 10 := by
      rw [show (10 : ℝ) = ((10 : ℕ) : ℝ) by norm_num, Real.rpow_natCast, one_div_pow]
    linarith
  have hup : ((i.toNat : ℝ) / 255) ^ B ≤ 1 := Real.rpow_le_one (by positivity) hx1 (by linarith)
  refine ⟨?_, hlo, hup⟩
  refine (hx.pow32 hB (by linarith) (by linarith) (mid_of (le_trans (by norm_num) hlo) (by linarith)) ?_).mono ?_
  · rw [w32_val]; linarith
  · have : w32 + (w32 + w32) = 3 * w32 := by ring
    rw [this]

/-- a byte raised to a power close to 1 -/
theorem rpow_near_one {x0 e : ℝ} (hx1 : (1 : ℝ) / 255 ≤ x0) (hx2 : x0 ≤ 1) (he : Rel (3 * w32) e 1) :
    Rel (36 * w32) (x0 ^ e) x0 := by
  have hxpos : 0 < x0 := by linarith
  obtain ⟨t, ht, hte⟩ := he
  rw [one_mul] at hte
  refine ⟨Real.log x0 * (Real.exp t - 1), ?_, ?_⟩
  · have h1 := Real.abs_exp_sub_one_le (x := t) (ht.trans (by rw [w32_val]; norm_num))
    have h2 : |Real.log x0| ≤ 6 := by
      rw [abs_of_nonpos (Real.log_nonpos hxpos.le hx2), ← Real.log_inv]
      have h3 : x0⁻¹ ≤ 255 := by
        rw [inv_le_comm₀ hxpos (by norm_num)]; linarith
      have h4 : (255 : ℝ) ≤ Real.exp 6 := by
        have h5 : (2.7 : ℝ) ≤ Real.exp 1 := by have := Real.exp_one_gt_d9; linarith
        have h6 : Real.exp 6 = Real.exp 1 ^ 6 := by rw [← Real.exp_nat_mul]; norm_num
        rw [h6]
        refine le_trans ?_ (pow_le_pow_left₀ (by norm_num) h5 6)
        norm_num
      exact (Real.log_le_iff_le_exp (by positivity)).2 (h3.trans h4)
    rw [abs_mul]
    have h9 : |Real.exp t - 1| ≤ 6 * w32 := h1.trans (by linarith)
    calc |Real.log x0| * |Real.exp t - 1| ≤ 6 * (6 * w32) := mul_le_mul h2 h9 (abs_nonneg _) (by norm_num)
      _ = 36 * w32 := by ring
  · rw [hte]
    have : x0 * Real.exp (Real.log x0 * (Real.exp t - 1)) =
        Real.exp (Real.log x0) * Real.exp (Real.log x0 * (Real.exp t - 1)) := by rw [Real.exp_log hxpos]
    rw [this, ← Real.exp_add, Real.rpow_def_of_pos hxpos]
    congr 1; ring

set_option maxHeartbeats 600000 in
/-- a channel on its way to the internal form and back, where it has been changed a little on the way -/
theorem channel_alike {γ W a A X Y : F} (h : UsualGamma γ) (hW : Weight W) (hA : Weight A) (ha : fin a)
    (ha1 : 1 / 300 ≤ val a) (ha2 : val a ≤ 2) (i : UInt8)
    (hX : fin (gammaLut γ i *₃ W *₃ a) → Approx (3 * w32) X (val (gammaLut γ i *₃ W *₃ a)))
    (hY : fin (a *₃ A) → Approx (3 * w32) Y (val (a *₃ A))) :
    toU8 (pow32 (A /₃ W *₃ X /₃ Y) (to32 (γ /₆ internalGamma)) *₃ lit32 256) = i := by
  obtain ⟨⟨hB, hB1, hB2⟩, ⟨hG, hG1, hG2⟩, hBG⟩ := exponents h
  have W1 := hW.lo
  have W2 := hW.hi
  have A1 := hA.lo
  have A2 := hA.hi
  have e256 : (((256 : ℚ)) : ℝ) = 256 := by norm_num
  have h256 : Approx w32 (lit32 256 : F) 256 := by
    have := Approx.lit32 (F := F) (q := 256) (by rw [e256]; exact mid_of (by norm_num) (by norm_num))
    rwa [e256] at this
  have aA1 : 1 / 1200 ≤ val a * val A := by nlinarith
  have aA2 : val a * val A ≤ 4 := by nlinarith
  have hpa0 := (Approx.exact ha).mul32 (Approx.exact hA.fin) (mid_of (by linarith) (by linarith)) (by norm_num)
  have hpa : Approx (3 * w32 + (w32 + (0 + 0))) Y (val a * val A) := ⟨(hY hpa0.fin).fin, (hY hpa0.fin).rel.trans hpa0.rel⟩
  have q1 : 1 / 8 ≤ val A / val W := by rw [le_div_iff₀ (by linarith)]; linarith
  have q2 : val A / val W ≤ 8 := by rw [div_le_iff₀ (by linarith)]; linarith
  have hq := (Approx.exact hA.fin).div32 (Approx.exact hW.fin) (by linarith) (mid_of (by linarith) (by linarith))
    (by norm_num)
  by_cases hi : i = 0
  · subst hi
    have z1 : IsZero (gammaLut γ 0 : F) := by
      have e2 : (((255 : ℚ)) : ℝ) = 255 := by norm_num
      have hd : Approx w32 (lit32 255 : F) 255 := by
        have := Approx.lit32 (F := F) (q := 255) (by rw [e2]; exact mid_of (by norm_num) (by norm_num))
        rwa [e2] at this
      have z0 : IsZero (lit32 ((0 : UInt8).toNat : ℚ) : F) := by
        have : (((0 : UInt8).toNat : ℕ) : ℚ) = 0 := by norm_num
        rw [this]; exact IsZero.lit32
      exact (z0.div32 hd.fin (hd.rel.pos (by norm_num)).ne').pow32 hB (by linarith)
    have z0 := (z1.mul32 hW.fin).mul32 ha
    have zX : IsZero X := by
      have := hX z0.fin
      obtain ⟨t, -, ht⟩ := this.rel
      exact ⟨this.fin, by rw [ht, z0.zero, zero_mul]⟩
    have z2 := IsZero.mul32' hq.fin zX
    have z3 := (z2.div32 hpa.fin (hpa.rel.pos (by linarith)).ne').pow32 hG (by linarith)
    exact (z3.mul32 h256.fin).toU8
  · obtain ⟨hlut, l1, l2⟩ := lut_rounded h hi
    set B := val (to32 (internalGamma /₆ γ)) with hBdef
    set G := val (to32 (γ /₆ internalGamma)) with hGdef
    set x0 : ℝ := (i.toNat : ℝ) / 255 with hx0
    set L := x0 ^ B with hL
    have l1' : (1 : ℝ) / 10 ^ 25 ≤ L := le_trans (by norm_num) l1
    have lpos : 0 < L := lt_of_lt_of_le (by positivity) l1'
    have hBG' : B * G ≤ 101 / 100 := by
      have := hBG.le (by norm_num) (by rw [w32_val]; norm_num)
      rw [w32_val] at this
      linarith
    have t1 : (1 : ℝ) / 10 ^ 26 ≤ L * val W := by
      have : (1 : ℝ) / 10 ^ 26 ≤ 1 / 10 ^ 25 * (1 / 4) := by norm_num
      exact this.trans (mul_le_mul l1' W1 (by norm_num) lpos.le)
    have t2 : L * val W ≤ 2 := by nlinarith
    have m1 := hlut.mul32 (Approx.exact hW.fin) (mid_of (le_trans (by norm_num) t1) (by linarith))
      (by rw [wpow32_val, w32_val]; linarith)
    have t3 : (1 : ℝ) / 10 ^ 29 ≤ L * val W * val a := by
      have : (1 : ℝ) / 10 ^ 29 ≤ 1 / 10 ^ 26 * (1 / 300) := by norm_num
      exact this.trans (mul_le_mul t1 ha1 (by norm_num) (by positivity))
    have t4 : L * val W * val a ≤ 4 := by
      have : 0 ≤ L * val W := by positivity
      nlinarith
    have m20 := m1.mul32 (Approx.exact ha) (mid_of (le_trans (by norm_num) t3) (by linarith))
      (by rw [wpow32_val, w32_val]; linarith)
    have m2 : Approx (3 * w32 + (w32 + (w32 + (wpow32 + 3 * w32 * B + 0) + 0))) X (L * val W * val a) :=
      ⟨(hX m20.fin).fin, (hX m20.fin).rel.trans m20.rel⟩
    have t5 : (1 : ℝ) / 10 ^ 30 ≤ val A / val W * (L * val W * val a) := by
      have : (1 : ℝ) / 10 ^ 30 ≤ 1 / 8 * (1 / 10 ^ 29) := by norm_num
      exact this.trans (mul_le_mul q1 t3 (by positivity) (by linarith))
    have t6 : val A / val W * (L * val W * val a) ≤ 32 := by
      have : (0 : ℝ) ≤ L * val W * val a := le_trans (by positivity) t3
      nlinarith
    have m3 := hq.mul32 m2 (mid_of (le_trans (by norm_num) t5) (by linarith))
      (by rw [wpow32_val, w32_val]; linarith)
    have e1 : val A / val W * (L * val W * val a) / (val a * val A) = L := by
      have : val W ≠ 0 := by linarith
      have : val A ≠ 0 := by linarith
      have : val a ≠ 0 := by linarith
      field_simp
    have m4 := m3.div32 hpa (by linarith) (by rw [e1]; exact mid_of (le_trans (by norm_num) l1') (by linarith))
      (by rw [wpow32_val, w32_val]; linarith)
    rw [e1] at m4
    have m4' := m4.mono (l := wpow32 + 3 * w32 * B + 13 * w32) (by rw [w32_val, wpow32_val]; linarith)
    have e2 : L ^ G = x0 ^ (B * G) := by rw [hL, ← Real.rpow_mul (by positivity)]
    -- the combined exponent is close to 1
    have hx1 : (1 : ℝ) / 255 ≤ x0 := by
      have : (1 : ℝ) ≤ i.toNat := by
        have : i.toNat ≠ 0 := fun h => hi (by rw [← UInt8.toNat_inj, h]; rfl)
        exact_mod_cast Nat.pos_of_ne_zero this
      rw [hx0]; linarith
    have hx2 : x0 ≤ 1 := by
      have : (i.toNat : ℝ) ≤ 255 := by have := i.toNat_lt; exact_mod_cast (by omega : i.toNat ≤ 255)
      rw [hx0]; linarith
    have hxpos : 0 < x0 := by linarith
    have hlast : Rel (36 * w32) (x0 ^ (B * G)) x0 := rpow_near_one hx1 hx2 hBG
    have hrange : 1 / 1000 ≤ x0 ^ (B * G) ∧ x0 ^ (B * G) ≤ 2 := by
      have h1 := hlast.le hxpos.le (by rw [w32_val]; norm_num)
      have h2 := hlast.ge hxpos.le
      rw [w32_val] at h1 h2
      constructor <;> linarith
    have m5 := m4'.pow32 hG lpos (by linarith) (by rw [← hGdef, e2]; exact mid_of (by linarith) (by linarith))
      (by
        have hs : wpow32 + 3 * w32 * B + 13 * w32 ≤ 1 / 2 := by rw [wpow32_val, w32_val]; linarith
        rw [← hGdef]
        have := mul_le_mul hs hG2 (by linarith) (by norm_num : (0 : ℝ) ≤ 1 / 2)
        linarith)
    rw [← hGdef, e2] at m5
    have m6 : Approx (wpow32 + (wpow32 + 3 * w32 * B + 13 * w32) * G + 36 * w32) _ x0 := ⟨m5.fin, m5.rel.trans hlast⟩
    have hk : wpow32 + (wpow32 + 3 * w32 * B + 13 * w32) * G + 36 * w32 ≤ 13 / 1000000 := by
      have : (wpow32 + 3 * w32 * B + 13 * w32) * G = wpow32 * G + 3 * w32 * (B * G) + 13 * w32 * G := by ring
      rw [this, wpow32_val, w32_val]
      linarith
    have m7 := (m6.mono hk).mul32 h256 (mid_of (by linarith) (by linarith)) (by rw [w32_val]; norm_num)
    exact m7.toU8 (by rw [w32_val]; norm_num)

/-- a channel on its way to the internal form and back -/
theorem channel_rounded {γ W a A : F} (h : UsualGamma γ) (hW : Weight W) (hA : Weight A) (ha : fin a)
    (ha1 : 1 / 300 ≤ val a) (ha2 : val a ≤ 2) (i : UInt8) :
    toU8 (pow32 (A /₃ W *₃ (gammaLut γ i *₃ W *₃ a) /₃ (a *₃ A)) (to32 (γ /₆ internalGamma)) *₃ lit32 256) = i :=
  channel_alike h hW hA ha ha1 ha2 i (fun hf => (Approx.exact hf).mono (by rw [w32_val]; norm_num))
    (fun hf => (Approx.exact hf).mono (by rw [w32_val]; norm_num))

end Verif
