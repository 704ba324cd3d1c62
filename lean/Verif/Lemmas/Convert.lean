import Verif.Model.Pal
import Mathlib.Tactic.Linarith
import Mathlib.Tactic.FieldSimp

/-! Conversion between 8-bit and internal colours in exact arithmetic. -/

namespace Verif
open Flt

theorem toU8_scaled (n : UInt8) : (toU8 ((n.toNat : ℝ) / 255 * 256) : UInt8) = n := by
  have hn : n.toNat < 256 := n.toNat_lt
  show UInt8.ofNat (Nat.min 255 ⌊(n.toNat : ℝ) / 255 * 256⌋₊) = n
  have key : Nat.min 255 ⌊(n.toNat : ℝ) / 255 * 256⌋₊ = n.toNat := by
    by_cases h : n.toNat = 255
    · rw [h]
      refine min_eq_left (Nat.le_floor ?_)
      norm_num
    · have h254 : n.toNat ≤ 254 := by omega
      have : ⌊(n.toNat : ℝ) / 255 * 256⌋₊ = n.toNat := by
        rw [Nat.floor_eq_iff (by positivity)]
        have h1 : (n.toNat : ℝ) ≤ 254 := by exact_mod_cast h254
        have h0 : (0 : ℝ) ≤ n.toNat := by positivity
        constructor <;> linarith
      rw [this]
      exact min_eq_right (by omega)
  rw [key]
  exact UInt8.ofNat_toNat

theorem gammaLut_real (γ : ℝ) (i : UInt8) : gammaLut γ i = ((i.toNat : ℝ) / 255) ^ ((57 / 100 : ℝ) / γ) := by
  simp [gammaLut, internalGamma]

theorem gammaLut_nonneg (γ : ℝ) (i : UInt8) : 0 ≤ gammaLut γ i := by
  rw [gammaLut_real]; positivity

theorem gammaLut_le_one {γ : ℝ} (hγ : 0 < γ) (i : UInt8) : gammaLut γ i ≤ 1 := by
  rw [gammaLut_real]
  have : (i.toNat : ℝ) ≤ 255 := by have := i.toNat_lt; exact_mod_cast (by omega : i.toNat ≤ 255)
  apply Real.rpow_le_one (by positivity) (by linarith) (by positivity)

/-- the inverse power undoes the table -/
theorem channel_back {γ : ℝ} (hγ : 0 < γ) (i : UInt8) :
    (toU8 ((gammaLut γ i) ^ (γ / (57 / 100 : ℝ)) * 256) : UInt8) = i := by
  rw [gammaLut_real, ← Real.rpow_mul (by positivity)]
  have : (57 / 100 : ℝ) / γ * (γ / (57 / 100)) = 1 := by field_simp
  rw [this, Real.rpow_one]
  exact toU8_scaled i

theorem toRgb_fromRgba {γ : ℝ} (hγ : 0 < γ) (c : RGBA) (ha : c.a ≠ 0) :
    (FPixel.fromRgba (gammaLut γ) c).toRgb γ = c := by
  have hpos : (0 : ℝ) < c.a.toNat := by
    have : c.a.toNat ≠ 0 := fun h => ha (by rw [← UInt8.toNat_inj, h]; rfl)
    exact_mod_cast Nat.pos_of_ne_zero this
  have h1 : (1 : ℝ) ≤ c.a.toNat := by exact_mod_cast (by exact_mod_cast hpos : 0 < c.a.toNat)
  have hneg : ¬ lt (FPixel.fromRgba (gammaLut γ) c).a minOpaqueA = true := by
    simp only [FPixel.fromRgba, minOpaqueA, weightA, real_lit32, real_mul32, real_div32, real_lt, not_lt]
    push_cast
    linarith
  unfold FPixel.toRgb
  rw [if_neg hneg]
  simp only [FPixel.fromRgba, weightA, weightR, weightG, weightB, internalGamma, real_lit32, real_lit64, real_mul32, real_div32,
    real_div64, real_to32, real_pow32]
  have e1 : (((5 / 8 : ℚ) : ℝ) / ((1 / 2 : ℚ) : ℝ) * (gammaLut γ c.r * ((1 / 2 : ℚ) : ℝ) * (((c.a.toNat : ℚ) : ℝ) / ((255 : ℚ) : ℝ))) /
      (((c.a.toNat : ℚ) : ℝ) / ((255 : ℚ) : ℝ) * ((5 / 8 : ℚ) : ℝ))) = gammaLut γ c.r := by
    push_cast; field_simp
  have e2 : (((5 / 8 : ℚ) : ℝ) / ((1 : ℚ) : ℝ) * (gammaLut γ c.g * ((1 : ℚ) : ℝ) * (((c.a.toNat : ℚ) : ℝ) / ((255 : ℚ) : ℝ))) /
      (((c.a.toNat : ℚ) : ℝ) / ((255 : ℚ) : ℝ) * ((5 / 8 : ℚ) : ℝ))) = gammaLut γ c.g := by
    push_cast; field_simp
  have e3 : (((5 / 8 : ℚ) : ℝ) / ((45 / 100 : ℚ) : ℝ) * (gammaLut γ c.b * ((45 / 100 : ℚ) : ℝ) * (((c.a.toNat : ℚ) : ℝ) / ((255 : ℚ) : ℝ))) /
      (((c.a.toNat : ℚ) : ℝ) / ((255 : ℚ) : ℝ) * ((5 / 8 : ℚ) : ℝ))) = gammaLut γ c.b := by
    push_cast; field_simp
  have e4 : (((256 : ℚ) : ℝ) / ((5 / 8 : ℚ) : ℝ) * ((((c.a.toNat : ℚ) : ℝ) / ((255 : ℚ) : ℝ) * ((5 / 8 : ℚ) : ℝ)))) =
      (c.a.toNat : ℝ) / 255 * 256 := by
    push_cast; field_simp
  rw [e1, e2, e3, e4, toU8_scaled]
  have e5 : γ / ((57 / 100 : ℚ) : ℝ) = γ / (57 / 100 : ℝ) := by push_cast; rfl
  have e6 : ((256 : ℚ) : ℝ) = 256 := by norm_num
  rw [e5, e6]
  simp only [channel_back hγ]

theorem fromRgba_transparent (lut : UInt8 → ℝ) (c : RGBA) (ha : c.a = 0) :
    FPixel.fromRgba lut c = ⟨0, 0, 0, 0⟩ := by
  simp [FPixel.fromRgba, ha]

theorem toRgb_transparent (γ : ℝ) : (⟨0, 0, 0, 0⟩ : FPixel ℝ).toRgb γ = ⟨0, 0, 0, 0⟩ := by
  unfold FPixel.toRgb
  rw [if_pos]
  simp [minOpaqueA, weightA]

theorem fromRgba_alpha_pos (lut : UInt8 → ℝ) (c : RGBA) (ha : c.a ≠ 0) : 0 < (FPixel.fromRgba lut c).a := by
  have hpos : (0 : ℝ) < c.a.toNat := by
    have : c.a.toNat ≠ 0 := fun h => ha (by rw [← UInt8.toNat_inj, h]; rfl)
    exact_mod_cast Nat.pos_of_ne_zero this
  simp only [FPixel.fromRgba, weightA, real_lit32, real_mul32, real_div32]
  push_cast
  positivity

/-- two 8-bit colours that the library treats as the same colour -/
theorem fromRgba_inj {γ : ℝ} (hγ : 0 < γ) {c d : RGBA} (h : FPixel.fromRgba (gammaLut γ) c = FPixel.fromRgba (gammaLut γ) d) :
    c = d ∨ (c.a = 0 ∧ d.a = 0) := by
  by_cases hc : c.a = 0 <;> by_cases hd : d.a = 0
  · exact Or.inr ⟨hc, hd⟩
  · have := fromRgba_alpha_pos (gammaLut γ) d hd
    rw [← h, fromRgba_transparent _ c hc] at this
    exact absurd this (lt_irrefl _)
  · have := fromRgba_alpha_pos (gammaLut γ) c hc
    rw [h, fromRgba_transparent _ d hd] at this
    exact absurd this (lt_irrefl _)
  · left
    rw [← toRgb_fromRgba hγ c hc, h, toRgb_fromRgba hγ d hd]

end Verif
