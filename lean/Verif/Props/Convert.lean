import Verif.Lemmas.Convert
import Verif.Spec.Posterize
import Verif.Model.Quant
import Mathlib.Data.Fintype.Basic
import Mathlib.Tactic.IntervalCases

/-! # Properties C07, C40, C41: 8-bit conversion, posterization, transparent entries -/

set_option linter.unusedSectionVars false

namespace Verif
open Flt Spec PalF

/-! ## C07 8-bit round trip (exact arithmetic) -/

/-- **C07** (exact). For every gamma and every colour: a visible colour comes back unchanged, an invisible one
comes back as transparent black. -/
theorem C07_roundtrip {γ : ℝ} (hγ : 0 < γ) (c : RGBA) :
    (FPixel.fromRgba (gammaLut γ) c).toRgb γ = if c.a = 0 then ⟨0, 0, 0, 0⟩ else c := by
  split
  next h => rw [fromRgba_transparent _ _ h, toRgb_transparent]
  next h => exact toRgb_fromRgba hγ c h

/-- **C07** (exact). Internal colours are equal exactly if the 8-bit colours are equal or both invisible. -/
theorem C07_distinct {γ : ℝ} (hγ : 0 < γ) (c d : RGBA) :
    FPixel.fromRgba (gammaLut γ) c = FPixel.fromRgba (gammaLut γ) d ↔ c = d ∨ (c.a = 0 ∧ d.a = 0) := by
  refine ⟨fromRgba_inj hγ, ?_⟩
  rintro (rfl | ⟨h1, h2⟩)
  · rfl
  · rw [fromRgba_transparent _ _ h1, fromRgba_transparent _ _ h2]

/-- **C07** (exact). Internal channels stay in range: alpha in `[0, 0.625]`, premultiplied channels below
`weight * alpha / 0.625`. -/
theorem C07_range {γ : ℝ} (hγ : 0 < γ) (c : RGBA) :
    let p := FPixel.fromRgba (gammaLut γ) c
    (0 ≤ p.a ∧ p.a ≤ 5/8) ∧ (0 ≤ p.r ∧ p.r ≤ 4/5 * p.a) ∧ (0 ≤ p.g ∧ p.g ≤ 8/5 * p.a) ∧ (0 ≤ p.b ∧ p.b ≤ 18/25 * p.a) := by
  have ha : (c.a.toNat : ℝ) ≤ 255 := by have := c.a.toNat_lt; exact_mod_cast (by omega : c.a.toNat ≤ 255)
  have ha0 : (0 : ℝ) ≤ c.a.toNat := by positivity
  have hr := gammaLut_nonneg γ c.r
  have hr1 := gammaLut_le_one hγ c.r
  have hg := gammaLut_nonneg γ c.g
  have hg1 := gammaLut_le_one hγ c.g
  have hb := gammaLut_nonneg γ c.b
  have hb1 := gammaLut_le_one hγ c.b
  simp only [FPixel.fromRgba, weightA, weightR, weightG, weightB, real_lit32, real_mul32, real_div32]
  push_cast
  set A : ℝ := (c.a.toNat : ℝ) / 255 with hA
  have hA0 : 0 ≤ A := by positivity
  have hA1 : A ≤ 1 := by rw [hA]; linarith
  refine ⟨⟨by linarith, by linarith⟩, ⟨by positivity, ?_⟩, ⟨by positivity, ?_⟩, ⟨by positivity, ?_⟩⟩
  · nlinarith [mul_le_mul_of_nonneg_right hr1 hA0]
  · nlinarith [mul_le_mul_of_nonneg_right hg1 hA0]
  · nlinarith [mul_le_mul_of_nonneg_right hb1 hA0]

example : (FPixel.fromRgba (gammaLut (0.45455 : ℝ)) ⟨12, 200, 255, 1⟩).toRgb 0.45455 = ⟨12, 200, 255, 1⟩ := by
  rw [C07_roundtrip (by norm_num)]; rfl

/-! ## C40 output posterization -/

theorem posterize_table : ∀ b ∈ List.range 5, ∀ n ∈ List.range 256,
    Posterized b (posterizeChannel (UInt8.ofNat n) (UInt8.ofNat b)).toNat ∧
    (posterizeChannel (UInt8.ofNat n) (UInt8.ofNat b)).toNat / 2 ^ b = n / 2 ^ b := by decide +kernel

theorem posterize_fixed_table : ∀ b ∈ List.range 5, ∀ n ∈ List.range 256,
    Posterized b n → (posterizeChannel (UInt8.ofNat n) (UInt8.ofNat b)).toNat = n := by decide +kernel

theorem posterize_mono_table : ∀ b ∈ List.range 5, ∀ n ∈ List.range 255,
    (posterizeChannel (UInt8.ofNat n) (UInt8.ofNat b)).toNat ≤
      (posterizeChannel (UInt8.ofNat (n + 1)) (UInt8.ofNat b)).toNat := by decide +kernel

theorem posterize_count_table : ∀ b ∈ List.range 5,
    ((List.range 256).filter fun v => decide (Posterized b v)).length = 2 ^ (8 - b) := by decide +kernel

/-- **C40**. For every channel value and every accepted posterization: the result is a posterized value that keeps
the top bits (so it differs by less than `2^b`), there are `2^(8-b)` posterized values, they are left alone
(idempotence), 0 and 255 among them. -/
theorem C40_posterize_channel (c : UInt8) {b : ℕ} (hb : b ≤ 4) :
    let v := (posterizeChannel c (UInt8.ofNat b)).toNat
    Posterized b v ∧ v / 2 ^ b = c.toNat / 2 ^ b ∧ (v < c.toNat + 2 ^ b ∧ c.toNat < v + 2 ^ b) ∧
    (Posterized b c.toNat → v = c.toNat) ∧ Posterized b 0 ∧ Posterized b 255 ∧
    ((List.range 256).filter fun v => decide (Posterized b v)).length = 2 ^ (8 - b) := by
  have hc := c.toNat_lt
  have h1 := posterize_table b (by simp; omega) c.toNat (by simp; omega)
  have h2 := posterize_fixed_table b (by simp; omega) c.toNat (by simp; omega)
  have h3 := posterize_count_table b (by simp; omega)
  rw [UInt8.ofNat_toNat] at h1 h2
  refine ⟨h1.1, h1.2, ?_, h2, ?_, ?_, h3⟩
  · have e := h1.2
    generalize (posterizeChannel c (UInt8.ofNat b)).toNat = v at e
    have hp : 0 < 2 ^ b := by positivity
    have := Nat.div_add_mod v (2 ^ b)
    have := Nat.div_add_mod c.toNat (2 ^ b)
    have := Nat.mod_lt v hp
    have := Nat.mod_lt c.toNat hp
    rw [e] at *
    omega
  all_goals interval_cases b <;> decide

/-- **C40**. Posterization is monotone. -/
theorem C40_posterize_mono {c d : UInt8} (h : c ≤ d) {b : ℕ} (hb : b ≤ 4) :
    posterizeChannel c (UInt8.ofNat b) ≤ posterizeChannel d (UInt8.ofNat b) := by
  have hd := d.toNat_lt
  have h' : c.toNat ≤ d.toNat := h
  have key : ∀ k n, n + k < 256 → (posterizeChannel (UInt8.ofNat n) (UInt8.ofNat b)).toNat ≤
      (posterizeChannel (UInt8.ofNat (n + k)) (UInt8.ofNat b)).toNat := by
    intro k
    induction k with
    | zero => intro n _; exact le_rfl
    | succ k ih =>
      intro n hn
      refine (ih n (by omega)).trans ?_
      exact posterize_mono_table b (by simp; omega) (n + k) (by simp; omega)
  have := key (d.toNat - c.toNat) c.toNat (by omega)
  rw [Nat.add_sub_cancel' h', UInt8.ofNat_toNat, UInt8.ofNat_toNat] at this
  exact this

variable {F : Type} [Flt F]

/-- all channels of a colour are posterized -/
def PosterizedColor (b : ℕ) (c : RGBA) : Prop :=
  Posterized b c.r.toNat ∧ Posterized b c.g.toNat ∧ Posterized b c.b.toNat ∧ Posterized b c.a.toNat

/-- **C40** (any float arithmetic), `_partial`: every reported entry is posterized unless it is the transparent one.
The full statement (every entry) fails, see `C40_transparent_not_posterized`. -/
theorem C40_palette_partial (p : PalF F) (gamma : F) {b : ℕ} (hb : b ≤ 4) :
    ∀ c ∈ (p.initIntPalette gamma (UInt8.ofNat b)).2, PosterizedColor b c ∨ c = ⟨71, 112, 76, 0⟩ := by
  intro c hc
  simp only [initIntPalette, List.mem_map] at hc
  obtain ⟨e, -, rfl⟩ := hc
  unfold roundEntry
  dsimp only
  have hp : ∀ x : UInt8, Posterized b (posterizeChannel x (UInt8.ofNat b)).toNat :=
    fun x => (C40_posterize_channel x hb).1
  split
  next h =>
    right
    have h1 := h.1
    simp only [RGBA.map] at h1 ⊢
    rw [h1]
  · exact Or.inl ⟨hp _, hp _, hp _, hp _⟩

/-- **C40**: the full statement fails: a transparent entry that is not fixed is reported with channels that are not
posterized (here with posterization 4). -/
theorem C40_transparent_not_posterized :
    ∃ (p : PalF ℝ) (gamma : ℝ), ¬ ∀ c ∈ (p.initIntPalette gamma (UInt8.ofNat 4)).2, PosterizedColor 4 c := by
  refine ⟨[⟨⟨0, 0, 0, 0⟩, ⟨1⟩⟩], 1, ?_⟩
  intro h
  have := h ⟨71, 112, 76, 0⟩ ?_
  · revert this; unfold PosterizedColor; decide
  · simp only [initIntPalette, List.map_cons, List.map_nil, List.mem_singleton, roundEntry, toRgb_transparent]
    rw [if_pos]
    · rfl
    · refine ⟨rfl, ?_⟩
      simp [PalPop.isFixed, zero]

/-! ## C41 transparent entries -/

/-- **C41** (exact), `_partial`: without posterization, or for entries that are not fixed, an entry reported with
alpha 0 is `(71,112,76,0)`, or `(0,0,0,0)` if it is fixed. -/
theorem C41_transparent_partial (p : PalF ℝ) (gamma : ℝ) {b : ℕ} (i : ℕ) (e : PalEntry ℝ) (c : RGBA)
    (hp : p[i]? = some e) (hc : (p.initIntPalette gamma (UInt8.ofNat b)).2[i]? = some c) (ha : c.a = 0)
    (hb : b = 0 ∨ e.pop.isFixed = false) :
    c = if e.pop.isFixed then ⟨0, 0, 0, 0⟩ else ⟨71, 112, 76, 0⟩ := by
  simp only [initIntPalette, List.getElem?_map, hp, Option.map_some, Option.some.injEq] at hc
  subst hc
  cases hf : e.pop.isFixed with
  | false =>
    simp only [roundEntry, hf, Bool.false_eq_true, not_false_eq_true, and_true] at ha ⊢
    split at ha
    next h => simp only [h, if_true, if_false]
    next h => exact absurd ha h
  | true =>
    have hb0 : b = 0 := by rcases hb with h | h; exact h; rw [hf] at h; cases h
    subst hb0
    have e0 : ∀ x : RGBA, x.map (fun c => posterizeChannel c (UInt8.ofNat 0)) = x := by
      intro x; rfl
    simp only [roundEntry, hf, not_true_eq_false, and_false, if_false, if_true, e0] at ha ⊢
    unfold FPixel.toRgb at ha ⊢
    split at ha
    next h => rw [if_pos h]
    next h =>
      exfalso
      simp only [minOpaqueA, weightA, real_lit32, real_div32, real_mul32] at h ha
      simp only [real_lt, not_lt] at h
      have h1 : (1 : ℝ) ≤ ((256 : ℚ) : ℝ) / ((5 / 8 : ℚ) : ℝ) * e.color.a := by
        push_cast at h ⊢; linarith
      have h2 : 1 ≤ ⌊((256 : ℚ) : ℝ) / ((5 / 8 : ℚ) : ℝ) * e.color.a⌋₊ := Nat.le_floor (by exact_mod_cast h1)
      have h3 : (UInt8.ofNat (Nat.min 255 ⌊((256 : ℚ) : ℝ) / ((5 / 8 : ℚ) : ℝ) * e.color.a⌋₊)).toNat = 0 := by
        rw [show UInt8.ofNat (Nat.min 255 ⌊((256 : ℚ) : ℝ) / ((5 / 8 : ℚ) : ℝ) * e.color.a⌋₊) = 0 from ha]; rfl
      rw [UInt8.toNat_ofNat_of_lt' (lt_of_le_of_lt (Nat.min_le_left _ _) (by decide))] at h3
      have : min 255 ⌊((256 : ℚ) : ℝ) / ((5 / 8 : ℚ) : ℝ) * e.color.a⌋₊ = 0 := h3
      omega

/-- **C41**: the full statement fails with posterization: a fixed, almost transparent entry is reported with alpha 0
and its own colour. -/
theorem C41_fixed_posterized_not_canonical :
    ∃ (p : PalF ℝ) (gamma : ℝ) (c : RGBA), c ∈ (p.initIntPalette gamma (UInt8.ofNat 4)).2 ∧ c.a = 0 ∧
      c ≠ ⟨71, 112, 76, 0⟩ ∧ c ≠ ⟨0, 0, 0, 0⟩ := by
  refine ⟨[⟨FPixel.fromRgba (gammaLut 1) ⟨204, 204, 204, 1⟩, ⟨-1⟩⟩], 1, ⟨204, 204, 204, 0⟩, ?_, rfl, by decide, by decide⟩
  simp only [initIntPalette, List.map_cons, List.map_nil, List.mem_singleton, roundEntry]
  rw [toRgb_fromRgba one_pos _ (by decide), if_neg]
  · decide
  · rintro ⟨-, h⟩
    apply h
    simp [PalPop.isFixed, zero]

/-- **C41** (exact). Fully transparent pixels of any RGB are one internal colour, and one histogram entry. -/
theorem C41_transparent_pixels_equal (lut : UInt8 → ℝ) (h : Histogram F) (c d : RGBA) (hc : c.a = 0) (hd : d.a = 0) :
    FPixel.fromRgba lut c = FPixel.fromRgba lut d ∧
    (∀ n m, 0 < n → 0 < m → ((h.addColor c n).addColor d m).hashmap.map (·.1) = ((h.addColor c n).hashmap).map (·.1)) := by
  refine ⟨by rw [fromRgba_transparent _ _ hc, fromRgba_transparent _ _ hd], ?_⟩
  intro n m hn hm
  simp only [Histogram.addColor, if_neg (Nat.pos_iff_ne_zero.1 hn), if_neg (Nat.pos_iff_ne_zero.1 hm), hc, hd,
    ne_eq, not_true_eq_false, if_false]
  generalize h.hashmap = l
  induction l with
  | nil => simp [ColorMap.upsert]
  | cons x xs ih =>
    obtain ⟨k, v⟩ := x
    by_cases hk : k = ⟨0, 0, 0, 0⟩
    · simp [ColorMap.upsert, hk]
    · simp only [ColorMap.upsert, hk, if_false, List.map_cons, List.cons.injEq, true_and]
      exact ih

end Verif
