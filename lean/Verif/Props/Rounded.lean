import Verif.Lemmas.RoundedQuality
import Verif.Props.Settings
import Mathlib.Tactic.Linarith

/-! # Properties C07, C12 and C13 with rounding -/

set_option linter.unusedSectionVars false

namespace Verif
open Flt Spec

variable {F : Type} [Flt F] [FltRound F]
open FltRound (val fin)

theorem weightA_weight : Weight (weightA : F) := weight_lit (by norm_num) (by norm_num)
theorem weightR_weight : Weight (weightR : F) := weight_lit (by norm_num) (by norm_num)
theorem weightG_weight : Weight (weightG : F) := weight_lit (by norm_num) (by norm_num)
theorem weightB_weight : Weight (weightB : F) := weight_lit (by norm_num) (by norm_num)

theorem approx_nat {n : ℕ} (h1 : 1 ≤ n) (h2 : n ≤ 1000) : Approx w32 (lit32 (n : ℚ) : F) (n : ℝ) := by
  have e : (((n : ℚ)) : ℝ) = n := by norm_num
  have h1' : (1 : ℝ) ≤ n := by exact_mod_cast h1
  have h2' : (n : ℝ) ≤ 1000 := by exact_mod_cast h2
  have := Approx.lit32 (F := F) (q := n) (by rw [e]; exact mid_of (by linarith) (by linarith))
  rwa [e] at this

theorem minOpaqueA_rounded : Approx (4 * w32) (minOpaqueA : F) (1 / 256 * val (weightA : F)) := by
  have hA := weightA_weight (F := F)
  have h1 := approx_nat (F := F) (n := 1) (by norm_num) (by norm_num)
  have h2 := approx_nat (F := F) (n := 256) (by norm_num) (by norm_num)
  push_cast at h1 h2
  have A1 := hA.lo
  have A2 := hA.hi
  have h3 := h1.div32 h2 (by norm_num) (mid_of (by norm_num) (by norm_num)) (by rw [w32_val]; norm_num)
  exact (h3.mul32 (Approx.exact hA.fin) (mid_of (by linarith) (by linarith)) (by rw [w32_val]; norm_num)).mono
    (by rw [w32_val]; norm_num)

/-- `x` is `y` up to a factor `exp (±k)` in each channel -/
structure FPixel.Alike (k : ℝ) (x y : FPixel F) : Prop where
  a : Approx k x.a (val y.a)
  r : Approx k x.r (val y.r)
  g : Approx k x.g (val y.g)
  b : Approx k x.b (val y.b)

/-- the opacity of a converted colour that is not transparent -/
theorem fromRgba_alpha {γ : F} {c : RGBA} (hz : c.a ≠ 0) :
    Approx (4 * w32) (FPixel.fromRgba (gammaLut γ) c).a ((c.a.toNat : ℝ) / 255 * val (weightA : F)) := by
  have hA := weightA_weight (F := F)
  have A1 := hA.lo
  have A2 := hA.hi
  have h255 := approx_nat (F := F) (n := 255) (by norm_num) (by norm_num)
  push_cast at h255
  have h1 : 1 ≤ c.a.toNat := by
    have : c.a.toNat ≠ 0 := fun h => hz (by rw [← UInt8.toNat_inj, h]; rfl)
    omega
  have hn := approx_nat (F := F) (n := c.a.toNat) h1 (by have := c.a.toNat_lt; omega)
  have h1' : (1 : ℝ) ≤ c.a.toNat := by exact_mod_cast h1
  have h2' : (c.a.toNat : ℝ) ≤ 255 := by have := c.a.toNat_lt; exact_mod_cast (by omega : c.a.toNat ≤ 255)
  have ha := hn.div32 h255 (by norm_num) (mid_of (by linarith) (by linarith)) (by rw [w32_val]; norm_num)
  have hlow : 1 / 255 * (1 / 4) ≤ (c.a.toNat : ℝ) / 255 * val (weightA : F) :=
    mul_le_mul (by linarith) A1 (by norm_num) (by linarith)
  have hhigh : (c.a.toNat : ℝ) / 255 * val (weightA : F) ≤ 1 * 2 :=
    mul_le_mul (by linarith) A2 (by linarith) (by norm_num)
  exact (ha.mul32 (Approx.exact hA.fin) (mid_of (by linarith) (by linarith)) (by rw [w32_val]; norm_num)).mono
    (by rw [w32_val]; norm_num)

/-- a colour that was changed a little on the way comes back as it was -/
theorem toRgb_alike {γ : F} (h : UsualGamma γ) {c : RGBA} (hz : c.a ≠ 0) {x : FPixel F}
    (hx : x.Alike (3 * w32) (FPixel.fromRgba (gammaLut γ) c)) : x.toRgb γ = c := by
  have hA := weightA_weight (F := F)
  have A1 := hA.lo
  have A2 := hA.hi
  have hm := minOpaqueA_rounded (F := F)
  have h255 := approx_nat (F := F) (n := 255) (by norm_num) (by norm_num)
  have h256 := approx_nat (F := F) (n := 256) (by norm_num) (by norm_num)
  push_cast at h255 h256
  have h1 : 1 ≤ c.a.toNat := by
    have : c.a.toNat ≠ 0 := fun h => hz (by rw [← UInt8.toNat_inj, h]; rfl)
    omega
  have hn := approx_nat (F := F) (n := c.a.toNat) h1 (by have := c.a.toNat_lt; omega)
  have h1' : (1 : ℝ) ≤ c.a.toNat := by exact_mod_cast h1
  have h2' : (c.a.toNat : ℝ) ≤ 255 := by have := c.a.toNat_lt; exact_mod_cast (by omega : c.a.toNat ≤ 255)
  have ha := hn.div32 h255 (by norm_num) (mid_of (by linarith) (by linarith)) (by rw [w32_val]; norm_num)
  have hlow : 1 / 255 * (1 / 4) ≤ (c.a.toNat : ℝ) / 255 * val (weightA : F) :=
    mul_le_mul (by linarith) A1 (by norm_num) (by linarith)
  have hhigh : (c.a.toNat : ℝ) / 255 * val (weightA : F) ≤ 1 * 2 :=
    mul_le_mul (by linarith) A2 (by linarith) (by norm_num)
  have hxa : Approx (7 * w32) x.a ((c.a.toNat : ℝ) / 255 * val (weightA : F)) :=
    ⟨hx.a.fin, (hx.a.rel.trans (fromRgba_alpha hz).rel).mono (by linarith)⟩
  unfold FPixel.toRgb
  rw [if_neg]
  · have ha1 := ha.rel.ge (by linarith)
    have ha2 := ha.rel.le (by linarith) (by rw [w32_val]; norm_num)
    rw [w32_val] at ha1 ha2
    have hch := fun (W : F) (hW : Weight W) (i : UInt8) (X : F)
        (hX : Approx (3 * w32) X (val (gammaLut γ i *₃ W *₃ (lit32 (c.a.toNat : ℚ) /₃ lit32 255)))) =>
      channel_alike h hW hA ha.fin (by linarith) (by linarith) i (fun _ => hX) (fun _ => hx.a)
    have halpha : toU8 (lit32 256 /₃ weightA *₃ x.a) = c.a := by
      have q1 : 1 ≤ 256 / val (weightA : F) := by rw [le_div_iff₀ (by linarith)]; linarith
      have q2 : 256 / val (weightA : F) ≤ 1024 := by rw [div_le_iff₀ (by linarith)]; linarith
      have hq := h256.div32 (Approx.exact hA.fin) (by linarith) (mid_of (by linarith) (by linarith))
        (by rw [w32_val]; norm_num)
      have e : 256 / val (weightA : F) * ((c.a.toNat : ℝ) / 255 * val (weightA : F)) = (c.a.toNat : ℝ) / 255 * 256 := by
        have : val (weightA : F) ≠ 0 := by linarith
        field_simp
      have hr := hq.mul32 hxa (by rw [e]; exact mid_of (by linarith) (by linarith)) (by rw [w32_val]; norm_num)
      rw [e] at hr
      exact hr.toU8 (by rw [w32_val]; norm_num)
    show RGBA.mk _ _ _ _ = c
    have hr := hch _ weightR_weight c.r x.r hx.r
    have hg := hch _ weightG_weight c.g x.g hx.g
    have hb := hch _ weightB_weight c.b x.b hx.b
    rw [hr, hg, hb, halpha]
  · intro ht
    have h3 := hxa.rel.ge (by linarith)
    have h4 := hm.rel.le (by linarith) (by rw [w32_val]; norm_num)
    rw [w32_val] at h3 h4
    have h5 : 1 / 255 * val (weightA : F) ≤ (c.a.toNat : ℝ) / 255 * val (weightA : F) :=
      mul_le_mul_of_nonneg_right (by linarith) (by linarith)
    have h6 := (FltRound.lt _ _ hxa.fin hm.fin).1 ht
    nlinarith

/-- **C07** (rounded). Round trip with rounding errors in the table of levels, in the conversion and in the powers:
for every type of floats that obeys the usual error bounds, every gamma from 1/16 to 1 and every colour, a visible
colour comes back unchanged and an invisible one comes back as transparent black. -/
theorem C07_roundtrip_rounded {γ : F} (h : UsualGamma γ) (c : RGBA) :
    (FPixel.fromRgba (gammaLut γ) c).toRgb γ = if c.a = 0 then ⟨0, 0, 0, 0⟩ else c := by
  have hA := weightA_weight (F := F)
  have A1 := hA.lo
  have A2 := hA.hi
  have hm := minOpaqueA_rounded (F := F)
  have hmpos := hm.rel.ge (by linarith)
  have h255 := approx_nat (F := F) (n := 255) (by norm_num) (by norm_num)
  have h256 := approx_nat (F := F) (n := 256) (by norm_num) (by norm_num)
  push_cast at h255 h256
  unfold FPixel.toRgb
  split
  next ht =>
    have hz : c.a = 0 := by
      by_contra ha
      have h1 : 1 ≤ c.a.toNat := by
        have : c.a.toNat ≠ 0 := fun h => ha (by rw [← UInt8.toNat_inj, h]; rfl)
        omega
      have hn := approx_nat (F := F) (n := c.a.toNat) h1 (by have := c.a.toNat_lt; omega)
      have h1' : (1 : ℝ) ≤ c.a.toNat := by exact_mod_cast h1
      have h2' : (c.a.toNat : ℝ) ≤ 255 := by have := c.a.toNat_lt; exact_mod_cast (by omega : c.a.toNat ≤ 255)
      have ha := hn.div32 h255 (by norm_num) (mid_of (by linarith) (by linarith)) (by rw [w32_val]; norm_num)
      have hlow : 1 / 255 * (1 / 4) ≤ (c.a.toNat : ℝ) / 255 * val (weightA : F) :=
        mul_le_mul (by linarith) A1 (by norm_num) (by linarith)
      have hhigh : (c.a.toNat : ℝ) / 255 * val (weightA : F) ≤ 1 * 2 :=
        mul_le_mul (by linarith) A2 (by linarith) (by norm_num)
      have hp := ha.mul32 (Approx.exact hA.fin) (mid_of (by linarith) (by linarith)) (by rw [w32_val]; norm_num)
      have h3 := hp.rel.ge (by linarith)
      have h4 := hm.rel.le (by linarith) (by rw [w32_val]; norm_num)
      rw [w32_val] at h3 h4
      have h5 : 1 / 255 * val (weightA : F) ≤ (c.a.toNat : ℝ) / 255 * val (weightA : F) :=
        mul_le_mul_of_nonneg_right (by linarith) (by linarith)
      have h6 := (FltRound.lt _ _ hp.fin hm.fin).1 ht
      nlinarith
    rw [if_pos hz]
  next ht =>
    have hz : c.a ≠ 0 := by
      intro ha
      apply ht
      have z0 : IsZero (lit32 (c.a.toNat : ℚ) : F) := by
        have : ((c.a.toNat : ℕ) : ℚ) = 0 := by rw [ha]; norm_num
        rw [this]; exact IsZero.lit32
      have z1 := (z0.div32 h255.fin (h255.rel.pos (by norm_num)).ne').mul32 hA.fin
      refine (FltRound.lt _ _ z1.fin hm.fin).2 ?_
      rw [z1.zero]
      rw [w32_val] at hmpos
      linarith
    rw [if_neg hz]
    have h1 : 1 ≤ c.a.toNat := by
      have : c.a.toNat ≠ 0 := fun h => hz (by rw [← UInt8.toNat_inj, h]; rfl)
      omega
    have hn := approx_nat (F := F) (n := c.a.toNat) h1 (by have := c.a.toNat_lt; omega)
    have h1' : (1 : ℝ) ≤ c.a.toNat := by exact_mod_cast h1
    have h2' : (c.a.toNat : ℝ) ≤ 255 := by have := c.a.toNat_lt; exact_mod_cast (by omega : c.a.toNat ≤ 255)
    have ha := hn.div32 h255 (by norm_num) (mid_of (by linarith) (by linarith)) (by rw [w32_val]; norm_num)
    have ha1 := ha.rel.ge (by linarith)
    have ha2 := ha.rel.le (by linarith) (by rw [w32_val]; norm_num)
    rw [w32_val] at ha1 ha2
    have hch := fun (W : F) (hW : Weight W) (i : UInt8) =>
      channel_rounded h hW hA ha.fin (by linarith) (by linarith) i
    have halpha : toU8 (lit32 256 /₃ weightA *₃ (lit32 (c.a.toNat : ℚ) /₃ lit32 255 *₃ (weightA : F))) = c.a := by
      have q1 : 1 ≤ 256 / val (weightA : F) := by rw [le_div_iff₀ (by linarith)]; linarith
      have q2 : 256 / val (weightA : F) ≤ 1024 := by rw [div_le_iff₀ (by linarith)]; linarith
      have hq := h256.div32 (Approx.exact hA.fin) (by linarith) (mid_of (by linarith) (by linarith))
        (by rw [w32_val]; norm_num)
      have hlow : 1 / 255 * (1 / 4) ≤ (c.a.toNat : ℝ) / 255 * val (weightA : F) :=
        mul_le_mul (by linarith) A1 (by norm_num) (by linarith)
      have hhigh : (c.a.toNat : ℝ) / 255 * val (weightA : F) ≤ 1 * 2 :=
        mul_le_mul (by linarith) A2 (by linarith) (by norm_num)
      have hp := ha.mul32 (Approx.exact hA.fin) (mid_of (by linarith) (by linarith)) (by rw [w32_val]; norm_num)
      have e : 256 / val (weightA : F) * ((c.a.toNat : ℝ) / 255 * val (weightA : F)) = (c.a.toNat : ℝ) / 255 * 256 := by
        have : val (weightA : F) ≠ 0 := by linarith
        field_simp
      have hr := hq.mul32 hp (by rw [e]; exact mid_of (by linarith) (by linarith)) (by rw [w32_val]; norm_num)
      rw [e] at hr
      exact hr.toU8 (by rw [w32_val]; norm_num)
    show RGBA.mk _ _ _ _ = c
    have hr := hch _ weightR_weight c.r
    have hg := hch _ weightG_weight c.g
    have hb := hch _ weightB_weight c.b
    simp only [FPixel.fromRgba] at *
    rw [hr, hg, hb, halpha]

/-- **C07** (rounded). Different visible colours stay different inside, also with rounding. -/
theorem C07_distinct_rounded {γ : F} (h : UsualGamma γ) (c d : RGBA)
    (hcd : FPixel.fromRgba (gammaLut γ) c = FPixel.fromRgba (gammaLut γ) d) : c = d ∨ (c.a = 0 ∧ d.a = 0) := by
  have h1 := C07_roundtrip_rounded h c
  have h2 := C07_roundtrip_rounded h d
  rw [hcd, h2] at h1
  by_cases hc : c.a = 0 <;> by_cases hd : d.a = 0
  · exact Or.inr ⟨hc, hd⟩
  · rw [if_pos hc, if_neg hd] at h1
    rw [h1] at hd; exact absurd rfl hd
  · rw [if_neg hc, if_pos hd] at h1
    rw [← h1] at hc; exact absurd rfl hc
  · rw [if_neg hc, if_neg hd] at h1
    exact Or.inl h1.symm

/-- Rounding that is always off by half a unit in the last place, upwards. -/
noncomputable def roundUp : Rounding where
  r32 r := r * (1 + u32)
  r64 r := r * (1 + u64)
  ok32 r _ := by
    refine ⟨?_, fun h => by rw [h, zero_mul]⟩
    have e : r * (1 + u32) - r = u32 * r := by ring
    rw [e, abs_mul, abs_of_nonneg u32_nonneg]
    linarith [tiny32_nonneg]
  ok64 r _ := by
    refine ⟨?_, fun h => by rw [h, zero_mul]⟩
    have e : r * (1 + u64) - r = u64 * r := by ring
    rw [e, abs_mul, abs_of_nonneg u64_nonneg]
    linarith [tiny64_nonneg]

/-- the hypotheses are met by an arithmetic that is never exact, with gamma 0.45455 -/
example : (FPixel.fromRgba (gammaLut (⟨0.45455⟩ : RoundedReal roundUp)) ⟨12, 200, 255, 1⟩).toRgb ⟨0.45455⟩ = ⟨12, 200, 255, 1⟩ := by
  have hg : UsualGamma (⟨0.45455⟩ : RoundedReal roundUp) :=
    ⟨trivial, show (1 : ℝ) / 16 ≤ 0.45455 by norm_num, show (0.45455 : ℝ) ≤ 1 by norm_num⟩
  rw [C07_roundtrip_rounded hg]; rfl

/-! ## C12, C13 -/

/-- **C12** (rounded). `quality()` returns exactly the pair given to `set_quality`, for every valid pair, with rounding
errors in the curve, its power and the tolerance. -/
theorem C12_quality_roundtrip_rounded (a : Attr F) {m t : ℕ} (hmt : m ≤ t) (ht : t ≤ 100) :
    ∃ a', a.setQuality m t = .ok a' ∧ a'.quality = (m, t) := by
  refine ⟨_, if_neg (by omega), ?_⟩
  simp only [Attr.quality]
  rw [mseToQuality_limit_rounded ht, mseToQuality_limit_rounded (le_trans hmt ht)]

/-- **C12** (rounded). The limit that `set_quality` stores differs from the specified curve by at most `10⁻⁸`, and a
higher quality has a smaller limit by more than the tolerance `10⁻⁶` used when reading a quality back. -/
theorem C12_limit_rounded :
    (∀ q, 1 ≤ q → q ≤ 100 → |val (qualityToMse q : F) - qualityLimit q| ≤ 1 / 100000000) ∧
    ∀ p q, p < q → q ≤ 100 → lt (qualityToMse q +₆ lit64 (1/1000000) : F) (qualityToMse p) = true := by
  refine ⟨fun q h1 h => (qualityToMse_near h1 h).near, fun p q hpq hq => ?_⟩
  have hl := limitPlus_near (F := F) (q := q) (by omega) hq
  have h1 := abs_le.1 hl.near
  rcases Nat.eq_zero_or_pos p with rfl | hp
  · obtain ⟨h2, h3⟩ := qualityToMse_zero_rounded (F := F)
    have := qualityLimit_le (q := q) hpq
    exact (FltRound.lt _ _ hl.fin h2).2 (by linarith)
  · have hn := qualityToMse_near (F := F) (q := p) hp (by omega)
    have h2 := abs_le.1 hn.near
    have := qualityLimit_lt hpq hq
    exact (FltRound.lt _ _ hl.fin hn.fin).2 (by linarith)

/-- **C12** (rounded). The quality computed from a finite error is the largest one whose limit admits the error, up to a
tenth of the tolerance. -/
theorem C12_quality_of_error_rounded (mse : F) (h : fin mse) :
    mseToQuality mse ≤ 100 ∧
    (mseToQuality mse = 0 ∨ val mse ≤ qualityLimit (mseToQuality mse) + 11 / 10000000) ∧
    ∀ q, mseToQuality mse < q → q ≤ 100 → qualityLimit q + 9 / 10000000 < val mse := by
  have main : ∀ n, n ≤ 100 → mseToQualityFrom mse n ≤ n ∧
      (mseToQualityFrom mse n = 0 ∨ val mse ≤ qualityLimit (mseToQualityFrom mse n) + 11 / 10000000) ∧
      ∀ q, mseToQualityFrom mse n < q → q ≤ n → qualityLimit q + 9 / 10000000 < val mse := by
    intro n hn
    induction n with
    | zero => exact ⟨le_rfl, Or.inl rfl, fun q h1 h2 => by omega⟩
    | succ n ih =>
      obtain ⟨i1, i2, i3⟩ := ih (by omega)
      have hl := limitPlus_near (F := F) (q := n + 1) (by omega) hn
      have habs := abs_le.1 hl.near
      unfold mseToQualityFrom
      split
      next hle =>
        have := (FltRound.le _ _ h hl.fin).1 hle
        exact ⟨le_rfl, Or.inr (by linarith), fun q h1 h2 => by omega⟩
      next hle =>
        have h4 : ¬ _ := fun h' => hle ((FltRound.le _ _ h hl.fin).2 h')
        refine ⟨by omega, i2, fun q h1 h2 => ?_⟩
        rcases Nat.lt_or_ge n q with h3 | h3
        · obtain rfl : q = n + 1 := by omega
          linarith [not_le.1 h4]
        · exact i3 q h1 h3
  exact main 100 le_rfl

/-- **C13** (rounded). The whole register file including `quality()`: starting from a new handle, after any history of
setter calls the getters return what the specification says, and the next call is accepted exactly if it is in the
documented range. -/
theorem C13_settings_registers_rounded (cs : List Call) :
    ((Attr.new : Attr F).after cs).observe = Settings.default.after cs ∧
    ∀ c, (((Attr.new : Attr F).after cs).call c = .error (.err .valueOutOfRange) ∧
            (Settings.default.after cs).call c = none) ∨
         ∃ a', ((Attr.new : Attr F).after cs).call c = .ok a' ∧
            (Settings.default.after cs).call c = some a'.observe :=
  settings_registers_of (fun _ => mseToQuality_limit_rounded) cs

example : ∃ a', (Attr.new : Attr (RoundedReal roundUp)).setQuality 65 80 = .ok a' ∧ a'.quality = (65, 80) :=
  C12_quality_roundtrip_rounded _ (by norm_num) (by norm_num)

example : ((Attr.new : Attr (RoundedReal roundUp)).after [.quality 30 99, .speed 20, .maxColors 16]).observe =
    ⟨16, (30, 99), 4, 0⟩ := by
  rw [(C13_settings_registers_rounded _).1]; rfl

end Verif
