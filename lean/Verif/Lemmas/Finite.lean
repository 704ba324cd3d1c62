import Verif.Model.CorrectRound
import Verif.Model.Quant
import Verif.Lemmas.RoundedColor
import Verif.Lemmas.Hull

/-! Finite numbers in the palette search: colours in the unit interval and sums of weights that do not overflow. -/

set_option linter.unusedSectionVars false

namespace Verif
open Flt FltRound FltCorrect
open FltFull (r32_idem r64 r64_mono r64_nat lit64_eq add64_eq div64_eq to32_eq pow32_unit)

variable {F : Type} [Flt F] [FltFull F]

/-! ### Numbers -/

/-- a finite number that is not negative -/
structure NN (b : ℝ) (x : F) : Prop where
  fin : fin x
  lo : 0 ≤ val x
  hi : val x ≤ b

theorem NN.mono {a b : ℝ} {x : F} (h : NN a x) (hab : a ≤ b) : NN b x := ⟨h.fin, h.lo, h.hi.trans hab⟩

theorem NN.nonneg {a : ℝ} {x : F} (h : NN a x) : 0 ≤ a := h.lo.trans h.hi

theorem fits32_nn {a b : ℝ} (h0 : 0 ≤ a) (h : a ≤ b) (hb : b ≤ 2 ^ 127) : Fits32 a := by
  unfold Fits32; rw [abs_of_nonneg h0]; exact h.trans hb

theorem fits64_nn {a b : ℝ} (h0 : 0 ≤ a) (h : a ≤ b) (hb : b ≤ 2 ^ 127) : Fits64 a := by
  unfold Fits64; rw [abs_of_nonneg h0]
  exact (h.trans hb).trans (pow_le_pow_right₀ (by norm_num) (by norm_num))

theorem r64_le {e : ℝ} {n : ℕ} (hn : n ≤ 2 ^ 53) (h : e ≤ n) : r64 F e ≤ n := r64_nat (F := F) n hn ▸ r64_mono h

theorem r64_nonneg {e : ℝ} (h : 0 ≤ e) : 0 ≤ r64 F e := by
  have e0 := r64_nat (F := F) 0 (by norm_num)
  rw [Nat.cast_zero] at e0
  exact e0 ▸ r64_mono h

theorem r64_le_one {e : ℝ} (h : e ≤ 1) : r64 F e ≤ 1 := by
  have := r64_le (F := F) (n := 1) (by norm_num) (e := e) (by rwa [Nat.cast_one])
  rwa [Nat.cast_one] at this

theorem r32_zero : r32 F 0 = 0 := by
  have e0 := r32_nat (F := F) 0 (by norm_num)
  rwa [Nat.cast_zero] at e0

/-- how much rounding to `f32` can add -/
theorem rounds32_le {r v b : ℝ} (h : RoundsTo u32 tiny32 r v) (h0 : 0 ≤ r) (hb : r ≤ b) : v ≤ b + b / 16777216 + 1 / 10 ^ 40 := by
  have h1 := (abs_le.1 h.1).2
  rw [abs_of_nonneg h0, u32_val] at h1
  have := tiny32_le
  linarith

theorem rounds64_le {r v b : ℝ} (h : RoundsTo u64 tiny64 r v) (h0 : 0 ≤ r) (hb : r ≤ b) : v ≤ b + b / 2 ^ 53 + 1 / 10 ^ 40 := by
  have h1 := (abs_le.1 h.1).2
  have e : u64 = 1 / 2 ^ 53 := by unfold u64; norm_num
  rw [abs_of_nonneg h0, e] at h1
  have : tiny64 ≤ 1 / 10 ^ 40 := by
    unfold tiny64
    calc (2⁻¹ : ℝ) ^ 1074 ≤ 2⁻¹ ^ 149 := pow_le_pow_of_le_one (by norm_num) (by norm_num) (by norm_num)
      _ ≤ 1 / 10 ^ 40 := by norm_num
  have e2 : b / 2 ^ 53 = 1 / 2 ^ 53 * b := by ring
  rw [e2]
  have : 1 / 2 ^ 53 * r ≤ 1 / 2 ^ 53 * b := by gcongr
  linarith

theorem nn_zero : NN 0 (lit32 0 : F) := by
  obtain ⟨f, r⟩ := FltRound.lit32 (F := F) 0 (by unfold Fits32; norm_num)
  have : val (lit32 0 : F) = 0 := r.2 (by norm_num)
  exact ⟨f, this ▸ le_rfl, this ▸ le_rfl⟩

theorem nn_zero64 : NN 0 (lit64 0 : F) := by
  obtain ⟨f, r⟩ := FltRound.lit64 (F := F) 0 (by unfold Fits64; norm_num)
  have : val (lit64 0 : F) = 0 := r.2 (by norm_num)
  exact ⟨f, this ▸ le_rfl, this ▸ le_rfl⟩

/-- the product of a number in the unit interval and an `f32` number -/
theorem mul_unit {c w : F} (hc : NN 1 c) {b : ℝ} (hw : NN b w) (hb : b ≤ 2 ^ 127) (hr : r32 F (val w) = val w) :
    NN (val w) (c *₃ w) := by
  have h0 : 0 ≤ val c * val w := mul_nonneg hc.lo hw.lo
  have h1 : val c * val w ≤ val w := mul_le_of_le_one_left hw.lo hc.hi
  have hf := fits32_nn h0 (h1.trans hw.hi) hb
  refine ⟨(FltRound.mul32 _ _ hc.fin hw.fin hf).1, ?_, ?_⟩
  · rw [mul32_eq _ _ hc.fin hw.fin hf]; exact r32_nonneg h0
  · have := r32_mono (F := F) h1
    rw [hr] at this
    rw [mul32_eq _ _ hc.fin hw.fin hf]; exact this

theorem unit_mul {c d : F} (hc : NN 1 c) (hd : NN 1 d) : NN 1 (c *₃ d) := by
  have h0 : 0 ≤ val c * val d := mul_nonneg hc.lo hd.lo
  have h1 : val c * val d ≤ 1 := mul_le_one₀ hc.hi hd.lo hd.hi
  have hf := fits32_nn h0 h1 (by norm_num)
  refine ⟨(FltRound.mul32 _ _ hc.fin hd.fin hf).1, ?_, ?_⟩
  · rw [mul32_eq _ _ hc.fin hd.fin hf]; exact r32_nonneg h0
  · rw [mul32_eq _ _ hc.fin hd.fin hf]; exact r32_le_one h1

theorem unit_div {c d : F} (hc : NN (val d) c) {b : ℝ} (hd : NN b d) (h : 0 < val d) : NN 1 (c /₃ d) := by
  have h0 : 0 ≤ val c / val d := div_nonneg hc.lo hd.lo
  have h1 : val c / val d ≤ 1 := (div_le_one h).2 hc.hi
  have hf := fits32_nn h0 h1 (by norm_num)
  refine ⟨(FltRound.div32 _ _ hc.fin hd.fin h.ne' hf).1, ?_, ?_⟩
  · rw [div32_eq _ _ hc.fin hd.fin h.ne' hf]; exact r32_nonneg h0
  · rw [div32_eq _ _ hc.fin hd.fin h.ne' hf]; exact r32_le_one h1

theorem unit_div64 {c d : F} (hc : NN (val d) c) {b : ℝ} (hd : NN b d) (h : 0 < val d) : NN 1 (c /₆ d) := by
  have h0 : 0 ≤ val c / val d := div_nonneg hc.lo hd.lo
  have h1 : val c / val d ≤ 1 := (div_le_one h).2 hc.hi
  have hf := fits64_nn h0 h1 (by norm_num)
  refine ⟨(FltRound.div64 _ _ hc.fin hd.fin h.ne' hf).1, ?_, ?_⟩
  · rw [div64_eq _ _ hc.fin hd.fin h.ne' hf]; exact r64_nonneg h0
  · rw [div64_eq _ _ hc.fin hd.fin h.ne' hf]; exact r64_le_one h1

theorem unit_to32 {c : F} (hc : NN 1 c) : NN 1 (to32 c) := by
  have hf := fits32_nn hc.lo hc.hi (by norm_num)
  refine ⟨(FltRound.to32 _ hc.fin hf).1, ?_, ?_⟩
  · rw [to32_eq _ hc.fin hf]; exact r32_nonneg hc.lo
  · rw [to32_eq _ hc.fin hf]; exact r32_le_one hc.hi

theorem nn_to32 {b : ℝ} {c : F} (hc : NN b c) (hb : b ≤ 2 ^ 127) : NN (b + b / 16777216 + 1 / 10 ^ 40) (to32 c) := by
  have hf := fits32_nn hc.lo hc.hi hb
  obtain ⟨f, r⟩ := FltRound.to32 _ hc.fin hf
  refine ⟨f, ?_, rounds32_le r hc.lo hc.hi⟩
  rw [to32_eq _ hc.fin hf]; exact r32_nonneg hc.lo

/-- sum of two numbers, and that smaller numbers have a smaller sum -/
theorem add32_le {a b : ℝ} {x y : F} (hx : NN a x) (hy : NN b y) (hs : a + b ≤ 2 ^ 127) :
    NN (a + b + (a + b) / 16777216 + 1 / 10 ^ 40) (x +₃ y) := by
  have h0 := add_nonneg hx.lo hy.lo
  have h1 := add_le_add hx.hi hy.hi
  have hf := fits32_nn h0 h1 hs
  obtain ⟨f, r⟩ := FltRound.add32 _ _ hx.fin hy.fin hf
  refine ⟨f, ?_, rounds32_le r h0 h1⟩
  rw [add32_eq _ _ hx.fin hy.fin hf]; exact r32_nonneg h0

theorem add32_mono {a b : ℝ} {x y x' y' : F} (hx : NN a x) (hy : NN b y) (hs : a + b ≤ 2 ^ 127)
    (hx' : NN (val x) x') (hy' : NN (val y) y') : NN (val (x +₃ y)) (x' +₃ y') := by
  have h0 := add_nonneg hx'.lo hy'.lo
  have h1 := add_le_add hx'.hi hy'.hi
  have h2 := add_le_add hx.hi hy.hi
  have hf := fits32_nn h0 (h1.trans h2) hs
  have hf' := fits32_nn (add_nonneg hx.lo hy.lo) h2 hs
  refine ⟨(FltRound.add32 _ _ hx'.fin hy'.fin hf).1, ?_, ?_⟩
  · rw [add32_eq _ _ hx'.fin hy'.fin hf]; exact r32_nonneg h0
  · rw [add32_eq _ _ hx'.fin hy'.fin hf, add32_eq _ _ hx.fin hy.fin hf']; exact r32_mono h1

theorem add64_le {a b : ℝ} {x y : F} (hx : NN a x) (hy : NN b y) (hs : a + b ≤ 2 ^ 127) :
    NN (a + b + (a + b) / 2 ^ 53 + 1 / 10 ^ 40) (x +₆ y) := by
  have h0 := add_nonneg hx.lo hy.lo
  have h1 := add_le_add hx.hi hy.hi
  have hf := fits64_nn h0 h1 hs
  obtain ⟨f, r⟩ := FltRound.add64 _ _ hx.fin hy.fin hf
  refine ⟨f, ?_, rounds64_le r h0 h1⟩
  rw [add64_eq _ _ hx.fin hy.fin hf]; exact r64_nonneg h0

theorem add64_mono {a b : ℝ} {x y x' y' : F} (hx : NN a x) (hy : NN b y) (hs : a + b ≤ 2 ^ 127)
    (hx' : NN (val x) x') (hy' : NN (val y) y') : NN (val (x +₆ y)) (x' +₆ y') := by
  have h0 := add_nonneg hx'.lo hy'.lo
  have h1 := add_le_add hx'.hi hy'.hi
  have h2 := add_le_add hx.hi hy.hi
  have hf := fits64_nn h0 (h1.trans h2) hs
  have hf' := fits64_nn (add_nonneg hx.lo hy.lo) h2 hs
  refine ⟨(FltRound.add64 _ _ hx'.fin hy'.fin hf).1, ?_, ?_⟩
  · rw [add64_eq _ _ hx'.fin hy'.fin hf]; exact r64_nonneg h0
  · rw [add64_eq _ _ hx'.fin hy'.fin hf, add64_eq _ _ hx.fin hy.fin hf']; exact r64_mono h1

/-! ### Sums that grow by at most a fixed amount per term -/

/-- bound of the terms -/
noncomputable def termMax : ℝ := 2 ^ 102
/-- amount by which a sum grows -/
noncomputable def termStep : ℝ := 2 ^ 104

/-- a sum of `m` terms -/
def SumOf (m : ℕ) (x : F) : Prop := NN (m * termStep) x

theorem SumOf.mono {m k : ℕ} {x : F} (h : SumOf m x) (hmk : m ≤ k) : SumOf k x :=
  NN.mono h (by have : (m : ℝ) ≤ k := by exact_mod_cast hmk
                unfold termStep; gcongr)

theorem sumOf_fits {m : ℕ} (hm : m ≤ 2 ^ 22) : (m : ℝ) * termStep ≤ 2 ^ 126 := by
  have : (m : ℝ) ≤ 2 ^ 22 := by exact_mod_cast hm
  unfold termStep
  calc (m : ℝ) * 2 ^ 104 ≤ 2 ^ 22 * 2 ^ 104 := by gcongr
    _ = 2 ^ 126 := by norm_num

theorem sumOf_room {m : ℕ} (hm : m ≤ 2 ^ 22) : (m : ℝ) * termStep + termMax ≤ 2 ^ 127 := by
  have := sumOf_fits hm
  unfold termMax
  have e : (2:ℝ) ^ 127 = 2 * 2 ^ 126 := by norm_num
  have e2 : (2:ℝ) ^ 102 ≤ 2 ^ 126 := by norm_num
  linarith

theorem SumOf.add32 {m : ℕ} {x y : F} (hx : SumOf m x) (hy : NN termMax y) (hm : m ≤ 2 ^ 22) : SumOf (m + 1) (x +₃ y) := by
  refine (add32_le hx hy (sumOf_room hm)).mono ?_
  have hm' : (m : ℝ) ≤ 2 ^ 22 := by exact_mod_cast hm
  push_cast
  unfold termMax termStep
  have : (m : ℝ) * 2 ^ 104 / 16777216 ≤ 2 ^ 102 := by
    rw [div_le_iff₀ (by norm_num)]
    calc (m : ℝ) * 2 ^ 104 ≤ 2 ^ 22 * 2 ^ 104 := by gcongr
      _ = 2 ^ 102 * 16777216 := by norm_num
  have e : ((m : ℝ) * 2 ^ 104 + 2 ^ 102) / 16777216 = (m : ℝ) * 2 ^ 104 / 16777216 + 2 ^ 102 / 16777216 := add_div _ _ _
  have e2 : (2:ℝ) ^ 104 = 4 * 2 ^ 102 := by norm_num
  have e3 : (2:ℝ) ^ 102 / 16777216 + 1 / 10 ^ 40 ≤ 2 ^ 102 := by norm_num
  rw [e]
  nlinarith

theorem SumOf.add64 {m : ℕ} {x y : F} (hx : SumOf m x) (hy : NN termMax y) (hm : m ≤ 2 ^ 22) : SumOf (m + 1) (x +₆ y) := by
  refine (add64_le hx hy (sumOf_room hm)).mono ?_
  have hm' : (m : ℝ) ≤ 2 ^ 22 := by exact_mod_cast hm
  push_cast
  unfold termMax termStep
  have : (m : ℝ) * 2 ^ 104 / 2 ^ 53 ≤ 2 ^ 102 := by
    rw [div_le_iff₀ (by norm_num)]
    calc (m : ℝ) * 2 ^ 104 ≤ 2 ^ 22 * 2 ^ 104 := by gcongr
      _ ≤ 2 ^ 102 * 2 ^ 53 := by norm_num
  have e : ((m : ℝ) * 2 ^ 104 + 2 ^ 102) / 2 ^ 53 = (m : ℝ) * 2 ^ 104 / 2 ^ 53 + 2 ^ 102 / 2 ^ 53 := add_div _ _ _
  have e2 : (2:ℝ) ^ 104 = 4 * 2 ^ 102 := by norm_num
  have e3 : (2:ℝ) ^ 102 / 2 ^ 53 + 1 / 10 ^ 40 ≤ 2 ^ 102 := by norm_num
  rw [e]
  nlinarith

/-- two sums are added: one more -/
theorem SumOf.join {m k : ℕ} {x y : F} (hx : SumOf m x) (hy : SumOf k y) (hm : m + k ≤ 2 ^ 22) : SumOf (m + k + 1) (x +₆ y) := by
  have hf := sumOf_fits hm
  have hs : (m : ℝ) * termStep + k * termStep ≤ 2 ^ 127 := by
    have e : (m : ℝ) * termStep + k * termStep = ((m + k : ℕ) : ℝ) * termStep := by push_cast; ring
    rw [e]; exact hf.trans (by norm_num)
  refine (add64_le hx hy hs).mono ?_
  have hm' : ((m + k : ℕ) : ℝ) ≤ 2 ^ 22 := by exact_mod_cast hm
  have e : (m : ℝ) * termStep + k * termStep = ((m + k : ℕ) : ℝ) * termStep := by push_cast; ring
  rw [e]
  have : ((m + k : ℕ) : ℝ) * termStep / 2 ^ 53 ≤ 2 ^ 102 := by
    rw [div_le_iff₀ (by norm_num)]
    calc ((m + k : ℕ) : ℝ) * termStep ≤ 2 ^ 126 := hf
      _ ≤ 2 ^ 102 * 2 ^ 53 := by norm_num
  have e2 : ((m + k + 1 : ℕ) : ℝ) * termStep = ((m + k : ℕ) : ℝ) * termStep + 2 ^ 104 := by push_cast; unfold termStep; ring
  rw [e2]
  have e3 : (2:ℝ) ^ 102 + 1 / 10 ^ 40 ≤ 2 ^ 104 := by norm_num
  linarith

theorem sumOf_zero : SumOf 0 (lit32 0 : F) := by unfold SumOf; simpa using nn_zero (F := F)
theorem sumOf_zero64 : SumOf 0 (lit64 0 : F) := by unfold SumOf; simpa using nn_zero64 (F := F)

theorem sum64_sumOf {l : List F} (h : ∀ x ∈ l, NN termMax x) (hl : l.length ≤ 2 ^ 22) : SumOf l.length (sum64 l) := by
  have key : ∀ (l : List F) (m : ℕ) (s : F), (∀ x ∈ l, NN termMax x) → m + l.length ≤ 2 ^ 22 → SumOf m s →
      SumOf (m + l.length) (l.foldl (· +₆ ·) s) := by
    intro l
    induction l with
    | nil => intro m s _ _ hs; simpa using hs
    | cons x l ih =>
      intro m s hx hm hs
      simp only [List.length_cons] at hm
      have := ih (m + 1) (s +₆ x) (fun y hy => hx y (by simp [hy])) (by omega) (hs.add64 (hx x (by simp)) (by omega))
      simpa [Nat.add_assoc, Nat.add_comm 1] using this
  have := key l 0 (lit64 0) h (by omega) sumOf_zero64
  simpa [sum64] using this

/-! ### Colours -/

/-- all four channels between 0 and 1 -/
structure FPixel.UnitFin (c : FPixel F) : Prop where
  a : NN 1 c.a
  r : NN 1 c.r
  g : NN 1 c.g
  b : NN 1 c.b

theorem FPixel.unitFin_default : (FPixel.default : FPixel F).UnitFin :=
  have h := (nn_zero (F := F)).mono zero_le_one
  ⟨h, h, h, h⟩

theorem lit32_unit {q : ℚ} (h0 : 0 ≤ q) (h1 : q ≤ 1) : NN 1 (lit32 q : F) := by
  have h0' : (0:ℝ) ≤ q := by exact_mod_cast h0
  have h1' : (q:ℝ) ≤ 1 := by exact_mod_cast h1
  have hf := fits32_nn h0' h1' (by norm_num)
  refine ⟨(FltRound.lit32 _ hf).1, ?_, ?_⟩
  · rw [lit32_eq _ hf]; exact r32_nonneg h0'
  · rw [lit32_eq _ hf]; exact r32_le_one h1'

theorem byte_unit (i : UInt8) : NN 1 (lit32 i.toNat /₃ lit32 255 : F) := by
  have hi : i.toNat < 256 := i.toNat_lt
  have hf : ∀ n : ℕ, n < 256 → fin (lit32 (n : ℚ) : F) ∧ val (lit32 (n : ℚ) : F) = n := by
    intro n hn
    have hn' : (n : ℝ) ≤ 256 := by exact_mod_cast hn.le
    have hf : Fits32 ((n : ℚ) : ℝ) := by
      rw [Rat.cast_natCast]; exact fits32_nn (by positivity) hn' (by norm_num)
    refine ⟨(FltRound.lit32 _ hf).1, ?_⟩
    rw [lit32_eq _ hf, Rat.cast_natCast, r32_nat _ (by omega)]
  obtain ⟨f1, e1⟩ := hf i.toNat hi
  obtain ⟨f2, e2⟩ := hf 255 (by norm_num)
  have e : ((255 : ℕ) : ℚ) = 255 := by norm_num
  rw [e] at f2 e2
  have h2 : val (lit32 255 : F) = 255 := by rw [e2]; norm_num
  refine unit_div (b := 255) ⟨f1, e1 ▸ by positivity, ?_⟩ ⟨f2, h2 ▸ by norm_num, h2 ▸ le_rfl⟩ (h2 ▸ by norm_num)
  rw [e1, h2]
  have : i.toNat ≤ 255 := by omega
  exact_mod_cast this

theorem lut_unit {γ : F} (h : UsualGamma γ) (i : UInt8) : NN 1 (gammaLut γ i) := by
  obtain ⟨⟨fB, hB1, hB2⟩, -, -⟩ := exponents h
  have hb := byte_unit (F := F) i
  have hp : 0 < val (to32 (internalGamma /₆ γ)) := by linarith
  obtain ⟨p0, p1⟩ := pow32_unit (lit32 i.toNat /₃ lit32 255 : F) (to32 (internalGamma /₆ γ)) hb.fin fB hb.lo hb.hi hp
  refine ⟨?_, p0, p1⟩
  refine (FltRound.pow32 _ _ hb.fin fB hb.lo (Or.inr hp) ?_).1
  exact fits32_nn (Real.rpow_nonneg hb.lo _) (Real.rpow_le_one hb.lo hb.hi hp.le) (by norm_num)

theorem fromRgba_unitFin {γ : F} (h : UsualGamma γ) (c : RGBA) : (FPixel.fromRgba (gammaLut γ) c).UnitFin := by
  have hw : ∀ q : ℚ, 0 ≤ q → q ≤ 1 → NN 1 (lit32 q : F) := fun q => lit32_unit
  have ha := byte_unit (F := F) c.a
  refine ⟨unit_mul ha (hw _ (by norm_num) (by norm_num)), ?_, ?_, ?_⟩
  · exact unit_mul (unit_mul (lut_unit h _) (hw _ (by norm_num) (by norm_num))) ha
  · exact unit_mul (unit_mul (lut_unit h _) (hw _ (by norm_num) (by norm_num))) ha
  · exact unit_mul (unit_mul (lut_unit h _) (hw _ (by norm_num) (by norm_num))) ha

/-- channels of mirrored colours, up to rounding between -1 and 2 -/
structure FPixel.Wide (c : FPixel F) : Prop where
  a : fin c.a ∧ -1001 / 1000 ≤ val c.a ∧ val c.a ≤ 2001 / 1000
  r : fin c.r ∧ -1001 / 1000 ≤ val c.r ∧ val c.r ≤ 2001 / 1000
  g : fin c.g ∧ -1001 / 1000 ≤ val c.g ∧ val c.g ≤ 2001 / 1000
  b : fin c.b ∧ -1001 / 1000 ≤ val c.b ∧ val c.b ≤ 2001 / 1000

theorem NN.wide {x : F} (h : NN 1 x) : FltRound.fin x ∧ -1001 / 1000 ≤ val x ∧ val x ≤ 2001 / 1000 :=
  ⟨h.fin, by have := h.lo; linarith, by have := h.hi; linarith⟩

theorem FPixel.UnitFin.wide {c : FPixel F} (h : c.UnitFin) : c.Wide := ⟨h.a.wide, h.r.wide, h.g.wide, h.b.wide⟩

theorem rounds_abs {r v b : ℝ} (h : RoundsTo u32 tiny32 r v) (hr : |r| ≤ b) : |v| ≤ b + b / 16777216 + 1 / 10 ^ 40 := by
  have h1 := h.1
  rw [u32_val] at h1
  have := tiny32_le
  have h2 : |v| ≤ |v - r| + |r| := by
    have := abs_add_le (v - r) r
    rwa [sub_add_cancel] at this
  linarith

theorem mirror_wide {x y : F} (hx : NN 1 x) (hy : NN 1 y) :
    fin (x +₃ x -₃ y) ∧ -1001 / 1000 ≤ val (x +₃ x -₃ y) ∧ val (x +₃ x -₃ y) ≤ 2001 / 1000 := by
  have h2 : NN 2 (x +₃ x) := by
    have h0 := add_nonneg hx.lo hx.lo
    have h1 : val x + val x ≤ 2 := by have := hx.hi; linarith
    have hf := fits32_nn h0 h1 (by norm_num)
    refine ⟨(FltRound.add32 _ _ hx.fin hx.fin hf).1, ?_, ?_⟩
    · rw [add32_eq _ _ hx.fin hx.fin hf]; exact r32_nonneg h0
    · rw [add32_eq _ _ hx.fin hx.fin hf]
      have := r32_le (F := F) (n := 2) (by norm_num) (e := val x + val x) (by push_cast; exact h1)
      push_cast at this; exact this
  have b1 : |val (x +₃ x) - val y| ≤ 2 := by
    rw [abs_le]; have := h2.lo; have := h2.hi; have := hy.lo; have := hy.hi
    constructor <;> linarith
  obtain ⟨f, r⟩ := FltRound.sub32 _ _ h2.fin hy.fin (fits32_small (by linarith))
  have h1 := r.1
  rw [u32_val] at h1
  have ht := tiny32_le
  have h3 : |val (x +₃ x -₃ y) - (val (x +₃ x) - val y)| ≤ 1 / 1000 := by
    have : (1:ℝ) / 10 ^ 40 ≤ 1 / 10000 := by norm_num
    linarith
  obtain ⟨h4, h5⟩ := abs_le.1 h3
  have := h2.lo; have := h2.hi; have := hy.lo; have := hy.hi
  exact ⟨f, by linarith, by linarith⟩

theorem chan_wide {xc yc xa ya : F} (c : |val xc - val yc| ≤ 2002 / 1000) (a : |val ya - val xa| ≤ 2002 / 1000)
    (h1 : fin xc) (h2 : fin yc) (h3 : fin xa) (h4 : fin ya) :
    NN (16.05) (Flt.fmax ((xc -₃ yc) *₃ (xc -₃ yc)) (((xc -₃ yc) +₃ (ya -₃ xa)) *₃ ((xc -₃ yc) +₃ (ya -₃ xa)))) := by
  obtain ⟨f1, r1⟩ := FltRound.sub32 _ _ h1 h2 (fits32_small (by linarith))
  obtain ⟨f2, r2⟩ := FltRound.sub32 _ _ h4 h3 (fits32_small (by linarith))
  have e40 : (1:ℝ) / 10 ^ 40 ≤ 1 / 1000000 := by norm_num
  have b1 : |val (xc -₃ yc)| ≤ 2003 / 1000 := (rounds_abs r1 c).trans (by linarith)
  have b2 : |val (ya -₃ xa)| ≤ 2003 / 1000 := (rounds_abs r2 a).trans (by linarith)
  have b3 : |val (xc -₃ yc) + val (ya -₃ xa)| ≤ 4006 / 1000 := (abs_add_le _ _).trans (by linarith)
  obtain ⟨f3, r3⟩ := FltRound.add32 _ _ f1 f2 (fits32_small (by linarith))
  have b4 : |val ((xc -₃ yc) +₃ (ya -₃ xa))| ≤ 40061 / 10000 := (rounds_abs r3 b3).trans (by linarith)
  have sq : ∀ x : F, fin x → |val x| ≤ 40061 / 10000 → NN (16.05) (x *₃ x) := by
    intro x hx hb
    have h0 : 0 ≤ val x * val x := mul_self_nonneg _
    have hle : val x * val x ≤ 16.049 := by
      rw [← abs_mul_abs_self]; nlinarith [abs_nonneg (val x)]
    have hf := fits32_nn h0 hle (by norm_num)
    obtain ⟨f, r⟩ := FltRound.mul32 _ _ hx hx hf
    refine ⟨f, ?_, (rounds32_le r h0 hle).trans (by norm_num)⟩
    rw [mul32_eq _ _ hx hx hf]; exact r32_nonneg h0
  have s1 := sq _ f1 (b1.trans (by norm_num))
  have s2 := sq _ f3 b4
  obtain ⟨f, e⟩ := FltRound.max _ _ s1.fin s2.fin
  exact ⟨f, e ▸ le_max_of_le_left s1.lo, e ▸ max_le s1.hi s2.hi⟩

/-- bound of the differences met in the search -/
noncomputable def diffMax : ℝ := 48.2

theorem diff_wide {x y : FPixel F} (h : ∀ f : FPixel F → F, f = FPixel.a ∨ f = FPixel.r ∨ f = FPixel.g ∨ f = FPixel.b →
    fin (f x) ∧ fin (f y) ∧ |val (f x) - val (f y)| ≤ 2002 / 1000) : NN diffMax (x.diff y) := by
  obtain ⟨a1, a2, a3⟩ := h FPixel.a (by simp)
  obtain ⟨r1, r2, r3⟩ := h FPixel.r (by simp)
  obtain ⟨g1, g2, g3⟩ := h FPixel.g (by simp)
  obtain ⟨b1, b2, b3⟩ := h FPixel.b (by simp)
  rw [abs_sub_comm] at a3
  have h1 := chan_wide r3 a3 r1 r2 a1 a2
  have h2 := chan_wide g3 a3 g1 g2 a1 a2
  have h3 := chan_wide b3 a3 b1 b2 a1 a2
  have h12 := (add32_le h1 h2 (by norm_num)).mono (b := 32.11) (by norm_num)
  exact (add32_le h12 h3 (by norm_num)).mono (by unfold diffMax; norm_num)

theorem wide_unit_near {x y : F} (hx : fin x ∧ -1001 / 1000 ≤ val x ∧ val x ≤ 2001 / 1000) (hy : NN 1 y) :
    fin x ∧ fin y ∧ |val x - val y| ≤ 2002 / 1000 := by
  refine ⟨hx.1, hy.fin, ?_⟩
  rw [abs_le]
  have := hx.2.1; have := hx.2.2; have := hy.lo; have := hy.hi
  constructor <;> linarith

theorem diff_wide_unit {x y : FPixel F} (hx : x.Wide) (hy : y.UnitFin) : NN diffMax (x.diff y) := by
  apply diff_wide
  rintro f (rfl | rfl | rfl | rfl)
  · exact wide_unit_near hx.a hy.a
  · exact wide_unit_near hx.r hy.r
  · exact wide_unit_near hx.g hy.g
  · exact wide_unit_near hx.b hy.b

theorem diff_unit_wide {x y : FPixel F} (hx : x.Wide) (hy : y.UnitFin) : NN diffMax (y.diff x) := by
  apply diff_wide
  have sw : ∀ {a b : F}, (fin a ∧ fin b ∧ |val a - val b| ≤ 2002 / 1000) → fin b ∧ fin a ∧ |val b - val a| ≤ 2002 / 1000 :=
    fun h => ⟨h.2.1, h.1, by rw [abs_sub_comm]; exact h.2.2⟩
  rintro f (rfl | rfl | rfl | rfl)
  · exact sw (wide_unit_near hx.a hy.a)
  · exact sw (wide_unit_near hx.r hy.r)
  · exact sw (wide_unit_near hx.g hy.g)
  · exact sw (wide_unit_near hx.b hy.b)

/-! ### Search -/

/-- all colours of a tree have a property -/
def Node.All (P : FPixel F → Prop) : Node F → Prop
  | .leaf vp _ items => P vp ∧ ∀ x ∈ items, P x.2
  | .nodes vp _ _ _ near far => P vp ∧ near.All P ∧ far.All P

theorem palColor_of {P : FPixel F → Prop} {p : PalF F} (hp : ∀ e ∈ p, P e.color) (h0 : P FPixel.default) (i : ℕ) :
    P (palColor p i) := by
  unfold palColor
  split
  next e he => exact hp e (List.mem_of_getElem? he)
  · exact h0

theorem vpCreate_all {P : FPixel F → Prop} {p : PalF F} (hp : ∀ e ∈ p, P e.color) (h0 : P FPixel.default) (l : List ℕ) :
    (vpCreate p l).All P := by
  generalize hn : l.length = n
  induction n using Nat.strong_induction_on generalizing l with
  | _ n ih =>
    rw [vpCreate]
    split
    · exact ⟨palColor_of hp h0 _, by simp⟩
    next hlen =>
      split
      · exact ⟨h0, by simp⟩
      next ref rest heq =>
        have hl := length_popularFirst p l
        rw [heq] at hl
        simp only [List.length_cons] at hl
        have hsl : (sortByKey (vpDist p (palColor p ref)) rest).length = rest.length := by simp [sortByKey]
        dsimp only
        split
        · refine ⟨palColor_of hp h0 _, ?_⟩
          intro x hx
          obtain ⟨i, -, rfl⟩ := List.mem_map.1 hx
          unfold leafItem
          split
          next e he => exact hp e (List.mem_of_getElem? he)
          · exact h0
        next hbig =>
          refine ⟨palColor_of hp h0 _, ih _ ?_ _ rfl, ih _ ?_ _ rfl⟩
          · rw [List.length_take]; omega
          · rw [List.length_drop]
            have : leafMaxSize = 6 := rfl
            omega

/-- the smallest difference so far is a number, or nothing has been looked at -/
def Visitor.Num (v : Visitor F) : Prop := NN diffMax v.distanceSq

theorem visit_num {v : Visitor F} {dist d : F} {i : ℕ} (hd : NN diffMax d)
    (hv : v.Num ∨ (v.distanceSq = inf ∧ v.exclude = none)) : (v.visit dist d i).Num := by
  unfold Visitor.visit
  split
  · exact hd
  next h =>
    rcases hv with hv | ⟨hv, he⟩
    · exact hv
    · exfalso
      apply h
      rw [hv, he, FltOrd.lt_inf d hd.fin (hd.hi.trans (by unfold diffMax; norm_num))]
      rfl

theorem leafScan_num {needle : FPixel F} {items : List (ℕ × FPixel F)} (h : ∀ x ∈ items, NN diffMax (x.2.diff needle))
    {v : Visitor F} (hv : v.Num) : (leafScan needle v items).Num := by
  induction items generalizing v with
  | nil => exact hv
  | cons x l ih => exact ih (fun y hy => h y (by simp [hy])) (visit_num (h x (by simp)) (Or.inl hv))

theorem vpSearch_num {needle : FPixel F} {n : Node F} (h : n.All fun c => NN diffMax (c.diff needle)) {v : Visitor F}
    (hv : v.Num ∨ (v.distanceSq = inf ∧ v.exclude = none)) : (vpSearch needle n v).Num := by
  induction n generalizing v with
  | leaf vp idx items => exact leafScan_num h.2 (visit_num h.1 hv)
  | nodes vp idx radius radiusSq near far ih1 ih2 =>
    have h1 := visit_num (dist := sqrt32 (vp.diff needle)) (i := idx) h.1 hv
    unfold vpSearch
    dsimp only
    split
    · have h2 := ih1 h.2.1 (Or.inl h1)
      split
      · exact ih2 h.2.2 (Or.inl h2)
      · exact h2
    · have h2 := ih2 h.2.2 (Or.inl h1)
      split
      · exact ih1 h.2.1 (Or.inl h2)
      · exact h2

theorem search_num {p : PalF F} {n : Nearest F} (hn : Nearest.new p = .ok n) (hp : ∀ e ∈ p, e.color.UnitFin) {px : FPixel F}
    (hx : px.Wide) (hint : ℕ) : NN diffMax (n.search px hint).2 := by
  have hpal : n.palette = p ∧ n.root = vpCreate p (List.range p.length) := by
    unfold Nearest.new at hn
    split at hn
    · cases hn
    · split at hn
      · cases hn
      · cases hn; exact ⟨rfl, rfl⟩
  have hall : n.root.All fun c => NN diffMax (c.diff px) := by
    rw [hpal.2]
    exact vpCreate_all (P := fun c => NN diffMax (c.diff px)) (fun e he => diff_unit_wide hx (hp e he))
      (diff_unit_wide hx FPixel.unitFin_default) _
  unfold Nearest.search
  split
  next e he =>
    rw [hpal.1] at he
    have hg := diff_wide_unit hx (hp e (List.mem_of_getElem? he))
    dsimp only
    split
    · exact hg
    · exact vpSearch_num hall (Or.inl hg)
  · exact vpSearch_num hall (Or.inr ⟨rfl, rfl⟩)

end Verif
