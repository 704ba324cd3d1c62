import Verif.Model.CorrectRound

/-!
# An arithmetic that overflows

An example for the laws in `Verif.Model.Rounded`, `Verif.Model.RoundedOrder` and `Verif.Model.CorrectRound` in which not every
number is finite: results are cut off after 25 or 54 significant bits, in `f32` they are 0 below 2⁻¹⁴⁹, and they are infinite
beyond 2¹²⁷ or 2¹⁰²³. An operation on
a number that is not finite gives NaN, except for negation, absolute values, minima, maxima and comparisons.
-/

namespace Verif
open Flt

inductive Over where
  | num (x : ℝ)
  | inf
  | ninf
  | nan

namespace Over

noncomputable def op1 (f : ℝ → Over) : Over → Over
  | num x => f x
  | _ => nan

noncomputable def op2 (f : ℝ → ℝ → Over) : Over → Over → Over
  | num x, num y => f x y
  | _, _ => nan

noncomputable def op3 (f : ℝ → ℝ → ℝ → Over) : Over → Over → Over → Over
  | num x, num y, num z => f x y z
  | _, _, _ => nan

open Classical in
/-- the infinity with the sign of a number -/
noncomputable def signed (x : ℝ) : Over := if 0 < x then inf else ninf

open Classical in
noncomputable def o32 (x : ℝ) : Over := if |x| ≤ 2 ^ 127 then num (flush x) else signed x

open Classical in
noncomputable def o64 (x : ℝ) : Over := if |x| ≤ 2 ^ 1023 then num (cutOff 53 x) else signed x

open Classical in
noncomputable def quot (o : ℝ → Over) (x y : ℝ) : Over := if y = 0 then (if x = 0 then nan else signed x) else o (x / y)

noncomputable def lt : Over → Over → Bool
  | num x, num y => Flt.lt x y
  | num _, inf => true
  | ninf, num _ => true
  | ninf, inf => true
  | _, _ => false

noncomputable def le : Over → Over → Bool
  | num x, num y => Flt.le x y
  | num _, inf => true
  | inf, inf => true
  | ninf, num _ => true
  | ninf, inf => true
  | ninf, ninf => true
  | _, _ => false

noncomputable def eq : Over → Over → Bool
  | num x, num y => Flt.eq x y
  | inf, inf => true
  | ninf, ninf => true
  | _, _ => false

noncomputable def max : Over → Over → Over
  | num x, num y => num (Max.max x y)
  | nan, y => y
  | x, nan => x
  | inf, _ => inf
  | _, inf => inf
  | ninf, y => y
  | x, ninf => x

noncomputable def min : Over → Over → Over
  | num x, num y => num (Min.min x y)
  | nan, y => y
  | x, nan => x
  | ninf, _ => ninf
  | _, ninf => ninf
  | inf, y => y
  | x, inf => x

noncomputable instance : Flt Over where
  lit32 q := o32 q
  lit64 q := o64 q
  add32 := op2 fun x y => o32 (x + y)
  sub32 := op2 fun x y => o32 (x - y)
  mul32 := op2 fun x y => o32 (x * y)
  div32 := op2 (quot o32)
  fma32 := op3 fun x y z => o32 (x * y + z)
  pow32 := op2 fun x y => o32 (x ^ y)
  sqrt32 := op1 fun x => num (flush (Min.min (Real.sqrt x) (2 ^ 127)))
  add64 := op2 fun x y => o64 (x + y)
  sub64 := op2 fun x y => o64 (x - y)
  mul64 := op2 fun x y => o64 (x * y)
  div64 := op2 (quot o64)
  fma64 := op3 fun x y z => o64 (x * y + z)
  pow64 := op2 fun x y => o64 (x ^ y)
  sqrt64 := op1 fun x => o64 (Real.sqrt x)
  to32 := op1 o32
  fneg
    | num x => num (-x)
    | inf => ninf
    | ninf => inf
    | nan => nan
  fabs
    | num x => num |x|
    | nan => nan
    | _ => inf
  fmax := max
  fmin := min
  lt := lt
  le := le
  eq := eq
  isNan
    | nan => true
    | _ => false
  toU8
    | num x => Flt.toU8 x
    | inf => 255
    | _ => 0
  toU32
    | num x => Flt.toU32 x
    | inf => 2 ^ 32 - 1
    | _ => 0
  inf := inf
  f32Max := num ((2 - 1 / 2 ^ 23) * 2 ^ 127)
  f64Max := num (2 ^ 1023)
  nan := nan

noncomputable def val : Over → ℝ
  | num x => x
  | _ => 0

def fin : Over → Prop
  | num _ => True
  | _ => False

theorem fin_num {x : Over} (h : fin x) : ∃ r, x = num r := by
  cases x <;> first | exact ⟨_, rfl⟩ | exact h.elim

theorem o32_ok {x : ℝ} (h : Fits32 x) : o32 x = num (flush x) := if_pos h

theorem o64_ok {x : ℝ} (h : Fits64 x) : o64 x = num (cutOff 53 x) := if_pos h

theorem of32 {x : Over} {r : ℝ} (e : x = o32 r) (h : Fits32 r) : fin x ∧ RoundsTo u32 tiny32 r (val x) := by
  rw [e, o32_ok h]; exact ⟨trivial, flush_rounds r⟩

theorem of64 {x : Over} {r : ℝ} (e : x = o64 r) (h : Fits64 r) : fin x ∧ RoundsTo u64 tiny64 r (val x) := by
  rw [e, o64_ok h]; exact ⟨trivial, cutRounding.ok64 r h⟩

noncomputable instance : FltRound Over where
  val := val
  fin := fin
  lit32 q h := of32 rfl h
  lit64 q h := of64 rfl h
  add32 x y hx hy h := by obtain ⟨x, rfl⟩ := fin_num hx; obtain ⟨y, rfl⟩ := fin_num hy; exact of32 rfl h
  sub32 x y hx hy h := by obtain ⟨x, rfl⟩ := fin_num hx; obtain ⟨y, rfl⟩ := fin_num hy; exact of32 rfl h
  mul32 x y hx hy h := by obtain ⟨x, rfl⟩ := fin_num hx; obtain ⟨y, rfl⟩ := fin_num hy; exact of32 rfl h
  div32 x y hx hy h0 h := by
    obtain ⟨x, rfl⟩ := fin_num hx; obtain ⟨y, rfl⟩ := fin_num hy
    exact of32 (if_neg h0) h
  fma32 x y z hx hy hz h := by
    obtain ⟨x, rfl⟩ := fin_num hx; obtain ⟨y, rfl⟩ := fin_num hy; obtain ⟨z, rfl⟩ := fin_num hz; exact of32 rfl h
  pow32 x y hx hy _ _ h := by
    obtain ⟨x, rfl⟩ := fin_num hx; obtain ⟨y, rfl⟩ := fin_num hy
    have := of32 (x := num x |> fun a => Flt.pow32 a (num y)) rfl h
    exact ⟨this.1, this.2.mono u32_le_upow32⟩
  sqrt32 x hx h0 h := by
    obtain ⟨x, rfl⟩ := fin_num hx
    refine ⟨trivial, ?_⟩
    have e : Min.min (Real.sqrt x) (2 ^ 127) = Real.sqrt x := min_eq_left ((le_abs_self _).trans h)
    show RoundsTo _ _ _ (flush (Min.min (Real.sqrt x) (2 ^ 127)))
    rw [e]; exact flush_rounds _
  add64 x y hx hy h := by obtain ⟨x, rfl⟩ := fin_num hx; obtain ⟨y, rfl⟩ := fin_num hy; exact of64 rfl h
  sub64 x y hx hy h := by obtain ⟨x, rfl⟩ := fin_num hx; obtain ⟨y, rfl⟩ := fin_num hy; exact of64 rfl h
  mul64 x y hx hy h := by obtain ⟨x, rfl⟩ := fin_num hx; obtain ⟨y, rfl⟩ := fin_num hy; exact of64 rfl h
  div64 x y hx hy h0 h := by
    obtain ⟨x, rfl⟩ := fin_num hx; obtain ⟨y, rfl⟩ := fin_num hy
    exact of64 (if_neg h0) h
  fma64 x y z hx hy hz h := by
    obtain ⟨x, rfl⟩ := fin_num hx; obtain ⟨y, rfl⟩ := fin_num hy; obtain ⟨z, rfl⟩ := fin_num hz; exact of64 rfl h
  pow64 x y hx hy _ _ h := by
    obtain ⟨x, rfl⟩ := fin_num hx; obtain ⟨y, rfl⟩ := fin_num hy
    have := of64 (x := Flt.pow64 (num x) (num y)) rfl h
    exact ⟨this.1, this.2.mono u64_le_upow64⟩
  sqrt64 x hx h0 h := by obtain ⟨x, rfl⟩ := fin_num hx; exact of64 rfl h
  to32 x hx h := by obtain ⟨x, rfl⟩ := fin_num hx; exact of32 rfl h
  neg x hx := by obtain ⟨x, rfl⟩ := fin_num hx; exact ⟨trivial, rfl⟩
  abs x hx := by obtain ⟨x, rfl⟩ := fin_num hx; exact ⟨trivial, rfl⟩
  max x y hx hy := by obtain ⟨x, rfl⟩ := fin_num hx; obtain ⟨y, rfl⟩ := fin_num hy; exact ⟨trivial, rfl⟩
  min x y hx hy := by obtain ⟨x, rfl⟩ := fin_num hx; obtain ⟨y, rfl⟩ := fin_num hy; exact ⟨trivial, rfl⟩
  lt x y hx hy := by obtain ⟨x, rfl⟩ := fin_num hx; obtain ⟨y, rfl⟩ := fin_num hy; exact real_lt x y
  le x y hx hy := by obtain ⟨x, rfl⟩ := fin_num hx; obtain ⟨y, rfl⟩ := fin_num hy; exact real_le x y
  eq x y hx hy := by obtain ⟨x, rfl⟩ := fin_num hx; obtain ⟨y, rfl⟩ := fin_num hy; exact real_eq x y
  toU8 x hx := by obtain ⟨x, rfl⟩ := fin_num hx; rfl

theorem cut_zero : flush 0 = 0 := flush_small (by simp)

noncomputable instance : FltOrd Over where
  sqrt_mono x y hx hy _ h := by
    obtain ⟨x, rfl⟩ := fin_num hx; obtain ⟨y, rfl⟩ := fin_num hy
    exact flush_mono (min_le_min_right _ (Real.sqrt_le_sqrt h))
  sqrt_le_add w x y hw _ hx hy h := by
    obtain ⟨w, rfl⟩ := fin_num hw; obtain ⟨x, rfl⟩ := fin_num hx; obtain ⟨y, rfl⟩ := fin_num hy
    have h : flush (Min.min (Real.sqrt w) (2 ^ 127)) ≤ x + y := h
    have h0 : 0 ≤ flush (Min.min (Real.sqrt w) (2 ^ 127)) := flush_nonneg (le_min (Real.sqrt_nonneg _) (by positivity))
    show le (num (flush (Min.min (Real.sqrt w) (2 ^ 127)))) (o32 (x + y)) = true
    unfold o32
    split
    · refine (real_le _ _).2 ?_
      exact le_trans (le_of_eq (flush_idem _).symm) (flush_mono h)
    next hb =>
      have hpos : 0 < x + y := by
        rw [abs_of_nonneg (h0.trans h)] at hb
        have : (0:ℝ) < 2 ^ 127 := by positivity
        linarith
      rw [signed, if_pos hpos]; rfl
  sub_le_sqrt w x y hw _ hx hy h := by
    obtain ⟨w, rfl⟩ := fin_num hw; obtain ⟨x, rfl⟩ := fin_num hx; obtain ⟨y, rfl⟩ := fin_num hy
    have h : x - y ≤ flush (Min.min (Real.sqrt w) (2 ^ 127)) := h
    show le (o32 (x - y)) (num (flush (Min.min (Real.sqrt w) (2 ^ 127)))) = true
    unfold o32
    split
    · refine (real_le _ _).2 ?_
      exact le_trans (flush_mono h) (le_of_eq (flush_idem _))
    next hb =>
      have hle : flush (Min.min (Real.sqrt w) (2 ^ 127)) ≤ 2 ^ 127 := by
        refine le_trans (flush_mono (min_le_right _ _)) ?_
        show flush (2 ^ 127) ≤ 2 ^ 127
        exact flush_le (by positivity)
      have hneg : ¬ 0 < x - y := by
        intro hp
        rw [abs_of_pos hp] at hb
        exact hb (h.trans hle)
      rw [signed, if_neg hneg]; rfl
  mul_nonneg x y hx hy hf h := by
    obtain ⟨x, rfl⟩ := fin_num hx; obtain ⟨y, rfl⟩ := fin_num hy
    show 0 ≤ val (o32 (x * y))
    rw [o32_ok (x := x * y) hf]; exact flush_nonneg h
  add_nonneg x y hx hy hf h := by
    obtain ⟨x, rfl⟩ := fin_num hx; obtain ⟨y, rfl⟩ := fin_num hy
    show 0 ≤ val (o32 (x + y))
    rw [o32_ok (x := x + y) hf]; exact flush_nonneg h
  f32Max := by
    refine ⟨trivial, ?_, ?_⟩
    · show (2:ℝ) ^ 127 ≤ (2 - 1 / 2 ^ 23) * 2 ^ 127
      norm_num
    · show ((2:ℝ) - 1 / 2 ^ 23) * 2 ^ 127 ≤ 2 ^ 128
      norm_num
  lt_inf x hx _ := by obtain ⟨x, rfl⟩ := fin_num hx; rfl
  not_nan x hx := by obtain ⟨x, rfl⟩ := fin_num hx; rfl

theorem val32 {x : Over} {r : ℝ} (e : x = o32 r) (h : Fits32 r) : val x = flush r := by rw [e, o32_ok h]; rfl

theorem val64 {x : Over} {r : ℝ} (e : x = o64 r) (h : Fits64 r) : val x = cutOff 53 r := by rw [e, o64_ok h]; rfl

noncomputable instance : FltCorrect Over where
  r32 := flush
  r32_mono := flush_mono
  r32_nat := flush_nat
  lit32_eq _ h := val32 rfl h
  add32_eq x y hx hy h := by obtain ⟨x, rfl⟩ := fin_num hx; obtain ⟨y, rfl⟩ := fin_num hy; exact val32 rfl h
  sub32_eq x y hx hy h := by obtain ⟨x, rfl⟩ := fin_num hx; obtain ⟨y, rfl⟩ := fin_num hy; exact val32 rfl h
  mul32_eq x y hx hy h := by obtain ⟨x, rfl⟩ := fin_num hx; obtain ⟨y, rfl⟩ := fin_num hy; exact val32 rfl h
  div32_eq x y hx hy h0 h := by
    obtain ⟨x, rfl⟩ := fin_num hx; obtain ⟨y, rfl⟩ := fin_num hy; exact val32 (if_neg h0) h
  fma32_eq x y z hx hy hz h := by
    obtain ⟨x, rfl⟩ := fin_num hx; obtain ⟨y, rfl⟩ := fin_num hy; obtain ⟨z, rfl⟩ := fin_num hz; exact val32 rfl h

noncomputable instance : FltFull Over where
  r32_idem := flush_idem
  r64 := cutOff 53
  r64_mono := cutOff_mono (by norm_num)
  r64_idem := cutOff_idem (by norm_num)
  r64_nat _ h := cutOff_nat (p := 53) h
  lit64_eq _ h := val64 rfl h
  add64_eq x y hx hy h := by obtain ⟨x, rfl⟩ := fin_num hx; obtain ⟨y, rfl⟩ := fin_num hy; exact val64 rfl h
  div64_eq x y hx hy h0 h := by
    obtain ⟨x, rfl⟩ := fin_num hx; obtain ⟨y, rfl⟩ := fin_num hy; exact val64 (if_neg h0) h
  to32_eq x hx h := by obtain ⟨x, rfl⟩ := fin_num hx; exact val32 rfl h
  pow32_unit x y hx hy h0 h1 hp := by
    obtain ⟨x, rfl⟩ := fin_num hx; obtain ⟨y, rfl⟩ := fin_num hy
    have a : 0 ≤ x ^ y := Real.rpow_nonneg h0 _
    have b : x ^ y ≤ 1 := Real.rpow_le_one h0 h1 (le_of_lt hp)
    have hf : Fits32 (x ^ y) := by
      unfold Fits32; rw [abs_of_nonneg a]; exact b.trans (by norm_num)
    show 0 ≤ val (o32 (x ^ y)) ∧ val (o32 (x ^ y)) ≤ 1
    rw [val32 rfl hf]
    refine ⟨flush_nonneg a, ?_⟩
    have := flush_mono b
    have e : flush 1 = 1 := by
      have := flush_nat 1 (by norm_num)
      rw [Nat.cast_one] at this
      exact this
    exact this.trans (le_of_eq e)

noncomputable instance : FltMin Over where
  pos32 := flush_pos

noncomputable instance : FltSign Over where
  neg_lt x h := by
    have z : (Flt.zero : Over) = num 0 := by
      show o32 ((0 : ℚ) : ℝ) = _
      rw [Rat.cast_zero, o32_ok (by unfold Fits32; norm_num), cut_zero]
    rw [z] at h ⊢
    cases x with
    | num x =>
      have : (0:ℝ) < x := (real_lt _ _).1 h
      exact (real_lt _ _).2 (by linarith)
    | inf => rfl
    | ninf => cases h
    | nan => cases h
  neg_one_lt := by
    have z : (Flt.zero : Over) = num 0 := by
      show o32 ((0 : ℚ) : ℝ) = _
      rw [Rat.cast_zero, o32_ok (by unfold Fits32; norm_num), cut_zero]
    rw [z]
    have h1 : (Flt.lit32 (-1) : Over) = num (flush ((-1 : ℚ) : ℝ)) := o32_ok (by unfold Fits32; norm_num)
    rw [h1]
    refine (real_lt _ _).2 ?_
    push_cast
    have := flush_nat 1 (by norm_num)
    rw [Nat.cast_one] at this
    rw [flush_neg, this]; norm_num

/-- sums do overflow -/
example : (num (2 ^ 127) : Over) +₃ num (2 ^ 127) = inf := by
  show o32 (2 ^ 127 + 2 ^ 127) = inf
  unfold o32
  rw [if_neg (by norm_num), signed, if_pos (by positivity)]

end Over
end Verif
