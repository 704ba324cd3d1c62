import Mathlib.Data.EReal.Basic
import Mathlib.Data.EReal.Operations
import Verif.Model.Image
import Verif.Lemmas.UserHist

/-!
# C30: range checks of float arguments

IEEE values are described by `FltVal`: every float is NaN or has a value in the extended reals, and comparisons compare
the values and are false on NaN. `Ext` is a concrete arithmetic with infinities and NaN that meets this, so the
counterexamples below are not artefacts of an arithmetic that does not exist.
-/

namespace Verif
open Flt

/-- What comparisons of IEEE floats mean: `val x` is the value of `x`, `none` for NaN. -/
class FltVal (F : Type) [Flt F] where
  val : F → Option EReal
  lt_iff : ∀ a b : F, lt a b = true ↔ ∃ x y, val a = some x ∧ val b = some y ∧ x < y
  le_iff : ∀ a b : F, le a b = true ↔ ∃ x y, val a = some x ∧ val b = some y ∧ x ≤ y
  val_zero32 : val (lit32 0) = some 0
  val_zero64 : val (lit64 0) = some 0
  val_one32 : val (lit32 1) = some 1
  val_one64 : val (lit64 1) = some 1
  isNan_iff : ∀ a : F, isNan a = true ↔ val a = none

noncomputable instance : FltVal ℝ where
  val x := some (x : EReal)
  lt_iff a b := by simp
  le_iff a b := by simp
  val_zero32 := by simp
  val_zero64 := by simp
  val_one32 := by simp
  val_one64 := by simp
  isNan_iff a := by simp

/-- Extended reals with NaN (`none`). Operations on finite values are those of exact arithmetic. -/
def Ext : Type := Option EReal

namespace Ext

/-- apply a real operation to finite arguments; anything else gives NaN, which is one possible behaviour -/
noncomputable def op1 (f : ℝ → ℝ) (a : Option EReal) : Option EReal :=
  match a with
  | some x => if x = ⊤ ∨ x = ⊥ then none else some (f x.toReal : EReal)
  | none => none

noncomputable def op2 (f : ℝ → ℝ → ℝ) (a b : Option EReal) : Option EReal :=
  match a, b with
  | some x, some y => if x = ⊤ ∨ x = ⊥ ∨ y = ⊤ ∨ y = ⊥ then none else some (f x.toReal y.toReal : EReal)
  | _, _ => none

noncomputable def op3 (f : ℝ → ℝ → ℝ → ℝ) (a b c : Option EReal) : Option EReal :=
  match a, b, c with
  | some x, some y, some z =>
    if x = ⊤ ∨ x = ⊥ ∨ y = ⊤ ∨ y = ⊥ ∨ z = ⊤ ∨ z = ⊥ then none else some (f x.toReal y.toReal z.toReal : EReal)
  | _, _, _ => none

open Classical in
/-- division of finite values as in IEEE arithmetic (the sign of a zero divisor is not represented) -/
noncomputable def div (a b : Option EReal) : Option EReal :=
  match a, b with
  | some x, some y =>
    if x = ⊤ ∨ x = ⊥ ∨ y = ⊤ ∨ y = ⊥ then none
    else if y = 0 then (if x = 0 then none else if 0 < x then some ⊤ else some ⊥)
    else some ((x.toReal / y.toReal : ℝ) : EReal)
  | _, _ => none

open Classical in
noncomputable def rel (r : EReal → EReal → Prop) (a b : Ext) : Bool :=
  match a, b with
  | some x, some y => decide (r x y)
  | _, _ => false

noncomputable instance : Flt Ext where
  lit32 q := some ((q : ℝ) : EReal)
  lit64 q := some ((q : ℝ) : EReal)
  add32 := op2 (· + ·)
  sub32 := op2 (· - ·)
  mul32 := op2 (· * ·)
  div32 := div
  fma32 := op3 fun a b c => a * b + c
  pow32 := op2 Real.rpow
  sqrt32 := op1 Real.sqrt
  add64 := op2 (· + ·)
  sub64 := op2 (· - ·)
  mul64 := op2 (· * ·)
  div64 := div
  fma64 := op3 fun a b c => a * b + c
  pow64 := op2 Real.rpow
  sqrt64 := op1 Real.sqrt
  to32 := id
  fneg a := match a with
    | some x => some (-x)
    | none => none
  fabs := op1 fun x => |x|
  fmax := op2 max
  fmin := op2 min
  lt := rel (· < ·)
  le := rel (· ≤ ·)
  eq := rel (· = ·)
  isNan a := a.isNone
  toU8 a := match a with
    | some x => UInt8.ofNat (Nat.min 255 ⌊x.toReal⌋₊)
    | none => 0
  toU32 a := match a with
    | some x => Nat.min 4294967295 ⌊x.toReal⌋₊
    | none => 0
  inf := some ⊤
  f32Max := some (((2 - 1 / 2 ^ 23) * 2 ^ 127 : ℝ) : EReal)
  f64Max := some (((2 - 1 / 2 ^ 52) * 2 ^ 1023 : ℝ) : EReal)
  nan := none

theorem rel_iff (r : EReal → EReal → Prop) (a b : Ext) : rel r a b = true ↔ ∃ x y, a = some x ∧ b = some y ∧ r x y := by
  unfold rel
  rcases a with _ | x <;> rcases b with _ | y <;> simp
  all_goals
    constructor
    · intro h; exact ⟨x, rfl, y, rfl, h⟩
    · rintro ⟨x', h1, y', h2, h⟩; cases h1; cases h2; exact h

noncomputable instance : FltVal Ext where
  val a := a
  lt_iff := rel_iff _
  le_iff := rel_iff _
  val_zero32 := by show some _ = _; simp
  val_zero64 := by show some _ = _; simp
  val_one32 := by show some _ = _; simp
  val_one64 := by show some _ = _; simp
  isNan_iff a := by
    exact Option.isNone_iff_eq_none

instance : FltSign Ext where
  neg_lt x h := by
    obtain ⟨a, b, ha, hb, hab⟩ := (FltVal.lt_iff _ _).mp h
    refine (FltVal.lt_iff _ _).mpr ⟨-b, 0, ?_, FltVal.val_zero32, ?_⟩
    · have : x = some b := hb
      subst this; rfl
    · have h0 : (some a : Option EReal) = some 0 := ha.symm.trans FltVal.val_zero32
      cases h0
      simpa using EReal.neg_lt_neg_iff.mpr hab
  neg_one_lt := by
    refine (FltVal.lt_iff _ _).mpr ⟨((-1 : ℝ) : EReal), 0, ?_, FltVal.val_zero32, ?_⟩
    · show some _ = some _
      norm_num
    · exact_mod_cast (by norm_num : (-1 : ℝ) < 0)

end Ext

/-- `v` is a number between `0` and `1` (the ends included as asked) -/
def Spec.InUnit (closed0 closed1 : Bool) (v : Option EReal) : Prop :=
  ∃ x, v = some x ∧ (if closed0 then 0 ≤ x else 0 < x) ∧ (if closed1 then x ≤ 1 else x < 1)

section
variable {F : Type} [Flt F] [FltVal F]
open FltVal

theorem lt_zero64 (v : F) : lt (lit64 0) v = true ↔ ∃ x, val v = some x ∧ 0 < x := by
  rw [lt_iff, val_zero64]; simp

theorem le_zero64 (v : F) : le (lit64 0) v = true ↔ ∃ x, val v = some x ∧ 0 ≤ x := by
  rw [le_iff, val_zero64]; simp

theorem le_one64 (v : F) : le v (lit64 1) = true ↔ ∃ x, val v = some x ∧ x ≤ 1 := by
  rw [le_iff, val_one64]; simp

theorem lt_one64 (v : F) : lt v (lit64 1) = true ↔ ∃ x, val v = some x ∧ x < 1 := by
  rw [lt_iff, val_one64]; simp

/-- **C30** (floats with NaN and infinities). `set_dithering_level` accepts exactly the numbers from 0 to 1; everything
else, NaN included, is rejected with "value out of range". An accepted level is stored and nothing else but the cached
remap changes. A rejected call returns no new result, so it changes nothing. -/
theorem C30_dithering_level_partial (q : QuantizationResult F) (v : F) :
    (Spec.InUnit true true (val v) → q.setDitheringLevel v = .ok { q with ditherLevel := v, remapped := none }) ∧
    (¬ Spec.InUnit true true (val v) → q.setDitheringLevel v = .error (.err .valueOutOfRange)) := by
  have hk : (le (lit32 0) v && le v (lit32 1)) = true ↔ Spec.InUnit true true (val v) := by
    rw [Bool.and_eq_true, le_iff, le_iff, val_zero32, val_one32]
    unfold Spec.InUnit
    simp only [if_true, Option.some.injEq]
    constructor
    · rintro ⟨⟨_, x, rfl, hx, h0⟩, ⟨x', _, hx', rfl, h1⟩⟩
      rw [hx] at hx'; cases hx'
      exact ⟨x, hx, h0, h1⟩
    · rintro ⟨x, hx, h0, h1⟩
      exact ⟨⟨0, x, rfl, hx, h0⟩, ⟨x, 1, hx, rfl, h1⟩⟩
  unfold QuantizationResult.setDitheringLevel
  constructor
  · intro h; rw [if_pos (hk.mpr h)]
  · intro h; rw [if_neg (fun h' => h (hk.mp h'))]

/-- **C30** (floats with NaN and infinities). Whatever the source, an image is only made with a gamma from 0 to 1, and 0
stands for the default; with any other gamma, NaN included, making it fails with "value out of range" (the size is
checked first, with the same error). -/
theorem C30_image_gamma_partial (src : Source) (w h : ℕ) (g : F) :
    (¬ Spec.InUnit true true (val g) → Image.newInternal src w h g = .error (.err .valueOutOfRange)) ∧
    (∀ img, Image.newInternal src w h g = .ok img →
      Spec.InUnit true true (val g) ∧ (val g ≠ some 0 → img.px.gamma = g) ∧ (val g = some 0 → img.px.gamma = lit64 (45455/100000))) := by
  have hk : (le (lit64 0) g && le g (lit64 1)) = true ↔ Spec.InUnit true true (val g) := by
    rw [Bool.and_eq_true, le_zero64, le_one64]
    unfold Spec.InUnit
    simp only [if_true]
    constructor
    · rintro ⟨⟨x, hx, h0⟩, ⟨x', hx', h1⟩⟩
      rw [hx] at hx'; cases hx'
      exact ⟨x, hx, h0, h1⟩
    · rintro ⟨x, hx, h0, h1⟩
      exact ⟨⟨x, hx, h0⟩, ⟨x, hx, h1⟩⟩
  unfold Image.newInternal
  constructor
  · intro hn
    have : (!(le (lit64 0) g && le g (lit64 1))) = true := by
      rw [Bool.not_eq_true', Bool.eq_false_iff]
      exact fun h' => hn (hk.mp h')
    rw [if_pos this]
    split <;> rfl
  · intro img e
    split at e
    · cases e
    split at e
    · cases e
    next hn =>
      have hin := hk.mp (by simpa using hn)
      cases e
      refine ⟨hin, fun h0 => ?_, fun h0 => ?_⟩
      · obtain ⟨x, hx, hx0, _⟩ := hin
        have : lt (lit64 0) g = true := (lt_zero64 g).mpr ⟨x, hx, lt_of_le_of_ne hx0 fun e => h0 (by rw [hx, e])⟩
        simp [this]
      · have : ¬ lt (lit64 0) g = true := by
          rw [lt_zero64, h0]; simp
        simp [this]

/-- **C30** (floats with NaN and infinities). Both ways of making an image fail with "value out of range" or otherwise
do not succeed for a gamma outside 0 to 1. -/
theorem C30_image_new_partial (buf : List RGBA) (f : ℕ → ℕ → RGBA) (w h stride : ℕ) (g : F) (hg : ¬ Spec.InUnit true true (val g)) :
    (∀ img, Image.newStride buf w h stride g ≠ .ok img) ∧
    Image.newFn f w h g = .error (.err .valueOutOfRange) := by
  constructor
  · intro img e
    unfold Image.newStride Image.toU32 at e
    simp only [Bind.bind, Except.bind] at e
    repeat' split at e
    all_goals first | cases e | skip
    rw [(C30_image_gamma_partial _ _ _ g).1 hg] at e
    cases e
  · unfold Image.newFn Image.toU32
    by_cases hw : w < 2 ^ 32 <;> by_cases hh : h < 2 ^ 32 <;> simp only [hw, hh, if_true, if_false, Bind.bind, Except.bind]
    exact (C30_image_gamma_partial _ _ _ g).1 hg

/-- **C30** (floats with NaN and infinities). `add_colors` fails with "value out of range" for every gamma that is not a
number from 0 to less than 1, and otherwise exactly when the number of entries is out of range. -/
theorem C30_add_colors_partial (h : Histogram F) (entries : List (RGBA × ℕ)) (g : F) :
    (¬ Spec.InUnit true false (val g) → h.addColors entries g = .error (.err .valueOutOfRange)) ∧
    (Spec.InUnit true false (val g) → entries ≠ [] → entries.length ≤ 2 ^ 24 → ∃ h', h.addColors entries g = .ok h') := by
  have hk : (le (lit64 0) g = true ∧ lt g (lit64 1) = true) ↔ Spec.InUnit true false (val g) := by
    rw [le_zero64, lt_one64]
    unfold Spec.InUnit
    simp only [if_true, Bool.false_eq_true, if_false]
    constructor
    · rintro ⟨⟨x, hx, h0⟩, ⟨x', hx', h1⟩⟩
      rw [hx] at hx'; cases hx'
      exact ⟨x, hx, h0, h1⟩
    · rintro ⟨x, hx, h0, h1⟩
      exact ⟨⟨x, hx, h0⟩, ⟨x, hx, h1⟩⟩
  unfold Histogram.addColors
  constructor
  · intro hn
    split
    · rfl
    · rw [if_pos (fun h' => hn (hk.mp h'))]
  · intro hin hne hlen
    rw [if_neg (by simp [hne]; omega), if_neg (fun h' => h' (hk.mpr hin))]
    exact ⟨_, rfl⟩

/-- **C30** (floats with NaN and infinities), `_partial`. For arguments other than NaN, `set_output_gamma` accepts exactly
the numbers strictly between 0 and 1. Missing: NaN, which is accepted (`C30_output_gamma_nan`). -/
theorem C30_output_gamma_partial (q : QuantizationResult F) (v : F) (hv : val v ≠ none) :
    (Spec.InUnit false false (val v) → q.setOutputGamma v = .ok { q with gamma := v, remapped := none }) ∧
    (¬ Spec.InUnit false false (val v) → q.setOutputGamma v = .error (.err .valueOutOfRange)) := by
  obtain ⟨x, hx⟩ := Option.ne_none_iff_exists'.mp hv
  have hk : (le v (lit64 0) || le (lit64 1) v) = true ↔ ¬ Spec.InUnit false false (val v) := by
    rw [Bool.or_eq_true, le_iff, le_iff, val_zero64, val_one64, hx]
    unfold Spec.InUnit
    simp only [Bool.false_eq_true, if_false, Option.some.injEq]
    constructor
    · rintro (⟨_, _, rfl, rfl, h⟩ | ⟨_, _, rfl, rfl, h⟩) ⟨_, rfl, h0, h1⟩
      · exact absurd h0 (not_lt.mpr h)
      · exact absurd h1 (not_lt.mpr h)
    · intro h
      by_cases h0 : x ≤ 0
      · exact .inl ⟨x, 0, rfl, rfl, h0⟩
      · refine .inr ⟨1, x, rfl, rfl, ?_⟩
        by_contra h1
        exact h ⟨x, rfl, not_le.mp h0, not_le.mp h1⟩
  unfold QuantizationResult.setOutputGamma
  constructor
  · intro h; rw [if_neg (fun h' => hk.mp h' h)]
  · intro h; rw [if_pos (hk.mpr h)]

/-- **C30** does not hold for `set_output_gamma`: NaN is accepted and stored. -/
theorem C30_output_gamma_nan (q : QuantizationResult F) (v : F) (hv : isNan v = true) :
    ¬ Spec.InUnit false false (val v) ∧ q.setOutputGamma v = .ok { q with gamma := v, remapped := none } := by
  have hn := (isNan_iff v).mp hv
  refine ⟨fun ⟨x, h, _⟩ => (by rw [hn] at h; cases h), ?_⟩
  unfold QuantizationResult.setOutputGamma
  rw [if_neg]
  rw [Bool.or_eq_true, le_iff, le_iff, hn]
  simp

/-- **C30** does not hold for `add_fixed_color`: it never looks at whether the gamma is in range. Any gamma is accepted
while there is room for another fixed colour, and a positive one becomes the gamma of the histogram if it had none. -/
theorem C30_fixed_color_unchecked (h : Histogram F) (c : RGBA) (g : F) (hroom : h.fixedColors.length < 256) :
    ∃ h', h.addFixedColor c g = .ok h' ∧
      (h.gamma = none → ∀ x, val g = some x → 0 < x → h'.gamma = some g) := by
  unfold Histogram.addFixedColor
  rw [if_neg (by simp only [maxColorsCap]; omega)]
  refine ⟨_, rfl, fun hg x hx h0 => ?_⟩
  have : lt (lit64 0) g = true := (lt_zero64 g).mpr ⟨x, hx, h0⟩
  simp [hg, this]

end

/-- **C30** does not hold: there are calls with NaN, an infinite and a negative gamma, each outside the documented range,
that succeed. -/
theorem C30_does_not_hold :
    (∃ (q : QuantizationResult Ext) (q' : QuantizationResult Ext), q.setOutputGamma Flt.nan = .ok q' ∧ isNan q'.gamma = true) ∧
    (∃ (h h' : Histogram Ext), UserHistogram h ∧ h.addFixedColor ⟨1, 2, 3, 255⟩ Flt.inf = .ok h' ∧ h'.gamma = some Flt.inf) ∧
    (∃ (h h' : Histogram Ext), UserHistogram h ∧ h.addFixedColor ⟨1, 2, 3, 255⟩ (lit64 (-1)) = .ok h') := by
  refine ⟨?_, ?_, ?_⟩
  · let q : QuantizationResult Ext :=
      { remapped := none, palette := [], progressCallback := none, intPalette := [], ditherLevel := lit32 1,
        gamma := lit64 (45455/100000), paletteError := none, minPosterizationOutput := 0, useDitherMap := .none,
        singleThreadedDithering := false }
    have hn : isNan (Flt.nan : Ext) = true := rfl
    exact ⟨q, _, (C30_output_gamma_nan q _ hn).2, hn⟩
  · have hr : (Histogram.new (userAttr (F := Ext) [] none)).fixedColors.length < 256 := by show 0 < _; decide
    obtain ⟨h', e, hg⟩ := C30_fixed_color_unchecked (Histogram.new (userAttr (F := Ext) [] none)) ⟨1, 2, 3, 255⟩ Flt.inf hr
    exact ⟨_, h', .new _ _, e, hg rfl ⊤ rfl (by simp)⟩
  · have hr : (Histogram.new (userAttr (F := Ext) [] none)).fixedColors.length < 256 := by show 0 < _; decide
    obtain ⟨h', e, _⟩ := C30_fixed_color_unchecked (Histogram.new (userAttr (F := Ext) [] none)) ⟨1, 2, 3, 255⟩ (lit64 (-1)) hr
    exact ⟨_, h', .new _ _, e⟩

/-- the ranges have members, and values beyond them exist: a half is inside, infinity, −1 and NaN are not -/
example : Spec.InUnit false false (FltVal.val (lit64 (1/2) : Ext)) ∧ ¬ Spec.InUnit true true (FltVal.val (Flt.inf : Ext)) ∧
    ¬ Spec.InUnit true true (FltVal.val (lit64 (-1) : Ext)) ∧ ¬ Spec.InUnit true true (FltVal.val (Flt.nan : Ext)) := by
  refine ⟨⟨((1/2 : ℝ) : EReal), ?_, ?_, ?_⟩, ?_, ?_, ?_⟩
  · show some _ = some _; norm_num
  · simp only [Bool.false_eq_true, if_false]; exact_mod_cast (by norm_num : (0 : ℝ) < 1/2)
  · simp only [Bool.false_eq_true, if_false]; exact_mod_cast (by norm_num : (1/2 : ℝ) < 1)
  · rintro ⟨x, h, _, h1⟩
    cases (show some ⊤ = some x from h)
    have h2 : (⊤ : EReal) ≤ ((1 : ℝ) : EReal) := by simpa only [if_true, EReal.coe_one] using h1
    exact absurd (top_le_iff.mp h2) (EReal.coe_ne_top 1)
  · rintro ⟨x, h, h0, _⟩
    cases (show some (((-1 : ℚ) : ℝ) : EReal) = some x from h)
    have : ((0 : ℝ) : EReal) ≤ (((-1 : ℚ) : ℝ) : EReal) := by simpa using h0
    have := EReal.coe_le_coe_iff.mp this
    norm_num at this
  · rintro ⟨x, h, _⟩
    cases (show none = some x from h)

end Verif
