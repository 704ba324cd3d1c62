import Verif.Lemmas.Rows
import Verif.Lemmas.Env
import Mathlib.Tactic.Linarith
import Mathlib.Tactic.Positivity

/-! # Properties C16, C46 and the image parts of C34: construction and setters of images -/

set_option linter.unusedSectionVars false

namespace Verif
open Flt

variable {F : Type} [Flt F]

/-! ## C16 image construction -/

namespace Spec

/-- sizes the library can represent: 31-bit sides, 32-bit stride and a float image (16 bytes per pixel) that fits in
the address space -/
def Representable (w h stride : ℕ) : Prop :=
  w ≤ 2 ^ 31 - 1 ∧ h ≤ 2 ^ 31 - 1 ∧ stride ≤ 2 ^ 32 - 1 ∧ w * h * 16 ≤ 2 ^ 63 - 1

/-- number of pixels a buffer needs: the last row does not need padding -/
def neededPixels (w h stride : ℕ) : ℕ := stride * (h - 1) + w

end Spec
open Spec

theorem checkImageSize_iff (w h : ℕ) : Image.checkImageSize w h = true ↔
    0 < w ∧ 0 < h ∧ w ≤ 2 ^ 31 - 1 ∧ h ≤ 2 ^ 31 - 1 ∧ w * h * 16 ≤ 2 ^ 63 - 1 := by
  unfold Image.checkImageSize
  by_cases h0 : w = 0 ∨ h = 0
  · rw [if_pos h0]; simp; omega
  · rw [if_neg h0]
    have hh : 0 < h := by omega
    have e : w ≤ (2 ^ 63 - 1) / 16 / h ↔ w * h * 16 ≤ 2 ^ 63 - 1 := by
      rw [Nat.le_div_iff_mul_le hh, Nat.le_div_iff_mul_le (by norm_num)]
    by_cases h1 : max w h > 2 ^ 31 - 1 ∨ w > (2 ^ 63 - 1) / 16 / h
    · rw [if_pos h1]
      simp only [Bool.false_eq_true, false_iff]
      rintro ⟨_, _, a, b, c⟩
      rw [← e] at c
      omega
    · rw [if_neg h1]
      simp only [true_iff]
      rw [← e]
      omega

theorem toU32_eq (n : ℕ) : Image.toU32 n = if n ≤ 2 ^ 32 - 1 then .ok n else .error (.err .valueOutOfRange) := by
  unfold Image.toU32
  by_cases h : n < 2 ^ 32
  · rw [if_pos h, if_pos (by omega)]
  · rw [if_neg h, if_neg (by omega)]

theorem forPixels_eq (buf : List RGBA) {w h stride : ℕ} (hw : w ≤ 2 ^ 32 - 1) (hh : h ≤ 2 ^ 32 - 1)
    (hs : stride ≤ 2 ^ 32 - 1) : Source.forPixels buf w h stride =
      if 0 < w ∧ 0 < h ∧ w ≤ stride then
        if neededPixels w h stride ≤ buf.length
        then .ok (.pixels ((List.range h).map fun y => buf.drop (y * stride)))
        else .error (.err .bufferTooSmall)
      else .error (.err .valueOutOfRange) := by
  unfold Source.forPixels
  by_cases h0 : 0 < w ∧ 0 < h ∧ w ≤ stride
  · rw [if_neg (by omega), if_pos h0]
    have hmul : stride * h ≤ (2 ^ 32 - 1) * (2 ^ 32 - 1) := Nat.mul_le_mul hs hh
    rw [if_neg (by norm_num at hmul hw ⊢; omega)]
    have hexp : stride * h + w - stride = neededPixels w h stride := by
      obtain ⟨k, rfl⟩ : ∃ k, h = k + 1 := ⟨h - 1, by omega⟩
      simp only [neededPixels, Nat.add_sub_cancel, Nat.mul_add, Nat.mul_one]
      omega
    rw [hexp]
    by_cases hb : neededPixels w h stride ≤ buf.length
    · rw [if_neg (by omega), if_pos hb]
      have hn : h ≤ (buf.length + stride - 1) / stride := by
        rw [Nat.le_div_iff_mul_le (by omega)]
        obtain ⟨k, rfl⟩ : ∃ k, h = k + 1 := ⟨h - 1, by omega⟩
        simp only [neededPixels, Nat.add_sub_cancel] at hb
        rw [Nat.add_mul, Nat.one_mul, Nat.mul_comm]
        omega
      simp only [← List.map_take, List.take_range, Nat.min_eq_left hn]
    · rw [if_pos (by omega), if_neg hb]
  · rw [if_pos (by omega), if_neg h0]

/-- the whole constructor as one condition -/
theorem newStride_eq (buf : List RGBA) (w h stride : ℕ) (gamma : F) :
    Image.newStride buf w h stride gamma =
      if w ≤ 2 ^ 32 - 1 ∧ h ≤ 2 ^ 32 - 1 ∧ stride ≤ 2 ^ 32 - 1 ∧ 0 < w ∧ 0 < h ∧ w ≤ stride then
        if neededPixels w h stride ≤ buf.length
        then Image.newInternal (.pixels ((List.range h).map fun y => buf.drop (y * stride))) w h gamma
        else .error (.err .bufferTooSmall)
      else .error (.err .valueOutOfRange) := by
  by_cases hc : w ≤ 2 ^ 32 - 1 ∧ h ≤ 2 ^ 32 - 1 ∧ stride ≤ 2 ^ 32 - 1 ∧ 0 < w ∧ 0 < h ∧ w ≤ stride
  · rw [if_pos hc]
    obtain ⟨h1, h2, h3, h4⟩ := hc
    unfold Image.newStride
    rw [toU32_eq, toU32_eq, toU32_eq, if_pos h1, if_pos h2, if_pos h3]
    simp only [bind, Except.bind]
    rw [forPixels_eq buf h1 h2 h3, if_pos h4]
    by_cases h5 : neededPixels w h stride ≤ buf.length
    · simp only [h5, if_true]
    · simp only [h5, if_false]
  · rw [if_neg hc]
    unfold Image.newStride
    rw [toU32_eq, toU32_eq, toU32_eq]
    by_cases h1 : w ≤ 2 ^ 32 - 1
    · by_cases h2 : h ≤ 2 ^ 32 - 1
      · by_cases h3 : stride ≤ 2 ^ 32 - 1
        · rw [if_pos h1, if_pos h2, if_pos h3]
          have h4 : ¬ (0 < w ∧ 0 < h ∧ w ≤ stride) := fun h4 => hc ⟨h1, h2, h3, h4⟩
          simp only [bind, Except.bind]
          rw [forPixels_eq buf h1 h2 h3, if_neg h4]
        · rw [if_pos h1, if_pos h2, if_neg h3]; rfl
      · rw [if_pos h1, if_neg h2]; rfl
    · rw [if_neg h1]; rfl

/-- **C16** (any float). A buffer is accepted exactly if width and height are positive, the stride is not smaller than
the width, the sizes are representable, gamma is in `[0,1]` and the buffer has `stride * (height - 1) + width` pixels
(the stride padding of the last row is not needed). -/
theorem C16_accepts (buf : List RGBA) (w h stride : ℕ) (gamma : F) :
    (∃ img, Image.newStride buf w h stride gamma = .ok img) ↔
      0 < w ∧ 0 < h ∧ w ≤ stride ∧ Representable w h stride ∧
      (le (lit64 0) gamma = true ∧ le gamma (lit64 1) = true) ∧ neededPixels w h stride ≤ buf.length := by
  rw [newStride_eq]
  unfold Image.newInternal
  constructor
  · rintro ⟨img, e⟩
    split at e
    next h1 =>
      split at e
      next h2 =>
        split at e
        next h3 => cases e
        next h3 =>
          split at e
          next h4 => cases e
          next h4 =>
            have h3' := (checkImageSize_iff w h).mp (by simpa using h3)
            simp only [Bool.not_eq_false, Bool.not_eq_eq_eq_not, Bool.not_true,
              Bool.and_eq_true] at h4
            exact ⟨h1.2.2.2.1, h1.2.2.2.2.1, h1.2.2.2.2.2, ⟨h3'.2.2.1, h3'.2.2.2.1, h1.2.2.1, h3'.2.2.2.2⟩,
              by simpa using h4, h2⟩
      next => cases e
    next => cases e
  · rintro ⟨h1, h2, h3, ⟨r1, r2, r3, r4⟩, ⟨g1, g2⟩, hb⟩
    rw [if_pos ⟨by omega, by omega, r3, h1, h2, h3⟩, if_pos hb,
      if_neg (by rw [(checkImageSize_iff w h).mpr ⟨h1, h2, r1, r2, r4⟩]; simp), if_neg (by simp [g1, g2])]
    exact ⟨_, rfl⟩

/-- **C16** (any float). The error of a rejected buffer: `BufferTooSmall` exactly if only the length is the problem at the
time it is checked (before the gamma and the 31-bit limits), `ValueOutOfRange` otherwise; never a panic. -/
theorem C16_errors (buf : List RGBA) (w h stride : ℕ) (gamma : F) (e : Fail)
    (he : Image.newStride buf w h stride gamma = .error e) :
    (e = .err .bufferTooSmall ∧ buf.length < neededPixels w h stride) ∨ e = .err .valueOutOfRange := by
  rw [newStride_eq] at he
  unfold Image.newInternal at he
  split at he
  next =>
    split at he
    next =>
      split at he
      · cases he; exact .inr rfl
      · split at he
        · cases he; exact .inr rfl
        · cases he
    next h2 => cases he; exact .inl ⟨rfl, by omega⟩
  next => cases he; exact .inr rfl

theorem newInternal_ok {src : Source} {w h : ℕ} {gamma : F} {img : Image F}
    (e : Image.newInternal src w h gamma = .ok img) :
    0 < w ∧ 0 < h ∧ img = ⟨⟨w, h, none, src, if lt (lit64 0) gamma then gamma else lit64 (45455/100000)⟩,
      none, none, none, none, []⟩ := by
  unfold Image.newInternal at e
  split at e
  · cases e
  next h1 =>
    split at e
    · cases e
    · have := (checkImageSize_iff w h).mp (by simpa using h1)
      cases e
      exact ⟨this.1, this.2.1, rfl⟩

/-- **C16** (any float). Row `y` of an accepted image consists of the `width` pixels that start at `y * stride`, and all
of them lie inside the buffer. -/
theorem C16_rows (buf : List RGBA) (w h stride : ℕ) (gamma : F) (img : Image F)
    (e : Image.newStride buf w h stride gamma = .ok img) :
    img.width = w ∧ img.height = h ∧ ∀ y < h, y * stride + w ≤ buf.length ∧
      ∃ row, img.px.rowRgba y = .ok row ∧ row.length = w ∧ ∀ x < w, row[x]? = buf[y * stride + x]? := by
  have hacc := (C16_accepts buf w h stride gamma).mp ⟨img, e⟩
  obtain ⟨hw, hh, hs, hr, hg, hb⟩ := hacc
  rw [newStride_eq, if_pos ⟨by have := hr.1; omega, by have := hr.2.1; omega, hr.2.2.1, hw, hh, hs⟩, if_pos hb] at e
  obtain ⟨_, _, rfl⟩ := newInternal_ok e
  refine ⟨rfl, rfl, fun y hy => ?_⟩
  have hin : y * stride + w ≤ buf.length := by
    refine le_trans ?_ hb
    unfold neededPixels
    have : y * stride ≤ stride * (h - 1) := by
      rw [Nat.mul_comm stride]; exact Nat.mul_le_mul_right _ (by omega)
    omega
  refine ⟨hin, (buf.drop (y * stride)).take w, ?_, by simp; omega, fun x hx => ?_⟩
  · show (match ((List.range h).map fun y => buf.drop (y * stride))[y]? with
      | none => Except.error Fail.panic
      | some row => if row.length < w then Except.error Fail.panic else Except.ok (row.take w)) = _
    rw [List.getElem?_map, List.getElem?_range hy]
    simp only [Option.map_some, List.length_drop]
    rw [if_neg (by omega)]
  · rw [List.getElem?_take_of_lt hx, List.getElem?_drop]

example : ∃ img, Image.newStride (F := ℝ) (List.replicate 7 ⟨1, 2, 3, 4⟩) 3 2 4 0.5 = .ok img :=
  (C16_accepts _ _ _ _ _).mpr ⟨by decide, by decide, by decide, by unfold Representable; norm_num,
    by constructor <;> simp <;> norm_num, by simp [neededPixels]⟩
example : ¬ ∃ img, Image.newStride (F := ℝ) (List.replicate 6 ⟨1, 2, 3, 4⟩) 3 2 4 0.5 = .ok img := by
  rw [C16_accepts]; simp [neededPixels]
/-- a stride close to `2^32` does not wrap -/
example (g : ℝ) (buf : List RGBA) (h : buf.length < 2 ^ 32) : ¬ ∃ img, Image.newStride buf 1 3 (2 ^ 32 - 1) g = .ok img := by
  rw [C16_accepts]; rintro ⟨_, _, _, _, _, hb⟩; simp [neededPixels] at hb; omega

/-- every constructor gives a good image -/
theorem newStride_good {buf : List RGBA} {w h stride : ℕ} {gamma : F} {img : Image F}
    (e : Image.newStride buf w h stride gamma = .ok img) : img.Good := by
  obtain ⟨hw, hh, hrows⟩ := C16_rows buf w h stride gamma img e
  have hacc := (C16_accepts buf w h stride gamma).mp ⟨img, e⟩
  have hnew : ∃ src, Image.newInternal src w h gamma = .ok img := by
    rw [newStride_eq] at e
    split at e
    · split at e
      · exact ⟨_, e⟩
      · cases e
    · cases e
  obtain ⟨src, hsrc⟩ := hnew
  obtain ⟨_, _, himg⟩ := newInternal_ok hsrc
  refine ⟨?_, by omega, by omega, ?_, ?_, ?_, ?_⟩
  · intro y hy
    obtain ⟨_, row, hrow, hlen, _⟩ := hrows y (by rw [← hh]; exact hy)
    refine ⟨Rows.convertRow img.px.gamma row, ?_, ?_⟩
    · unfold Rows.rowF
      rw [hrow]
      rw [himg]
      rfl
    · rw [Rows.convertRow, List.length_map, hlen]; exact hw.symm
  all_goals (intro m hm; rw [himg] at hm; cases hm)

theorem newFn_good {f : ℕ → ℕ → RGBA} {w h : ℕ} {gamma : F} {img : Image F}
    (e : Image.newFn f w h gamma = .ok img) : img.Good ∧ img.width = w ∧ img.height = h ∧
      ∀ y, img.px.rowRgba y = .ok ((List.range w).map (f y)) := by
  unfold Image.newFn at e
  rw [toU32_eq, toU32_eq] at e
  by_cases h1 : w ≤ 2 ^ 32 - 1
  · by_cases h2 : h ≤ 2 ^ 32 - 1
    · rw [if_pos h1, if_pos h2] at e
      simp only [bind, Except.bind] at e
      obtain ⟨hw, hh, rfl⟩ := newInternal_ok e
      refine ⟨⟨?_, hw, hh, ?_, ?_, ?_, ?_⟩, rfl, rfl, fun y => rfl⟩
      · intro y hy
        refine ⟨_, rfl, ?_⟩
        simp [Rows.convertRow]
      all_goals (intro m hm; cases hm)
    · rw [if_pos h1, if_neg h2] at e; cases e
  · rw [if_neg h1] at e; cases e

/-! ## C46 setters validate sizes -/

/-- **C46** (any float). `set_importance_map` takes exactly the maps with one byte per pixel and fails with
`BufferTooSmall` on every other length; a failed call returns no new image, so the old one stays as it is. -/
theorem C46_importance_map (img : Image F) (m : List UInt8) :
    img.setImportanceMap m =
      if m.length = img.width * img.height then .ok { img with importanceMap := some m }
      else .error (.err .bufferTooSmall) := by
  unfold Image.setImportanceMap
  by_cases h : m.length = img.width * img.height <;> simp [h]

/-- **C46** (any float). `set_background` takes exactly the images of the same size without a background of their own, and
then only the background changes. -/
theorem C46_background (img bg : Image F) :
    (img.setBackground bg = .error (.err .unsupported) ↔ bg.background.isSome) ∧
    (img.setBackground bg = .error (.err .bufferTooSmall) ↔
      bg.background = none ∧ ¬ (bg.width = img.width ∧ bg.height = img.height)) ∧
    (∀ img', img.setBackground bg = .ok img' ↔
      bg.background = none ∧ bg.width = img.width ∧ bg.height = img.height ∧
      img' = { img with background := some bg.px }) := by
  unfold Image.setBackground Image.width Image.height
  cases hb : bg.background with
  | some b => simp
  | none =>
    by_cases hw : img.px.width = bg.px.width
    · by_cases hh : img.px.height = bg.px.height
      · simp [hw, hh, eq_comm]
      · simp [hw, hh]; omega
    · have hw' : ¬ bg.px.width = img.px.width := fun h => hw h.symm
      simp [hw, hw']

example : ∃ a b : Image ℝ, Image.newFn (fun _ _ => ⟨0, 0, 0, 0⟩) 2 2 0 = .ok a ∧
    a.setBackground a = .ok b ∧ b.setBackground b = .error (.err .unsupported) := by
  obtain ⟨a, ha⟩ : ∃ a, Image.newFn (F := ℝ) (fun _ _ => ⟨0, 0, 0, 0⟩) 2 2 0 = .ok a := by
    unfold Image.newFn Image.newInternal Image.toU32
    simp [Image.checkImageSize, bind, Except.bind]
    norm_num
  have hg : a.background = none := by
    unfold Image.newFn at ha
    simp only [Image.toU32, bind, Except.bind] at ha
    norm_num at ha
    obtain ⟨_, _, rfl⟩ := newInternal_ok ha
    rfl
  refine ⟨a, { a with background := some a.px }, ha, ((C46_background a a).2.2 _).mpr ⟨hg, rfl, rfl, rfl⟩, ?_⟩
  exact (C46_background _ _).1.mpr rfl

/-- setters keep images good -/
theorem setBackground_good {img bg img' : Image F} (hi : img.Good) (hb : bg.Good) (e : img.setBackground bg = .ok img') :
    img'.Good := by
  obtain ⟨_, h1, h2, rfl⟩ := ((C46_background img bg).2.2 img').mp e
  exact ⟨hi.px, hi.width_pos, hi.height_pos, hi.importance, hi.edges, hi.ditherMap,
    fun b hb' => by cases hb'; exact ⟨hb.px, h1, h2⟩⟩

theorem setImportanceMap_good {img img' : Image F} {m : List UInt8} (hi : img.Good)
    (e : img.setImportanceMap m = .ok img') : img'.Good := by
  rw [C46_importance_map] at e
  split at e
  next h =>
    cases e
    exact ⟨hi.px, hi.width_pos, hi.height_pos, fun m' hm => by cases hm; exact h, hi.edges, hi.ditherMap, hi.background⟩
  next => cases e

/-! ## C34 fixed colours of an image -/

/-- adds fixed colours one after the other; a failed call changes nothing -/
def Image.addFixedColors (img : Image F) : List RGBA → Image F
  | [] => img
  | c :: cs => match img.addFixedColor c with
    | .ok img => img.addFixedColors cs
    | .error _ => img.addFixedColors cs

/-- **C34** (any float). The first 256 colours are accepted, every later one is rejected with `Unsupported`. -/
theorem C34_image_limit (img : Image F) (h0 : img.fixedColors = []) (cs : List RGBA) (c : RGBA) :
    (img.addFixedColors cs).fixedColors = cs.take 256 ∧
    ((img.addFixedColors cs).addFixedColor c = .error (.err .unsupported) ↔ 256 ≤ cs.length) := by
  have key : ∀ (cs done : List RGBA) (img : Image F), img.fixedColors = done → done.length ≤ 256 →
      (img.addFixedColors cs).fixedColors = done ++ cs.take (256 - done.length) := by
    intro cs
    induction cs with
    | nil => intro done img h _; simp [Image.addFixedColors, h]
    | cons c cs ih =>
      intro done img h hl
      unfold Image.addFixedColors Image.addFixedColor
      by_cases hfull : img.fixedColors.length ≥ maxColorsCap
      · rw [if_pos hfull]
        have hd : done.length = 256 := by rw [h] at hfull; simp only [maxColorsCap] at hfull; omega
        have := ih done img h hl
        rw [hd] at this ⊢
        simpa using this
      · rw [if_neg hfull]
        have hd : done.length < 256 := by rw [h] at hfull; simp only [maxColorsCap] at hfull; omega
        have := ih (done ++ [c]) { img with fixedColors := img.fixedColors ++ [c] } (by simp [h]) (by simp; omega)
        simp only [this]
        have e : 256 - done.length = (256 - (done ++ [c]).length) + 1 := by simp; omega
        rw [e, List.take_succ_cons, List.append_assoc, List.singleton_append]
  have h1 := key cs [] img h0 (by simp)
  simp only [List.nil_append, List.length_nil, Nat.sub_zero] at h1
  refine ⟨h1, ?_⟩
  unfold Image.addFixedColor
  rw [h1]
  by_cases h : (cs.take 256).length ≥ maxColorsCap
  · rw [if_pos h]; simp [maxColorsCap] at h; simpa using h
  · rw [if_neg h]; simp [maxColorsCap] at h; simpa using h

example : ∃ img : Image ℝ, img.fixedColors = [] ∧
    (img.addFixedColors (List.replicate 300 ⟨1, 2, 3, 4⟩)).fixedColors.length = 256 :=
  ⟨⟨⟨1, 1, none, .pixels [], 0⟩, none, none, none, none, []⟩, rfl, by
    rw [(C34_image_limit _ rfl _ ⟨0, 0, 0, 0⟩).1, List.length_take, List.length_replicate]; rfl⟩

end Verif
