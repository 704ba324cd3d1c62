import Verif.Lemmas.MachineRemap
import Verif.Model.Ffi
import Verif.Props.RemapExact
import Verif.Props.Gamma

/-! Integer arithmetic stays within the types of the code (C71). -/

set_option linter.unusedSectionVars false

namespace Verif
open Flt Mach Spec

/-- **C71**: the operations of `Model/Machine` accept exactly the results that the type can hold, and give the true
result then. -/
theorem C71_operations :
    (∀ n a b c, Mach.add n a b = .ok c ↔ c = a + b ∧ c < 2 ^ n) ∧
    (∀ n a b c, Mach.mul n a b = .ok c ↔ c = a * b ∧ c < 2 ^ n) ∧
    (∀ a b c, Mach.sub a b = .ok c ↔ c + b = a) ∧
    (∀ a b c, Mach.div a b = .ok c ↔ b ≠ 0 ∧ c = a / b) ∧
    (∀ n (a b c : ℤ), Mach.iadd n a b = .ok c ↔ c = a + b ∧ -(2 ^ (n - 1)) ≤ c ∧ c < 2 ^ (n - 1)) ∧
    (∀ n (a b c : ℤ), Mach.isub n a b = .ok c ↔ c = a - b ∧ -(2 ^ (n - 1)) ≤ c ∧ c < 2 ^ (n - 1)) ∧
    (∀ n (a b c : ℤ), Mach.imul n a b = .ok c ↔ c = a * b ∧ -(2 ^ (n - 1)) ≤ c ∧ c < 2 ^ (n - 1)) ∧
    (∀ n a s c, a < 2 ^ n → (Mach.shr n a s = .ok c ↔ s < n ∧ c = a >>> s)) ∧
    (∀ n a s c, Mach.shl n a s = .ok c ↔ s < n ∧ c = (a <<< s) % 2 ^ n) := by
  refine ⟨?_, ?_, ?_, ?_, ?_, ?_, ?_, ?_, ?_⟩
  · intro n a b c; unfold Mach.add fit; split <;> simp <;> omega
  · intro n a b c; unfold Mach.mul fit
    split
    next h => simp only [Except.ok.injEq]; exact ⟨fun e => ⟨e.symm, by rw [← e]; exact h⟩, fun e => e.1.symm⟩
    next h => simp only [reduceCtorEq, false_iff]; rintro ⟨rfl, h2⟩; exact h h2
  · intro a b c; unfold Mach.sub; split <;> simp <;> omega
  · intro a b c; unfold Mach.div
    split
    next h => simp [h]
    next h => simp only [Except.ok.injEq]; exact ⟨fun e => ⟨h, e.symm⟩, fun e => e.2.symm⟩
  · intro n a b c; unfold iadd ifit
    split
    next h => simp only [Except.ok.injEq]; exact ⟨fun e => ⟨e.symm, by rw [← e]; exact h⟩, fun e => e.1.symm⟩
    next h => simp only [reduceCtorEq, false_iff]; rintro ⟨rfl, h2⟩; exact h h2
  · intro n a b c; unfold isub ifit
    split
    next h => simp only [Except.ok.injEq]; exact ⟨fun e => ⟨e.symm, by rw [← e]; exact h⟩, fun e => e.1.symm⟩
    next h => simp only [reduceCtorEq, false_iff]; rintro ⟨rfl, h2⟩; exact h h2
  · intro n a b c; unfold imul ifit
    split
    next h => simp only [Except.ok.injEq]; exact ⟨fun e => ⟨e.symm, by rw [← e]; exact h⟩, fun e => e.1.symm⟩
    next h => simp only [reduceCtorEq, false_iff]; rintro ⟨rfl, h2⟩; exact h h2
  · intro n a s c _; unfold Mach.shr
    rw [Nat.shiftRight_eq_div_pow]
    split
    next h => simp only [Except.ok.injEq]; exact ⟨fun e => ⟨h, e.symm⟩, fun e => e.2.symm⟩
    next h => simp [h]
  · intro n a s c; unfold Mach.shl
    rw [Nat.shiftLeft_eq]
    split
    next h => simp only [Except.ok.injEq]; exact ⟨fun e => ⟨h, e.symm⟩, fun e => e.2.symm⟩
    next h => simp [h]

example : Mach.add 8 255 1 = .error .panic ∧ Mach.add 8 254 1 = .ok 255 ∧ Mach.sub 3 4 = .error .panic := ⟨rfl, rfl, rfl⟩

section anyFloat
variable {F : Type} [Flt F]

/-! ### Settings -/

/-- **C71** (any float): no speed makes the arithmetic of `set_speed` leave its types. -/
theorem C71_set_speed_any_float (a : Attr F) (v : ℤ) : a.setSpeedM v = a.setSpeed v := Attr.setSpeedM_eq a v

/-! ### Images -/

theorem checkImageSizeM_mono {bits : ℕ} (hb : bits ≤ 64) {w h : ℕ} (hc : Image.checkImageSizeM bits w h = true) :
    Image.checkImageSize w h = true := by
  unfold Image.checkImageSizeM at hc
  unfold Image.checkImageSize
  split at hc
  · cases hc
  next h1 =>
    split at hc
    · cases hc
    next h2 =>
      rw [if_neg h1, if_neg]
      rintro (h3 | h3)
      · exact h2 (.inl h3)
      · refine h2 (.inr (lt_of_le_of_lt ?_ h3))
        apply Nat.div_le_div_right
        apply Nat.div_le_div_right
        have : 2 ^ (bits - 1) ≤ 2 ^ 63 := Nat.pow_le_pow_right (by norm_num) (by omega)
        omega

theorem newInternalM_eq {bits : ℕ} (hb : 32 ≤ bits) (hb' : bits ≤ 64) (s : Source) (w h : ℕ) (gamma : F) :
    Image.newInternalM bits s w h gamma =
      if Image.checkImageSizeM bits w h = true then Image.newInternal s w h gamma else .error (.err .valueOutOfRange) := by
  unfold Image.newInternalM Image.newInternal
  cases hc : Image.checkImageSizeM bits w h with
  | false => rfl
  | true =>
    obtain ⟨n, h1, h2, h3, h4, h5⟩ := (Room.of_check hb hc).wide
    rw [checkImageSizeM_mono hb' hc]
    simp only [Bool.not_true, Bool.false_eq_true, if_false, if_true]
    rw [mul_lt (by omega), Res.ok_bind]
    rfl

theorem forPixelsM_eq {bits : ℕ} (hb' : bits ≤ 64) (buf : List RGBA) (w h stride : ℕ) :
    Source.forPixelsM bits buf w h stride = Source.forPixels buf w h stride ∨
    (Source.forPixelsM bits buf w h stride = .error (.err .valueOutOfRange) ∧ 2 ^ bits ≤ stride * h + w) := by
  unfold Source.forPixelsM Source.forPixels
  have hp : 2 ^ bits ≤ 2 ^ 64 := Nat.pow_le_pow_right (by norm_num) hb'
  split
  · exact .inl rfl
  next h1 =>
    push Not at h1
    split
    next h2 =>
      refine .inr ⟨rfl, ?_⟩
      omega
    next h2 =>
      push Not at h2
      have hs : stride ≤ stride * h := Nat.le_mul_of_pos_right _ (by omega)
      rw [if_neg (by push Not; omega), sub_le (by omega), Res.ok_bind]
      refine .inl ?_
      split <;> rfl

/-- **C71** (any float): constructors on platforms with 32 to 64 bits make the image of the other theorems or report an
error, and only because the sizes are too large for that platform; on 64 bits they agree always. They never panic. -/
theorem C71_constructors_any_float {bits : ℕ} (hb : 32 ≤ bits) (hb' : bits ≤ 64) (w h : ℕ) (gamma : F) :
    (∀ buf stride, Image.newStrideM bits buf w h stride gamma = Image.newStride buf w h stride gamma ∨
      (Image.newStrideM bits buf w h stride gamma = .error (.err .valueOutOfRange) ∧
        (2 ^ bits ≤ stride * h + w ∨ Image.checkImageSizeM bits w h = false))) ∧
    (∀ f, Image.newFnM bits f w h gamma = Image.newFn f w h gamma ∨
      (Image.newFnM bits f w h gamma = .error (.err .valueOutOfRange) ∧ Image.checkImageSizeM bits w h = false)) ∧
    (∀ buf stride, Image.newStrideM 64 buf w h stride gamma = Image.newStride buf w h stride gamma) ∧
    (∀ f, Image.newFnM 64 f w h gamma = Image.newFn f w h gamma) := by
  have hi : ∀ s, Image.newInternalM 64 s w h gamma = Image.newInternal s w h gamma := by
    intro s
    rw [newInternalM_eq (by norm_num) le_rfl]
    split
    · rfl
    next hc =>
      unfold Image.newInternal
      have : Image.checkImageSize w h = false := by simpa [Image.checkImageSizeM, Image.checkImageSize] using hc
      rw [this]; rfl
  have hf : ∀ buf stride, Source.forPixelsM 64 buf w h stride = Source.forPixels buf w h stride := by
    intro buf stride
    unfold Source.forPixelsM Source.forPixels
    split
    · rfl
    next h1 =>
      push Not at h1
      split
      · rfl
      · have hs : stride ≤ stride * h := Nat.le_mul_of_pos_right _ (by omega)
        rw [sub_le (by omega), Res.ok_bind]
        split <;> rfl
  have hu : ∀ n, Image.toU32 n = .ok n ∨ Image.toU32 n = .error (.err .valueOutOfRange) := by
    intro n; unfold Image.toU32; split <;> simp
  have hint : ∀ s, Image.newInternalM bits s w h gamma = Image.newInternal s w h gamma ∨
      (Image.newInternalM bits s w h gamma = .error (.err .valueOutOfRange) ∧ Image.checkImageSizeM bits w h = false) := by
    intro s
    rw [newInternalM_eq hb hb']
    split
    · exact .inl rfl
    next hc => exact .inr ⟨rfl, by simpa using hc⟩
  refine ⟨fun buf stride => ?_, fun f => ?_, fun buf stride => ?_, fun f => ?_⟩
  · unfold Image.newStrideM Image.newStride
    rcases hu w with e | e <;> rw [e]
    · rcases hu h with e' | e' <;> rw [Res.ok_bind, Res.ok_bind, e']
      · rcases hu stride with e'' | e'' <;> rw [Res.ok_bind, Res.ok_bind, e'']
        · rw [Res.ok_bind, Res.ok_bind]
          rcases forPixelsM_eq hb' buf w h stride with hx | ⟨hx, hy⟩
          · rw [hx]
            cases Source.forPixels buf w h stride with
            | error e => exact .inl rfl
            | ok s =>
              rw [Res.ok_bind, Res.ok_bind]
              rcases hint s with h' | ⟨h1, h2⟩
              · exact .inl h'
              · exact .inr ⟨h1, .inr h2⟩
          · rw [hx]; exact .inr ⟨rfl, .inl hy⟩
        · exact .inl rfl
      · exact .inl rfl
    · exact .inl rfl
  · unfold Image.newFnM Image.newFn
    rcases hu w with e | e <;> rw [e]
    · rcases hu h with e' | e' <;> rw [Res.ok_bind, Res.ok_bind, e']
      · rw [Res.ok_bind, Res.ok_bind]
        exact hint _
      · exact .inl rfl
    · exact .inl rfl
  · unfold Image.newStrideM Image.newStride
    rcases hu w with e | e <;> rw [e]
    · rcases hu h with e' | e' <;> rw [Res.ok_bind, Res.ok_bind, e']
      · rcases hu stride with e'' | e'' <;> rw [Res.ok_bind, Res.ok_bind, e'']
        · rw [Res.ok_bind, Res.ok_bind, hf]
          simp only [hi]
        · rfl
      · rfl
    · rfl
  · unfold Image.newFnM Image.newFn
    rcases hu w with e | e <;> rw [e]
    · rcases hu h with e' | e' <;> rw [Res.ok_bind, Res.ok_bind, e']
      · rw [Res.ok_bind, Res.ok_bind, hi]
      · rfl
    · rfl

/-- the size check of a platform with 64 bits holds for every image of the caller -/
theorem UserImage.size {img : Image F} (h : UserImage img) : Image.checkImageSizeM 64 img.width img.height = true := by
  have hnew : ∀ {s : Source} {w h : ℕ} {gamma : F} {img : Image F}, Image.newInternal s w h gamma = .ok img →
      Image.checkImageSizeM 64 img.width img.height = true := by
    intro s w h gamma img e
    unfold Image.newInternal at e
    split at e
    · cases e
    next hc =>
      split at e
      · cases e
      · cases e
        simpa [Image.checkImageSizeM, Image.checkImageSize, Image.width, Image.height] using hc
  have hsame : ∀ {a b : Image F}, Rows.Same a.px b.px → Image.checkImageSizeM 64 a.width a.height = true →
      Image.checkImageSizeM 64 b.width b.height = true := by
    intro a b s e
    rw [show b.width = a.width from s.width, show b.height = a.height from s.height]; exact e
  induction h with
  | @fromPixels buf w h stride gamma img e =>
    unfold Image.newStride at e
    cases h1 : Image.toU32 w with
    | error x => rw [h1] at e; cases e
    | ok w' =>
      cases h2 : Image.toU32 h with
      | error x => rw [h1, h2] at e; cases e
      | ok h' =>
        cases h3 : Image.toU32 stride with
        | error x => rw [h1, h2, h3] at e; cases e
        | ok s' =>
          rw [h1, h2, h3, Res.ok_bind, Res.ok_bind, Res.ok_bind] at e
          cases h4 : Source.forPixels buf w' h' s' with
          | error x => rw [h4] at e; cases e
          | ok s => rw [h4, Res.ok_bind] at e; exact hnew e
  | @fromCallback f w h gamma img e =>
    unfold Image.newFn at e
    cases h1 : Image.toU32 w with
    | error x => rw [h1] at e; cases e
    | ok w' =>
      cases h2 : Image.toU32 h with
      | error x => rw [h1, h2] at e; cases e
      | ok h' => rw [h1, h2, Res.ok_bind, Res.ok_bind] at e; exact hnew e
  | importance _ e ih =>
    unfold Image.setImportanceMap at e
    split at e <;> cases e
    exact ih
  | background _ _ e ih _ =>
    unfold Image.setBackground at e
    split at e
    · cases e
    · split at e <;> cases e
      exact ih
  | fixed _ e ih =>
    unfold Image.addFixedColor at e
    split at e <;> cases e
    exact ih
  | @histogram img ho h attr log hi ih => exact hsame (addImage_same ho h attr log hi.good).1 ih
  | @remap img env q buf log hi hq ih =>
    refine hsame ?_ ih
    by_cases hb : buf.length < img.width * img.height
    · rw [(remapInto_spec env buf log hq hi.good).small hb]; exact Rows.Same.refl _
    · obtain ⟨s, d, _, e2, _⟩ := (remapInto_spec env buf log hq hi.good).run (by omega)
      rw [e2]; exact d.samePx

/-- **C71** (any float): the size of an importance map is compared with the number of pixels. -/
theorem C71_importance_map_any_float {bits : ℕ} (hb : 32 ≤ bits) {img : Image F}
    (hs : Image.checkImageSizeM bits img.width img.height = true) (map : List UInt8) :
    img.setImportanceMapM bits map = img.setImportanceMap map := by
  obtain ⟨n, h1, h2, h3, h4, h5⟩ := (Room.of_check hb hs).wide
  unfold Image.setImportanceMapM Image.setImportanceMap
  rw [mul_lt (by omega), Res.ok_bind]
  rfl

/-! ### Histograms -/

/-- **C71** (any float): adding an image and adding colours. -/
theorem C71_histogram_any_float {bits : ℕ} (hb : 32 ≤ bits) {h : Histogram F} (hu : UserHistogram h) :
    (∀ entries gamma, h.addColorsM entries gamma = h.addColors entries gamma) ∧
    ∀ (ho : HashOrder) (cs : List Call) (cb : Option (List F → Bool)) (img : Image F) (log : List F), UserImage img →
      Image.checkImageSizeM bits img.width img.height = true →
      h.addImageM bits ho (userAttr cs cb) img log = h.addImage ho (userAttr cs cb) img log := by
  have h7 : h.posterizeBits ≤ 7 := by have := hu.keysOK.bits; omega
  exact ⟨fun entries gamma => addColorsM_eq h7 entries gamma, fun ho cs cb img log hi hs =>
    addImageM_eq ho h7 (userAttr_posterizeBits cs cb) (Room.of_check hb hs) hi.good log⟩

/-! ### Quantization and remapping -/

variable [FltSign F]

/-- **C71** (any float): quantization. -/
theorem C71_quantize_any_float {h : Histogram F} (hu : UserHistogram h) (env : Env F) (cs : List Call)
    (cb : Option (List F → Bool)) (freeze : Bool) (log : List F) :
    h.quantizeInternalM env (userAttr cs cb) freeze log = h.quantizeInternal env (userAttr cs cb) freeze log :=
  quantizeInternalM_eq hu env cs cb freeze log

theorem UserResult.posterization {q : QuantizationResult F} (h : UserResult q) : q.minPosterizationOutput ≤ 4 := by
  induction h with
  | quantized env cs cb h freeze log log' e =>
    rcases user_outcome env cs cb h freeze log with ⟨-, -, e'⟩ | ⟨-, e'⟩
    · rw [e] at e'; cases e'
    · rw [e] at e'
      cases e' with
      | ok _ _ _ _ hr => rw [hr.rest]; exact userAttr_posterization cs cb
  | level _ e ih =>
    unfold QuantizationResult.setDitheringLevel at e
    split at e <;> cases e
    exact ih
  | gamma _ e ih =>
    unfold QuantizationResult.setOutputGamma at e
    split at e <;> cases e
    exact ih
  | callback cb _ ih => exact ih
  | palette _ ih =>
    unfold QuantizationResult.getPalette
    split
    · exact ih
    · split <;> exact ih
  | clone _ ih => exact ih
  | remap env buf log hq hi ih =>
    rcases remapInto_quant env hq.good hi.good buf log with ⟨_, e⟩ | ⟨_, p, err, _, e⟩ <;> rw [e] <;> exact ih

/-- **C71** (any float): reading the palette. -/
theorem C71_palette_any_float {q : QuantizationResult F} (hq : UserResult q) : q.getPaletteM = .ok q.getPalette := by
  have := hq.posterization
  unfold QuantizationResult.getPaletteM QuantizationResult.getPalette
  cases q.remapped with
  | some re => rfl
  | none =>
    dsimp only
    by_cases he : q.intPalette.isEmpty = true
    · rw [if_pos he, if_pos he, initIntPaletteM_eq _ _ (by omega)]; rfl
    · rw [if_neg he, if_neg he]

/-- **C71** (any float): remapping of images with fewer than `2 ^ 32` pixels, dithered or not, whatever was remapped
before. -/
theorem C71_remap_any_float {bits : ℕ} (hb : 32 ≤ bits) (env : RemapEnv F) {q : QuantizationResult F} {img : Image F}
    (hq : UserResult q) (hi : UserImage img) (hs : Image.checkImageSizeM bits img.width img.height = true)
    (h32 : img.width * img.height < 2 ^ 32) (buf : List (Option UInt8)) (log : List F) :
    remapIntoM bits env q img buf log = remapInto env q img buf log :=
  remapIntoM_eq env hi.good hq.good.pos hq.good.le (by have := hq.posterization; omega) (Room.of_check hb hs) h32 buf log

/-- **C71** (any float): on a platform with 32 bits every image has fewer pixels, and so has every image the C functions
for pixels and rows accept. -/
theorem C71_sizes {w h : ℕ} : (Image.checkImageSizeM 32 w h = true → w * h < 2 ^ 32) ∧ (checkSizeC w h = true → w * h < 2 ^ 32) := by
  constructor
  · intro hc
    have := (Room.of_check le_rfl hc).area
    norm_num at this ⊢
    omega
  · intro hc
    unfold checkSizeC at hc
    split at hc
    · cases hc
    next h1 =>
      split at hc
      · cases hc
      next h2 =>
        push Not at h1 h2
        have := h2.1
        rw [Nat.div_div_eq_div_mul, Nat.le_div_iff_mul_le (by omega)] at this
        have e : w * (4 * h) = 4 * (w * h) := by ring
        omega

/-- **C71** (any float): the bound is needed. With `2 ^ 32` pixels or more (which takes a platform with more than 32
bits) a dithered remap that is not stopped overflows a `u32`; a release build carries on with the wrapped number
(`C38_does_not_hold`). -/
theorem C71_pixel_count_any_float {bits : ℕ} (hb : 32 ≤ bits) (env : RemapEnv F) {q : QuantizationResult F} {img : Image F}
    (hs : Image.checkImageSizeM bits img.width img.height = true) (h32 : 2 ^ 32 ≤ img.width * img.height)
    (hcb : q.progressCallback = none) (hl : eq q.ditherLevel (lit32 0) = false) {buf : List (Option UInt8)}
    (hlen : img.width * img.height ≤ buf.length) (log : List F) :
    (remapIntoM bits env q img buf log).res = .error .panic := by
  obtain ⟨n, h1, h2, h3, h4, h5⟩ := (Room.of_check hb hs).wide
  have same := Rows.free_same img.px
  have hg : generatesDitherMapM q.useDitherMap img.freeHistogramInputs = .error .panic := by
    unfold generatesDitherMapM
    have : mul 32 img.freeHistogramInputs.px.width img.freeHistogramInputs.px.height = .error .panic := by
      show mul 32 img.px.freeHistogramInputs.width img.px.freeHistogramInputs.height = _
      unfold mul fit
      rw [same.width, same.height, if_neg]
      exact not_lt.mpr h32
    rw [this]; rfl
  unfold remapIntoM
  rw [mul_lt (by omega)]
  dsimp only
  rw [if_neg (by omega)]
  unfold writeRemappedM
  rw [progress_eq, hcb]
  simp only [answered]
  rw [hl, if_neg (by simp)]
  unfold remapDitheredM generateDitherMapM
  simp only [hg]

theorem remapToPaletteM_big (env : RemapEnv F) {px : Rows F} (hg : px.Readable) (hpx : 2 ^ 32 ≤ px.width * px.height)
    (bg : Option (Rows F)) (imp : Option (List UInt8)) (nrows : ℕ) (p : PalF F) :
    (remapToPaletteM env px bg imp nrows p).1 = match (remapToPalette env px bg imp nrows p).1 with
      | .ok _ => .error .panic
      | .error e => .error e := by
  obtain ⟨px', e2, s2, _⟩ := Rows.prepare_same hg true
  unfold remapToPaletteM remapToPalette
  rw [e2]
  cases Nearest.new p with
  | error e => rfl
  | ok n =>
    dsimp only
    cases prepareOpt (pickBackground n bg).1 with
    | error e => rfl
    | ok ub =>
      dsimp only
      cases remapLoop (env.sched nrows).order n (pickBackground n bg).2 px' ub imp nrows with
      | error e => rfl
      | ok outs =>
        dsimp only
        by_cases hn : isNan (env.sum (outs.map (·.err))) = true
        · rw [if_pos hn, if_pos hn]
        · rw [if_neg hn, if_neg hn]
          have : mul 32 px'.width px'.height = .error .panic := by
            unfold mul fit
            rw [s2.width, s2.height, if_neg (not_lt.mpr hpx)]
          rw [this]

/-- **C71** (any float): the same for remaps without dithering, unless the sum of the differences is NaN, which is
reported as an error first. -/
theorem C71_pixel_count_plain_any_float {bits : ℕ} (hb : 32 ≤ bits) (env : RemapEnv F) {q : QuantizationResult F} {img : Image F}
    (hq : UserResult q) (hi : UserImage img) (hs : Image.checkImageSizeM bits img.width img.height = true)
    (h32 : 2 ^ 32 ≤ img.width * img.height) (hcb : q.progressCallback = none) (hl : eq q.ditherLevel (lit32 0) = true)
    {buf : List (Option UInt8)} (hlen : img.width * img.height ≤ buf.length) (log : List F) :
    (remapIntoM bits env q img buf log).res = .error .panic ∨
    ((remapIntoM bits env q img buf log).res = .error (.err .outOfMemory) ∧ ∃ x : F, isNan x = true) := by
  obtain ⟨n, h1, h2, h3, h4, h5⟩ := (Room.of_check hb hs).wide
  have hpost := hq.posterization
  have same := Rows.free_same img.px
  have hg := hi.good.free
  have hlenp := initIntPalette_length q.palette q.gamma (UInt8.ofNat q.minPosterizationOutput)
  unfold remapIntoM
  rw [mul_lt (by omega)]
  dsimp only
  rw [if_neg (by omega)]
  have hbl : (buf.take (img.width * img.height)).length = img.width * img.height := by
    rw [List.length_take]; omega
  obtain ⟨c1, -, -⟩ := chunksExact_rows hi.good.width_pos _ hbl
  generalize hout : chunksExact img.width (buf.take (img.width * img.height)) = out at *
  have spec := (remapToPalette_spec env (px := img.freeHistogramInputs.px) (bg := img.freeHistogramInputs.background)
    img.freeHistogramInputs.importanceMap (nrows := out.length)
    (p := (q.palette.initIntPalette q.gamma (UInt8.ofNat q.minPosterizationOutput)).1)
    (by rw [hlenp.1]; exact hq.good.pos) (by rw [hlenp.1]; exact hq.good.le) hg.px hg.bg (by
      rw [c1]
      show img.px.height ≤ img.px.freeHistogramInputs.height
      rw [same.height])).outcome
  have hbig := remapToPaletteM_big env hg.px (by
    show 2 ^ 32 ≤ img.px.freeHistogramInputs.width * img.px.freeHistogramInputs.height
    rw [same.width, same.height]; exact h32) img.freeHistogramInputs.background img.freeHistogramInputs.importanceMap out.length
    (q.palette.initIntPalette q.gamma (UInt8.ofNat q.minPosterizationOutput)).1
  unfold writeRemappedM
  rw [progress_eq, hcb]
  simp only [answered]
  rw [if_pos hl]
  unfold remapPlainM
  dsimp only
  rw [initIntPaletteM_eq _ _ (by omega)]
  dsimp only
  generalize remapToPaletteM env img.freeHistogramInputs.px img.freeHistogramInputs.background
    img.freeHistogramInputs.importanceMap out.length
    (q.palette.initIntPalette q.gamma (UInt8.ofNat q.minPosterizationOutput)).1 = X at *
  obtain ⟨res, ro⟩ := X
  dsimp only at hbig ⊢
  rcases spec with ⟨e', h⟩ | ⟨h, hnan⟩
  · rw [h] at hbig
    dsimp only at hbig
    rw [hbig]
    exact .inl rfl
  · rw [h] at hbig
    dsimp only at hbig
    rw [hbig]
    exact .inr ⟨rfl, hnan⟩

end anyFloat

/-! ### The hypotheses can be met -/

/-- an image of 3 x 2 pixels fits everywhere; it, a result and a histogram of the caller -/
example : ∃ (q : QuantizationResult ℝ) (img : Image ℝ) (h : Histogram ℝ), UserResult q ∧ UserImage img ∧ UserHistogram h ∧
    Image.checkImageSizeM 32 img.width img.height = true ∧ Image.checkImageSizeM 64 img.width img.height = true ∧
    img.width * img.height < 2 ^ 32 := by
  obtain ⟨q, hq, -⟩ := example_result (F := ℝ)
  obtain ⟨img, hi, hs, w, h, _⟩ := big_image ⟨1, 2, 3, 255⟩ (w := 3) (h := 2) (by omega) (by omega) (by omega) (by omega)
  refine ⟨q, img, Histogram.new (userAttr [] none), hq, hi, .new [] none, by rw [w, h]; decide, by rw [w, h]; decide,
    by rw [w, h]; norm_num⟩

/-- **C71** (exact): such images exist: the constructor accepts 65536 x 65536 pixels on a platform with 64 bits, and
remapping them panics in a debug build, dithered or not. -/
theorem C71_overflows : ∃ (q q' : QuantizationResult ℝ) (img : Image ℝ), UserResult q ∧ UserResult q' ∧ q.ditherLevel = 1 ∧
    q'.ditherLevel = 0 ∧ UserImage img ∧
    img.width = 65536 ∧ img.height = 65536 ∧ ∀ (env : RemapEnv ℝ) (buf : List (Option UInt8)) (log : List ℝ),
      65536 * 65536 ≤ buf.length → (remapIntoM 64 env q img buf log).res = .error .panic ∧
        (remapIntoM 64 env q' img buf log).res = .error .panic := by
  obtain ⟨q, hq, hcb, hl, -⟩ := example_result (F := ℝ)
  obtain ⟨q', hq', hcb', hl'⟩ := example_plain
  obtain ⟨img, hi, _, w, h, _⟩ := big_image ⟨0, 0, 0, 255⟩ (w := 65536) (h := 65536) (by omega) (by omega) (by omega) (by omega)
  refine ⟨q, q', img, hq, hq', by rw [hl]; simp, hl', hi, w, h, fun env buf log hlen => ⟨?_, ?_⟩⟩
  · apply C71_pixel_count_any_float (by norm_num) env hi.size (by rw [w, h]; norm_num) hcb (by rw [hl]; simp) (by rw [w, h]; exact hlen)
  · rcases C71_pixel_count_plain_any_float (bits := 64) (by norm_num) env hq' hi hi.size (by rw [w, h]; norm_num) hcb' (by rw [hl']; simp)
      (by rw [w, h]; exact hlen) log with h | ⟨_, x, hx⟩
    · exact h
    · simp at hx

end Verif
