import Verif.Model.Log
import Verif.Lemmas.Rows
import Verif.Lemmas.Reach
import Verif.Props.Image

/-! # Properties C75, C76: messages about images and settings, flushing of the log -/

set_option linter.unusedSectionVars false

namespace Verif
open Flt Spec

variable {F : Type} [Flt F]

/-! ## C75 messages about images and settings -/

theorem LM.lift_bind {α β : Type} (r : Res α) (f : α → LM F β) (ev : List (Event F)) : (LM.lift r >>= f) ev =
    match r with
    | .ok a => f a ev
    | .error e => (.error e, ev) := by
  cases r <;> rfl

theorem LM.print_bind {β : Type} (c : ℕ) (m : Msg F) (f : LM F β) (ev : List (Event F)) :
    (LM.print (some c) m >>= fun _ => f) ev = f (ev ++ [.message c m]) := rfl

theorem LM.print_none_bind {β : Type} (m : Msg F) (f : LM F β) (ev : List (Event F)) :
    (LM.print none m >>= fun _ => f) ev = f ev := rfl

/-- what `new_internal` says -/
def internalMessages (attr : Attr F) (w h : ℕ) (gamma : F) : List (Msg F) :=
  if !Image.checkImageSize w h then []
  else if !(le (lit64 0) gamma && le gamma (lit64 1)) then [.gammaRange]
  else if w * h > Image.messageLimit attr then [.conserving] else []

theorem newInternalL_eq (lc : Option ℕ) (attr : Attr F) (source : Source) (w h : ℕ) (gamma : F) (ev : List (Event F)) :
    Image.newInternalL lc attr source w h gamma ev =
      (Image.newInternal source w h gamma, ev ++ ((internalMessages attr w h gamma).flatMap fun m => lc.toList.map (.message · m))) := by
  unfold Image.newInternalL Image.newInternal internalMessages
  split
  · simp [LM.throw]
  split
  · cases lc <;> simp [LM.print_bind, LM.print_none_bind, LM.throw]
  dsimp only
  split
  · cases lc with
    | none =>
      rw [LM.print_none_bind]
      simp only [Option.toList_none, List.map_nil, List.flatMap_cons, List.flatMap_nil, List.append_nil]
      rfl
    | some c => rfl
  · rw [List.flatMap_nil, List.append_nil]
    rfl

/-- what `new_stride_internal` says -/
def strideMessages (attr : Attr F) (buf : List RGBA) (w h stride : ℕ) (gamma : F) : List (Msg F) :=
  if w < 2 ^ 32 ∧ h < 2 ^ 32 ∧ stride < 2 ^ 32 then
    match Source.forPixels buf w h stride with
    | .ok _ => internalMessages attr w h gamma
    | .error _ => [.bufferShort (buf.length * 4) stride h]
  else []

theorem newStrideL_eq (lc : Option ℕ) (attr : Attr F) (buf : List RGBA) (w h stride : ℕ) (gamma : F) (ev : List (Event F)) :
    Image.newStrideL lc attr buf w h stride gamma ev =
      (Image.newStride buf w h stride gamma,
        ev ++ ((strideMessages attr buf w h stride gamma).flatMap fun m => lc.toList.map (.message · m))) := by
  unfold Image.newStrideL Image.newStride strideMessages Image.toU32
  simp only [LM.lift_bind]
  by_cases hw : w < 2 ^ 32
  swap
  · simp only [hw, false_and, if_false]; simp [bind, Except.bind]
  by_cases hh : h < 2 ^ 32
  swap
  · simp only [hw, hh, false_and, and_false, if_false, if_true]; simp [bind, Except.bind]
  by_cases hs : stride < 2 ^ 32
  swap
  · simp only [hw, hh, hs, and_false, if_false, if_true]; simp [bind, Except.bind]
  simp only [hw, hh, hs, and_self, if_true, bind, Except.bind]
  cases hf : Source.forPixels buf w h stride with
  | ok s => exact newInternalL_eq lc attr s w h gamma ev
  | error e =>
    cases lc with
    | none => simp; rfl
    | some c => simp; rfl

theorem newFnL_eq (lc : Option ℕ) (attr : Attr F) (f : ℕ → ℕ → RGBA) (w h : ℕ) (gamma : F) (ev : List (Event F)) :
    Image.newFnL lc attr f w h gamma ev =
      (Image.newFn f w h gamma, ev ++ ((if w < 2 ^ 32 ∧ h < 2 ^ 32 then internalMessages attr w h gamma else []).flatMap
        fun m => lc.toList.map (.message · m))) := by
  unfold Image.newFnL Image.newFn Image.toU32
  simp only [LM.lift_bind]
  by_cases hw : w < 2 ^ 32
  swap
  · simp only [hw, false_and, if_false]; simp [bind, Except.bind]
  by_cases hh : h < 2 ^ 32
  swap
  · simp only [hw, hh, and_false, if_false, if_true]; simp [bind, Except.bind]
  simp only [hw, hh, and_self, if_true, bind, Except.bind]
  exact newInternalL_eq lc attr _ w h gamma ev

/-- the messages that a call added -/
def saidBy {α : Type} (l : LM F α) : List (Msg F) := messagesOf (l []).2

theorem messagesOf_flatMap (c : ℕ) (ms : List (Msg F)) :
    messagesOf (ms.flatMap fun m => (some c : Option ℕ).toList.map (Event.message · m)) = ms := by
  induction ms with
  | nil => rfl
  | cons m ms ih =>
    simp only [List.flatMap_cons]
    unfold messagesOf at *
    rw [List.filterMap_append, ih]
    rfl

theorem saidBy_stride (c : ℕ) (attr : Attr F) (buf : List RGBA) (w h stride : ℕ) (gamma : F) :
    saidBy (Image.newStrideL (some c) attr buf w h stride gamma) = strideMessages attr buf w h stride gamma := by
  unfold saidBy
  rw [newStrideL_eq, List.nil_append, messagesOf_flatMap]

theorem saidBy_fn (c : ℕ) (attr : Attr F) (f : ℕ → ℕ → RGBA) (w h : ℕ) (gamma : F) :
    saidBy (Image.newFnL (some c) attr f w h gamma) = if w < 2 ^ 32 ∧ h < 2 ^ 32 then internalMessages attr w h gamma else [] := by
  unfold saidBy
  rw [newFnL_eq, List.nil_append, messagesOf_flatMap]

/-- **C75** (any float arithmetic). Messages change nothing: whatever the log callback is, images are made and qualities are
set as without messages. Every call made goes to the log callback. -/
theorem C75_messages_change_nothing (lc : Option ℕ) (attr : Attr F) (ev : List (Event F)) :
    (∀ buf w h stride gamma, (Image.newStrideL lc attr buf w h stride gamma ev).1 = Image.newStride buf w h stride gamma) ∧
    (∀ f w h gamma, (Image.newFnL lc attr f w h gamma ev).1 = Image.newFn f w h gamma) ∧
    (∀ m t, (attr.setQualityL lc m t ev).1 = attr.setQuality m t) ∧
    (∀ buf w h stride gamma, ∃ ms, (Image.newStrideL lc attr buf w h stride gamma ev).2 = ev ++ ms ∧
      ∀ e ∈ ms, ∃ c m, lc = some c ∧ e = .message c m) ∧
    (∀ f w h gamma, ∃ ms, (Image.newFnL lc attr f w h gamma ev).2 = ev ++ ms ∧ ∀ e ∈ ms, ∃ c m, lc = some c ∧ e = .message c m) ∧
    (∀ m t, ∃ ms, (attr.setQualityL lc m t ev).2 = ev ++ ms ∧ ∀ e ∈ ms, ∃ c m, lc = some c ∧ e = .message c m) := by
  have hto : ∀ (ms : List (Msg F)), ∀ e ∈ ms.flatMap (fun m => lc.toList.map (Event.message · m)), ∃ c m, lc = some c ∧ e = .message c m := by
    intro ms e he
    obtain ⟨m, -, he⟩ := List.mem_flatMap.1 he
    obtain ⟨c, hc, rfl⟩ := List.mem_map.1 he
    exact ⟨c, m, by simpa using hc, rfl⟩
  refine ⟨fun _ _ _ _ _ => by rw [newStrideL_eq], fun _ _ _ _ => by rw [newFnL_eq], fun m t => ?_,
    fun _ _ _ _ _ => ⟨_, by rw [newStrideL_eq], hto _⟩, fun _ _ _ _ => ⟨_, by rw [newFnL_eq], hto _⟩, fun m t => ?_⟩
  · unfold Attr.setQualityL Attr.setQuality
    split
    · rfl
    · by_cases ht : t < 30
      · simp only [ht, if_true]
        cases lc <;> rfl
      · simp only [ht, if_false]
        rfl
  · unfold Attr.setQualityL
    split
    · exact ⟨[], by simp [LM.throw], by simp⟩
    · by_cases ht : t < 30
      · simp only [ht, if_true]
        cases lc with
        | none => exact ⟨[], by simp; rfl, by simp⟩
        | some c => exact ⟨[.message c .qualityLow], rfl, by simp⟩
      · simp only [ht, if_false]
        exact ⟨[], by simp; rfl, by simp⟩

/-- **C75** (any float arithmetic). The quality is called too low exactly if the setting is accepted and the target is below
30. -/
theorem C75_quality_low (c : ℕ) (attr : Attr F) (m t : ℕ) :
    saidBy (attr.setQualityL (some c) m t) = if m ≤ t ∧ t < 30 then [.qualityLow] else [] := by
  unfold saidBy Attr.setQualityL
  by_cases h : m ≤ t ∧ t < 30
  · rw [if_pos h, if_neg (by omega)]
    simp only [h.2, if_true]
    rfl
  · rw [if_neg h]
    split
    · rfl
    next h2 =>
      have ht : ¬ t < 30 := by omega
      simp only [ht, if_false]
      rfl

theorem internalL_ok {source : Source} {w h : ℕ} {gamma : F} {img : Image F} (e : Image.newInternal source w h gamma = .ok img) :
    Image.checkImageSize w h = true ∧ (le (lit64 0) gamma && le gamma (lit64 1)) = true ∧ img.px.width = w ∧ img.px.height = h ∧
      img.px.fPixels = none := by
  unfold Image.newInternal at e
  split at e
  · cases e
  next h1 =>
    split at e
    · cases e
    next h2 =>
      cases e
      refine ⟨by simpa using h1, ?_, rfl, rfl, rfl⟩
      rw [Bool.not_eq_true, Bool.not_eq_false'] at h2
      exact h2

/-- what is said about an image that is made -/
theorem internal_ok {source : Source} {w h : ℕ} {gamma : F} {img : Image F} (e : Image.newInternal source w h gamma = .ok img) (cs : List Call)
    (cb : Option (List F → Bool)) :
    (internalMessages (userAttr cs cb) w h gamma = [] ∨ internalMessages (userAttr cs cb) w h gamma = [.conserving]) ∧
    (img.px.lowMemory = true → internalMessages (userAttr cs cb) w h gamma = [.conserving]) ∧
    (((Settings.default.after cs).speed < 8 ∨ img.px.width * img.px.height ≤ 524288) → img.px.lowMemory = false →
      internalMessages (userAttr cs cb) w h gamma = []) := by
  obtain ⟨h1, h2, h3, h4, -⟩ := internalL_ok e
  have hobs := C13_settings_registers_any_float (F := F) cs
  simp only [Attr.observeInt, Attr.getSpeed, Prod.mk.injEq] at hobs
  have hs : (userAttr (F := F) cs cb).speed = (Settings.default.after cs).speed := hobs.2.1
  have hsp := userAttr_speedOK cs cb
  have hlim : Image.messageLimit (userAttr cs cb) = if (Settings.default.after cs).speed < 8 then 4194304 else 524288 := by
    unfold Image.messageLimit highMemoryLimit
    rw [hsp.contrast, hsp.dither, hs]
    by_cases h8 : (Settings.default.after cs).speed < 8
    · simp [h8, show (Settings.default.after cs).speed ≤ 7 by omega]
    · simp [h8, show ¬ (Settings.default.after cs).speed ≤ 7 by omega, show ¬ (Settings.default.after cs).speed < 3 by omega,
        show ¬ (Settings.default.after cs).speed ≤ 6 by omega]
  have hlow : img.px.lowMemory = decide (4194304 < w * h) := by
    unfold Rows.lowMemory highMemoryLimit
    rw [h3, h4]
    rfl
  unfold internalMessages
  rw [h1, h2, hlim, hlow, h3, h4]
  simp only [Bool.not_true, Bool.false_eq_true, if_false]
  refine ⟨?_, fun h5 => ?_, fun h5 h6 => ?_⟩
  · by_cases hc : w * h > if (Settings.default.after cs).speed < 8 then 4194304 else 524288
    · rw [if_pos hc]; exact .inr rfl
    · rw [if_neg hc]; exact .inl rfl
  · rw [if_pos]
    have : 4194304 < w * h := by simpa using h5
    split <;> omega
  · rw [if_neg]
    have : ¬ 4194304 < w * h := by simpa using h6
    split <;> omega

/-- **C75** (any float arithmetic, partial). Of an image made from a buffer with settings of a program:
* there is at most one message, and it is about memory if the image is made;
* memory is said to be conserved if the pixels of the image will not be kept, and only then if the speed is below 8 or the
  image has at most 524288 pixels;
* if the error is that the buffer is too small, the message gives its size, and this is less than what the message says is
  needed.

Not covered: at speeds 8 to 10 memory is said to be conserved for images of 524289 to 4194304 pixels, see
`C75_conserving_fails`; and the buffer is said to be too short whenever the dimensions are rejected, see
`C75_buffer_short_fails`. -/
theorem C75_image_messages_partial (c : ℕ) (cs : List Call) (cb : Option (List F → Bool)) (buf : List RGBA) (w h stride : ℕ) (gamma : F) :
    let ms := saidBy (Image.newStrideL (some c) (userAttr cs cb) buf w h stride gamma)
    ms.length ≤ 1 ∧
    (∀ img, Image.newStride buf w h stride gamma = .ok img → (ms = [] ∨ ms = [.conserving]) ∧
      (img.px.lowMemory = true → ms = [.conserving]) ∧
      (((Settings.default.after cs).speed < 8 ∨ img.px.width * img.px.height ≤ 524288) → img.px.lowMemory = false → ms = [])) ∧
    (Image.newStride buf w h stride gamma = .error (.err .bufferTooSmall) →
      ms = [.bufferShort (buf.length * 4) stride h] ∧ buf.length * 4 < stride * h * 4) := by
  intro ms
  have hms : ms = strideMessages (userAttr cs cb) buf w h stride gamma := saidBy_stride ..
  have hlen : (internalMessages (userAttr cs cb) w h gamma).length ≤ 1 := by
    unfold internalMessages
    repeat' split
    all_goals simp
  have hsplit : w < 2 ^ 32 ∧ h < 2 ^ 32 ∧ stride < 2 ^ 32 ∧ Image.newStride buf w h stride gamma =
      (Source.forPixels buf w h stride >>= fun s => Image.newInternal s w h gamma) ∨
      ¬ (w < 2 ^ 32 ∧ h < 2 ^ 32 ∧ stride < 2 ^ 32) ∧ Image.newStride buf w h stride gamma = .error (.err .valueOutOfRange) := by
    unfold Image.newStride Image.toU32
    by_cases hw : w < 2 ^ 32
    swap
    · exact .inr ⟨by tauto, by simp only [hw, if_false]; rfl⟩
    by_cases hh : h < 2 ^ 32
    swap
    · exact .inr ⟨by tauto, by simp only [hw, hh, if_false, if_true]; rfl⟩
    by_cases hs : stride < 2 ^ 32
    swap
    · exact .inr ⟨by tauto, by simp only [hw, hh, hs, if_false, if_true]; rfl⟩
    exact .inl ⟨hw, hh, hs, by simp only [hw, hh, hs, if_true]; rfl⟩
  rcases hsplit with ⟨hw, hh, hs, e⟩ | ⟨hn, e⟩
  swap
  · have : ms = [] := by rw [hms]; unfold strideMessages; rw [if_neg hn]
    rw [this, e]
    exact ⟨by simp, fun img h => (by cases h), fun h => (by cases h)⟩
  rw [e]
  cases hf : Source.forPixels buf w h stride with
  | error er =>
    have : ms = [.bufferShort (buf.length * 4) stride h] := by
      rw [hms]; unfold strideMessages; rw [if_pos ⟨hw, hh, hs⟩, hf]
    rw [this]
    refine ⟨by simp, fun img h => (by cases h), fun he => ⟨rfl, ?_⟩⟩
    cases he
    unfold Source.forPixels at hf
    split at hf
    · cases hf
    next h1 =>
      split at hf
      · cases hf
      · split at hf
        next h3 =>
          have : w ≤ stride := by omega
          omega
        · cases hf
  | ok s =>
    have : ms = internalMessages (userAttr cs cb) w h gamma := by
      rw [hms]; unfold strideMessages; rw [if_pos ⟨hw, hh, hs⟩, hf]
    rw [this]
    refine ⟨hlen, fun img h => internal_ok h cs cb, fun he => ?_⟩
    change Image.newInternal s w h gamma = _ at he
    unfold Image.newInternal at he
    split at he
    · cases he
    split at he
    · cases he
    · cases he

/-- **C75** (any float arithmetic, partial). The same for an image made from a callback: there is no buffer, so the only gap
is `C75_conserving_fails`. -/
theorem C75_callback_messages_partial (c : ℕ) (cs : List Call) (cb : Option (List F → Bool)) (f : ℕ → ℕ → RGBA) (w h : ℕ) (gamma : F) :
    let ms := saidBy (Image.newFnL (some c) (userAttr cs cb) f w h gamma)
    ms.length ≤ 1 ∧ (∀ b s h, .bufferShort b s h ∉ ms) ∧
    (∀ img, Image.newFn f w h gamma = .ok img → (ms = [] ∨ ms = [.conserving]) ∧
      (img.px.lowMemory = true → ms = [.conserving]) ∧
      (((Settings.default.after cs).speed < 8 ∨ img.px.width * img.px.height ≤ 524288) → img.px.lowMemory = false → ms = [])) := by
  intro ms
  have hms : ms = if w < 2 ^ 32 ∧ h < 2 ^ 32 then internalMessages (userAttr cs cb) w h gamma else [] := saidBy_fn ..
  by_cases hc : w < 2 ^ 32 ∧ h < 2 ^ 32
  · rw [if_pos hc] at hms
    have e : Image.newFn f w h gamma = Image.newInternal (.callback f) w h gamma := by
      unfold Image.newFn Image.toU32
      simp only [hc.1, hc.2, if_true]; rfl
    rw [hms, e]
    refine ⟨?_, ?_, fun img h => internal_ok h cs cb⟩
    · unfold internalMessages
      repeat' split
      all_goals simp
    · intro b s h'
      unfold internalMessages
      repeat' split
      all_goals simp
  · rw [if_neg hc] at hms
    rw [hms]
    refine ⟨by simp, by simp, fun img himg => ?_⟩
    exfalso
    unfold Image.newFn Image.toU32 at himg
    by_cases hw : w < 2 ^ 32
    · have hh : ¬ h < 2 ^ 32 := by tauto
      simp only [hw, hh, if_false, if_true] at himg; cases himg
    · simp only [hw, if_false] at himg; cases himg

/-- **C75** (exact). The gamma is blamed exactly if another gamma would do and this one does not. -/
theorem C75_gamma (c : ℕ) (attr : Attr ℝ) (buf : List RGBA) (w h stride : ℕ) (gamma : ℝ) :
    (Msg.gammaRange : Msg ℝ) ∈ saidBy (Image.newStrideL (some c) attr buf w h stride gamma) ↔
      (∃ (gamma' : ℝ) (img : Image ℝ), Image.newStride buf w h stride gamma' = .ok img) ∧ ¬ (0 ≤ gamma ∧ gamma ≤ 1) := by
  rw [saidBy_stride]
  unfold strideMessages Image.newStride Image.toU32
  by_cases hc : w < 2 ^ 32 ∧ h < 2 ^ 32 ∧ stride < 2 ^ 32
  swap
  · rw [if_neg hc]
    refine iff_of_false (by simp) ?_
    rintro ⟨⟨g, img, e⟩, -⟩
    by_cases hw : w < 2 ^ 32
    · by_cases hh : h < 2 ^ 32
      · have hs : ¬ stride < 2 ^ 32 := by tauto
        simp only [hw, hh, hs, if_false, if_true] at e; cases e
      · simp only [hw, hh, if_false, if_true] at e; cases e
    · simp only [hw, if_false] at e; cases e
  rw [if_pos hc]
  simp only [hc.1, hc.2.1, hc.2.2, if_true, bind, Except.bind]
  cases hf : Source.forPixels buf w h stride with
  | error e =>
    refine iff_of_false (by simp) ?_
    rintro ⟨⟨g, img, e⟩, -⟩
    cases e
  | ok s =>
    dsimp only
    unfold internalMessages
    cases hsize : Image.checkImageSize w h with
    | false =>
      refine iff_of_false (by simp) ?_
      rintro ⟨⟨g, img, e⟩, -⟩
      have := (internalL_ok e).1
      rw [hsize] at this; cases this
    | true =>
      have hex : ∃ (gamma' : ℝ) (img : Image ℝ), Image.newInternal s w h gamma' = .ok img := by
        refine ⟨1, ?_⟩
        unfold Image.newInternal
        rw [hsize, if_neg (by simp), if_neg (by simp)]
        exact ⟨_, rfl⟩
      have hg : (!(le (lit64 0) gamma && le gamma (lit64 1))) = true ↔ ¬ (0 ≤ gamma ∧ gamma ≤ 1) := by
        simp only [Bool.not_eq_true', ← Bool.not_eq_true, Bool.and_eq_true, real_le, real_lit64]
        push_cast
        rfl
      simp only [Bool.not_true, Bool.false_eq_true, if_false]
      by_cases hgc : 0 ≤ gamma ∧ gamma ≤ 1
      · rw [if_neg (by rw [hg]; exact not_not.2 hgc)]
        refine iff_of_false (by split <;> simp) (fun h => h.2 hgc)
      · rw [if_pos (hg.2 hgc)]
        exact iff_of_true (by simp) ⟨hex, hgc⟩

theorem prepare_callback (f : ℕ → ℕ → RGBA) (w h : ℕ) (gamma : F)
    (hl : ({ width := w, height := h, fPixels := none, source := .callback f, gamma := gamma } : Rows F).lowMemory = false) :
    ∃ r, ({ width := w, height := h, fPixels := none, source := .callback f, gamma := gamma } : Rows F).prepare true = .ok r ∧
      r.fPixels.isSome = true := by
  unfold Rows.prepare
  rw [if_neg (by simp [hl])]
  dsimp only
  have hm : ∀ l : List ℕ, ∃ rows, l.mapM (fun y => ((({ width := w, height := h, fPixels := none, source := .callback f, gamma := gamma } : Rows F).rowRgba y).map
      (Rows.convertRow gamma))) = .ok rows := by
    intro l
    induction l with
    | nil => exact ⟨[], rfl⟩
    | cons y l ih =>
      obtain ⟨rows, h⟩ := ih
      rw [List.mapM_cons, h]
      exact ⟨_, rfl⟩
  obtain ⟨rows, h⟩ := hm (List.range h)
  rw [h]
  exact ⟨_, rfl, rfl⟩

/-- **C75 is violated** (exact): at speeds 8 to 10 memory is said to be conserved for every image of 524289 to 4194304
pixels, and yet all its converted pixels are kept as soon as the image is read. -/
theorem C75_conserving_fails (f : ℕ → ℕ → RGBA) (c : ℕ) (cs : List Call) (cb : Option (List ℝ → Bool)) (hs : 8 ≤ (Settings.default.after cs).speed)
    {w h : ℕ} {img : Image ℝ} (e : Image.newFn f w h 1 = .ok img) (h1 : 524288 < w * h) (h2 : w * h ≤ 4194304) :
    saidBy (Image.newFnL (some c) (userAttr cs cb) f w h 1) = [.conserving] ∧
    ∃ r, img.px.prepare true = .ok r ∧ r.fPixels.isSome = true := by
  have hc : w < 2 ^ 32 ∧ h < 2 ^ 32 ∧ Image.newInternal (.callback f) w h 1 = .ok img := by
    unfold Image.newFn Image.toU32 at e
    by_cases hw : w < 2 ^ 32
    · by_cases hh : h < 2 ^ 32
      · simp only [hw, hh, if_true] at e
        exact ⟨hw, hh, e⟩
      · simp only [hw, hh, if_true, if_false] at e; cases e
    · simp only [hw, if_false] at e; cases e
  obtain ⟨hw, hh, e⟩ := hc
  obtain ⟨h3, h4, h5, h6, h7⟩ := internalL_ok e
  have hsrc : img.px.source = .callback f := by
    unfold Image.newInternal at e
    rw [h3, h4] at e
    simp only [Bool.not_true, Bool.false_eq_true, if_false] at e
    cases e
    rfl
  constructor
  · rw [saidBy_fn, if_pos ⟨hw, hh⟩]
    unfold internalMessages
    rw [h3, h4]
    have hobs := C13_settings_registers_any_float (F := ℝ) cs
    simp only [Attr.observeInt, Attr.getSpeed, Prod.mk.injEq] at hobs
    have hsp := userAttr_speedOK cs cb
    have hs' : (userAttr (F := ℝ) cs cb).speed = (Settings.default.after cs).speed := hobs.2.1
    have hlim : Image.messageLimit (userAttr (F := ℝ) cs cb) = 524288 := by
      unfold Image.messageLimit highMemoryLimit
      rw [hsp.contrast, hsp.dither, hs']
      simp [show ¬ (Settings.default.after cs).speed ≤ 7 by omega, show ¬ (Settings.default.after cs).speed < 3 by omega,
        show ¬ (Settings.default.after cs).speed ≤ 6 by omega]
    rw [hlim]
    simp [h1]
  · have hpx : img.px = { width := w, height := h, fPixels := none, source := .callback f, gamma := img.px.gamma } := by
      rw [← h5, ← h6, ← h7, ← hsrc]
    rw [hpx]
    refine prepare_callback f _ _ _ ?_
    unfold Rows.lowMemory highMemoryLimit
    simp [h2]

/-- **C75 is violated** (any float arithmetic): a buffer of 8 pixels is said not to be enough for 1×2×4 bytes. The stride is
less than the width, and that is why the image is rejected. -/
theorem C75_buffer_short_fails (px : RGBA) (attr : Attr F) (gamma : F) :
    Image.newStride (List.replicate 8 px) 3 2 1 gamma = .error (.err .valueOutOfRange) ∧
    saidBy (Image.newStrideL (some 0) attr (List.replicate 8 px) 3 2 1 gamma) = [.bufferShort 32 1 2] ∧ 1 * 2 * 4 ≤ 32 :=
  ⟨rfl, rfl, by norm_num⟩

/-- an image of 1024 × 513 pixels at speed 10 meets the hypotheses of `C75_conserving_fails` -/
example (f : ℕ → ℕ → RGBA) : ∃ img : Image ℝ, Image.newFn f 1024 513 (1 : ℝ) = .ok img ∧ 524288 < 1024 * 513 ∧ 1024 * 513 ≤ 4194304 ∧
    8 ≤ (Settings.default.after [.speed 10]).speed := by
  have hsize : Image.checkImageSize 1024 513 = true := by decide +kernel
  have hex : ∃ img : Image ℝ, Image.newFn f 1024 513 (1 : ℝ) = .ok img := by
    unfold Image.newFn Image.toU32 Image.newInternal
    simp [hsize, bind, Except.bind]
    rw [if_neg (by norm_num)]
    exact ⟨_, rfl⟩
  obtain ⟨img, e⟩ := hex
  exact ⟨img, e, by norm_num, by norm_num, by decide⟩

/-- a buffer that is too short: hypotheses and message of `C75_image_messages_partial` -/
example (px : RGBA) (gamma : F) : Image.newStride (List.replicate 8 px) 3 3 3 gamma = .error (.err .bufferTooSmall) ∧
    saidBy (Image.newStrideL (some 0) (userAttr [] none) (List.replicate 8 px) 3 3 3 gamma) = [.bufferShort 32 3 3] := ⟨rfl, rfl⟩

/-- gamma 2 is blamed, and a quality of 20 is called low -/
example : (Msg.gammaRange : Msg ℝ) ∈ saidBy (Image.newStrideL (some 0) (userAttr [] none) [⟨1, 2, 3, 4⟩] 1 1 1 (2 : ℝ)) ∧
    saidBy (Attr.setQualityL (some 0) (userAttr [] none : Attr ℝ) 0 20) = [.qualityLow] := by
  refine ⟨(C75_gamma ..).2 ⟨⟨1, ?_⟩, by norm_num⟩, C75_quality_low ..⟩
  have : ∃ img : Image ℝ, Image.newInternal (.pixels [[⟨1, 2, 3, 4⟩]]) 1 1 1 = .ok img := by
    unfold Image.newInternal
    rw [if_neg (by decide +kernel), if_neg (by simp)]
    exact ⟨_, rfl⟩
  exact this

/-! ## C76 flushing -/

namespace Spec

/-- what a program does with settings -/
inductive LogUse (F : Type) where
  | setLog (callback : ℕ)
  | setFlush (callback : ℕ)
  /-- a call during which the library has a message -/
  | message (m : Msg F)

/-- the log callback set last -/
def logCallback (us : List (LogUse F)) : Option ℕ :=
  us.foldl (fun c u => match u with
    | .setLog c' => some c'
    | _ => c) none

/-- the flush callback set last -/
def flushCallback (us : List (LogUse F)) : Option ℕ :=
  us.foldl (fun c u => match u with
    | .setFlush c' => some c'
    | _ => c) none

end Spec

/-- one use of the settings: `set_log_callback`, `set_log_flush_callback`, `verbose_print` -/
def LogCallbacks.use (a : LogCallbacks) : LogUse F → LogCallbacks × List (Event F)
  | .setLog c => a.setLog c
  | .setFlush c => a.setFlush c
  | .message m => (a, (LM.print a.log m []).2)

/-- the calls made by uses of the settings -/
def LogCallbacks.uses (a : LogCallbacks) : List (LogUse F) → LogCallbacks × List (Event F)
  | [] => (a, [])
  | u :: us => (((a.use u).1.uses us).1, (a.use u).2 ++ ((a.use u).1.uses us).2)

/-- all the calls made while the settings exist -/
def LogCallbacks.life (us : List (LogUse F)) : List (Event F) :=
  (LogCallbacks.init.uses us).2 ++ (LogCallbacks.init.uses us).1.drop

theorem uses_append (a : LogCallbacks) (us vs : List (LogUse F)) : a.uses (us ++ vs) =
    (((a.uses us).1.uses vs).1, (a.uses us).2 ++ ((a.uses us).1.uses vs).2) := by
  induction us generalizing a with
  | nil => rfl
  | cons u us ih =>
    simp only [List.cons_append, LogCallbacks.uses, ih, List.append_assoc]

theorem uses_log (us : List (LogUse F)) : (LogCallbacks.init.uses us).1 = ⟨logCallback us, flushCallback us⟩ := by
  unfold logCallback flushCallback LogCallbacks.init
  generalize (none : Option ℕ) = l
  have : ∀ (l f : Option ℕ), (LogCallbacks.uses ⟨l, f⟩ us).1 = ⟨us.foldl (fun c u => match u with
      | .setLog c' => some c'
      | _ => c) l, us.foldl (fun c u => match u with
      | .setFlush c' => some c'
      | _ => c) f⟩ := by
    induction us with
    | nil => intro l f; rfl
    | cons u us ih =>
      intro l f
      cases u <;> exact ih _ _
  exact this l l

/-- what follows a message: more messages to the same callback, then a flush -/
theorem flush_follows (c f : ℕ) (us : List (LogUse F)) :
    ∃ mid rest, (LogCallbacks.uses ⟨some c, some f⟩ us).2 ++ (LogCallbacks.uses ⟨some c, some f⟩ us).1.drop = mid ++ .flush f :: rest ∧
      ∀ e ∈ mid, ∃ m, e = .message c m := by
  induction us with
  | nil => exact ⟨[], [], rfl, by simp⟩
  | cons u us ih =>
    cases u with
    | setLog c' => exact ⟨[], _, by simp only [LogCallbacks.uses, LogCallbacks.use, LogCallbacks.setLog, LogCallbacks.flushed, List.append_assoc]; rfl, by simp⟩
    | setFlush c' => exact ⟨[], _, by simp only [LogCallbacks.uses, LogCallbacks.use, LogCallbacks.setFlush, LogCallbacks.flushed, List.append_assoc]; rfl, by simp⟩
    | message m =>
      obtain ⟨mid, rest, h1, h2⟩ := ih
      refine ⟨.message c m :: mid, rest, ?_, ?_⟩
      · simp only [LogCallbacks.uses, LogCallbacks.use, List.append_assoc, h1]
        rfl
      · intro e he
        rcases List.mem_cons.1 he with rfl | he
        · exact ⟨m, rfl⟩
        · exact h2 e he

/-- **C76** (any float arithmetic). Whatever a program does with its settings, each message is given to the log callback set
last, and then the flush callback that is set at that time is called, before there is a message to another log callback and
before the settings are gone. -/
theorem C76_flushed (us vs : List (LogUse F)) (m : Msg F) (c f : ℕ) (hc : logCallback us = some c) (hf : flushCallback us = some f) :
    ∃ before mid rest, LogCallbacks.life (us ++ .message m :: vs) = before ++ .message c m :: mid ++ .flush f :: rest ∧
      before = (LogCallbacks.init.uses us).2 ∧ ∀ e ∈ mid, ∃ m, e = .message c m := by
  obtain ⟨mid, rest, h1, h2⟩ := flush_follows c f vs
  refine ⟨_, mid, rest, ?_, rfl, h2⟩
  unfold LogCallbacks.life
  rw [uses_append, uses_log, hc, hf]
  dsimp only
  simp only [LogCallbacks.uses, LogCallbacks.use]
  have : (LM.print (some c) m [] : Res Unit × List (Event F)).2 = [.message c m] := rfl
  rw [this]
  simp only [List.append_assoc, h1, List.cons_append, List.nil_append]

/-- **C76** (any float arithmetic). The flush callback set last is called when a callback is set and when the settings go
away, and at no other time; each message is one call of the log callback set last, if there is one. -/
theorem C76_calls (us : List (LogUse F)) : ∃ parts : List (List (Event F)),
    LogCallbacks.life us = parts.flatten ++ ((flushCallback us).toList.map .flush) ∧ parts.length = us.length ∧
    ∀ (i : ℕ) (u : LogUse F), us[i]? = some u → parts[i]? = some (match u with
      | LogUse.setLog _ => (flushCallback (us.take i)).toList.map .flush
      | LogUse.setFlush _ => (flushCallback (us.take i)).toList.map .flush
      | LogUse.message m => (logCallback (us.take i)).toList.map (.message · m)) := by
  have hflush : ∀ a : LogCallbacks, (a.flushed : List (Event F)) = a.flush.toList.map .flush := by
    rintro ⟨l, f⟩
    cases f <;> rfl
  suffices h : ∃ parts : List (List (Event F)), (LogCallbacks.init.uses us).2 = parts.flatten ∧ parts.length = us.length ∧
      ∀ (i : ℕ) (u : LogUse F), us[i]? = some u → parts[i]? = some (match u with
        | LogUse.setLog _ => (flushCallback (us.take i)).toList.map .flush
        | LogUse.setFlush _ => (flushCallback (us.take i)).toList.map .flush
        | LogUse.message m => (logCallback (us.take i)).toList.map (.message · m)) by
    obtain ⟨parts, h1, h2, h3⟩ := h
    refine ⟨parts, ?_, h2, h3⟩
    unfold LogCallbacks.life LogCallbacks.drop
    rw [h1, hflush, uses_log]
  induction us using List.reverseRecOn with
  | nil => exact ⟨[], rfl, rfl, by simp⟩
  | append_singleton us u ih =>
    obtain ⟨parts, h1, h2, h3⟩ := ih
    refine ⟨parts ++ [((LogCallbacks.init.uses us).1.use u).2], ?_, by simp [h2], ?_⟩
    · rw [uses_append, h1]
      simp [LogCallbacks.uses]
    · intro i v hv
      rcases Nat.lt_or_ge i us.length with h | h
      · rw [List.getElem?_append_left h] at hv
        rw [List.getElem?_append_left (by omega), h3 i v hv, List.take_append_of_le_length h.le]
      · have : i = us.length := by
          have := (List.getElem?_eq_some_iff.1 hv).1
          simp at this; omega
        subst this
        rw [List.getElem?_append_right le_rfl, Nat.sub_self] at hv
        cases hv
        rw [← h2, List.getElem?_append_right le_rfl, Nat.sub_self, h2, List.take_left, uses_log]
        cases u with
        | setLog _ => rw [← hflush ⟨logCallback us, flushCallback us⟩]; rfl
        | setFlush _ => rw [← hflush ⟨logCallback us, flushCallback us⟩]; rfl
        | message m => cases hl : logCallback us <;> (simp only [LogCallbacks.use]; rfl)

/-- a log callback is replaced while it has messages: they are flushed before the new one gets any -/
example (m m' : Msg F) : LogCallbacks.life ([.setFlush 5, .setLog 1, .message m, .setLog 2, .message m'] : List (LogUse F)) =
    [.flush 5, .message 1 m, .flush 5, .message 2 m', .flush 5] := rfl

end Verif
