import Verif.Lemmas.Log
import Verif.Lemmas.Quality
import Verif.Lemmas.Machine
import Verif.Lemmas.HistDistinct
import Verif.Props.Debug
import Verif.Props.PaletteOrder
import Verif.Props.Image

/-!
# Property C74: log messages of a quantization

`Model/Log` has the functions with their messages. The computations without messages are those of the other properties.
-/

set_option linter.unusedSectionVars false

namespace Verif
open Flt Spec

variable {F : Type} [Flt F]

/-! ## C74 messages of a quantization -/

namespace Spec

/-- the last `set_last_index_transparent` -/
def lastIndexSetting (cs : List Call) : Bool :=
  cs.foldl (fun b c => match c with
    | .lastIndexTransparent b' => b'
    | _ => b) false

/-- Messages while the palette is searched: rounds of the search, then that colours are moved. There are none if all the
colours fit and perfect quality is asked for. -/
def SearchLog (s : Settings) (qualitySet perfect : Bool) (n : ℕ) (percents : List UInt8) (ms : List (Msg F)) : Prop :=
  if n ≤ s.maxColors ∧ perfect = true then ms = [] ∧ percents = []
  else percents ≠ [] ∧ percents.length ≤ max 1 (56 - 9 * s.speed) ∧
    ms = percents.map .selecting ++ if s.speed < 8 ∨ qualitySet = true then [.moving] else []

/-- Messages of a quantization of `n` colours, by its result. -/
inductive QuantizeLog (s : Settings) (qualitySet perfect last : Bool) (n : ℕ) :
    List UInt8 → Res (QuantizationResult F) → List (Msg F) → Prop
  | nothing (h : n = 0) : QuantizeLog s qualitySet perfect last n [] (.error (.err .unsupported)) []
  | stoppedFirst : QuantizeLog s qualitySet perfect last n [] (.error (.err .aborted)) []
  | stopped : QuantizeLog s qualitySet perfect last n [] (.error (.err .aborted)) [.found n]
  | stoppedLast (ps : List UInt8) (ms : List (Msg F)) (h : SearchLog s qualitySet perfect n ps ms) :
      QuantizeLog s qualitySet perfect last n ps (.error (.err .aborted)) (.found n :: ms)
  | tooLow (ps : List UInt8) (ms : List (Msg F)) (h : SearchLog s qualitySet perfect n ps ms) (mse : F) (q : ℕ) (limit : F) (lq : ℕ)
      (hq : qualitySet = true) :
      QuantizeLog s qualitySet perfect last n ps (.error (.err .qualityTooLow)) (.found n :: ms ++ [.degraded mse q limit lq])
  | opaque (ps : List UInt8) (ms : List (Msg F)) (h : SearchLog s qualitySet perfect n ps ms) (r : QuantizationResult F)
      (ht : last = true ∨ ∀ e ∈ r.palette, isTransparentColor e.color = false) :
      QuantizeLog s qualitySet perfect last n ps (.ok r) (.found n :: ms)
  | transparent (ps : List UInt8) (ms : List (Msg F)) (h : SearchLog s qualitySet perfect n ps ms) (r : QuantizationResult F)
      (hl : last = false) (k : ℕ) (e : PalEntry F) (hk : 0 < k) (he : r.palette[k - 1]? = some e) (ht : isTransparentColor e.color = true)
      (hlast : ∀ i e, r.palette[i]? = some e → isTransparentColor e.color = true → i < k) :
      QuantizeLog s qualitySet perfect last n ps (.ok r) (.found n :: ms ++ [.transparent k])

end Spec

theorem userAttr_lastIndex (cs : List Call) (cb : Option (List F → Bool)) :
    (userAttr cs cb).lastIndexTransparent = lastIndexSetting cs := by
  show ((Attr.new : Attr F).after cs).lastIndexTransparent = _
  have h0 : (Attr.new : Attr F).lastIndexTransparent = false := by
    unfold Attr.new Attr.blank Attr.setSpeed
    rw [if_neg (by norm_num)]
    rfl
  unfold Attr.after lastIndexSetting
  generalize (Attr.new : Attr F) = a at h0 ⊢
  generalize false = b at h0 ⊢
  induction cs generalizing a b with
  | nil => exact h0
  | cons c cs ih =>
    simp only [List.foldl_cons]
    apply ih
    cases c with
    | maxColors n =>
      simp only [Attr.call, Attr.setMaxColors]
      split
      next h => split at h <;> cases h; exact h0
      · exact h0
    | quality m t =>
      simp only [Attr.call, Attr.setQuality]
      split
      next h => split at h <;> cases h; exact h0
      · exact h0
    | speed v =>
      simp only [Attr.call]
      by_cases hv : 1 ≤ v ∧ v ≤ 10
      · unfold Attr.setSpeed
        rw [if_neg (by omega)]
        obtain ⟨h1, h2⟩ := hv
        interval_cases v <;> exact h0
      · unfold Attr.setSpeed
        rw [if_pos hv]
        exact h0
    | minPosterization v =>
      simp only [Attr.call, Attr.setMinPosterization]
      split
      next h => split at h <;> cases h; exact h0
      · exact h0
    | lastIndexTransparent b => rfl

theorem userAttr_moves (cs : List Call) (cb : Option (List F → Bool)) :
    (userAttr cs cb).Moves ↔ (Settings.default.after cs).speed < 8 ∨ (lastQuality cs).isSome = true := by
  have hobs := C13_settings_registers_any_float (F := F) cs
  simp only [Attr.observeInt, Attr.getSpeed, Prod.mk.injEq] at hobs
  have hs : (userAttr (F := F) cs cb).speed = (Settings.default.after cs).speed := hobs.2.1
  have h := userAttr_speedOK cs cb
  unfold Attr.Moves
  rw [h.iterations, h.trials, (userAttr_quality cs cb).1, hs, Option.isSome_map]
  have := h.range
  rw [hs] at this
  constructor
  · rintro (h1 | ⟨h1, h2⟩)
    · left
      by_contra h2
      rw [show 8 - (Settings.default.after cs).speed = 0 by omega] at h1
      simp at h1
    · exact .inr h2
  · rintro (h1 | h1)
    · left; omega
    · by_cases h2 : (Settings.default.after cs).speed < 8
      · left; omega
      · exact .inr ⟨by omega, h1⟩

/-- the percentages of the rounds -/
def percentsOf (total : ℕ) (ts : List ℤ) : List UInt8 := ts.map fun t => toU8 (lit32 100 *₃ stageDone total t : F)

theorem searchLog_of (cs : List Call) (cb : Option (List F → Bool)) {n : ℕ} {ts : List ℤ} {ms : List (Msg F)}
    (h : SearchSaid (userAttr cs cb) n ts ms) :
    ∃ ts, SearchSaid (userAttr cs cb) n ts ms ∧ SearchLog (Settings.default.after cs) (lastQuality cs).isSome
      (eq (userAttr cs cb).targetMse (lit64 0)) n (percentsOf (F := F) ((userAttr cs cb).feedbackTrials n) ts) ms := by
  have hobs := C13_settings_registers_any_float (F := F) cs
  simp only [Attr.observeInt, Attr.getSpeed, Prod.mk.injEq] at hobs
  have hs : (userAttr (F := F) cs cb).speed = (Settings.default.after cs).speed := hobs.2.1
  by_cases hc : n ≤ (userAttr cs cb).maxColors ∧ eq (userAttr cs cb).targetMse (lit64 0) = true
  · refine ⟨[], ⟨.nil _, h.quick, fun h' => absurd hc h'⟩, ?_⟩
    unfold SearchLog
    rw [← userAttr_maxColors cs cb, if_pos hc]
    exact ⟨h.quick hc, rfl⟩
  · obtain ⟨h1, h2⟩ := h.search hc
    refine ⟨ts, h, ?_⟩
    unfold SearchLog
    rw [← userAttr_maxColors cs cb, if_neg hc]
    refine ⟨by simpa [percentsOf] using h1, ?_, ?_⟩
    · unfold percentsOf
      rw [List.length_map]
      have h3 := h.rounds.short
      have h4 : (userAttr (F := F) cs cb).feedbackTrials n ≤ (userAttr cs cb).feedbackLoopTrials := Attr.reduceBySize_le _ _
      rw [(userAttr_speedOK cs cb).trials, hs] at h4
      omega
    · rw [h2]
      congr 1
      · simp only [roundMessages, percentsOf, List.map_map, Function.comp_def]
      · exact if_congr (userAttr_moves cs cb) rfl rfl

theorem lastTransparent_none {p : PalF F} (h : lastTransparent p = none) : ∀ e ∈ p, isTransparentColor e.color = false := by
  intro e he
  unfold lastTransparent at h
  rw [List.max?_eq_none_iff, List.map_eq_nil_iff, List.filter_eq_nil_iff] at h
  obtain ⟨i, hi⟩ := List.mem_iff_getElem?.1 he
  simpa using h (e, i) (List.mem_zipIdx_iff_getElem?.2 hi)

theorem lastTransparent_some {p : PalF F} {k : ℕ} (h : lastTransparent p = some k) : 0 < k ∧
    (∃ e, p[k - 1]? = some e ∧ isTransparentColor e.color = true) ∧
    ∀ i e, p[i]? = some e → isTransparentColor e.color = true → i < k := by
  unfold lastTransparent at h
  rw [List.max?_eq_some_iff] at h
  obtain ⟨h1, h2⟩ := h
  simp only [List.mem_map, List.mem_filter, List.mem_zipIdx_iff_getElem?, Prod.exists] at h1 h2
  obtain ⟨e, i, ⟨h3, h4⟩, rfl⟩ := h1
  refine ⟨by omega, ⟨e, by simpa using h3, h4⟩, fun j f hj hf => ?_⟩
  have := h2 (j + 1) ⟨f, j, ⟨hj, hf⟩, rfl⟩
  omega

/-- what is behind the transcript: the number of trials left in the rounds, and the error that was too high -/
theorem transcript [FltSign F] (c : ℕ) (env : Env F) (cs : List Call) (cb : Option (List F → Bool)) {h : Histogram F}
    (hd : ColorMap.Distinct h.hashmap) (freeze : Bool) (ev : List (Event F)) :
    ∃ new ts, (h.quantizeInternalL (some c) env (userAttr cs cb) freeze ev).2 = ev ++ new ∧
      (∀ e ∈ new, (∃ p, e = .progress p) ∨ ∃ m, e = .message c m) ∧
      QuantizeLog (Settings.default.after cs) (lastQuality cs).isSome (eq (userAttr cs cb).targetMse (lit64 0)) (lastIndexSetting cs)
        (coloursOf h).card (percentsOf (F := F) ((userAttr cs cb).feedbackTrials (coloursOf h).card) ts)
        (h.quantizeInternalL (some c) env (userAttr cs cb) freeze ev).1 (messagesOf new) ∧
      Rounds ((userAttr cs cb).feedbackTrials (coloursOf h).card) ts ∧
      (∀ a q b lq, .degraded a q b lq ∈ messagesOf new → ∃ e m, a = mseToStandardMse e ∧ q = mseToQuality e ∧
        b = mseToStandardMse m ∧ lq = mseToQuality m ∧ lt m e = true ∧
        ((userAttr cs cb).targetMseFor (coloursOf h).card).1 = some m) ∧
      ∀ r, (h.quantizeInternalL (some c) env (userAttr cs cb) freeze ev).1 = .ok r →
        ∃ p, r.palette = sortPalette (lastIndexSetting cs) p := by
  obtain ⟨new, h1, h2, h3⟩ := (says_quantizeInternal c env (userAttr cs cb) (userAttr_range cs cb).1 (userAttr_range cs cb).2 h freeze).run ev
  rw [colours_card hd] at h3
  have hev : ∀ e ∈ new, (∃ p, e = .progress p) ∨ ∃ m, e = .message c m := by
    intro e he
    have := h2 e he
    cases e with
    | progress p => exact .inl ⟨p, rfl⟩
    | message c' m => cases this; exact .inr ⟨m, rfl⟩
    | flush _ => cases this
  have hsel : ∀ {n ts} {ms : List (Msg F)}, SearchSaid (userAttr cs cb) n ts ms → ∀ a q b lq, .degraded a q b lq ∉ ms := by
    intro n ts ms hs a q b lq hmem
    by_cases hc : n ≤ (userAttr cs cb).maxColors ∧ eq (userAttr cs cb).targetMse (lit64 0) = true
    · rw [hs.quick hc] at hmem; simp at hmem
    · rw [(hs.search hc).2] at hmem
      rcases List.mem_append.1 hmem with hmem | hmem
      · simp [roundMessages] at hmem
      · split at hmem <;> simp at hmem
  refine ⟨new, ?_⟩
  generalize hr : (h.quantizeInternalL (some c) env (userAttr cs cb) freeze ev).1 = res at h3 ⊢
  generalize hms : messagesOf new = ms at h3 ⊢
  cases h3 with
  | empty e1 e2 =>
    refine ⟨[], h1, hev, .nothing ?_, .nil _, by simp, by rintro r ⟨⟩⟩
    unfold coloursOf
    rw [e1, e2]
    rfl
  | early => exact ⟨[], h1, hev, .stoppedFirst, .nil _, by simp, by rintro r ⟨⟩⟩
  | found _ ms' hs =>
    cases hs with
    | early => exact ⟨[], h1, hev, .stopped, .nil _, by simp, by rintro r ⟨⟩⟩
    | late ts _ hs =>
      obtain ⟨ts, hs', hl⟩ := searchLog_of cs cb hs
      refine ⟨ts, h1, hev, .stoppedLast _ _ hl, hs'.rounds, ?_, by rintro r ⟨⟩⟩
      intro a q b lq hm
      rcases List.mem_cons.1 hm with hm | hm
      · cases hm
      · exact absurd hm (hsel hs' a q b lq)
    | tooLow ts ms hs e m hm hlt =>
      obtain ⟨ts, hs', hl⟩ := searchLog_of cs cb hs
      refine ⟨ts, h1, hev, ?_, hs'.rounds, ?_, by rintro r ⟨⟩⟩
      · rw [← List.cons_append]
        refine .tooLow _ _ hl _ _ _ _ ?_
        have h5 : (((userAttr cs cb).targetMseFor (coloursOf h).card).1).isSome = true := by rw [hm]; rfl
        unfold Attr.targetMseFor at h5
        dsimp only at h5
        rwa [Option.isSome_map, (userAttr_quality cs cb).1, Option.isSome_map] at h5
      · intro a q b lq hmem
        rcases List.mem_cons.1 hmem with hmem | hmem
        · cases hmem
        · rcases List.mem_append.1 hmem with hmem | hmem
          · exact absurd hmem (hsel hs' a q b lq)
          · cases List.mem_singleton.1 hmem
            exact ⟨e, m, rfl, rfl, rfl, rfl, hlt, hm⟩
    | ok ts ms hs r hp =>
      obtain ⟨ts, hs', hl⟩ := searchLog_of cs cb hs
      rw [userAttr_lastIndex] at hp ⊢
      have hsort : ∀ r', (.ok r : Res (QuantizationResult F)) = .ok r' → ∃ p, r'.palette = sortPalette (lastIndexSetting cs) p := by
        rintro r' ⟨⟩
        exact hp
      unfold transparentMessages at hms ⊢
      have hno : ∀ a q b lq, (.degraded a q b lq : Msg F) ∈ (.found (coloursOf h).card :: ms) → False := by
        intro a q b lq hm
        rcases List.mem_cons.1 hm with hm | hm
        · cases hm
        · exact hsel hs' a q b lq hm
      cases hlast : lastIndexSetting cs with
      | true =>
        rw [if_pos rfl, List.append_nil]
        rw [hlast] at hsort
        exact ⟨ts, h1, hev, .opaque _ _ hl r (.inl rfl), hs'.rounds, fun a q b lq hm => (hno a q b lq hm).elim, hsort⟩
      | false =>
        rw [hlast] at hsort
        rw [if_neg (by simp)]
        cases ht : lastTransparent r.palette with
        | none =>
          rw [show (Option.toList (none : Option ℕ)).map (Msg.transparent (F := F)) = [] from rfl, List.append_nil]
          exact ⟨ts, h1, hev, .opaque _ _ hl r (.inr (lastTransparent_none ht)), hs'.rounds, fun a q b lq hm => (hno a q b lq hm).elim, hsort⟩
        | some k =>
          obtain ⟨hk, ⟨e, he1, he2⟩, hk2⟩ := lastTransparent_some ht
          refine ⟨ts, h1, hev, ?_, hs'.rounds, ?_, hsort⟩
          · rw [← List.cons_append]
            exact .transparent _ _ hl r rfl k e hk he1 he2 hk2
          · intro a q b lq hm
            rw [← List.cons_append] at hm
            rcases List.mem_append.1 hm with hm | hm
            · exact (hno a q b lq hm).elim
            · simp at hm

/-- **C74** (any float arithmetic). Messages change nothing: whatever the log callback is, the result and the reports of
progress are those of the quantization without messages. -/
theorem C74_messages_change_nothing (lc : Option ℕ) (env : Env F) (h : Histogram F) (attr : Attr F) (freeze : Bool) (ev : List (Event F)) :
    ((h.quantizeInternalL lc env attr freeze ev).1, reportsOf (h.quantizeInternalL lc env attr freeze ev).2) =
      h.quantizeInternal env attr freeze (reportsOf ev) :=
  (erases_quantizeInternal lc env h attr freeze).eq ev

/-- **C74** (any float arithmetic). With a log callback, the calls made are reports of progress and messages to that
callback. The messages are the transcript: the number of distinct colours, rounds of the search, moving of colours, and then
why the quality is too low or how many entries of the palette are transparent. -/
theorem C74_transcript [FltSign F] (c : ℕ) (env : Env F) (cs : List Call) (cb : Option (List F → Bool)) {h : Histogram F}
    (hu : UserHistogram h) (freeze : Bool) (ev : List (Event F)) :
    ∃ new ps, (h.quantizeInternalL (some c) env (userAttr cs cb) freeze ev).2 = ev ++ new ∧
      (∀ e ∈ new, (∃ p, e = .progress p) ∨ ∃ m, e = .message c m) ∧
      QuantizeLog (Settings.default.after cs) (lastQuality cs).isSome (eq (userAttr cs cb).targetMse (lit64 0)) (lastIndexSetting cs)
        (coloursOf h).card ps (h.quantizeInternalL (some c) env (userAttr cs cb) freeze ev).1 (messagesOf new) := by
  obtain ⟨new, ts, h1, h2, h3, -⟩ := transcript c env cs cb hu.distinct freeze ev
  exact ⟨new, _, h1, h2, h3⟩

/-- **C74** (any float arithmetic). Without a log callback nothing but progress is reported. -/
theorem C74_no_callback (env : Env F) (h : Histogram F) (attr : Attr F) (freeze : Bool) (ev : List (Event F)) :
    ∃ new, (h.quantizeInternalL none env attr freeze ev).2 = ev ++ new ∧ ∀ e ∈ new, ∃ p, e = .progress p := by
  obtain ⟨new, h1, h2, -⟩ := (calls_quantizeInternal none env h attr freeze).run ev
  refine ⟨new, h1, fun e he => ?_⟩
  have := h2 e he
  cases e with
  | progress p => exact ⟨p, rfl⟩
  | message _ _ => cases this
  | flush _ => cases this

theorem stageDone_real (total : ℕ) (t : ℤ) : (stageDone total t : ℝ) = 1 - ((max t 0 : ℤ) / (total + 1) : ℝ) ^ 2 := by
  unfold stageDone
  simp only [real_lit32, real_div32, real_fma32, show ∀ x : ℝ, fneg x = -x from fun _ => rfl]
  have : (((max t 0).toNat : ℚ) : ℝ) = ((max t 0 : ℤ) : ℝ) := by
    rw [Rat.cast_natCast, ← Int.cast_natCast, Int.toNat_of_nonneg (le_max_right _ _)]
  rw [this]
  push_cast
  ring

theorem percent_real {total : ℕ} {t : ℤ} (h0 : 0 ≤ t) :
    (toU8 (lit32 100 *₃ stageDone total t : ℝ)).toNat = ⌊100 * (1 - ((t : ℝ) / (total + 1)) ^ 2)⌋₊ := by
  rw [stageDone_real, real_toU8, max_eq_left h0, real_mul32, real_lit32]
  push_cast
  have h1 : ⌊100 * (1 - ((t : ℝ) / (total + 1)) ^ 2)⌋₊ ≤ 100 := by
    refine Nat.floor_le_of_le ?_
    have := sq_nonneg ((t : ℝ) / (total + 1))
    push_cast
    linarith
  rw [UInt8.toNat_ofNat', show Nat.min 255 _ = _ from min_eq_right (by omega), Nat.mod_eq_of_lt (by omega)]

theorem percent_antitone {total : ℕ} {s t : ℤ} (h0 : 0 ≤ s) (hst : s ≤ t) :
    (toU8 (lit32 100 *₃ stageDone total t : ℝ)).toNat ≤ (toU8 (lit32 100 *₃ stageDone total s : ℝ)).toNat := by
  rw [percent_real h0, percent_real (h0.trans hst)]
  refine Nat.floor_le_floor ?_
  have h1 : (0 : ℝ) ≤ s := by exact_mod_cast h0
  have h2 : (s : ℝ) ≤ t := by exact_mod_cast hst
  have : ((s : ℝ) / (total + 1)) ^ 2 ≤ ((t : ℝ) / (total + 1)) ^ 2 := by gcongr
  linarith

theorem percent_bounds {total : ℕ} {t : ℤ} (h0 : 0 ≤ t) :
    (toU8 (lit32 100 *₃ stageDone total t : ℝ)).toNat ≤ 100 ∧ ((toU8 (lit32 100 *₃ stageDone total t : ℝ)).toNat = 100 ↔ t = 0) := by
  rw [percent_real h0]
  have h1 : (0 : ℝ) ≤ t := by exact_mod_cast h0
  have hsq := sq_nonneg ((t : ℝ) / (total + 1))
  have hle : ⌊100 * (1 - ((t : ℝ) / (total + 1)) ^ 2)⌋₊ ≤ 100 := Nat.floor_le_of_le (by push_cast; linarith)
  refine ⟨hle, ?_, ?_⟩
  · intro h
    by_contra hne
    have h2 : (0 : ℝ) < t := lt_of_le_of_ne h1 (by exact_mod_cast (Ne.symm hne))
    have h3 : 0 < ((t : ℝ) / (total + 1)) ^ 2 := by positivity
    have : ⌊100 * (1 - ((t : ℝ) / (total + 1)) ^ 2)⌋₊ < 100 := Nat.floor_lt' (by norm_num) |>.2 (by push_cast; linarith)
    omega
  · rintro rfl
    norm_num

/-- **C74** (exact). The percentages of the rounds do not fall, and are below 100 while trials are left; only from speed 7
on, where there are no trials, the single round says 100. Too low a quality is explained truthfully: the error is above the
limit, its quality is not above that of the limit, and the limit is not below the minimum quality (it is the minimum
quality if there are more than 256 colours). The number of transparent entries is correct: these are the first entries. -/
theorem C74_transcript_exact (c : ℕ) (env : Env ℝ) (cs : List Call) (cb : Option (List ℝ → Bool)) {h : Histogram ℝ}
    (hu : UserHistogram h) (freeze : Bool) (ev : List (Event ℝ)) :
    ∃ new ps, (h.quantizeInternalL (some c) env (userAttr cs cb) freeze ev).2 = ev ++ new ∧
      (∀ e ∈ new, (∃ p, e = .progress p) ∨ ∃ m, e = .message c m) ∧
      QuantizeLog (Settings.default.after cs) (lastQuality cs).isSome (decide ((Settings.default.after cs).quality.2 = 100))
        (lastIndexSetting cs) (coloursOf h).card ps (h.quantizeInternalL (some c) env (userAttr cs cb) freeze ev).1 (messagesOf new) ∧
      ps.Pairwise (fun p q => p.toNat ≤ q.toNat) ∧
      (∀ p ∈ ps, p.toNat ≤ 100 ∧ (p.toNat = 100 ↔ 7 ≤ (Settings.default.after cs).speed)) ∧
      (∀ mse q limit lq, .degraded mse q limit lq ∈ messagesOf new → limit < mse ∧ q ≤ lq ∧
        ∃ qual, lastQuality cs = some qual ∧ qual.1 ≤ lq ∧ (256 < (coloursOf h).card → lq = qual.1)) ∧
      ∀ r k, (h.quantizeInternalL (some c) env (userAttr cs cb) freeze ev).1 = .ok r → .transparent k ∈ messagesOf new →
        ∀ i e, r.palette[i]? = some e → (e.color.a ≤ 255 / 256 * (5 / 8) ↔ i < k) := by
  obtain ⟨new, ts, h1, h2, h3, h4, h5, h6⟩ := transcript c env cs cb hu.distinct freeze ev
  have hz : eq (userAttr cs cb).targetMse (lit64 0 : ℝ) = decide ((Settings.default.after cs).quality.2 = 100) := by
    rw [Bool.eq_iff_iff, target_zero_iff, decide_eq_true_eq]
  rw [hz] at h3
  set n := (coloursOf h).card with hn
  have hobs := C13_settings_registers_any_float (F := ℝ) cs
  simp only [Attr.observeInt, Attr.getSpeed, Prod.mk.injEq] at hobs
  have hs : (userAttr (F := ℝ) cs cb).speed = (Settings.default.after cs).speed := hobs.2.1
  have htot : (userAttr (F := ℝ) cs cb).feedbackTrials n = 0 ↔ 7 ≤ (Settings.default.after cs).speed := by
    have := feedbackTrials_pos (userAttr (F := ℝ) cs cb) n
    rw [(userAttr_speedOK cs cb).trials, hs] at this
    omega
  have hnn : ∀ t ∈ ts, 0 ≤ t := by
    intro t ht
    rcases h4.pos t ht with h | h
    · rw [h]; exact Int.natCast_nonneg _
    · exact h.le
  refine ⟨new, _, h1, h2, h3, ?_, ?_, ?_, ?_⟩
  · unfold percentsOf
    rw [List.pairwise_map]
    refine h4.falling.imp_of_mem ?_
    intro s t _ ht hst
    exact percent_antitone (hnn t ht) hst.le
  · intro p hp
    obtain ⟨t, ht, rfl⟩ := List.mem_map.1 hp
    have h7 := percent_bounds (total := (userAttr (F := ℝ) cs cb).feedbackTrials n) (hnn t ht)
    refine ⟨h7.1, h7.2.trans ?_⟩
    rw [← htot]
    constructor
    · rintro rfl
      rcases h4.pos 0 ht with h | h
      · exact_mod_cast h.symm
      · omega
    · intro h
      have := h4.le t ht
      rw [h] at this
      have := hnn t ht
      push_cast at *
      omega
  · intro mse q limit lq hm
    obtain ⟨e, m, rfl, rfl, rfl, rfl, hlt, hmse⟩ := h5 mse q limit lq hm
    rw [real_lt] at hlt
    have hanti : ∀ {x y : ℝ}, x ≤ y → mseToQuality y ≤ mseToQuality x := by
      intro x y hxy
      have hy := (mseToQualityFrom_spec y 100).1
      refine (mseToQualityFrom_spec x 100).2 ⟨hy.1, ?_⟩
      rcases hy.2 with h | h
      · exact .inl h
      · exact .inr (hxy.trans h)
    refine ⟨?_, hanti hlt.le, ?_⟩
    · unfold mseToStandardMse weightMSE
      simp only [real_lit64, real_mul64, real_div64]
      push_cast
      linarith
    · unfold Attr.targetMseFor at hmse
      dsimp only at hmse
      rw [(userAttr_quality cs cb).1, Option.map_map, Option.map_eq_some_iff] at hmse
      obtain ⟨qual, hq, hmq⟩ := hmse
      have hr := lastQuality_range cs qual hq
      have hlim := mseToQuality_limit (q := qual.1) (by omega)
      have hnonneg : (0 : ℝ) ≤ qualityToMse qual.1 := by rw [qualityToMse_spec]; have := qualityLimit_nonneg qual.1; linarith
      refine ⟨qual, hq, ?_, ?_⟩
      · rw [← hlim]
        refine hanti ?_
        rw [← hmq]
        simp only [Function.comp_apply, real_mul64]
        split
        · rw [real_lit64]; push_cast; linarith
        · rw [real_lit64]; push_cast; linarith
      · intro hbig
        rw [← hmq]
        simp only [Function.comp_apply, real_mul64]
        rw [if_neg (by unfold maxColorsCap; omega), real_lit64]
        push_cast
        rw [mul_one, hlim]
  · intro r k hr hk i e hi
    rw [hr] at h3
    obtain ⟨p, hp⟩ := h6 r hr
    generalize messagesOf new = ms at h3 hk
    generalize percentsOf (F := ℝ) _ ts = ps at h3
    have hnot : ∀ {ms : List (Msg ℝ)}, SearchLog (Settings.default.after cs) (lastQuality cs).isSome
        (decide ((Settings.default.after cs).quality.2 = 100)) n ps ms → .transparent k ∉ (.found n :: ms) := by
      intro ms hsl hmem
      rcases List.mem_cons.1 hmem with hmem | hmem
      · cases hmem
      · unfold SearchLog at hsl
        split at hsl
        · rw [hsl.1] at hmem; simp at hmem
        · rw [hsl.2.2] at hmem
          rcases List.mem_append.1 hmem with hmem | hmem
          · simp at hmem
          · split at hmem <;> simp at hmem
    rw [← isTransparent_real]
    cases h3 with
    | «opaque» _ ms hsl _ _ => exact absurd hk (hnot hsl)
    | transparent _ ms hsl _ hl k' f hk0 hf htf hlast =>
      have hkk : k = k' := by
        rcases List.mem_append.1 hk with hk | hk
        · exact absurd hk (hnot hsl)
        · simpa using hk
      subst hkk
      refine ⟨hlast i e hi, fun hik => ?_⟩
      rw [hl] at hp
      rcases Nat.lt_or_ge i (k - 1) with h7 | h7
      · have hpw := C10_default_order p
        rw [← hp, List.pairwise_iff_getElem] at hpw
        obtain ⟨hi', hie⟩ := List.getElem?_eq_some_iff.1 hi
        obtain ⟨hk', hke⟩ := List.getElem?_eq_some_iff.1 hf
        have := (hpw i (k - 1) hi' hk' h7).1
        rw [hie, hke, ← isTransparent_real, ← isTransparent_real] at this
        exact this htf
      · have : i = k - 1 := by omega
        rw [this, hf] at hi
        cases hi
        exact htf

/-- Three fixed colours and default settings: all the colours fit, so there is one message only. If only two fit, the
search has its rounds, and colours are moved. -/
example : ∃ h : Histogram ℝ, UserHistogram h ∧ ∀ (env : Env ℝ) (ev : List (Event ℝ)),
    (∃ new, (h.quantizeInternalL (some 7) env (userAttr [.lastIndexTransparent true] none) false ev).2 = ev ++ new ∧
      messagesOf new = [.found 3]) ∧
    ∃ new ps, (h.quantizeInternalL (some 7) env (userAttr [.maxColors 2, .lastIndexTransparent true] none) false ev).2 = ev ++ new ∧
      ps ≠ [] ∧ messagesOf new = .found 3 :: (ps.map .selecting ++ [.moving]) := by
  obtain ⟨h, hu, hm, hf⟩ := three_fixed (F := ℝ)
  have hcard : (coloursOf h).card = 3 := by unfold coloursOf; rw [hm, hf]; decide
  have hne : h.hashmap ≠ [] ∨ h.fixedColors ≠ [] := .inr (by rw [hf]; simp)
  refine ⟨h, hu, fun env ev => ⟨?_, ?_⟩⟩
  · obtain ⟨new, ps, h1, -, h3, -⟩ := C74_transcript_exact 7 env [.lastIndexTransparent true] none hu false ev
    obtain ⟨r, log', hr⟩ := C42_succeeds env [.lastIndexTransparent true] h false (reportsOf ev) rfl hne
    rw [← C74_messages_change_nothing (some 7)] at hr
    rw [(Prod.mk.inj hr).1, hcard] at h3
    refine ⟨new, h1, ?_⟩
    generalize messagesOf new = ms at h3 ⊢
    cases h3 with
    | «opaque» _ ms hs _ _ =>
      unfold SearchLog at hs
      rw [if_pos (by decide)] at hs
      rw [hs.1]
    | transparent _ _ _ _ hl => cases hl
  · obtain ⟨new, ps, h1, -, h3, -⟩ := C74_transcript_exact 7 env [.maxColors 2, .lastIndexTransparent true] none hu false ev
    obtain ⟨r, log', hr⟩ := C42_succeeds env [.maxColors 2, .lastIndexTransparent true] h false (reportsOf ev) rfl hne
    rw [← C74_messages_change_nothing (some 7)] at hr
    rw [(Prod.mk.inj hr).1, hcard] at h3
    generalize hg : messagesOf new = ms at h3
    cases h3 with
    | «opaque» _ ms hs _ _ =>
      unfold SearchLog at hs
      rw [if_neg (by decide), if_pos (by decide)] at hs
      exact ⟨new, ps, h1, hs.1, by rw [hg, hs.2.2]⟩
    | transparent _ _ _ _ hl => cases hl

end Verif
