import Verif.Lemmas.Reach
import Verif.Lemmas.Env
import Verif.Lemmas.QuantFew

/-! # Properties C01, C11, C14, C31, C42: outcome of a quantization

`userAttr cs cb` is a handle after any history `cs` of setter calls with any progress callback `cb` (a function of
all the percentages reported so far). `quantizeInternal … freeze` is quantization of a histogram (`freeze = true`,
`Histogram::quantize`) or of an image's histogram (`freeze = false`, `Attributes::quantize`). -/

set_option linter.unusedSectionVars false

namespace Verif
open Flt Spec

variable {F : Type} [Flt F] [FltSign F]

/-- an example: two opaque colours, no fixed colour -/
def exampleHistogram : Histogram F :=
  { gamma := none, fixedColors := [], posterizeBits := 0, maxHistogramEntries := 1000
    hashmap := [(⟨255, 0, 0, 255⟩, (3, ⟨255, 0, 0, 255⟩)), (⟨0, 0, 255, 255⟩, (5, ⟨0, 0, 255, 255⟩))] }

theorem user_outcome (env : Env F) (cs : List Call) (cb : Option (List F → Bool)) (h : Histogram F) (freeze : Bool)
    (log : List F) :
    (h.hashmap = [] ∧ h.fixedColors = [] ∧
      h.quantizeInternal env (userAttr cs cb) freeze log = (.error (.err .unsupported), log)) ∨
    ((h.hashmap ≠ [] ∨ h.fixedColors ≠ []) ∧
      Outcome (userAttr cs cb) (h.insertFixedColors env.ho).length
        (h.fixedList env.ho (h.gamma.getD (lit64 (45455/100000)))) freeze
        (h.gamma.getD (lit64 (45455/100000))) log (h.quantizeInternal env (userAttr cs cb) freeze log)) :=
  quantize_outcome env _ (userAttr_range cs cb).1 (userAttr_range cs cb).2 h freeze log

/-! ## C01 palette size -/

theorem ResultOK.length_range {attr : Attr F} {fs : List (FPixel F)} {freeze : Bool} {gamma : F} {r : QuantizationResult F}
    (h : ResultOK attr fs freeze gamma r) : 1 ≤ r.palette.length ∧ r.palette.length ≤ attr.maxColors := by
  obtain ⟨p, hp, hperm⟩ := h.pal
  have hl : r.palette.length = p.length := by
    rw [hperm.length_eq]; split <;> simp
  have := List.length_pos_iff.2 hp.pos
  have := hp.le
  omega

/-- **C01** (any float arithmetic). For all settings, callbacks, histograms, hash orders, sort results and thread
schedules: a successful quantization has a palette of at least one and at most `max_colors` ≤ 256 entries, and
`palette()` reports that many. -/
theorem C01_palette_size (env : Env F) (cs : List Call) (cb : Option (List F → Bool)) (h : Histogram F) (freeze : Bool)
    (log log' : List F) (r : QuantizationResult F)
    (hq : h.quantizeInternal env (userAttr cs cb) freeze log = (.ok r, log')) :
    1 ≤ r.palette.length ∧ r.palette.length ≤ (Settings.default.after cs).maxColors ∧
    (Settings.default.after cs).maxColors ≤ 256 ∧ r.getPalette.2.length = r.palette.length := by
  rcases user_outcome env cs cb h freeze log with ⟨-, -, e⟩ | ⟨-, e⟩
  · rw [hq] at e; cases e
  · rw [hq] at e
    cases e with
    | ok _ _ _ _ hr =>
      have h1 := hr.length_range
      have h2 := (userAttr_range (F := F) cs cb).2
      rw [userAttr_maxColors] at h1 h2
      refine ⟨h1.1, h1.2, h2, ?_⟩
      rw [hr.rest]
      simp [QuantizationResult.getPalette, PalF.initIntPalette]

/-- **C01** (any float arithmetic). Quantization never panics: no ArrayVec overflow, no index out of bounds, no
unwrap of a missing value. -/
theorem C01_no_panic (env : Env F) (cs : List Call) (cb : Option (List F → Bool)) (h : Histogram F) (freeze : Bool)
    (log : List F) : (h.quantizeInternal env (userAttr cs cb) freeze log).1 ≠ .error .panic := by
  rcases user_outcome env cs cb h freeze log with ⟨-, -, e⟩ | ⟨-, e⟩
  · rw [e]; simp
  · generalize h.quantizeInternal env (userAttr cs cb) freeze log = x at e
    cases e <;> simp

/-! ## C42 empty inputs -/

/-- **C42** (any float arithmetic). Nothing to quantize is reported as `Unsupported`, and only that. -/
theorem C42_unsupported_iff_empty (env : Env F) (cs : List Call) (cb : Option (List F → Bool)) (h : Histogram F)
    (freeze : Bool) (log : List F) :
    (h.quantizeInternal env (userAttr cs cb) freeze log).1 = .error (.err .unsupported) ↔
      h.hashmap = [] ∧ h.fixedColors = [] := by
  rcases user_outcome env cs cb h freeze log with ⟨h1, h2, e⟩ | ⟨hne, e⟩
  · rw [e]; exact ⟨fun _ => ⟨h1, h2⟩, fun _ => rfl⟩
  · constructor
    · intro hu
      generalize h.quantizeInternal env (userAttr cs cb) freeze log = x at e hu
      cases e <;> simp at hu
    · rintro ⟨h1, h2⟩; rcases hne with h | h <;> contradiction

/-- **C42** (any float arithmetic). A histogram with a colour or a fixed colour gives a palette, or `Aborted`, or
`QualityTooLow`. -/
theorem C42_nonempty_outcome (env : Env F) (cs : List Call) (cb : Option (List F → Bool)) (h : Histogram F)
    (freeze : Bool) (log : List F) (hne : h.hashmap ≠ [] ∨ h.fixedColors ≠ []) :
    (∃ r, (h.quantizeInternal env (userAttr cs cb) freeze log).1 = .ok r ∧ r.palette ≠ []) ∨
    (h.quantizeInternal env (userAttr cs cb) freeze log).1 = .error (.err .aborted) ∨
    (h.quantizeInternal env (userAttr cs cb) freeze log).1 = .error (.err .qualityTooLow) := by
  rcases user_outcome env cs cb h freeze log with ⟨h1, h2, e⟩ | ⟨-, e⟩
  · rcases hne with h | h <;> contradiction
  · generalize h.quantizeInternal env (userAttr cs cb) freeze log = x at e
    cases e with
    | aborted => exact Or.inr (Or.inl rfl)
    | tooLow => exact Or.inr (Or.inr rfl)
    | ok r _ _ _ hr => exact Or.inl ⟨r, rfl, List.ne_nil_of_length_pos (by have := hr.length_range; omega)⟩

/-- **C42** (any float arithmetic). Without a callback and without a call of `set_quality`, every histogram with a
colour or a fixed colour is quantized successfully. -/
theorem C42_succeeds (env : Env F) (cs : List Call) (h : Histogram F) (freeze : Bool) (log : List F)
    (hq : lastQuality cs = none) (hne : h.hashmap ≠ [] ∨ h.fixedColors ≠ []) :
    ∃ r log', h.quantizeInternal env (userAttr cs none) freeze log = (.ok r, log') := by
  rcases user_outcome env cs none h freeze log with ⟨h1, h2, e⟩ | ⟨-, e⟩
  · rcases hne with h | h <;> contradiction
  · have hm : (userAttr cs (none : Option (List F → Bool))).maxMse = none := by
      rw [(userAttr_quality cs none).1, hq]; rfl
    generalize h.quantizeInternal env (userAttr cs none) freeze log = x at e
    cases e with
    | aborted _ _ hb _ => cases hb
    | tooLow log' e' m _ _ hm' _ => simp [Attr.targetMseFor, hm] at hm'
    | ok r log' => exact ⟨r, log', rfl⟩

/-- **C42** (any float arithmetic). Pixels of importance 0 and entries of count 0 leave a histogram empty. -/
theorem C42_zero_importance_empty (h : Histogram F) (px : List (RGBA × ℕ)) (h0 : ∀ x ∈ px, x.2 = 0) :
    px.foldl (fun h x => h.addColor x.1 x.2) h = h := by
  induction px with
  | nil => rfl
  | cons x xs ih =>
    rw [List.foldl_cons, Histogram.addColor, if_pos (h0 x (by simp))]
    exact ih fun y hy => h0 y (by simp [hy])

/-- The hypotheses of C01 and C42 are met: a two-colour histogram is quantized to a palette of one or two entries
with 2 colours allowed, for any float arithmetic. -/
example : ∃ (r : QuantizationResult F) (log' : List F),
    exampleHistogram.quantizeInternal Env.simple (userAttr [.maxColors 2] none) true [] = (.ok r, log') ∧
    1 ≤ r.palette.length ∧ r.palette.length ≤ 2 := by
  obtain ⟨r, log', e⟩ := C42_succeeds (F := F) Env.simple [.maxColors 2] exampleHistogram true [] rfl
    (Or.inl (by simp [exampleHistogram]))
  obtain ⟨h1, h2, -⟩ := C01_palette_size _ _ _ _ _ _ _ _ e
  exact ⟨r, log', e, h1, h2⟩

/-! ## C14 aborting -/

/-- **C14** (any float arithmetic). `Aborted` means that the callback exists and answered its last report with Break. -/
theorem C14_aborted_only_on_break (env : Env F) (cs : List Call) (cb : Option (List F → Bool)) (h : Histogram F)
    (freeze : Bool) (log log' : List F)
    (hq : h.quantizeInternal env (userAttr cs cb) freeze log = (.error (.err .aborted), log')) :
    ∃ f, cb = some f ∧ f log' = true ∧ log <+: log' ∧ log' ≠ log := by
  rcases user_outcome env cs cb h freeze log with ⟨-, -, e⟩ | ⟨-, e⟩
  · rw [hq] at e; cases e
  · rw [hq] at e
    cases e with
    | aborted _ hp hb hne =>
      cases cb with
      | none => cases hb
      | some f => exact ⟨f, rfl, hb, hp, hne⟩

/-- **C14** (any float arithmetic). If the callback answers some report with Break and every later report of the run
too, the run ends with `Aborted` and there is no result. -/
theorem C14_persistent_break (env : Env F) (cs : List Call) (f : List F → Bool) (h : Histogram F) (freeze : Bool)
    (log log' l : List F) (x : Res (QuantizationResult F))
    (hq : h.quantizeInternal env (userAttr cs (some f)) freeze log = (x, log'))
    (hl : log <+: l) (hne : l ≠ log) (hl' : l <+: log')
    (hbreak : ∀ k, l <+: k → k <+: log' → f k = true) : x = .error (.err .aborted) := by
  have hlast : f log' = true := hbreak log' hl' List.prefix_rfl
  rcases user_outcome env cs (some f) h freeze log with ⟨-, -, e⟩ | ⟨-, e⟩
  · rw [hq] at e
    cases e
    exact absurd (hl'.eq_of_length_le hl.length_le) hne
  · rw [hq] at e
    cases e with
    | aborted => rfl
    | tooLow _ _ _ _ hc => exact absurd (hlast.symm.trans hc) (by decide)
    | ok _ _ _ hc => exact absurd (hlast.symm.trans hc) (by decide)

/-- **C14** (any float arithmetic). Without a callback there is no `Aborted`. -/
theorem C14_no_callback (env : Env F) (cs : List Call) (h : Histogram F) (freeze : Bool) (log : List F) :
    (h.quantizeInternal env (userAttr cs none) freeze log).1 ≠ .error (.err .aborted) := by
  intro hx
  obtain ⟨f, hf, -⟩ := C14_aborted_only_on_break env cs none h freeze log
    (h.quantizeInternal env (userAttr cs none) freeze log).2 (Prod.ext hx rfl)
  cases hf

/-- A callback that stops at once: `Aborted` after the first report. -/
example : (exampleHistogram.quantizeInternal Env.simple (userAttr [] (some fun _ => true)) true ([] : List F)) =
    (.error (.err .aborted), [lit32 0]) := rfl

/-! ## C11 minimum quality -/

/-- **C11** (any float arithmetic). A result whose error is known meets the stored limit: the comparison "limit < error"
is false. With a limit set and a callback that never asked to stop, the error is known. -/
theorem C11_limit_checked (env : Env F) (cs : List Call) (cb : Option (List F → Bool)) (h : Histogram F)
    (freeze : Bool) (log log' : List F) (r : QuantizationResult F)
    (hq : h.quantizeInternal env (userAttr cs cb) freeze log = (.ok r, log')) {m t : ℕ} (hm : lastQuality cs = some (m, t))
    (hcb : ∀ f, cb = some f → ∀ l, log <+: l → l ≠ log → l <+: log' → f l = false) :
    ∃ e, r.paletteError = some e ∧
      lt (qualityToMse m *₆ (if (h.insertFixedColors env.ho).length ≤ 256 then lit64 (33/100) else lit64 1)) e = false := by
  rcases user_outcome env cs cb h freeze log with ⟨-, -, e⟩ | ⟨-, e⟩
  · rw [hq] at e; cases e
  · rw [hq] at e
    have hmse : (userAttr cs cb).maxMse = some (qualityToMse m) := by rw [(userAttr_quality cs cb).1, hm]; rfl
    cases e with
    | ok _ _ _ _ hr hqual he =>
      have hsome : r.paletteError.isSome = true := by
        rcases he with h | h | h
        · exact h
        · rw [hmse] at h; cases h
        · obtain ⟨l, h1, h2, h3, h4⟩ := h
          cases cb with
          | none => cases h4
          | some f =>
            have h5 : f l = true := h4
            rw [hcb f rfl l h1 h2 h3] at h5; cases h5
      obtain ⟨e, he⟩ := Option.isSome_iff_exists.1 hsome
      refine ⟨e, he, ?_⟩
      rw [he] at hqual
      simp only [qualityTooLow, Attr.targetMseFor, hmse, Option.map_some] at hqual
      exact hqual

/-- **C11** (exact). With `set_quality(m, t)` in force and a callback that never asked to stop, success means that
`quantization_quality()` is known and at least `m`. Partial: exact arithmetic has no NaN. With NaN the full statement fails for
histograms of fixed colours only, see `C11_does_not_hold`; with rounding see `C11_minimum_quality_rounded_partial`. -/
theorem C11_minimum_quality_partial (env : Env ℝ) (cs : List Call) (cb : Option (List ℝ → Bool)) (h : Histogram ℝ)
    (freeze : Bool) (log log' : List ℝ) (r : QuantizationResult ℝ)
    (hq : h.quantizeInternal env (userAttr cs cb) freeze log = (.ok r, log')) {m t : ℕ} (hm : lastQuality cs = some (m, t))
    (hcb : ∀ f, cb = some f → ∀ l, log <+: l → l ≠ log → l <+: log' → f l = false) :
    ∃ q, r.quantizationQuality = some q ∧ m ≤ q ∧ q ≤ 100 := by
  obtain ⟨e, he, hle⟩ := C11_limit_checked env cs cb h freeze log log' r hq hm hcb
  have hmr := lastQuality_range cs (m, t) (by rw [hm]; rfl)
  refine ⟨mseToQuality e, by rw [QuantizationResult.quantizationQuality, he]; rfl, ?_, (C12_quality_of_error e).1.1⟩
  refine (C12_quality_of_error e).2 ⟨by dsimp only at hmr; omega, ?_⟩
  right
  simp only [real_lt_false, real_mul64] at hle
  rw [qualityToMse_spec] at hle
  have h0 := qualityLimit_nonneg m
  have h1 : qualityLimit m * (if (h.insertFixedColors env.ho).length ≤ 256 then lit64 (33/100) else lit64 1 : ℝ) ≤ qualityLimit m := by
    split
    · rw [real_lit64]; push_cast; linarith
    · rw [real_lit64]; push_cast; linarith
  linarith

/-- **C11** (any float arithmetic). `QualityTooLow` is returned only if a limit is set and an error exceeds it. -/
theorem C11_too_low_only_with_limit (env : Env F) (cs : List Call) (cb : Option (List F → Bool)) (h : Histogram F)
    (freeze : Bool) (log log' : List F)
    (hq : h.quantizeInternal env (userAttr cs cb) freeze log = (.error (.err .qualityTooLow), log')) :
    ∃ m t e, lastQuality cs = some (m, t) ∧
      lt (qualityToMse m *₆ (if (h.insertFixedColors env.ho).length ≤ 256 then lit64 (33/100) else lit64 1) : F) e = true := by
  rcases user_outcome env cs cb h freeze log with ⟨-, -, e⟩ | ⟨-, e⟩
  · rw [hq] at e; cases e
  · rw [hq] at e
    cases e with
    | tooLow _ e m _ _ hm hlt =>
      cases hl : lastQuality cs with
      | none =>
        have hmse : (userAttr cs cb).maxMse = none := by rw [(userAttr_quality cs cb).1, hl]; rfl
        simp [Attr.targetMseFor, hmse] at hm
      | some q =>
        have hmse : (userAttr cs cb).maxMse = some (qualityToMse q.1) := by rw [(userAttr_quality cs cb).1, hl]; rfl
        simp only [Attr.targetMseFor, hmse, Option.map_some, Option.some.injEq] at hm
        exact ⟨q.1, q.2, e, rfl, by rw [← hm] at hlt; exact hlt⟩

/-- The hypotheses of C11 are met: two colours with `set_quality(70, 100)` succeed. -/
example : ∃ (r : QuantizationResult ℝ) (q : ℕ),
    exampleHistogram.quantizeInternal Env.simple (userAttr [.quality 70 100] none) true [] = (.ok r, []) ∧
    r.quantizationQuality = some q ∧ 70 ≤ q := by
  have hq := userAttr_quality (F := ℝ) [.quality 70 100] none
  have hl : lastQuality [.quality 70 100] = some (70, 100) := rfl
  rw [hl] at hq
  obtain ⟨hi, p, -, -, e⟩ := quantize_few (F := ℝ) Env.simple (userAttr [.quality 70 100] none) (userAttr_range _ _).2 rfl
    exampleHistogram true [] (Or.inl (by simp [exampleHistogram])) (by rw [userAttr_maxColors]; decide)
    (by rw [hq.2]; simp [qualityToMse]) (by
      intro m hm
      rw [hq.1] at hm
      simp only [Option.map_some, Option.some.injEq] at hm
      have := qualityLimit_nonneg 70
      simp only [real_lt_false, real_mul64, real_lit64, ← hm, qualityToMse_spec]
      push_cast; linarith)
  obtain ⟨q, h1, h2, -⟩ := C11_minimum_quality_partial _ _ _ _ _ _ _ _ e hl (by intro f hf; cases hf)
  exact ⟨_, q, e, h1, h2⟩

/-- **C11** (any float arithmetic): the condition on the callback is needed. At speed 10 a callback that asks to stop
once, at the only refinement step, makes quantization succeed with no error known although a minimum quality is set. -/
theorem C11_single_break_skips_check (env : Env F) (m t : ℕ) (hmt : m ≤ t ∧ t ≤ 100) (h : Histogram F) (freeze : Bool)
    (hmany : 256 < (h.insertFixedColors env.ho).length) :
    ∃ r log', h.quantizeInternal env (userAttr [.speed 10, .quality m t] (some fun l => l.length == 4)) freeze [] =
      (.ok r, log') ∧ r.quantizationQuality = none := by
  set attr := userAttr (F := F) [.speed 10, .quality m t] (some fun l => l.length == 4) with hattr
  have hsp : attr.speed = 10 := by
    have := C13_settings_registers_any_float (F := F) [.speed 10, .quality m t]
    simp only [Attr.observeInt, Attr.getSpeed, Prod.mk.injEq] at this
    rw [hattr]
    show ((Attr.new : Attr F).after _).speed = 10
    rw [this.2.1]
    simp [Settings.after, Settings.call, hmt]
  have hok := userAttr_speedOK (F := F) [.speed 10, .quality m t] (some fun l => l.length == 4)
  rw [← hattr] at hok
  have htr : attr.feedbackLoopTrials = 0 := by rw [hok.trials, hsp]
  have hit : attr.kmeansIterations = 0 := by rw [hok.iterations, hsp]
  have hmx : attr.maxMse.isSome = true := by
    rw [(userAttr_quality _ _).1]; simp [lastQuality, hmt]
  have hcb : attr.progressCallback = some fun l => l.length == 4 := rfl
  have hrange := userAttr_range (F := F) [.speed 10, .quality m t] (some fun l => l.length == 4)
  rw [← hattr] at hrange
  have hne : h.hashmap ≠ [] ∨ h.fixedColors ≠ [] := by
    by_contra hc
    push Not at hc
    have h0 : h.insertFixedColors env.ho = [] := by
      have := (env.ho.set_perm h.fixedColors)
      rw [hc.2] at this
      simp [Histogram.insertFixedColors, hc.1, hc.2, this.eq_nil]
    rw [h0] at hmany; simp at hmany
  obtain ⟨hi, e1, ht, hl⟩ := h.finalize_ok env.ho (h.gamma.getD (lit64 (45455/100000)))
  have hpos : hi.items ≠ [] := by
    apply List.ne_nil_of_length_pos; omega
  have hred : ∀ n, Attr.reduceBySize 0 n = 0 := by
    intro n; simp [Attr.reduceBySize, Attr.reduce]
  have step : ∀ (l : List F) (v : F), l.length ≠ 3 → progress attr.progressCallback v l = (.ok false, l ++ [v]) := by
    intro l v hlen
    rw [hcb]
    show (Except.ok ((l ++ [v]).length == 4), l ++ [v]) = _
    have : ((l ++ [v]).length == 4) = false := by simpa using hlen
    rw [this]
  have stop : ∀ (l : List F) (v : F), l.length = 3 → progress attr.progressCallback v l = (.ok true, l ++ [v]) := by
    intro l v hlen
    rw [hcb]
    show (Except.ok ((l ++ [v]).length == 4), l ++ [v]) = _
    have : ((l ++ [v]).length == 4) = true := by simpa using hlen
    rw [this]
  unfold Histogram.quantizeInternal
  rw [if_neg (by simp only [Bool.and_eq_true, List.isEmpty_iff]; tauto)]
  rw [PM.bind_ok (step _ _ (by simp))]
  simp only [Bool.false_eq_true, if_false]
  rw [PM.bind_ok (step _ _ (by simp))]
  simp only [Bool.false_eq_true, if_false]
  rw [PM.bind_ok (a := hi) (by rw [PM.lift, e1])]
  unfold QuantizationResult.new
  rw [PM.bind_ok (step _ _ (by simp))]
  simp only [Bool.false_eq_true, if_false, List.nil_append, List.cons_append]
  set log3 := [lit32 0, lit32 (attr.progressStage1 : ℚ) *₃ lit32 (89/100), (lit32 (attr.progressStage1 : ℚ) : F)] with hlog3
  have hh : HistOK hi hi := ⟨ht, hpos, List.Perm.refl _, rfl, rfl⟩
  have hinit : FindOK attr.maxColors hi (FindState.init attr hi) :=
    ⟨hh, hrange.1, le_rfl, by intro p hp; simp [FindState.init] at hp⟩
  obtain ⟨p, st, log1, e2, hp1, hst1, hQ⟩ := findLoop_inv env attr (attr.targetMseFor hi.items.length).2.1
    (attr.feedbackTrials hi.items.length) hi hrange.2
    (fun st l => l = log3 ∧ st.paletteError = none ∧ st.trialsLeft ≤ 0) (fun _ st l => l = log3 ∧ st.paletteError = none)
    (by intro st l p hist _ h _ _ _; exact ⟨h.1, h.2.1⟩)
    (by intro st l np hist err _ h hpos _ _; omega)
    (FindState.init attr hi) log3 hinit ⟨rfl, rfl, by
      simp [FindState.init, Attr.feedbackTrials, htr, hred]⟩
  obtain ⟨rfl, herr⟩ := hQ
  have hfb : findBestPalette env attr (attr.targetMseFor hi.items.length).2.1 (attr.targetMseFor hi.items.length).2.2
      (attr.targetMseFor hi.items.length).1 hi log3 = (.ok (p, none), log3 ++ [refineDone attr 1 0]) := by
    unfold findBestPalette
    rw [if_neg (by
      simp only [Bool.and_eq_true, decide_eq_true_eq, not_and]
      intro hle; omega)]
    rw [PM.bind_ok e2]
    dsimp only
    unfold refinePalette
    simp only [Attr.kmeansIterationsFor, hit, hred, herr, Option.isSome_none, Bool.false_eq_true, not_false_eq_true, hmx,
      and_self, if_true]
    rw [refineLoop, dif_pos (by decide)]
    rw [PM.bind_ok (stop _ _ rfl)]
    rfl
  rw [PM.bind_ok hfb]
  dsimp only
  rw [PM.bind_ok (step _ _ (by simp [hlog3]))]
  simp only [Bool.false_eq_true, if_false, qualityTooLow]
  exact ⟨_, _, rfl, rfl⟩

/-! ## C31 bounded work -/

/-- `find_best_palette`'s loop with a budget: every round (one median cut and at most one k-means pass) uses one unit,
and running out is a panic. -/
def findLoopBudget (env : Env F) (attr : Attr F) (targetMse : F) (totalTrials : ℕ) : ℕ → FindState F → PM F (PalF F × FindState F)
  | 0, _ => PM.throw .panic
  | n + 1, st => do
    let (newPal, hist) ← PM.lift (mediancut env.so st.hist st.maxColors (targetMse *₆ st.overshoot)
      (maxMsePerColor targetMse st.paletteError))
    let newPal ← PM.lift (newPal.withFixedColors attr.maxColors hist.fixedColors)
    if st.trialsLeft ≤ 0 then
      pure (newPal, { st with hist := hist })
    else
      let firstRun := st.best.isNone && lt (lit64 0) targetMse
      let (hist, newPal, totalError) ← PM.lift (env.kmeans st.clock hist newPal (!firstRun))
      let st' := trialUpdate st targetMse totalError newPal
      let abort ← progress attr.progressCallback (overallDone attr totalTrials st.trialsLeft)
      if abort || decide (st'.trialsLeft ≤ 0) then
        match st'.best with
        | some p => pure (p, { st' with hist := hist, clock := st.clock + 1 })
        | none => PM.throw (.err .valueOutOfRange)
      else
        findLoopBudget env attr targetMse totalTrials n { st' with hist := hist, clock := st.clock + 1 }

/-- the refinement loop with a budget of k-means passes -/
def refineLoopBudget (env : Env F) (attr : Attr F) (maxMse : Option F) (iterations : ℕ) (limit : F) :
    ℕ → ℕ → ℕ → HistogramInternal F → PalF F → Option F → PM F (PalF F × Option F)
  | budget, clock, i, hist, p, err => do
    if i < iterations then
      let abort ← progress attr.progressCallback (refineDone attr iterations i)
      if abort then pure (p, err)
      else
        match budget with
        | 0 => PM.throw .panic
        | budget + 1 =>
          let (hist, p, palErr) ← PM.lift (env.kmeans clock hist p false)
          let stop := match err with
            | some prev => lt (fabs (prev -₆ palErr)) limit
            | none => false
          if stop then pure (p, some palErr)
          else
            refineLoopBudget env attr maxMse iterations limit budget (clock + 1)
              (i + if lt (maxMse.getD (lit64 (10 ^ 20)) *₆ lit64 (15/10)) palErr then 2 else 1) hist p (some palErr)
    else pure (p, err)

/-- **C31** (any float arithmetic). The search needs at most `feedback trials + 1` rounds, whatever the arithmetic does:
the loop with that budget is the loop. -/
theorem C31_search_bounded (env : Env F) (attr : Attr F) (hist : HistogramInternal F) (targetMse : F) (totalTrials : ℕ) :
    findLoop env attr targetMse totalTrials (FindState.init attr hist) =
      findLoopBudget env attr targetMse totalTrials (attr.feedbackTrials hist.items.length + 1) (FindState.init attr hist) := by
  have key : ∀ (n : ℕ) (st : FindState F), st.trialsLeft.toNat < n →
      findLoop env attr targetMse totalTrials st = findLoopBudget env attr targetMse totalTrials n st := by
    intro n
    induction n with
    | zero => intro st h; omega
    | succ n ih =>
      intro st hn
      rw [findLoop, findLoopBudget]
      refine congrArg (PM.bind _) (funext fun x => ?_)
      refine congrArg (PM.bind _) (funext fun y => ?_)
      split
      next hpos => rfl
      next hpos =>
        refine congrArg (PM.bind _) (funext fun z => ?_)
        refine congrArg (PM.bind _) (funext fun w => ?_)
        split
        · rfl
        next hd =>
          refine ih _ ?_
          have := trialUpdate_lt st targetMse z.2.2 z.2.1
          show (trialUpdate st targetMse z.2.2 z.2.1).trialsLeft.toNat < n
          omega
  refine key _ _ ?_
  simp [FindState.init]

/-- **C31** (any float arithmetic). Refinement needs at most its number of iterations in k-means passes. -/
theorem C31_refinement_bounded (env : Env F) (attr : Attr F) (maxMse : Option F) (iterations : ℕ) (limit : F)
    (clock : ℕ) (hist : HistogramInternal F) (p : PalF F) (err : Option F) :
    refineLoop env attr maxMse iterations limit clock 0 hist p err =
      refineLoopBudget env attr maxMse iterations limit iterations clock 0 hist p err := by
  have key : ∀ (n clock i : ℕ) (hist : HistogramInternal F) (p : PalF F) (err : Option F), iterations - i ≤ n →
      refineLoop env attr maxMse iterations limit clock i hist p err =
        refineLoopBudget env attr maxMse iterations limit n clock i hist p err := by
    intro n
    induction n with
    | zero =>
      intro clock i hist p err h
      rw [refineLoop, refineLoopBudget, dif_neg (by omega), if_neg (by omega)]
    | succ n ih =>
      intro clock i hist p err h
      rw [refineLoop, refineLoopBudget]
      by_cases hi : i < iterations
      · rw [dif_pos hi, if_pos hi]
        refine congrArg (PM.bind _) (funext fun a => ?_)
        split
        · rfl
        · refine congrArg (PM.bind _) (funext fun z => ?_)
          obtain ⟨h', p', e'⟩ := z
          dsimp only
          refine congrArg (fun k => ite _ (pure (p', some e')) k) ?_
          exact ih _ _ _ _ _ (by split <;> omega)
      · rw [dif_neg hi, if_neg hi]
  exact key _ _ _ _ _ _ (by omega)

/-- **C31** (any float arithmetic). For reachable settings the budgets are: at most 48 rounds of search and at most
31 refinement passes; and the search never fails with `ValueOutOfRange`. -/
theorem C31_budgets (env : Env F) (cs : List Call) (cb : Option (List F → Bool)) (h : Histogram F) (freeze : Bool)
    (log : List F) (n : ℕ) (known : Bool) :
    (userAttr cs cb).feedbackTrials n + 1 ≤ 48 ∧ ((userAttr cs cb).kmeansIterationsFor n known).1 ≤ 31 ∧
    (h.quantizeInternal env (userAttr cs cb) freeze log).1 ≠ .error (.err .valueOutOfRange) := by
  have hs := userAttr_speedOK (F := F) cs cb
  obtain ⟨-, h2, -, h4⟩ := C39_budget_antitone (userAttr (F := F) cs cb) (le_refl n) known
  have h1 := hs.range
  have ht := hs.trials
  have hi := hs.iterations
  generalize (userAttr (F := F) cs cb).speed = s at h1 ht hi
  refine ⟨by omega, ?_, ?_⟩
  · refine h4.trans ?_
    rw [hi]
    obtain ⟨ha, hb⟩ := h1
    interval_cases s <;> decide
  · rcases user_outcome env cs cb h freeze log with ⟨-, -, e⟩ | ⟨-, e⟩
    · rw [e]; simp
    · generalize h.quantizeInternal env (userAttr cs cb) freeze log = x at e
      cases e <;> simp

end Verif
