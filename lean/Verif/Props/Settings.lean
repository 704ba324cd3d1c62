import Verif.Lemmas.Quality

/-! # Properties C12, C13, C39: settings -/

namespace Verif
open Flt Spec

/-! ## C12 quality scale (exact arithmetic) -/

/-- **C12** (exact). `quality()` returns exactly the pair given to `set_quality`, for every valid pair. -/
theorem C12_quality_roundtrip (a : Attr ℝ) {m t : ℕ} (hmt : m ≤ t) (ht : t ≤ 100) :
    ∃ a', a.setQuality m t = .ok a' ∧ a'.quality = (m, t) := by
  refine ⟨_, if_neg (by omega), ?_⟩
  simp only [Attr.quality]
  rw [mseToQuality_limit ht, mseToQuality_limit (le_trans hmt ht)]

/-- **C12** (exact). The error limit that `set_quality` stores is the specified curve; higher quality never
admits a larger error, and different qualities have limits that differ by more than ten times the
tolerance used when reading a quality back. -/
theorem C12_limit_decreasing :
    (∀ q, (qualityToMse q : ℝ) = qualityLimit q) ∧
    ∀ p q, p < q → q ≤ 100 → (qualityToMse q : ℝ) + 10 * (1 / 1000000) ≤ qualityToMse p := by
  refine ⟨qualityToMse_spec, fun p q h hq => ?_⟩
  rw [qualityToMse_spec, qualityToMse_spec]
  have := qualityLimit_lt h hq
  norm_num at this ⊢; linarith

/-- **C12** (exact). The quality computed from an error is the largest quality whose limit admits the error
(0 if there is none). -/
theorem C12_quality_of_error (mse : ℝ) :
    IsGreatest {q : ℕ | q ≤ 100 ∧ (q = 0 ∨ mse ≤ qualityLimit q + 1 / 1000000)} (mseToQuality mse) :=
  mseToQualityFrom_spec mse 100

/-- **C12** (exact). A larger error never reads as a higher quality. -/
theorem C12_quality_antitone {x y : ℝ} (h : x ≤ y) : mseToQuality y ≤ mseToQuality x := by
  refine (C12_quality_of_error x).2 ?_
  obtain ⟨h1, h2⟩ := (C12_quality_of_error y).1
  exact ⟨h1, h2.imp id (le_trans h)⟩

example : ∃ a', (Attr.new : Attr ℝ).setQuality 65 80 = .ok a' ∧ a'.quality = (65, 80) :=
  C12_quality_roundtrip _ (by norm_num) (by norm_num)

/-! ## C13 settings are independent validated registers -/

/-- a setter call of the model -/
def Attr.call {F : Type} [Flt F] (a : Attr F) : Call → Res (Attr F)
  | .maxColors n => a.setMaxColors n
  | .quality m t => a.setQuality m t
  | .speed v => a.setSpeed v
  | .minPosterization v => a.setMinPosterization v
  | .lastIndexTransparent b => .ok (a.setLastIndexTransparent b)

/-- a history of setter calls; a setter that returns an error has not touched the handle
(all the checks precede all the assignments, `attr.rs:89,105,124,155`) -/
def Attr.after {F : Type} [Flt F] (a : Attr F) (cs : List Call) : Attr F :=
  cs.foldl (fun a c => match a.call c with | .ok a' => a' | .error _ => a) a

/-- what the getters return -/
def Attr.observe {F : Type} [Flt F] (a : Attr F) : Settings :=
  ⟨a.getMaxColors, a.quality, a.getSpeed, a.getMinPosterization⟩

/-- the integer-valued getters -/
def Attr.observeInt {F : Type} [Flt F] (a : Attr F) : ℕ × ℕ × ℕ :=
  (a.getMaxColors, a.getSpeed, a.getMinPosterization)

/-- **C13** helper: `set_speed` never panics in range and stores the speed only among the getters -/
theorem setSpeed_ok {F : Type} [Flt F] (a : Attr F) {v : ℤ} (h1 : 1 ≤ v) (h10 : v ≤ 10) :
    ∃ a', a.setSpeed v = .ok a' ∧ a'.speed = v.toNat ∧ a'.maxColors = a.maxColors ∧
      a'.targetMse = a.targetMse ∧ a'.maxMse = a.maxMse ∧
      a'.minPosterizationOutput = a.minPosterizationOutput ∧
      a'.progressStage1 + a'.progressStage2 + a'.progressStage3 = 100 ∧
      a'.progressStage1 ≤ 58 ∧ 17 ≤ a'.progressStage2 + a'.progressStage3 ∧ a'.progressStage3 ≤ 25 ∧
      a'.kmeansIterations ≤ 31 ∧ a'.feedbackLoopTrials ≤ 47 ∧
      0 < a'.maxHistogramEntries ∧ a'.maxHistogramEntries < 2 ^ 32 ∧
      a'.minPosterizationInput ≤ 1 := by
  unfold Attr.setSpeed
  rw [if_neg (by omega)]
  interval_cases v <;> exact ⟨_, rfl, rfl, rfl, rfl, rfl, rfl, by dsimp only; decide⟩

/-- one call, given that qualities can be read back -/
theorem call_refines {F : Type} [Flt F] (hrt : ∀ q, q ≤ 100 → mseToQuality (qualityToMse q : F) = q) (a : Attr F) (c : Call) :
    match a.call c with
    | .ok a' => a.observe.call c = some a'.observe
    | .error e => a.observe.call c = none ∧ e = .err .valueOutOfRange := by
  cases c with
  | maxColors n =>
    simp only [Attr.call, Attr.setMaxColors, Settings.call]
    by_cases h : 2 ≤ n ∧ n ≤ 256
    · rw [if_pos h, if_pos h]; rfl
    · rw [if_neg h, if_neg h]; exact ⟨rfl, rfl⟩
  | quality m t =>
    simp only [Attr.call, Settings.call]
    by_cases h : m ≤ t ∧ t ≤ 100
    · have h1 : a.setQuality m t =
          .ok { a with targetMse := qualityToMse t, maxMse := some (qualityToMse m) } := if_neg (by omega)
      rw [if_pos h, h1]
      simp only [Attr.observe, Attr.quality, hrt m (by omega), hrt t h.2]
      rfl
    · simp only [Attr.setQuality]
      rw [if_neg h, if_pos (by omega)]; exact ⟨rfl, rfl⟩
  | speed v =>
    simp only [Attr.call, Settings.call]
    by_cases h : 1 ≤ v ∧ v ≤ 10
    · obtain ⟨a', e, h1, h2, h3, h4, h5, -⟩ := setSpeed_ok a h.1 h.2
      rw [if_pos h, e]
      simp only [Attr.observe, Attr.quality, Attr.getMaxColors, Attr.getSpeed, Attr.getMinPosterization,
        h1, h2, h3, h4, h5]
    · rw [if_neg h]
      simp only [Attr.setSpeed]; rw [if_pos h]; exact ⟨trivial, rfl⟩
  | minPosterization v =>
    simp only [Attr.call, Attr.setMinPosterization, Settings.call]
    by_cases h : v ≤ 4
    · rw [if_pos h, if_pos h]; rfl
    · rw [if_neg h, if_neg h]; exact ⟨rfl, rfl⟩
  | lastIndexTransparent b => rfl

theorem Attr.new_observe_of {F : Type} [Flt F] (hrt : ∀ q, q ≤ 100 → mseToQuality (qualityToMse q : F) = q) :
    (Attr.new : Attr F).observe = Settings.default := by
  obtain ⟨a', e, h1, h2, h3, h4, h5, -⟩ := setSpeed_ok (Attr.blank : Attr F) (v := 4) (by norm_num) (by norm_num)
  have hq : mseToQuality (lit64 0 : F) = 100 := hrt 100 le_rfl
  simp only [Attr.new, e, Attr.observe, Attr.quality, Attr.getMaxColors, Attr.getSpeed,
    Attr.getMinPosterization, h1, h2, h3, h4, h5]
  simp [Attr.blank, Settings.default, hq]

/-- Starting from a new handle, after any history of setter
calls the getters return what the register-file specification says, and the next call is accepted exactly
if it is in the documented range (`ValueOutOfRange` otherwise). -/
theorem settings_registers_of {F : Type} [Flt F] (hrt : ∀ q, q ≤ 100 → mseToQuality (qualityToMse q : F) = q) (cs : List Call) :
    ((Attr.new : Attr F).after cs).observe = Settings.default.after cs ∧
    ∀ c, (((Attr.new : Attr F).after cs).call c = .error (.err .valueOutOfRange) ∧
            (Settings.default.after cs).call c = none) ∨
         ∃ a', ((Attr.new : Attr F).after cs).call c = .ok a' ∧
            (Settings.default.after cs).call c = some a'.observe := by
  have main : ((Attr.new : Attr F).after cs).observe = Settings.default.after cs := by
    rw [← Attr.new_observe_of hrt]
    generalize (Attr.new : Attr F) = a
    induction cs generalizing a with
    | nil => rfl
    | cons c cs ih =>
      simp only [Attr.after, Settings.after, List.foldl_cons] at ih ⊢
      have h := call_refines hrt a c
      cases hc : a.call c with
      | ok a' => rw [hc] at h; simp only at h; rw [h]; exact ih a'
      | error e => rw [hc] at h; simp only at h; rw [h.1]; exact ih a
  refine ⟨main, fun c => ?_⟩
  have h := call_refines hrt ((Attr.new : Attr F).after cs) c
  cases hc : ((Attr.new : Attr F).after cs).call c with
  | ok a' => rw [hc] at h; right; exact ⟨a', rfl, by rw [← main]; exact h⟩
  | error e => rw [hc] at h; left; exact ⟨by rw [h.2], by rw [← main]; exact h.1⟩

theorem C13_call_refines (a : Attr ℝ) (c : Call) :
    match a.call c with
    | .ok a' => a.observe.call c = some a'.observe
    | .error e => a.observe.call c = none ∧ e = .err .valueOutOfRange := by
  have h := call_refines (fun _ => mseToQuality_limit) a c
  cases hc : a.call c with
  | ok a' => rw [hc] at h; exact h
  | error e => rw [hc] at h; exact h

theorem Attr.new_observe : (Attr.new : Attr ℝ).observe = Settings.default :=
  Attr.new_observe_of fun _ => mseToQuality_limit

/-- **C13** (exact, because `quality()` computes). Starting from a new handle, after any history of setter
calls the getters return what the register-file specification says, and the next call is accepted exactly
if it is in the documented range (`ValueOutOfRange` otherwise). -/
theorem C13_settings_registers (cs : List Call) :
    ((Attr.new : Attr ℝ).after cs).observe = Settings.default.after cs ∧
    ∀ c, (((Attr.new : Attr ℝ).after cs).call c = .error (.err .valueOutOfRange) ∧
            (Settings.default.after cs).call c = none) ∨
         ∃ a', ((Attr.new : Attr ℝ).after cs).call c = .ok a' ∧
            (Settings.default.after cs).call c = some a'.observe :=
  settings_registers_of (fun _ => mseToQuality_limit) cs

/-- **C13** (any-float): the integer registers for every float arithmetic. -/
theorem C13_settings_registers_any_float {F : Type} [Flt F] (cs : List Call) :
    ((Attr.new : Attr F).after cs).observeInt =
      ((Settings.default.after cs).maxColors, (Settings.default.after cs).speed,
       (Settings.default.after cs).minPosterization) := by
  have h0 : (Attr.new : Attr F).observeInt = (Settings.default.maxColors, Settings.default.speed,
      Settings.default.minPosterization) := by
    obtain ⟨a', e, h1, h2, -, -, h5, -⟩ := setSpeed_ok (Attr.blank : Attr F) (v := 4) (by norm_num) (by norm_num)
    have hn : (Attr.new : Attr F) = a' := by unfold Attr.new; rw [e]
    rw [hn]
    simp only [Attr.observeInt, Attr.getMaxColors, Attr.getSpeed, Attr.getMinPosterization, h1, h2, h5]
    rfl
  generalize Settings.default = s at h0 ⊢
  generalize (Attr.new : Attr F) = a at h0 ⊢
  induction cs generalizing a s with
  | nil => exact h0
  | cons c cs ih =>
    simp only [Attr.after, Settings.after, List.foldl_cons] at ih ⊢
    apply ih
    simp only [Attr.observeInt, Attr.getMaxColors, Attr.getSpeed, Attr.getMinPosterization, Prod.mk.injEq] at h0 ⊢
    obtain ⟨ha, hb, hd⟩ := h0
    cases c with
    | maxColors n =>
      simp only [Attr.call, Attr.setMaxColors, Settings.call]
      by_cases h : 2 ≤ n ∧ n ≤ 256
      · rw [if_pos h, if_pos h]; exact ⟨rfl, hb, hd⟩
      · rw [if_neg h, if_neg h]; exact ⟨ha, hb, hd⟩
    | quality m t =>
      simp only [Attr.call, Attr.setQuality, Settings.call]
      by_cases h : m ≤ t ∧ t ≤ 100
      · rw [if_pos h, if_neg (by omega)]; simp [*]
      · rw [if_neg h, if_pos (by omega)]; simp [*]
    | speed v =>
      simp only [Attr.call, Settings.call]
      by_cases h : 1 ≤ v ∧ v ≤ 10
      · obtain ⟨a', e, h1, h2, -, -, h5, -⟩ := setSpeed_ok a h.1 h.2
        rw [if_pos h, e]; simp [*]
      · rw [if_neg h]; simp only [Attr.setSpeed]; rw [if_pos h]; simp [*]
    | minPosterization v =>
      simp only [Attr.call, Attr.setMinPosterization, Settings.call]
      by_cases h : v ≤ 4
      · rw [if_pos h, if_pos h]; exact ⟨ha, hb, rfl⟩
      · rw [if_neg h, if_neg h]; exact ⟨ha, hb, hd⟩
    | lastIndexTransparent b => simp [Attr.call, Settings.call, Attr.setLastIndexTransparent, *]

example : (Settings.default.after [.maxColors 16, .speed 11, .quality 70 60, .speed 3, .quality 10 90]) =
    ⟨16, (10, 90), 3, 0⟩ := by decide

/-! ## C39 speed budgets -/

/-- **C39** (any-float). Every accepted speed gives stages that add up to 100 and counts that fit their types. -/
theorem C39_speed_budgets {F : Type} [Flt F] (a : Attr F) (v : ℤ) :
    (1 ≤ v ∧ v ≤ 10 ↔ ∃ a', a.setSpeed v = .ok a') ∧
    ∀ a', a.setSpeed v = .ok a' →
      a'.progressStage1 + a'.progressStage2 + a'.progressStage3 = 100 ∧
      a'.progressStage1 < 256 ∧ a'.progressStage2 < 256 ∧ a'.progressStage3 < 256 ∧
      3 * a'.kmeansIterations + 3 < 2 ^ 16 ∧ 3 * a'.feedbackLoopTrials + 3 < 2 ^ 16 ∧
      0 < a'.maxHistogramEntries ∧ a'.maxHistogramEntries < 2 ^ 32 := by
  constructor
  · constructor
    · intro h; obtain ⟨a', e, -⟩ := setSpeed_ok a h.1 h.2; exact ⟨a', e⟩
    · rintro ⟨a', e⟩
      by_contra h
      simp only [Attr.setSpeed] at e; rw [if_pos h] at e; cases e
  · intro a' e
    by_cases h : 1 ≤ v ∧ v ≤ 10
    · obtain ⟨a'', e', h1, h2, h3, h4, h5, h6, h7, h8, h9, h10, h11, h12, h13, -⟩ := setSpeed_ok a h.1 h.2
      rw [e] at e'; cases e'
      refine ⟨h6, ?_, ?_, ?_, ?_, ?_, h12, h13⟩ <;> omega
    · simp only [Attr.setSpeed] at e; rw [if_pos h] at e; cases e

theorem reduce_le (x : ℕ) : Attr.reduce x ≤ x := by unfold Attr.reduce; omega
theorem reduce_mono {x y : ℕ} (h : x ≤ y) : Attr.reduce x ≤ Attr.reduce y := by unfold Attr.reduce; omega

theorem reduceBySize_antitone (x : ℕ) {m n : ℕ} (h : m ≤ n) : Attr.reduceBySize x n ≤ Attr.reduceBySize x m := by
  unfold Attr.reduceBySize
  dsimp only
  have step : ∀ (u w k : ℕ), u ≤ w → (if n > k then Attr.reduce u else u) ≤ if m > k then Attr.reduce w else w := by
    intro u w k huw
    by_cases h1 : m > k
    · rw [if_pos h1, if_pos (by omega)]; exact reduce_mono huw
    · rw [if_neg h1]
      split
      · exact le_trans (reduce_le u) huw
      · exact huw
  exact step _ _ _ (step _ _ _ (step _ _ _ (step _ _ _ le_rfl)))

/-- **C39** (any-float). A larger histogram never gets more search trials or refinement iterations, and never
more than the configured number (plus the one forced iteration). -/
theorem C39_budget_antitone {F : Type} [Flt F] (a : Attr F) {m n : ℕ} (h : m ≤ n) (known : Bool) :
    a.feedbackTrials n ≤ a.feedbackTrials m ∧ a.feedbackTrials n ≤ a.feedbackLoopTrials ∧
    (a.kmeansIterationsFor n known).1 ≤ (a.kmeansIterationsFor m known).1 ∧
    (a.kmeansIterationsFor n known).1 ≤ max a.kmeansIterations 1 := by
  have h0 : ∀ x k, Attr.reduceBySize x k ≤ x := fun x k =>
    le_trans (reduceBySize_antitone x (Nat.zero_le k)) (by simp [Attr.reduceBySize])
  refine ⟨reduceBySize_antitone _ h, h0 _ _, ?_, ?_⟩
  · simp only [Attr.kmeansIterationsFor]
    have := reduceBySize_antitone a.kmeansIterations h
    split_ifs with c1 c2 c2
    · exact le_rfl
    · have : Attr.reduceBySize a.kmeansIterations m ≠ 0 := fun hm => c2 ⟨hm, c1.2⟩
      omega
    · omega
    · exact this
  · simp only [Attr.kmeansIterationsFor]
    have := h0 a.kmeansIterations n
    split_ifs with c1 <;> omega

end Verif
