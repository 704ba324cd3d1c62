import Verif.Lemmas.Reach
import Verif.Lemmas.Env

/-! # Property C15: progress values of quantization (exact arithmetic) -/

set_option linter.unusedSectionVars false

namespace Verif
open Flt Spec

/-- reports so far are non-decreasing percentages up to `b` -/
structure Rising (l : List ℝ) (b : ℝ) : Prop where
  sorted : l.Pairwise (· ≤ ·)
  range : ∀ v ∈ l, 0 ≤ v ∧ v ≤ b

theorem Rising.mono {l : List ℝ} {b c : ℝ} (h : Rising l b) (hbc : b ≤ c) : Rising l c :=
  ⟨h.sorted, fun v hv => ⟨(h.range v hv).1, (h.range v hv).2.trans hbc⟩⟩

theorem Rising.push {l : List ℝ} {b v : ℝ} (h : Rising l b) (hbv : b ≤ v) (hv : 0 ≤ v) (cb : Option (List ℝ → Bool)) :
    Rising (reported cb l v) v := by
  unfold reported
  split
  · exact h.mono hbv
  · refine ⟨?_, ?_⟩
    · rw [List.pairwise_append]
      refine ⟨h.sorted, List.pairwise_singleton _ _, ?_⟩
      intro x hx y hy
      simp only [List.mem_singleton] at hy
      subst hy
      exact (h.range x hx).2.trans hbv
    · intro x hx
      simp only [List.mem_append, List.mem_singleton] at hx
      rcases hx with hx | rfl
      · exact ⟨(h.range x hx).1, (h.range x hx).2.trans hbv⟩
      · exact ⟨hv, le_rfl⟩

theorem overallDone_real (attr : Attr ℝ) (total : ℕ) (t : ℤ) :
    overallDone attr total t = (1 - (((max t 0).toNat : ℝ) / (total + 1)) ^ 2) * attr.progressStage2 + attr.progressStage1 := by
  simp only [overallDone, real_lit32, real_div32, real_fma32, real_neg]
  push_cast
  ring

theorem overallDone_mono (attr : Attr ℝ) (total : ℕ) {s t : ℤ} (h : s ≤ t) :
    overallDone attr total t ≤ overallDone attr total s := by
  rw [overallDone_real, overallDone_real]
  have h1 : (((max s 0).toNat : ℕ) : ℝ) ≤ ((max t 0).toNat : ℕ) := by
    exact_mod_cast Int.toNat_le_toNat (max_le_max_right 0 h)
  have h2 : (0 : ℝ) ≤ ((max s 0).toNat : ℕ) := by positivity
  have h3 : (((max s 0).toNat : ℝ) / (total + 1)) ^ 2 ≤ (((max t 0).toNat : ℝ) / (total + 1)) ^ 2 := by
    apply pow_le_pow_left₀ (by positivity)
    exact div_le_div_of_nonneg_right h1 (by positivity)
  have h4 : (0 : ℝ) ≤ attr.progressStage2 := by positivity
  nlinarith

theorem overallDone_range (attr : Attr ℝ) (total : ℕ) {t : ℤ} (h : t ≤ total) :
    (attr.progressStage1 : ℝ) ≤ overallDone attr total t ∧
    overallDone attr total t ≤ attr.progressStage1 + attr.progressStage2 := by
  rw [overallDone_real]
  have h2 : (0 : ℝ) ≤ ((max t 0).toNat : ℕ) := by positivity
  have h3 : (((max t 0).toNat : ℕ) : ℝ) ≤ total + 1 := by
    have : (max t 0).toNat ≤ total + 1 := by omega
    exact_mod_cast this
  have h4 : (0 : ℝ) ≤ attr.progressStage2 := by positivity
  have h5 : (((max t 0).toNat : ℝ) / (total + 1)) ≤ 1 := by
    rw [div_le_one (by positivity)]; exact h3
  have h6 : (0 : ℝ) ≤ (((max t 0).toNat : ℝ) / (total + 1)) := by positivity
  have h7 : (((max t 0).toNat : ℝ) / (total + 1)) ^ 2 ≤ 1 := pow_le_one₀ h6 h5
  constructor <;> nlinarith [sq_nonneg (((max t 0).toNat : ℝ) / (total + 1))]

theorem refineDone_real (attr : Attr ℝ) (n i : ℕ) :
    refineDone attr n i = (i / n : ℝ) * attr.progressStage3 * (89 / 100) + (attr.progressStage1 + attr.progressStage2) := by
  simp only [refineDone, real_lit32, real_div32, real_fma32, real_mul32, real_add32]
  push_cast
  ring

theorem refineDone_mono (attr : Attr ℝ) (n : ℕ) {i j : ℕ} (h : i ≤ j) : refineDone attr n i ≤ refineDone attr n j := by
  rw [refineDone_real, refineDone_real]
  have h1 : (i : ℝ) ≤ j := by exact_mod_cast h
  have h3 : (0 : ℝ) ≤ attr.progressStage3 := by positivity
  have h4 : (i : ℝ) / n ≤ j / n := div_le_div_of_nonneg_right h1 (by positivity)
  have := mul_le_mul_of_nonneg_right h4 h3
  linarith

theorem refineDone_range (attr : Attr ℝ) {n i : ℕ} (h : i ≤ n) :
    ((attr.progressStage1 : ℝ) + attr.progressStage2) ≤ refineDone attr n i ∧
    refineDone attr n i ≤ attr.progressStage1 + attr.progressStage2 + 89 / 100 * attr.progressStage3 := by
  rw [refineDone_real]
  have h3 : (0 : ℝ) ≤ attr.progressStage3 := by positivity
  have h1 : (i : ℝ) / n ≤ 1 := by
    rcases Nat.eq_zero_or_pos n with hn | hn
    · subst hn; simp
    · rw [div_le_one (by exact_mod_cast hn)]; exact_mod_cast h
  have h0 : (0 : ℝ) ≤ (i : ℝ) / n := by positivity
  have h2 := mul_le_mul_of_nonneg_right h1 h3
  have h4 := mul_nonneg h0 h3
  constructor <;> linarith

theorem findBestPalette_rising (env : Env ℝ) (attr : Attr ℝ) (hm1 : 1 ≤ attr.maxColors) (hm : attr.maxColors ≤ 256)
    (targetMse : ℝ) (z : Bool) (maxMse : Option ℝ) (h0 : HistogramInternal ℝ) (ht : h0.Tiled) (hpos : h0.items ≠ [])
    (log : List ℝ) (hr : Rising log attr.progressStage1) :
    Rising (findBestPalette env attr targetMse z maxMse h0 log).2
      (attr.progressStage1 + attr.progressStage2 + 89 / 100 * attr.progressStage3) := by
  have p1 : (0 : ℝ) ≤ attr.progressStage1 := by positivity
  have p2 : (0 : ℝ) ≤ attr.progressStage2 := by positivity
  have p3 : (0 : ℝ) ≤ attr.progressStage3 := by positivity
  unfold findBestPalette
  split
  next hc => exact hr.mono (by linarith)
  · have hh : HistOK h0 h0 := ⟨ht, hpos, List.Perm.refl _, rfl, rfl⟩
    have hinit : FindOK attr.maxColors h0 (FindState.init attr h0) :=
      ⟨hh, hm1, le_rfl, by intro p hp; simp [FindState.init] at hp⟩
    set total := attr.feedbackTrials h0.items.length with htot
    obtain ⟨p, st, log1, e1, hp1, hst1, hlog1⟩ := findLoop_inv env attr targetMse total h0 hm
      (fun st l => st.trialsLeft ≤ total ∧ Rising l (overallDone attr total st.trialsLeft))
      (fun _ _ l => Rising l (attr.progressStage1 + attr.progressStage2))
      (by intro st l p hist _ h _ _ _; exact h.2.mono (overallDone_range attr total h.1).2)
      (by
        intro st l np hist err _ h hpos _ _
        have hr' := h.2.push (v := overallDone attr total st.trialsLeft) le_rfl
          (p1.trans (overallDone_range attr total h.1).1) attr.progressCallback
        have hlt := trialUpdate_lt st targetMse err np
        have hlt' : (nextState st targetMse err np hist).trialsLeft < st.trialsLeft := hlt
        exact ⟨fun _ _ => ⟨by omega, hr'.mono (overallDone_mono attr total hlt'.le)⟩,
          fun _ _ _ => hr'.mono (overallDone_range attr total h.1).2⟩)
      (FindState.init attr h0) log hinit
      ⟨le_rfl, hr.mono (overallDone_range attr total (le_refl _)).1⟩
    rw [PM.bind_ok e1]
    dsimp only
    unfold refinePalette
    set iters := (attr.kmeansIterationsFor st.hist.items.length st.paletteError.isSome).1
    obtain ⟨p', err', log', e2, -, -, q2⟩ := refineLoop_inv env attr maxMse iters
      (attr.kmeansIterationsFor st.hist.items.length st.paletteError.isSome).2 attr.maxColors hm h0
      (fun _ i err l => Rising l (attr.progressStage1 + attr.progressStage2 + 89 / 100 * attr.progressStage3) ∧
        Rising l (refineDone attr iters i))
      (fun err l => Rising l (attr.progressStage1 + attr.progressStage2 + 89 / 100 * attr.progressStage3))
      (by rintro c i err l ⟨h1, -⟩ _; exact h1)
      (by
        rintro c i err l ⟨h1, h2⟩ hi
        dsimp only
        have hrg := refineDone_range attr hi.le
        have h3 := h2.push (v := refineDone attr iters i) le_rfl (by linarith) attr.progressCallback
        exact ⟨fun _ => h3.mono hrg.2, fun _ e => ⟨h3.mono hrg.2, fun j hj _ =>
          ⟨h3.mono hrg.2, h3.mono (refineDone_mono attr iters (by omega))⟩⟩⟩)
      st.clock 0 st.hist p st.paletteError log1 hp1
      ⟨hlog1.mono (by linarith), hlog1.mono (refineDone_range attr (Nat.zero_le _)).1⟩
    have e2' : (refineLoop env attr maxMse iters (attr.kmeansIterationsFor st.hist.items.length st.paletteError.isSome).2
      st.clock 0 st.hist p st.paletteError log1).2 = log' := by rw [e2]
    exact e2' ▸ q2

theorem new_rising (env : Env ℝ) (attr : Attr ℝ) (hm1 : 1 ≤ attr.maxColors) (hm : attr.maxColors ≤ 256)
    (hst : attr.progressStage1 + attr.progressStage2 + attr.progressStage3 = 100)
    (h0 : HistogramInternal ℝ) (ht : h0.Tiled) (hpos : h0.items ≠ []) (freeze : Bool) (gamma : ℝ) (log : List ℝ)
    (hr : Rising log attr.progressStage1) :
    Rising (QuantizationResult.new env attr h0 freeze gamma log).2 100 := by
  have p1 : (0 : ℝ) ≤ attr.progressStage1 := by positivity
  have p2 : (0 : ℝ) ≤ attr.progressStage2 := by positivity
  have p3 : (0 : ℝ) ≤ attr.progressStage3 := by positivity
  have psum : (attr.progressStage1 : ℝ) + attr.progressStage2 + attr.progressStage3 = 100 := by exact_mod_cast hst
  unfold QuantizationResult.new
  rw [PM.bind_ok (progress_eq _ _ _)]
  have hr1 : Rising (reported attr.progressCallback log (lit32 attr.progressStage1)) attr.progressStage1 := by
    have := hr.push (v := (lit32 (attr.progressStage1 : ℚ) : ℝ)) (by simp) (by simp) attr.progressCallback
    simpa using this
  set log1 := reported attr.progressCallback log (lit32 attr.progressStage1)
  split
  · exact hr1.mono (by linarith)
  · obtain ⟨p, err, log2, e2, -⟩ := findBestPalette_ok env attr hm1 hm
      (attr.targetMseFor h0.items.length).2.1 (attr.targetMseFor h0.items.length).2.2
      (attr.targetMseFor h0.items.length).1 h0 ht hpos log1
    have hr2 := findBestPalette_rising env attr hm1 hm (attr.targetMseFor h0.items.length).2.1
      (attr.targetMseFor h0.items.length).2.2 (attr.targetMseFor h0.items.length).1 h0 ht hpos log1 hr1
    rw [e2] at hr2
    dsimp only
    rw [PM.bind_ok e2]
    dsimp only at hr2 ⊢
    rw [PM.bind_ok (progress_eq _ _ _)]
    have hv : (fma32 (lit32 attr.progressStage3) (lit32 (95/100))
        (lit32 attr.progressStage1 +₃ lit32 attr.progressStage2) : ℝ) =
        attr.progressStage3 * (95 / 100) + (attr.progressStage1 + attr.progressStage2) := by
      simp only [real_fma32, real_lit32, real_add32]; push_cast; ring
    have hr3 := hr2.push (v := fma32 (lit32 (attr.progressStage3 : ℚ)) (lit32 (95/100))
        (lit32 (attr.progressStage1 : ℚ) +₃ lit32 (attr.progressStage2 : ℚ))) (by rw [hv]; linarith) (by rw [hv]; linarith)
        attr.progressCallback
    have hr4 := hr3.mono (c := 100) (by rw [hv]; linarith)
    split
    · exact hr4
    · split <;> exact hr4

/-- **C15** (exact). All the values that a quantization reports lie between 0 and 100 and never decrease, for all
settings, callbacks and histograms, whether the run succeeds or not. -/
theorem C15_quantize_progress (env : Env ℝ) (cs : List Call) (cb : Option (List ℝ → Bool)) (h : Histogram ℝ)
    (freeze : Bool) :
    let log := (h.quantizeInternal env (userAttr cs cb) freeze []).2
    log.Pairwise (· ≤ ·) ∧ ∀ v ∈ log, 0 ≤ v ∧ v ≤ 100 := by
  set attr := userAttr cs cb with hattr
  have hs := userAttr_speedOK (F := ℝ) cs cb
  have hrange := userAttr_range (F := ℝ) cs cb
  rw [← hattr] at hs hrange
  have p1 : (0 : ℝ) ≤ attr.progressStage1 := by positivity
  have p1' : (attr.progressStage1 : ℝ) ≤ 100 := by
    have := hs.stages
    exact_mod_cast (by omega : attr.progressStage1 ≤ 100)
  suffices Rising (h.quantizeInternal env attr freeze []).2 100 from ⟨this.sorted, this.range⟩
  have h0 : Rising [] 0 := ⟨List.Pairwise.nil, by simp⟩
  unfold Histogram.quantizeInternal
  split
  · exact h0.mono (by norm_num)
  next he =>
    simp only [Bool.and_eq_true, List.isEmpty_iff] at he
    have hne : h.hashmap ≠ [] ∨ h.fixedColors ≠ [] := by tauto
    rw [PM.bind_ok (progress_eq _ _ _)]
    have hr1 := h0.push (v := (lit32 0 : ℝ)) (by simp) (by simp) attr.progressCallback
    split
    · exact hr1.mono (by norm_num)
    · rw [PM.bind_ok (progress_eq _ _ _)]
      have hv : (lit32 attr.progressStage1 *₃ lit32 (89/100) : ℝ) = attr.progressStage1 * (89 / 100) := by
        simp only [real_lit32, real_mul32]; push_cast; ring
      have hr2 := hr1.push (v := lit32 (attr.progressStage1 : ℚ) *₃ lit32 (89/100)) (by rw [hv]; simp)
        (by rw [hv]; linarith) attr.progressCallback
      split
      · exact hr2.mono (by rw [hv]; linarith)
      · obtain ⟨r, e1, ht, hl⟩ := h.finalize_ok env.ho (h.gamma.getD (lit64 (45455/100000)))
        have hpos : r.items ≠ [] := by
          apply List.ne_nil_of_length_pos
          rw [hl]
          exact List.length_pos_iff.2 (h.insertFixedColors_ne_nil env.ho hne)
        dsimp only
        rw [PM.bind_ok (a := r) (by rw [PM.lift, e1])]
        exact new_rising env attr hrange.1 hrange.2 hs.stages r ht hpos freeze _ _ (hr2.mono (by rw [hv]; linarith))

end Verif
