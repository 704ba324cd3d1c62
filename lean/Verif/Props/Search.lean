import Verif.Lemmas.QuantTrace
import Verif.Lemmas.Env
import Verif.Lemmas.Reach
import Verif.Props.Quantize

/-! The search for a palette keeps the best trial (C54). -/

set_option linter.unusedSectionVars false

namespace Verif
open Flt

/-- A run of trials of the palette search with their palettes and errors, newest first. Each trial cuts the working histogram
into at most `m` boxes, puts in the fixed colours and does one k-means pass, at time `t`; the next one works on the
histogram it leaves. -/
inductive Spec.Trials (env : Env ℝ) (m : ℕ) : ℕ → HistogramInternal ℝ → List (PalF ℝ × ℝ) → HistogramInternal ℝ → Prop
  | none (t : ℕ) (h : HistogramInternal ℝ) : Trials env m t h [] h
  | next {t : ℕ} {h h1 h2 h3 : HistogramInternal ℝ} {l : List (PalF ℝ × ℝ)} {k : ℕ} {a b : ℝ} {adjust : Bool}
      {cut fixed p : PalF ℝ} {err : ℝ} :
      Trials env m t h l h1 → k ≤ m → mediancut env.so h1 k a b = .ok (cut, h2) →
      cut.withFixedColors m h2.fixedColors = .ok fixed →
      env.kmeans (t + l.length) h2 fixed adjust = .ok (h3, p, err) → Trials env m t h ((p, err) :: l) h3

open Spec

/-- what the loop knows about the trials so far -/
structure BestOf (target : ℝ) (l : List (PalF ℝ × ℝ)) (st : FindState ℝ) : Prop where
  none_ : l = [] → st.best = none ∧ st.paletteError = none
  some_ : l ≠ [] → ∃ p err, st.best = some p ∧ st.paletteError = some err ∧ (p, err) ∈ l ∧
    ∀ x ∈ l, err ≤ x.2 ∨ err ≤ target

theorem BestOf.update {target : ℝ} {l : List (PalF ℝ × ℝ)} {st : FindState ℝ} (b : BestOf target l st) (p : PalF ℝ) (err : ℝ) :
    BestOf target ((p, err) :: l) (trialUpdate st target err p) := by
  refine ⟨fun h => absurd h (by simp), fun _ => ?_⟩
  by_cases hl : l = []
  · obtain ⟨h1, h2⟩ := b.none_ hl
    unfold trialUpdate
    rw [if_pos (by simp [h1]), hl]
    exact ⟨p, err, rfl, rfl, by simp, by simp⟩
  · obtain ⟨q, e, h1, h2, h3, h4⟩ := b.some_ hl
    unfold trialUpdate
    split
    next hc =>
      refine ⟨p, err, rfl, rfl, by simp, ?_⟩
      simp only [h1, Option.isNone_some, Bool.false_or, h2, Option.getD_some, Bool.or_eq_true, real_lt, Bool.and_eq_true,
        real_le, decide_eq_true_eq] at hc
      intro x hx
      rcases List.mem_cons.1 hx with rfl | hx
      · exact .inl le_rfl
      · rcases hc with hc | hc
        · rcases h4 x hx with h | h
          · exact .inl (hc.le.trans h)
          · exact .inr (hc.le.trans h)
        · exact .inr hc.1
    next hc =>
      refine ⟨q, e, h1, h2, by simp [h3], ?_⟩
      simp only [h1, Option.isNone_some, Bool.false_or, h2, Option.getD_some, Bool.or_eq_true, real_lt, not_or, not_lt] at hc
      intro x hx
      rcases List.mem_cons.1 hx with rfl | hx
      · exact .inl hc.1
      · exact h4 x hx

theorem findLoop_best {env : Env ℝ} {attr : Attr ℝ} {target : ℝ} {total n : ℕ} {st st' : FindState ℝ} {log log' : List ℝ} {p : PalF ℝ}
    {h0 : HistogramInternal ℝ} {l : List (PalF ℝ × ℝ)} (ht : Trials env attr.maxColors 0 h0 l st.hist) (hb : BestOf target l st)
    (hclock : st.clock = l.length) (h1 : 1 ≤ st.maxColors) (h1' : st.maxColors ≤ attr.maxColors)
    (hn : st.trialsLeft + l.length ≤ n) (hpos : l ≠ [] → 0 < st.trialsLeft)
    (e : findLoop env attr target total st log = (.ok (p, st'), log')) :
    (st'.paletteError = none ∧ st.trialsLeft ≤ 0) ∨ ∃ (l' : List (PalF ℝ × ℝ)) (err : ℝ), l'.length ≤ n ∧
      Trials env attr.maxColors 0 h0 l' st'.hist ∧ st'.clock = l'.length ∧
      st'.paletteError = some err ∧ (p, err) ∈ l' ∧ ∀ x ∈ l', err ≤ x.2 ∨ err ≤ target := by
  generalize hk : st.trialsLeft.toNat = k
  induction k using Nat.strong_induction_on generalizing st log l with
  | _ k ih =>
    rw [findLoop] at e
    obtain ⟨⟨pal, hist⟩, l1, e1, ee1⟩ := PM.bind_ok_inv e
    clear e; have e := ee1; clear ee1
    obtain ⟨fe1, hl1⟩ := PM.lift_ok_inv e1; subst hl1
    dsimp only at e
    obtain ⟨pal2, l2, e2, ee2⟩ := PM.bind_ok_inv e
    clear e; have e := ee2; clear ee2
    obtain ⟨fe2, hl2⟩ := PM.lift_ok_inv e2; subst hl2
    by_cases htl : st.trialsLeft ≤ 0
    · rw [dif_pos htl] at e
      cases e
      left
      have : l = [] := by
        by_contra hne
        have := hpos hne
        omega
      exact ⟨(hb.none_ this).2, htl⟩
    · rw [dif_neg htl] at e
      right
      obtain ⟨⟨hist', p', err⟩, l3, e3, ee3⟩ := PM.bind_ok_inv e
      clear e; have e := ee3; clear ee3
      obtain ⟨fe3, hl3⟩ := PM.lift_ok_inv e3; subst hl3
      dsimp only at e
      rw [PM.bind_ok (progress_eq _ _ _)] at e
      have hnext : Trials env attr.maxColors 0 h0 ((p', err) :: l) hist' := by
        rw [hclock] at fe3
        exact .next ht h1' fe1 fe2 (by rw [zero_add]; exact fe3)
      have hb' := hb.update p' err
      have hlt := trialUpdate_lt st target err p'
      split at e
      · obtain ⟨q, er, g1, g2, g3, g4⟩ := hb'.some_ (by simp)
        simp only [g1] at e
        cases e
        refine ⟨_, er, ?_, hnext, by simp [hclock], g2, g3, g4⟩
        simp only [List.length_cons]
        omega
      next hd =>
        have hd' : 0 < (trialUpdate st target err p').trialsLeft := by
          simp only [Bool.or_eq_true, decide_eq_true_eq, not_or, not_le] at hd
          exact hd.2
        rcases ih _ (by
          rw [← hk]
          show (trialUpdate st target err p').trialsLeft.toNat < _
          omega) (st := nextState st target err p' hist') (l := (p', err) :: l) hnext ⟨hb'.1, hb'.2⟩
          (by simp [nextState, hclock]) (trialUpdate_maxColors st target err p' h1).1
          ((trialUpdate_maxColors st target err p' h1).2.trans h1') (by
            show (trialUpdate st target err p').trialsLeft + _ ≤ _
            simp only [List.length_cons]
            push_cast
            omega) (fun _ => hd') e rfl with ⟨-, h⟩ | h
        · exact absurd h (not_le.2 hd')
        · exact h

/-- **C54** (exact). The search before the refinement returns the palette of one of its trials, together with that trial's
error; no trial had a smaller error, unless the error returned is within the target. At most as many trials are made as the
settings allow for a histogram of that size; if they allow none, no error is returned. -/
theorem C54_best_trial (env : Env ℝ) (cs : List Call) (cb : Option (List ℝ → Bool)) (target : ℝ) (hist : HistogramInternal ℝ)
    (log log' : List ℝ) (p : PalF ℝ) (st : FindState ℝ)
    (e : findLoop env (userAttr cs cb) target ((userAttr cs cb).feedbackTrials hist.items.length)
      (FindState.init (userAttr cs cb) hist) log = (.ok (p, st), log')) :
    (st.paletteError = none ∧ (userAttr cs cb).feedbackTrials hist.items.length = 0) ∨
    ∃ (trials : List (PalF ℝ × ℝ)) (err : ℝ), trials.length ≤ (userAttr cs cb).feedbackTrials hist.items.length ∧
      Trials env (Settings.default.after cs).maxColors 0 hist trials st.hist ∧ st.paletteError = some err ∧
      (p, err) ∈ trials ∧ ∀ x ∈ trials, err ≤ x.2 ∨ err ≤ target := by
  have hm := userAttr_range (F := ℝ) cs cb
  rw [← userAttr_maxColors cs cb]
  rcases findLoop_best (l := []) (n := (userAttr cs cb).feedbackTrials hist.items.length) (h0 := hist)
    (Trials.none 0 hist) ⟨fun _ => ⟨rfl, rfl⟩, fun h => absurd rfl h⟩ rfl hm.1 le_rfl (by simp [FindState.init])
    (fun h => absurd rfl h) e with ⟨h1, h2⟩ | ⟨l, err, h1, h2, -, h3⟩
  · left
    refine ⟨h1, ?_⟩
    simp only [FindState.init] at h2
    omega
  · exact .inr ⟨l, err, h1, h2, h3⟩

/-- the hypothesis of `C54_best_trial`, with the trials that the default settings allow -/
example : ∃ (hist : HistogramInternal ℝ) (p : PalF ℝ) (st : FindState ℝ) (log' : List ℝ),
    exampleHistogram.finalizeBuilder (Env.simple : Env ℝ).ho 0.45455 = .ok hist ∧
    findLoop Env.simple (userAttr [] none) 0.01 ((userAttr (F := ℝ) [] none).feedbackTrials hist.items.length)
      (FindState.init (userAttr [] none) hist) [] = (.ok (p, st), log') ∧
    0 < (userAttr (F := ℝ) [] none).feedbackTrials hist.items.length := by
  obtain ⟨hist, e1, ht, hl⟩ := exampleHistogram.finalize_ok (Env.simple : Env ℝ).ho (0.45455 : ℝ)
  have hm := userAttr_range (F := ℝ) [] none
  have hlen : hist.items.length = 2 := by rw [hl]; rfl
  have hok : HistOK hist hist := ⟨ht, by intro h; rw [h] at hlen; simp at hlen, List.Perm.refl _, rfl, rfl⟩
  obtain ⟨p, st, log', e, -⟩ := findLoop_inv (Env.simple : Env ℝ) (userAttr [] none) 0.01
    ((userAttr (F := ℝ) [] none).feedbackTrials hist.items.length) hist hm.2 (fun _ _ => True) (fun _ _ _ => True)
    (by intros; trivial) (by intros; exact ⟨fun _ _ => trivial, fun _ _ _ => trivial⟩)
    (FindState.init (userAttr [] none) hist) [] ⟨hok, hm.1, le_rfl, by simp [FindState.init]⟩ trivial
  refine ⟨hist, p, st, log', e1, e, ?_⟩
  rw [hlen]
  decide

end Verif
