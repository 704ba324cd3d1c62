import Verif.Lemmas.QuantTrace
import Verif.Lemmas.QuantRun

/-! The last pass of the palette search: where the palette and the error that are returned come from. -/

set_option linter.unusedSectionVars false

namespace Verif
open Flt

variable {F : Type} [Flt F]

theorem refineLoop_prefix {env : Env F} {attr : Attr F} (maxMse : Option F) (iterations : ℕ) (limit : F) (clock i : ℕ)
    (hist : HistogramInternal F) (p : PalF F) (err : Option F) (log : List F) {r : PalF F × Option F} {log' : List F}
    (e : refineLoop env attr maxMse iterations limit clock i hist p err log = (.ok r, log')) : log <+: log' := by
  generalize hn : iterations - i = n
  induction n using Nat.strong_induction_on generalizing clock i hist p err log with
  | _ n ih =>
    rw [refineLoop] at e
    by_cases hi : i < iterations
    · rw [dif_pos hi, PM.bind_ok (progress_eq _ _ _)] at e
      have hp := prefix_reported attr.progressCallback log (refineDone attr iterations i)
      split at e
      · cases e; exact hp
      · obtain ⟨⟨hist', q, pe⟩, l3, e3, ee4⟩ := PM.bind_ok_inv e
        clear e; have e := ee4; clear ee4
        obtain ⟨fe3, hl4⟩ := PM.lift_ok_inv e3; subst hl4
        dsimp only at e
        have key : ∀ b : Bool, (if b = true then (pure (q, some pe) : PM F (PalF F × Option F)) else
            refineLoop env attr maxMse iterations limit (clock + 1)
            (i + if lt (maxMse.getD (lit64 (10 ^ 20)) *₆ lit64 (15/10)) pe then 2 else 1) hist' q (some pe))
            (reported attr.progressCallback log (refineDone attr iterations i)) = (.ok r, log') → log <+: log' := by
          intro b e
          cases b with
          | true => cases e; exact hp
          | false => exact hp.trans (ih _ (by split <;> omega) _ _ _ _ _ _ e rfl)
        exact key _ e
    · rw [dif_neg hi] at e
      cases e; exact List.prefix_rfl

/-- Without a stop, refinement that starts at all ends with a pass that does not adjust weights; palette and error are
those of that pass. -/
theorem refineLoop_last {env : Env F} {attr : Attr F} {H : HistogramInternal F → Prop} {P : PalF F → Prop} {m : ℕ}
    (k : Kept env m H P) (maxMse : Option F) (iterations : ℕ) (limit : F) (clock i : ℕ)
    (hist : HistogramInternal F) (p : PalF F) (err : Option F) (log : List F) (h0 : H hist) (h1 : P p)
    {p' : PalF F} {err' : Option F} {log' : List F}
    (e : refineLoop env attr maxMse iterations limit clock i hist p err log = (.ok (p', err'), log'))
    (hnb : ¬ Broke attr.progressCallback log log') :
    (iterations ≤ i ∧ p' = p ∧ err' = err) ∨
    ∃ t h q h' pe, H h ∧ P q ∧ env.kmeans t h q false = .ok (h', p', pe) ∧ err' = some pe := by
  generalize hn : iterations - i = n
  induction n using Nat.strong_induction_on generalizing clock i hist p err log with
  | _ n ih =>
    rw [refineLoop] at e
    by_cases hi : i < iterations
    · refine .inr ?_
      rw [dif_pos hi, PM.bind_ok (progress_eq _ _ _)] at e
      have hpr := prefix_reported attr.progressCallback log (refineDone attr iterations i)
      split at e
      next hstop => cases e; exact absurd (Broke.now List.prefix_rfl hstop) hnb
      · obtain ⟨⟨hist', q, pe⟩, l3, e3, ee4⟩ := PM.bind_ok_inv e
        clear e; have e := ee4; clear ee4
        obtain ⟨fe3, hl4⟩ := PM.lift_ok_inv e3; subst hl4
        obtain ⟨hh', hp'⟩ := k.pass _ _ _ _ _ _ _ h0 h1 fe3
        dsimp only at e
        have key : ∀ b : Bool, (if b = true then (pure (q, some pe) : PM F (PalF F × Option F)) else
            refineLoop env attr maxMse iterations limit (clock + 1)
            (i + if lt (maxMse.getD (lit64 (10 ^ 20)) *₆ lit64 (15/10)) pe then 2 else 1) hist' q (some pe))
            (reported attr.progressCallback log (refineDone attr iterations i)) = (.ok (p', err'), log') →
            ∃ t h q h' pe, H h ∧ P q ∧ env.kmeans t h q false = .ok (h', p', pe) ∧ err' = some pe := by
          intro b e
          cases b with
          | true => cases e; exact ⟨_, _, _, _, _, h0, h1, fe3, rfl⟩
          | false =>
            rcases ih _ (by split <;> omega) _ _ _ _ _ _ hh' hp' e (fun hb => hnb (hb.weaken hpr)) rfl with ⟨-, h2, h3⟩ | h
            · exact ⟨_, _, _, _, _, h0, h1, h2 ▸ fe3, h3⟩
            · exact h
        exact key _ e
    · rw [dif_neg hi] at e
      cases e; exact .inl ⟨by omega, rfl, rfl⟩

/-- the error is unknown after the search exactly if there were no trials -/
theorem findLoop_error {env : Env F} {attr : Attr F} (targetMse : F) (total : ℕ) (st : FindState F) (log : List F)
    (h2 : st.best.isSome = st.paletteError.isSome) (h3 : st.best.isSome = true ∨ st.clock = 0)
    {p : PalF F} {st' : FindState F} {log' : List F} (e : findLoop env attr targetMse total st log = (.ok (p, st'), log')) :
    log <+: log' ∧ (st'.paletteError.isSome = true ∨ st.trialsLeft ≤ 0 ∧ st'.paletteError = st.paletteError) := by
  generalize hn : st.trialsLeft.toNat = n
  induction n using Nat.strong_induction_on generalizing st log with
  | _ n ih =>
    rw [findLoop] at e
    obtain ⟨⟨pal, hist⟩, l1, e1, ee1⟩ := PM.bind_ok_inv e
    clear e; have e := ee1; clear ee1
    obtain ⟨fe1, hl1⟩ := PM.lift_ok_inv e1; subst hl1
    dsimp only at e
    obtain ⟨pal2, l2, e2, ee2⟩ := PM.bind_ok_inv e
    clear e; have e := ee2; clear ee2
    obtain ⟨fe2, hl2⟩ := PM.lift_ok_inv e2; subst hl2
    by_cases ht : st.trialsLeft ≤ 0
    · rw [dif_pos ht] at e
      cases e
      exact ⟨List.prefix_rfl, .inr ⟨ht, rfl⟩⟩
    · rw [dif_neg ht] at e
      obtain ⟨⟨hist', p', err⟩, l3, e3, ee3⟩ := PM.bind_ok_inv e
      clear e; have e := ee3; clear ee3
      obtain ⟨fe3, hl3⟩ := PM.lift_ok_inv e3; subst hl3
      dsimp only at e
      rw [PM.bind_ok (progress_eq _ _ _)] at e
      have hpr := prefix_reported attr.progressCallback l3 (overallDone attr total st.trialsLeft)
      have hsome : (trialUpdate st targetMse err p').best.isSome = true ∧ (trialUpdate st targetMse err p').paletteError.isSome = true := by
        unfold trialUpdate
        split
        · exact ⟨rfl, rfl⟩
        next hc =>
          simp only [Bool.or_eq_true, not_or] at hc
          have : st.best.isSome = true := by
            have := hc.1.1
            cases hb : st.best with
            | none => rw [hb] at this; simp at this
            | some b => rfl
          exact ⟨this, h2 ▸ this⟩
      split at e
      · cases hq : (trialUpdate st targetMse err p').best with
        | some q =>
          simp only [hq] at e
          cases e
          exact ⟨hpr, .inl hsome.2⟩
        | none =>
          simp only [hq] at e
          cases e
      next hd =>
        have hlt := trialUpdate_lt st targetMse err p'
        obtain ⟨a1, a2⟩ := ih _ (by
            rw [← hn]
            show (trialUpdate st targetMse err p').trialsLeft.toNat < _
            omega) (nextState st targetMse err p' hist') _ (by
            show (trialUpdate st targetMse err p').best.isSome = (trialUpdate st targetMse err p').paletteError.isSome
            rw [hsome.1, hsome.2]) (.inl hsome.1) e rfl
        refine ⟨hpr.trans a1, .inl ?_⟩
        rcases a2 with a2 | ⟨-, a2⟩
        · exact a2
        · rw [a2]; exact hsome.2

/-- Where palette and error of a search that was never asked to stop come from. -/
theorem findBestPalette_last {env : Env F} {attr : Attr F} {H : HistogramInternal F → Prop} {P : PalF F → Prop}
    (k : Kept env attr.maxColors H P) (hm : 1 ≤ attr.maxColors) {targetMse : F} {z : Bool} {maxMse : Option F}
    {hist : HistogramInternal F} (h0 : H hist) (hlen : ∀ h, H h → h.items.length = hist.items.length)
    (hit : 0 < attr.feedbackTrials hist.items.length → 0 < (attr.kmeansIterationsFor hist.items.length true).1)
    {log log' : List F} {p : PalF F} {err : Option F}
    (e : findBestPalette env attr targetMse z maxMse hist log = (.ok (p, err), log'))
    (hnb : ¬ Broke attr.progressCallback log log') :
    log <+: log' ∧
    ((hist.items.length ≤ attr.maxColors ∧ z = true ∧ paletteFromHistogram hist attr.maxColors = .ok (p, err)) ∨
    (err = none ∧ (attr.kmeansIterationsFor hist.items.length false).1 = 0) ∨
    ∃ t h q h' pe, H h ∧ P q ∧ env.kmeans t h q false = .ok (h', p, pe) ∧ err = some pe) := by
  unfold findBestPalette at e
  split at e
  next hc =>
    simp only [Bool.and_eq_true, decide_eq_true_eq] at hc
    obtain ⟨e1, e2⟩ := PM.lift_ok_inv e
    exact ⟨e2 ▸ List.prefix_rfl, .inl ⟨hc.1, hc.2, e1⟩⟩
  · obtain ⟨⟨q, st⟩, l1, e1, ee5⟩ := PM.bind_ok_inv e
    clear e; have e := ee5; clear ee5
    obtain ⟨hq, hh⟩ := findLoop_kept k _ _ (FindState.init attr hist) _ h0 hm le_rfl
      (by intro p hp; simp [FindState.init] at hp) e1
    obtain ⟨hp1, herr⟩ := findLoop_error _ _ (FindState.init attr hist) _ rfl (.inr rfl) e1
    have hp2 := refineLoop_prefix _ _ _ _ _ _ _ _ _ e
    refine ⟨hp1.trans hp2, .inr ?_⟩
    rcases refineLoop_last k _ _ _ _ _ _ _ _ _ hh hq e (fun hb => hnb (hb.weaken hp1)) with ⟨h1, h2, h3⟩ | h
    · left
      rw [hlen _ hh] at h1
      rcases herr with herr | ⟨ht, herr⟩
      · by_cases ht : 0 < attr.feedbackTrials hist.items.length
        · rw [herr] at h1
          have h4 : (attr.kmeansIterationsFor hist.items.length true).1 ≤ 0 := h1
          have := hit ht
          omega
        · -- no trials: the loop ends in its first round
          exfalso
          have ht' : (FindState.init attr hist).trialsLeft ≤ 0 := by
            simp only [FindState.init]; omega
          rw [findLoop] at e1
          obtain ⟨⟨pal, hist1⟩, l1, f1, ff1⟩ := PM.bind_ok_inv e1
          obtain ⟨pal2, l2, f2, ff2⟩ := PM.bind_ok_inv ff1
          rw [dif_pos ht'] at ff2
          cases ff2
          simp [FindState.init] at herr
      · have hnone : st.paletteError = none := by rw [herr]; rfl
        rw [hnone] at h1 h3
        exact ⟨h3, Nat.le_zero.1 h1⟩
    · exact .inr h

/-- Where palette and error of a quantization that was never asked to stop come from. -/
theorem new_last {env : Env F} {attr : Attr F} {H : HistogramInternal F → Prop} {P : PalF F → Prop}
    (k : Kept env attr.maxColors H P) (hm : 1 ≤ attr.maxColors) {hist : HistogramInternal F} (h0 : H hist)
    (hlen : ∀ h, H h → h.items.length = hist.items.length)
    (hit : 0 < attr.feedbackTrials hist.items.length → 0 < (attr.kmeansIterationsFor hist.items.length true).1)
    {freeze : Bool} {gamma : F} {log log' : List F} {r : QuantizationResult F}
    (e : QuantizationResult.new env attr hist freeze gamma log = (.ok r, log'))
    (hnb : ¬ Broke attr.progressCallback log log') :
    ∃ p err, r.paletteError = err ∧ r.palette = sortPalette attr.lastIndexTransparent
        (if freeze then p.map fun e => { e with pop := e.pop.toFixed } else p) ∧
      ((hist.items.length ≤ attr.maxColors ∧ (attr.targetMseFor hist.items.length).2.2 = true ∧
          paletteFromHistogram hist attr.maxColors = .ok (p, err)) ∨
      (err = none ∧ (attr.kmeansIterationsFor hist.items.length false).1 = 0) ∨
      ∃ t h q h' pe, H h ∧ P q ∧ env.kmeans t h q false = .ok (h', p, pe) ∧ err = some pe) := by
  unfold QuantizationResult.new at e
  rw [PM.bind_ok (progress_eq _ _ _)] at e
  split at e
  · cases e
  · dsimp only at e
    obtain ⟨⟨q, err⟩, l1, e1, ee6⟩ := PM.bind_ok_inv e
    clear e; have e := ee6; clear ee6
    dsimp only at e
    rw [PM.bind_ok (progress_eq _ _ _)] at e
    split at e
    · cases e
    · split at e
      · cases e
      · have hlog : reported attr.progressCallback l1 (fma32 (lit32 attr.progressStage3) (lit32 (95/100))
            (lit32 attr.progressStage1 +₃ lit32 attr.progressStage2)) = log' := by cases e; rfl
        have hp3 := prefix_reported attr.progressCallback l1 (fma32 (lit32 attr.progressStage3) (lit32 (95/100))
            (lit32 attr.progressStage1 +₃ lit32 attr.progressStage2))
        rw [hlog] at hp3
        have hpr := prefix_reported attr.progressCallback log (lit32 attr.progressStage1)
        obtain ⟨-, h⟩ := findBestPalette_last k hm h0 hlen hit e1 (fun hb => hnb ((hb.mono hp3).weaken hpr))
        cases e
        exact ⟨q, err, rfl, rfl, h⟩

end Verif
