import Verif.Lemmas.Quant

/-! What holds of every palette of a successful search: a property of histograms and one of palettes that each step
keeps, for any float arithmetic. -/

set_option linter.unusedSectionVars false

namespace Verif
open Flt

variable {F : Type} [Flt F]

/-- Properties kept by the steps of the palette search: `H` of the working histogram, `P` of palettes. -/
structure Kept (env : Env F) (m : ℕ) (H : HistogramInternal F → Prop) (P : PalF F → Prop) : Prop where
  cut : ∀ h k a b pal h' pal2, H h → 1 ≤ k → k ≤ m → mediancut env.so h k a b = .ok (pal, h') →
    pal.withFixedColors m h'.fixedColors = .ok pal2 → H h' ∧ P pal2
  pass : ∀ t h p adj h' p' e, H h → P p → env.kmeans t h p adj = .ok (h', p', e) → H h' ∧ P p'

theorem PM.bind_ok_inv {α β : Type} {m : PM F α} {f : α → PM F β} {log log' : List F} {b : β}
    (h : (m >>= f) log = (.ok b, log')) : ∃ a log1, m log = (.ok a, log1) ∧ f a log1 = (.ok b, log') := by
  rw [PM.bind_apply] at h
  cases hm : m log with
  | mk r l =>
    rw [hm] at h
    cases r with
    | error e => simp at h
    | ok a => exact ⟨a, l, rfl, h⟩

theorem PM.lift_ok_inv {α : Type} {r : Res α} {log log' : List F} {a : α}
    (h : PM.lift r log = (.ok a, log')) : r = .ok a ∧ log' = log := by
  unfold PM.lift at h
  simp only [Prod.mk.injEq] at h
  exact ⟨h.1, h.2.symm⟩

theorem findLoop_kept {env : Env F} {attr : Attr F} {H : HistogramInternal F → Prop} {P : PalF F → Prop}
    (k : Kept env attr.maxColors H P) (targetMse : F) (total : ℕ) (st : FindState F) (log : List F)
    (h0 : H st.hist) (h1 : 1 ≤ st.maxColors) (h1' : st.maxColors ≤ attr.maxColors) (h2 : ∀ p, st.best = some p → P p) {p : PalF F} {st' : FindState F}
    {log' : List F} (e : findLoop env attr targetMse total st log = (.ok (p, st'), log')) : P p ∧ H st'.hist := by
  generalize hn : st.trialsLeft.toNat = n
  induction n using Nat.strong_induction_on generalizing st log with
  | _ n ih =>
    rw [findLoop] at e
    obtain ⟨⟨pal, hist⟩, l1, e1, ee1⟩ := PM.bind_ok_inv e
    clear e; have e := ee1; clear ee1
    obtain ⟨fe1, hl1⟩ := PM.lift_ok_inv e1; subst hl1
    dsimp only at e
    obtain ⟨pal2, l2, e2, ee2⟩ := PM.bind_ok_inv e
    clear e; have e := ee2; clear ee2
    obtain ⟨fe2, hl2⟩ := PM.lift_ok_inv e2; subst hl2
    obtain ⟨hh, hp⟩ := k.cut _ _ _ _ _ _ _ h0 h1 h1' fe1 fe2
    by_cases ht : st.trialsLeft ≤ 0
    · rw [dif_pos ht] at e
      cases e
      exact ⟨hp, hh⟩
    · rw [dif_neg ht] at e
      obtain ⟨⟨hist', p', err⟩, l3, e3, ee3⟩ := PM.bind_ok_inv e
      clear e; have e := ee3; clear ee3
      obtain ⟨fe3, hl3⟩ := PM.lift_ok_inv e3; subst hl3
      obtain ⟨hh', hp'⟩ := k.pass _ _ _ _ _ _ _ hh hp fe3
      dsimp only at e
      rw [PM.bind_ok (progress_eq _ _ _)] at e
      have hb : ∀ q, (trialUpdate st targetMse err p').best = some q → P q := by
        intro q hq
        rcases trialUpdate_best st targetMse err p' with h | h
        · rw [h] at hq; cases hq; exact hp'
        · rw [h.1] at hq; exact h2 q hq
      split at e
      · cases hq : (trialUpdate st targetMse err p').best with
        | some q =>
          simp only [hq] at e
          cases e
          exact ⟨hb _ hq, hh'⟩
        | none =>
          simp only [hq] at e
          cases e
      next hd =>
        have hlt := trialUpdate_lt st targetMse err p'
        refine ih _ ?_ (nextState st targetMse err p' hist') _ hh' (trialUpdate_maxColors st targetMse err p' h1).1
          ((trialUpdate_maxColors st targetMse err p' h1).2.trans h1') hb e rfl
        rw [← hn]
        show (trialUpdate st targetMse err p').trialsLeft.toNat < _
        omega

theorem refineLoop_kept {env : Env F} {attr : Attr F} {H : HistogramInternal F → Prop} {P : PalF F → Prop} {m : ℕ}
    (k : Kept env m H P) (maxMse : Option F) (iterations : ℕ) (limit : F) (clock i : ℕ)
    (hist : HistogramInternal F) (p : PalF F) (err : Option F) (log : List F) (h0 : H hist) (h1 : P p)
    {p' : PalF F} {err' : Option F} {log' : List F}
    (e : refineLoop env attr maxMse iterations limit clock i hist p err log = (.ok (p', err'), log')) : P p' := by
  generalize hn : iterations - i = n
  induction n using Nat.strong_induction_on generalizing clock i hist p err log with
  | _ n ih =>
    rw [refineLoop] at e
    by_cases hi : i < iterations
    · rw [dif_pos hi, PM.bind_ok (progress_eq _ _ _)] at e
      split at e
      · cases e; exact h1
      · obtain ⟨⟨hist', q, pe⟩, l3, e3, ee4⟩ := PM.bind_ok_inv e
        clear e; have e := ee4; clear ee4
        obtain ⟨fe3, hl4⟩ := PM.lift_ok_inv e3; subst hl4
        obtain ⟨hh', hp'⟩ := k.pass _ _ _ _ _ _ _ h0 h1 fe3
        dsimp only at e
        have key : ∀ b : Bool, (if b = true then (pure (q, some pe) : PM F (PalF F × Option F)) else
            refineLoop env attr maxMse iterations limit (clock + 1)
            (i + if lt (maxMse.getD (lit64 (10 ^ 20)) *₆ lit64 (15/10)) pe then 2 else 1) hist' q (some pe))
            (reported attr.progressCallback log (refineDone attr iterations i)) = (.ok (p', err'), log') → P p' := by
          intro b e
          cases b with
          | true => cases e; exact hp'
          | false => exact ih _ (by split <;> omega) _ _ _ _ _ _ hh' hp' e rfl
        exact key _ e
    · rw [dif_neg hi] at e
      cases e; exact h1

theorem findBestPalette_kept {env : Env F} {attr : Attr F} {H : HistogramInternal F → Prop} {P : PalF F → Prop}
    (k : Kept env attr.maxColors H P) (hm : 1 ≤ attr.maxColors) {targetMse : F} {z : Bool} {maxMse : Option F}
    {hist : HistogramInternal F} (h0 : H hist)
    (hfew : ∀ p e, paletteFromHistogram hist attr.maxColors = .ok (p, e) → P p)
    {log log' : List F} {p : PalF F} {err : Option F}
    (e : findBestPalette env attr targetMse z maxMse hist log = (.ok (p, err), log')) : P p := by
  unfold findBestPalette at e
  split at e
  · exact hfew _ _ (PM.lift_ok_inv e).1
  · obtain ⟨⟨q, st⟩, l1, e1, ee5⟩ := PM.bind_ok_inv e
    clear e; have e := ee5; clear ee5
    obtain ⟨hq, hh⟩ := findLoop_kept k _ _ (FindState.init attr hist) _ h0 hm le_rfl
      (by intro p hp; simp [FindState.init] at hp) e1
    exact refineLoop_kept k _ _ _ _ _ _ _ _ _ hh hq e

/-- Every palette of a successful quantization of a finished histogram. -/
theorem new_kept {env : Env F} {attr : Attr F} {H : HistogramInternal F → Prop} {P : PalF F → Prop}
    (k : Kept env attr.maxColors H P) (hm : 1 ≤ attr.maxColors) {hist : HistogramInternal F} (h0 : H hist)
    (hfew : ∀ p e, paletteFromHistogram hist attr.maxColors = .ok (p, e) → P p)
    {freeze : Bool} {gamma : F} {log log' : List F} {r : QuantizationResult F}
    (e : QuantizationResult.new env attr hist freeze gamma log = (.ok r, log')) :
    ∃ p, P p ∧ r.palette = sortPalette attr.lastIndexTransparent
      (if freeze then p.map fun e => { e with pop := e.pop.toFixed } else p) := by
  unfold QuantizationResult.new at e
  rw [PM.bind_ok (progress_eq _ _ _)] at e
  split at e
  · cases e
  · dsimp only at e
    obtain ⟨⟨q, err⟩, l1, e1, ee6⟩ := PM.bind_ok_inv e
    clear e; have e := ee6; clear ee6
    dsimp only at e
    rw [PM.bind_ok (progress_eq _ _ _)] at e
    split at e
    · cases e
    · split at e
      · cases e
      · cases e
        exact ⟨q, findBestPalette_kept k hm h0 hfew e1, rfl⟩

end Verif
