import Verif.Lemmas.FiniteSearch
import Verif.Lemmas.NoWeight

/-! The whole search keeps numbers finite. -/

set_option linter.unusedSectionVars false

namespace Verif
open Flt FltRound FltCorrect
open FltFull (r32_idem r64 r64_mono r64_nat lit64_eq add64_eq div64_eq to32_eq pow32_unit)

variable {F : Type} [Flt F] [FltMin F] {op sm : Prop}

/-- the working histogram after `k` adjustments of the weights -/
structure WorkFin (op sm : Prop) (T : F) (k : ℕ) (h : HistogramInternal F) : Prop where
  tiled : h.Tiled
  len : h.items.length ≤ 2 ^ 21
  items : ∀ x ∈ h.items, ItemFin op sm (adjMax sm k) x
  fixed : ∀ c ∈ h.fixedColors, c.UnitFin ∧ (op → palLo ≤ val c.a)
  total : h.totalPerceptualWeight = T
  size : op ∨ sm → h.items ≠ [] ∧ Few op h.items.length
  fixedThin : ∀ c ∈ h.fixedColors, sm → c.Thin

/-- an error of a palette for the total weight `T` -/
def ErrOf (T e : F) : Prop := e = Flt.lit64 0 ∨ ∃ d : F, NN (2 ^ 127) d ∧ e = d /₆ T

theorem WorkFin.mono {T : F} {j k : ℕ} {h : HistogramInternal F} (w : WorkFin op sm T j h) (hjk : j ≤ k) : WorkFin op sm T k h :=
  ⟨w.tiled, w.len, fun x hx => (w.items x hx).mono (adjMax_mono hjk), w.fixed, w.total, w.size, w.fixedThin⟩

theorem WorkFin.cut {T : F} {k : ℕ} (hk : k ≤ maxRounds sm) {h h' : HistogramInternal F} (w : WorkFin op sm T k h) {o : SortOracle F} {n m : ℕ} {a b : F}
    {pal pal2 : PalF F} (hn : n ≤ 256) (e : mediancut o h n a b = .ok (pal, h')) (e2 : pal.withFixedColors m h'.fixedColors = .ok pal2) :
    WorkFin op sm T k h' ∧ PalFin op pal2 ∧ ThinPal sm pal2 := by
  obtain ⟨hp, hp2⟩ := mediancut_fin o n a b w.tiled (w.len.trans (by norm_num)) (fun x hx => (w.items x hx).mono (adjMax_le hk)) w.size e
  obtain ⟨pal', h'', boxes, e', c⟩ := mediancut_spec o h n a b w.tiled hn
  rw [e] at e'; cases e'
  have hf : ∀ x ∈ h'.fixedColors, x.UnitFin ∧ (op → palLo ≤ val x.a) := by rw [c.fixed]; exact w.fixed
  have hf2 : ∀ x ∈ h'.fixedColors, sm → x.Thin := by rw [c.fixed]; exact w.fixedThin
  refine ⟨⟨c.tiled w.tiled, ?_, items_of_perm c.items_core w.items, hf, ?_, ?_, hf2⟩, withFixedColors_fin hf hp e2, withFixedColors_thin hf2 hp2 e2⟩
  · rw [c.items_len]; exact w.len
  · rw [c.rest]; exact w.total
  · intro ho
    refine ⟨?_, by rw [c.items_len]; exact (w.size ho).2⟩
    apply List.ne_nil_of_length_pos
    rw [c.items_len]; exact List.length_pos_iff.2 (w.size ho).1

theorem WorkFin.pass {T : F} {k : ℕ} (hk : k ≤ maxRounds sm) {h h' : HistogramInternal F} (w : WorkFin op sm T k h) {env : Env F} {t : ℕ} {p p' : PalF F}
    {adj : Bool} {err : F} (ha : adj = true → k < maxRounds sm ∧ ThinPal sm p) (hp : PalFin op p) (e : env.kmeans t h p adj = .ok (h', p', err)) :
    WorkFin op sm T (if adj then k + 1 else k) h' ∧ PalFin op p' ∧ ErrOf T err := by
  obtain ⟨h1, h2, h3, h4, h5, h6, h7⟩ := Kmeans.iteration_fin (env.sched_valid _ _) ha hk w.len w.items hp e
  refine ⟨⟨?_, h5 ▸ w.len, h1, h3 ▸ w.fixed, h6.trans w.total, fun ho => ⟨?_, h5 ▸ (w.size ho).2⟩, h3 ▸ w.fixedThin⟩, h2, ?_⟩
  · have := w.tiled
    unfold HistogramInternal.Tiled at this ⊢
    rw [h4, h5]; exact this
  · apply List.ne_nil_of_length_pos
    rw [h5]; exact List.length_pos_iff.2 (w.size ho).1
  · rw [w.total] at h7; exact h7

theorem findLoop_fin {env : Env F} {attr : Attr F} (hm : attr.maxColors ≤ 256) {T : F} (targetMse : F) (total : ℕ) (st : FindState F) (log : List F)
    (k : ℕ) (hk : k + st.trialsLeft.toNat ≤ maxRounds sm)
    (h0 : WorkFin op sm T k st.hist) (h1 : 1 ≤ st.maxColors) (h1' : st.maxColors ≤ attr.maxColors) (h2 : ∀ p, st.best = some p → PalFin op p)
    (h3 : ∀ e, st.paletteError = some e → ErrOf T e) {p : PalF F} {st' : FindState F}
    {log' : List F} (e : findLoop env attr targetMse total st log = (.ok (p, st'), log')) :
    PalFin op p ∧ WorkFin op sm T (maxRounds sm) st'.hist ∧ ∀ e, st'.paletteError = some e → ErrOf T e := by
  generalize hn : st.trialsLeft.toNat = n
  induction n using Nat.strong_induction_on generalizing st log k with
  | _ n ih =>
    rw [findLoop] at e
    obtain ⟨⟨pal, hist⟩, l1, e1, ee1⟩ := PM.bind_ok_inv e
    clear e; have e := ee1; clear ee1
    obtain ⟨fe1, hl1⟩ := PM.lift_ok_inv e1; subst hl1
    dsimp only at e
    obtain ⟨pal2, l2, e2, ee2⟩ := PM.bind_ok_inv e
    clear e; have e := ee2; clear ee2
    obtain ⟨fe2, hl2⟩ := PM.lift_ok_inv e2; subst hl2
    obtain ⟨hh, hp, hthin⟩ := h0.cut (by omega) (h1'.trans hm) fe1 fe2
    by_cases ht : st.trialsLeft ≤ 0
    · rw [dif_pos ht] at e
      cases e
      exact ⟨hp, hh.mono (by omega), h3⟩
    · rw [dif_neg ht] at e
      obtain ⟨⟨hist', p', err⟩, l3, e3, ee3⟩ := PM.bind_ok_inv e
      clear e; have e := ee3; clear ee3
      obtain ⟨fe3, hl3⟩ := PM.lift_ok_inv e3; subst hl3
      obtain ⟨hh', hp', herr⟩ := hh.pass (by omega) (fun _ => ⟨by omega, hthin⟩) hp fe3
      have hh1 : WorkFin op sm T (k + 1) hist' := hh'.mono (by split <;> omega)
      dsimp only at e
      rw [PM.bind_ok (progress_eq _ _ _)] at e
      have hb : ∀ q, (trialUpdate st targetMse err p').best = some q → PalFin op q := by
        intro q hq
        rcases trialUpdate_best st targetMse err p' with h | h
        · rw [h] at hq; cases hq; exact hp'
        · rw [h.1] at hq; exact h2 q hq
      have hb' : ∀ q, (trialUpdate st targetMse err p').paletteError = some q → ErrOf T q := by
        intro q hq
        rcases trialUpdate_error st targetMse err p' with h | h
        · rw [h] at hq; cases hq; exact herr
        · rw [h] at hq; exact h3 q hq
      split at e
      · cases hq : (trialUpdate st targetMse err p').best with
        | some q =>
          simp only [hq] at e
          cases e
          exact ⟨hb _ hq, hh1.mono (by omega), hb'⟩
        | none =>
          simp only [hq] at e
          cases e
      next hd =>
        have hlt := trialUpdate_lt st targetMse err p'
        refine ih _ ?_ (nextState st targetMse err p' hist') _ (k + 1) ?_ hh1 (trialUpdate_maxColors st targetMse err p' h1).1
          ((trialUpdate_maxColors st targetMse err p' h1).2.trans h1') hb hb' e rfl
        · rw [← hn]
          show (trialUpdate st targetMse err p').trialsLeft.toNat < _
          omega
        · show k + 1 + (trialUpdate st targetMse err p').trialsLeft.toNat ≤ maxRounds sm
          omega

theorem refineLoop_fin {env : Env F} {attr : Attr F} {T : F} (maxMse : Option F) (iterations : ℕ) (limit : F) (clock i : ℕ)
    (hist : HistogramInternal F) (p : PalF F) (err : Option F) (log : List F) (h0 : WorkFin op sm T (maxRounds sm) hist) (h1 : PalFin op p)
    (h2 : ∀ e, err = some e → ErrOf T e) {p' : PalF F} {err' : Option F} {log' : List F}
    (e : refineLoop env attr maxMse iterations limit clock i hist p err log = (.ok (p', err'), log')) :
    PalFin op p' ∧ ∀ e, err' = some e → ErrOf T e := by
  generalize hn : iterations - i = n
  induction n using Nat.strong_induction_on generalizing clock i hist p err log with
  | _ n ih =>
    rw [refineLoop] at e
    by_cases hi : i < iterations
    · rw [dif_pos hi, PM.bind_ok (progress_eq _ _ _)] at e
      split at e
      · cases e; exact ⟨h1, h2⟩
      · obtain ⟨⟨hist', q, pe⟩, l3, e3, ee4⟩ := PM.bind_ok_inv e
        clear e; have e := ee4; clear ee4
        obtain ⟨fe3, hl4⟩ := PM.lift_ok_inv e3; subst hl4
        obtain ⟨hh', hp', herr⟩ := h0.pass le_rfl (by simp) h1 fe3
        have hpe : ∀ e, some pe = some e → ErrOf T e := by
          intro e he; cases he; exact herr
        dsimp only at e
        have key : ∀ b : Bool, (if b = true then (pure (q, some pe) : PM F (PalF F × Option F)) else
            refineLoop env attr maxMse iterations limit (clock + 1)
            (i + if Flt.lt (maxMse.getD (Flt.lit64 (10 ^ 20)) *₆ Flt.lit64 (15/10)) pe then 2 else 1) hist' q (some pe))
            (reported attr.progressCallback log (refineDone attr iterations i)) = (.ok (p', err'), log') →
            PalFin op p' ∧ ∀ e, err' = some e → ErrOf T e := by
          intro b e
          cases b with
          | true => cases e; exact ⟨hp', hpe⟩
          | false => exact ih _ (by split <;> omega) _ _ _ _ _ _ hh' hp' hpe e rfl
        exact key _ e
    · rw [dif_neg hi] at e
      cases e; exact ⟨h1, h2⟩

theorem push_fin {p p' : PalF F} {c : FPixel F} {v : PalPop F} (h : PalFin op p) (hc : c.UnitFin) (hv : fin v.val) (ho : op → palLo ≤ val c.a)
    (e : PalF.push p c v = .ok p') : PalFin op p' := by
  unfold PalF.push at e
  split at e
  · cases e
    intro x hx
    rcases List.mem_append.1 hx with hx | hx
    · exact h x hx
    · simp only [List.mem_singleton] at hx; subst hx; exact ⟨⟨hc, hv⟩, ho⟩
  · cases e

theorem paletteFromHistogram_fin {T : F} {k : ℕ} {h : HistogramInternal F} (w : WorkFin op sm T k h) {m : ℕ} {p : PalF F} {err : Option F}
    (e : paletteFromHistogram h m = .ok (p, err)) : PalFin op p ∧ ∀ e, err = some e → ErrOf T e := by
  unfold paletteFromHistogram at e
  have key : ∀ (l : List (HistItem F)) (s s' : PalF F), (∀ x ∈ l, ItemFin op sm (adjMax sm k) x) → PalFin op s →
      l.foldlM (fun p item => PalF.push p item.color (PalPop.new item.perceptualWeight)) s = .ok s' → PalFin op s' := by
    intro l
    induction l with
    | nil => intro s s' _ hs e; cases e; exact hs
    | cons x l ih =>
      intro s s' hl hs e
      rw [List.foldlM_cons] at e
      cases hq : PalF.push s x.color (PalPop.new x.perceptualWeight) with
      | error f => rw [hq] at e; cases e
      | ok q =>
        rw [hq] at e
        have hx := hl x (by simp)
        exact ih _ _ (fun y hy => hl y (by simp [hy])) (push_fin hs hx.color hx.perc.fin (fun ho => palLo_le.trans (hx.solid ho).1) hq) e
  cases h1 : h.items.foldlM (fun p item => PalF.push p item.color (PalPop.new item.perceptualWeight)) ([] : PalF F) with
  | error f => rw [h1] at e; cases e
  | ok q =>
    rw [h1] at e
    simp only [bind, Except.bind] at e
    cases h2 : PalF.withFixedColors q m h.fixedColors with
    | error f => rw [h2] at e; cases e
    | ok q2 =>
      rw [h2] at e
      cases e
      refine ⟨withFixedColors_fin w.fixed (key _ _ _ w.items (by intro x hx; cases hx) h1) h2, ?_⟩
      intro e he; cases he; exact Or.inl rfl

theorem findBestPalette_fin {env : Env F} {attr : Attr F} (hm : 1 ≤ attr.maxColors) (hm' : attr.maxColors ≤ 256) {T targetMse : F} {z : Bool}
    {maxMse : Option F} {hist : HistogramInternal F} (h0 : WorkFin op sm T 0 hist) (ht : attr.feedbackTrials hist.items.length ≤ maxRounds sm)
    {log log' : List F} {p : PalF F} {err : Option F}
    (e : findBestPalette env attr targetMse z maxMse hist log = (.ok (p, err), log')) : PalFin op p ∧ ∀ e, err = some e → ErrOf T e := by
  unfold findBestPalette at e
  split at e
  · exact paletteFromHistogram_fin h0 (PM.lift_ok_inv e).1
  · obtain ⟨⟨q, st⟩, l1, e1, ee5⟩ := PM.bind_ok_inv e
    clear e; have e := ee5; clear ee5
    obtain ⟨hq, hh, he⟩ := findLoop_fin hm' _ _ (FindState.init attr hist) _ 0 (by simp [FindState.init]; exact ht) h0 hm le_rfl
      (by intro p hp; simp [FindState.init] at hp) (by intro p hp; simp [FindState.init] at hp) e1
    exact refineLoop_fin _ _ _ _ _ _ _ _ _ hh hq he e

theorem new_fin {env : Env F} {attr : Attr F} (hm : 1 ≤ attr.maxColors) (hm' : attr.maxColors ≤ 256) {T : F}
    {hist : HistogramInternal F} (h0 : WorkFin op sm T 0 hist) (ht : attr.feedbackTrials hist.items.length ≤ maxRounds sm)
    {freeze : Bool} {gamma : F} {log log' : List F} {r : QuantizationResult F}
    (e : QuantizationResult.new env attr hist freeze gamma log = (.ok r, log')) :
    PalFin op r.palette ∧ ∀ e, r.paletteError = some e → ErrOf T e := by
  unfold QuantizationResult.new at e
  rw [PM.bind_ok (progress_eq _ _ _)] at e
  split at e
  · cases e
  · dsimp only at e
    obtain ⟨⟨q, err⟩, l1, e1, ee6⟩ := PM.bind_ok_inv e
    clear e; have e := ee6; clear ee6
    dsimp only at e
    rw [PM.bind_ok (progress_eq _ _ _)] at e
    split at e
    · cases e
    · split at e
      · cases e
      · cases e
        obtain ⟨hp, he⟩ := findBestPalette_fin hm hm' h0 ht e1
        refine ⟨?_, he⟩
        intro x hx
        have hx' := (sortPalette_perm _ _).mem_iff.1 hx
        split at hx'
        · obtain ⟨y, hy, rfl⟩ := List.mem_map.1 hx'
          exact ⟨⟨(hp y hy).1.1, toFixed_fin (hp y hy).1.2⟩, (hp y hy).2⟩
        · exact hp x hx'

end Verif
