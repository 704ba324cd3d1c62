import Verif.Lemmas.DebugCut

/-! The checks of a debug build about numbers pass when arithmetic rounds: the search. -/

set_option linter.unusedSectionVars false
set_option exponentiation.threshold 1000

namespace Verif
open Flt FltRound FltCorrect Spec
open FltFull (r32_idem r64 r64_mono r64_idem r64_nat lit64_eq add64_eq div64_eq to32_eq pow32_unit)

variable {F : Type} [Flt F] [FltMin F] {op sm : Prop}

theorem coloursOK_unit : ColoursOK true (FPixel.UnitFin (F := F)) where
  diff := fun _ _ _ hx hy => isFinite_of (diff_wide_unit hx.wide hy).fin
  same := by
    intro _ x hx
    have key : ∀ y : F, fin y → Flt.eq y y = true := fun y hy => (FltRound.eq y y hy hy).2 rfl
    unfold FPixel.beq
    rw [key _ hx.a.fin, key _ hx.r.fin, key _ hx.g.fin, key _ hx.b.fin]
    rfl
  zero := fun _ => nn_zero.ge_zero

/-! ### Limits -/

theorem lit64_size (q : ℚ) (h0 : 0 ≤ q) (h : q ≤ 2 ^ 67) : Size (2 ^ 69) (lit64 q : F) := by
  have h0' : (0:ℝ) ≤ q := by exact_mod_cast h0
  have h' : (q:ℝ) ≤ 2 ^ 67 := by exact_mod_cast h
  have ha : |(q:ℝ)| ≤ 2 ^ 67 := by rwa [abs_of_nonneg h0']
  obtain ⟨f, r⟩ := FltRound.lit64 (F := F) q (fits64_size ha (by norm_num))
  exact ⟨f, size_of_rounds r ha (by norm_num)⟩

theorem mse_size {q : ℕ} (h : q ≤ 100) : Size (2 ^ 69) (qualityToMse q : F) := by
  rcases Nat.eq_zero_or_pos q with rfl | h1
  · unfold qualityToMse
    rw [if_pos rfl]
    exact lit64_size _ (by norm_num) (by norm_num)
  · have hn := qualityToMse_near (F := F) h1 h
    have h2 := qualityLimit_le h1
    have h3 := qualityLimit_nonneg q
    have h4 := abs_le.1 hn.near
    refine ⟨hn.fin, abs_le.2 ⟨?_, ?_⟩⟩ <;> norm_num at * <;> linarith

theorem maxMsePerColor_size {t : F} (ht : Size (2 ^ 75) t) {err : Option F} (he : ∀ e, err = some e → NN (2 ^ 40) e) :
    Size (2 ^ 100) (maxMsePerColor t err) := by
  have h1 : Size (2 ^ 75) (err.getD (qualityToMse 1)) := by
    cases hc : err with
    | none => exact (mse_size (by norm_num)).mono (by norm_num)
    | some e => exact (he e hc).size.mono (by norm_num)
  have hl : Size (2 ^ 4) (lit64 (12/10) : F) := by
    have ha : |(((12/10 : ℚ)) : ℝ)| ≤ 2 := by rw [abs_of_nonneg (by norm_num)]; norm_num
    obtain ⟨f, r⟩ := FltRound.lit64 (F := F) (12/10) (fits64_size ha (by norm_num))
    exact ⟨f, size_of_rounds r ha (by norm_num)⟩
  exact ((ht.max h1).max ((mse_size (by norm_num)).mono (by norm_num))).mul hl (by norm_num) (by norm_num)

theorem target_size (cs : List Call) (cb : Option (List F → Bool)) (hp : (userAttr cs cb).minPosterizationOutput ≤ 4) (n : ℕ) :
    Size (2 ^ 75) ((userAttr cs cb).targetMseFor n).2.1 := by
  obtain ⟨hm, ht⟩ := userAttr_quality cs cb
  have hr := lastQuality_range cs
  have h1 : Size (2 ^ 75) (userAttr cs cb).targetMse := by
    rw [ht]
    cases hl : lastQuality cs with
    | none => exact (lit64_size 0 le_rfl (by norm_num)).mono (by norm_num)
    | some q => exact (mse_size (hr q hl).2).mono (by norm_num)
  have hx : Size 10 (lit64 (2 ^ (userAttr cs cb).minPosterizationOutput) /₆ lit64 1024 : F) := by
    obtain ⟨f, e⟩ := lit64_nat (F := F) (n := 2 ^ (userAttr cs cb).minPosterizationOutput) (by
      exact (Nat.pow_le_pow_right (by norm_num) hp).trans (by norm_num))
    obtain ⟨g, d⟩ := lit64_nat (F := F) (n := 1024) (by norm_num)
    push_cast at f e g d
    have h16 : (2:ℝ) ^ (userAttr cs cb).minPosterizationOutput ≤ 2 ^ 4 := pow_le_pow_right₀ (by norm_num) hp
    have hq : |val (lit64 (2 ^ (userAttr cs cb).minPosterizationOutput) : F) / val (lit64 1024 : F)| ≤ 1 := by
      rw [e, d, abs_of_nonneg (by positivity), div_le_one (by norm_num)]
      norm_num at h16 ⊢; linarith
    obtain ⟨fq, rq⟩ := FltRound.div64 _ _ f g (by rw [d]; norm_num) (fits64_size hq (by norm_num))
    exact ⟨fq, size_of_rounds rq hq (by norm_num)⟩
  have hxx := (hx.mul hx (c := 201) (by norm_num) (by norm_num)).mono (b := 2 ^ 75) (by norm_num)
  have h2 := h1.max hxx
  unfold Attr.targetMseFor
  dsimp only
  cases hmm : (userAttr cs cb).maxMse with
  | none => exact h2
  | some m =>
    refine h2.min ?_
    rw [hm] at hmm
    cases hl : lastQuality cs with
    | none => rw [hl] at hmm; cases hmm
    | some q =>
      rw [hl] at hmm
      cases hmm
      have hq := mse_size (F := F) (q := q.1) ((hr q hl).1.trans (hr q hl).2)
      refine hq.mul (b := 4) ?_ (by norm_num) (by norm_num)
      have key : ∀ x : ℚ, 0 ≤ x → x ≤ 1 → Size 4 (lit64 x : F) := by
        intro x h0 h1
        have ha : |(x:ℝ)| ≤ 1 := by
          rw [abs_of_nonneg (by exact_mod_cast h0)]; exact_mod_cast h1
        obtain ⟨f, r⟩ := FltRound.lit64 (F := F) x (fits64_size ha (by norm_num))
        exact ⟨f, size_of_rounds r ha (by norm_num)⟩
      split
      · exact key _ (by norm_num) (by norm_num)
      · exact key _ (by norm_num) (by norm_num)

/-! ### Loops -/

theorem findLoopD_fin [FltSign F] {env : Env F} {attr : Attr F} (hm : attr.maxColors ≤ 256) {T : F} {targetMse : F} (hts : Size (2 ^ 75) targetMse)
    (total : ℕ) (st : FindState F) (log : List F) (k : ℕ) (hk : k + st.trialsLeft.toNat ≤ maxRounds sm)
    (h0 : WorkFin op sm T k st.hist) (l0 : Loaded T st.hist) (h1 : 1 ≤ st.maxColors) (h1' : st.maxColors ≤ attr.maxColors)
    (h3 : ∀ e, st.paletteError = some e → NN (2 ^ 40) e) :
    findLoopD true env attr targetMse total st log = findLoop env attr targetMse total st log ∧
    ∀ p st' log', findLoop env attr targetMse total st log = (.ok (p, st'), log') → Loaded T st'.hist := by
  generalize hn : st.trialsLeft.toNat = n
  induction n using Nat.strong_induction_on generalizing st log k with
  | _ n ih =>
    have hcut := l0.cutD (by omega) h0 env.so h1 (h1'.trans hm) (targetMse *₆ st.overshoot) (maxMsePerColor_size hts h3)
    have step : ∀ (pal : PalF F) hist, mediancut env.so st.hist st.maxColors (targetMse *₆ st.overshoot) (maxMsePerColor targetMse st.paletteError) =
        .ok (pal, hist) → pal.withFixedColorsD true attr.maxColors hist.fixedColors = pal.withFixedColors attr.maxColors hist.fixedColors := by
      intro pal hist e
      obtain ⟨hp, -⟩ := mediancut_fin env.so _ _ _ h0.tiled (h0.len.trans (by norm_num)) (fun x hx => (h0.items x hx).mono (adjMax_le (by omega))) h0.size e
      obtain ⟨pal', h'', boxes, e', c⟩ := mediancut_spec env.so st.hist st.maxColors (targetMse *₆ st.overshoot)
        (maxMsePerColor targetMse st.paletteError) h0.tiled (h1'.trans hm)
      rw [e] at e'; cases e'
      have := c.pal_len
      exact withFixedColorsD_of coloursOK_unit _ _ _ (by omega) hm (fun x hx => (hp x hx).1.1) (fun x hx => (h0.fixed x (by rwa [c.fixed] at hx)).1)
    have next : ∀ (hist' : HistogramInternal F) (p' : PalF F) (err : F) log', 0 < st.trialsLeft → Loaded T hist' → WorkFin op sm T (k + 1) hist' → NN (2 ^ 40) err →
        findLoopD true env attr targetMse total (nextState st targetMse err p' hist') log' =
          findLoop env attr targetMse total (nextState st targetMse err p' hist') log' ∧
        ∀ p st' log'', findLoop env attr targetMse total (nextState st targetMse err p' hist') log' = (.ok (p, st'), log'') → Loaded T st'.hist := by
      intro hist' p' err log' hpos hl hh1 herr
      have hlt := trialUpdate_lt st targetMse err p'
      refine ih _ ?_ (nextState st targetMse err p' hist') _ (k + 1) ?_ hh1 hl (trialUpdate_maxColors st targetMse err p' h1).1
          ((trialUpdate_maxColors st targetMse err p' h1).2.trans h1') ?_ rfl
      · rw [← hn]
        show (trialUpdate st targetMse err p').trialsLeft.toNat < _
        omega
      · show k + 1 + (trialUpdate st targetMse err p').trialsLeft.toNat ≤ maxRounds sm
        omega
      · intro q hq
        rcases trialUpdate_error st targetMse err p' with h | h
        · have hq : (trialUpdate st targetMse err p').paletteError = some q := hq
          rw [h] at hq; cases hq; exact herr
        · have hq : (trialUpdate st targetMse err p').paletteError = some q := hq
          rw [h] at hq; exact h3 q hq
    constructor
    · rw [findLoopD, findLoop, hcut]
      refine PM.bind_congr fun ⟨pal, hist⟩ l e1 => ?_
      obtain ⟨f1, rfl⟩ := PM.lift_ok_inv e1
      dsimp only
      rw [step _ _ f1]
      refine PM.bind_congr fun pal2 l2 e2 => ?_
      obtain ⟨f2, rfl⟩ := PM.lift_ok_inv e2
      obtain ⟨hh, hp, hthin⟩ := h0.cut (by omega) (h1'.trans hm) f1 f2
      have hl := l0.cut h0.tiled (h1'.trans hm) f1
      by_cases ht : st.trialsLeft ≤ 0
      · rw [dif_pos ht, dif_pos ht]
      · rw [dif_neg ht, dif_neg ht]
        obtain ⟨hpass, hres⟩ := hl.pass (env := env) (t := st.clock) (by omega) hh
          (adj := !(st.best.isNone && Flt.lt (Flt.lit64 0) targetMse)) (fun _ => ⟨by omega, hthin⟩) hp
        rw [hpass]
        refine PM.bind_congr fun ⟨hist', p', err⟩ l3 e3 => ?_
        obtain ⟨f3, rfl⟩ := PM.lift_ok_inv e3
        obtain ⟨hh', -, -⟩ := hh.pass (by omega) (fun _ => ⟨by omega, hthin⟩) hp f3
        have hh1 : WorkFin op sm T (k + 1) hist' := hh'.mono (by split <;> omega)
        obtain ⟨hl', herr⟩ := hres _ _ _ f3
        dsimp only
        refine PM.bind_congr fun ab l4 e4 => ?_
        split
        · rfl
        next hd => exact (next hist' p' err _ (by omega) hl' hh1 herr).1
    · intro p st' log' e
      rw [findLoop] at e
      obtain ⟨⟨pal, hist⟩, l1, e1, ee1⟩ := PM.bind_ok_inv e
      clear e; have e := ee1; clear ee1
      obtain ⟨fe1, hl1⟩ := PM.lift_ok_inv e1; subst hl1
      dsimp only at e
      obtain ⟨pal2, l2, e2, ee2⟩ := PM.bind_ok_inv e
      clear e; have e := ee2; clear ee2
      obtain ⟨fe2, hl2⟩ := PM.lift_ok_inv e2; subst hl2
      obtain ⟨hh, hp, hthin⟩ := h0.cut (by omega) (h1'.trans hm) fe1 fe2
      have hl := l0.cut h0.tiled (h1'.trans hm) fe1
      by_cases ht : st.trialsLeft ≤ 0
      · rw [dif_pos ht] at e
        cases e
        exact hl
      · rw [dif_neg ht] at e
        obtain ⟨⟨hist', p', err⟩, l3, e3, ee3⟩ := PM.bind_ok_inv e
        clear e; have e := ee3; clear ee3
        obtain ⟨fe3, hl3⟩ := PM.lift_ok_inv e3; subst hl3
        obtain ⟨hh', -, -⟩ := hh.pass (by omega) (fun _ => ⟨by omega, hthin⟩) hp fe3
        have hh1 : WorkFin op sm T (k + 1) hist' := hh'.mono (by split <;> omega)
        obtain ⟨hl', herr⟩ := (hl.pass (by omega) hh (fun _ => ⟨by omega, hthin⟩) hp).2 _ _ _ fe3
        dsimp only at e
        rw [PM.bind_ok (progress_eq _ _ _)] at e
        split at e
        · cases hq : (trialUpdate st targetMse err p').best with
          | some q =>
            simp only [hq] at e
            cases e
            exact hl'
          | none =>
            simp only [hq] at e
            cases e
        next hd => exact (next hist' p' err _ (by omega) hl' hh1 herr).2 _ _ _ e

theorem refineLoopD_fin {env : Env F} {attr : Attr F} {T : F} (maxMse : Option F) (iterations : ℕ) (limit : F) (clock i : ℕ)
    (hist : HistogramInternal F) (p : PalF F) (err : Option F) (log : List F) (h0 : WorkFin op sm T (maxRounds sm) hist) (l0 : Loaded T hist) (h1 : PalFin op p) :
    refineLoopD true env attr maxMse iterations limit clock i hist p err log =
      refineLoop env attr maxMse iterations limit clock i hist p err log := by
  generalize hn : iterations - i = n
  induction n using Nat.strong_induction_on generalizing clock i hist p err log with
  | _ n ih =>
    rw [refineLoopD, refineLoop]
    by_cases hi : i < iterations
    · rw [dif_pos hi, dif_pos hi]
      refine PM.bind_congr fun ab l e => ?_
      split
      · rfl
      · obtain ⟨hpass, hres⟩ := l0.pass (env := env) (t := clock) (adj := false) le_rfl h0 (by simp) h1
        rw [hpass]
        refine PM.bind_congr fun ⟨hist', q, pe⟩ l3 e3 => ?_
        obtain ⟨f3, rfl⟩ := PM.lift_ok_inv e3
        obtain ⟨hh', hp', -⟩ := h0.pass le_rfl (by simp) h1 f3
        obtain ⟨hl', herr⟩ := hres _ _ _ f3
        dsimp only
        rw [dbgNum_ok (fun _ => herr.small (by norm_num))]
        rw [PM.bind_ok (m := PM.lift (Except.ok ())) (a := ()) (log := l3) (log' := l3) rfl]
        have key : ∀ b : Bool, (if b = true then (pure (q, some pe) : PM F (PalF F × Option F)) else
            refineLoopD true env attr maxMse iterations limit (clock + 1)
            (i + if Flt.lt (maxMse.getD (Flt.lit64 (10 ^ 20)) *₆ Flt.lit64 (15/10)) pe then 2 else 1) hist' q (some pe)) l3 =
            (if b = true then (pure (q, some pe) : PM F (PalF F × Option F)) else
            refineLoop env attr maxMse iterations limit (clock + 1)
            (i + if Flt.lt (maxMse.getD (Flt.lit64 (10 ^ 20)) *₆ Flt.lit64 (15/10)) pe then 2 else 1) hist' q (some pe)) l3 := by
          intro b
          cases b with
          | true => rfl
          | false => exact ih _ (by split <;> omega) _ _ _ _ _ _ hh' hl' hp' rfl
        exact key _
    · rw [dif_neg hi, dif_neg hi]

theorem newD_fin [FltSign F] {env : Env F} {attr : Attr F} (hm : 1 ≤ attr.maxColors) (hm' : attr.maxColors ≤ 256) {T : F}
    {hist : HistogramInternal F} (h0 : WorkFin op sm T 0 hist) (ht : attr.feedbackTrials hist.items.length ≤ maxRounds sm)
    (hts : Size (2 ^ 75) (attr.targetMseFor hist.items.length).2.1)
    (hc : Loaded T hist ∨ (hist.items.length ≤ attr.maxColors ∧ Flt.eq attr.targetMse (Flt.lit64 0) = true)) (freeze : Bool) (gamma : F) (log : List F) :
    QuantizationResult.newD true env attr hist freeze gamma log = QuantizationResult.new env attr hist freeze gamma log := by
  refine newD_of_find freeze gamma (fun _ log p err log' e => ?_) (fun log => ?_) log
  · have hp := (findBestPalette_fin hm hm' h0 ht e).1
    have key : ∀ x : PalEntry F, x.color.UnitFin → fin x.pop.val → isFinite x.pop.popularity = true ∧ isFinite x.color.a = true := by
      intro x hx hv
      refine ⟨isFinite_of ?_, isFinite_of hx.a.fin⟩
      exact (FltRound.abs _ hv).1
    intro x hx
    split at hx
    · obtain ⟨y, hy, rfl⟩ := List.mem_map.1 hx
      exact key _ (hp y hy).1.1 (toFixed_fin (hp y hy).1.2)
    · exact key _ (hp x hx).1.1 (hp x hx).1.2
  · unfold findBestPaletteD findBestPalette
    split
    next h =>
      simp only [Bool.and_eq_true, decide_eq_true_eq] at h
      rw [paletteFromHistogramD_of coloursOK_unit hm' h.1 (fun _ x hx => (h0.items x hx).perc.ge_zero)
        (fun x hx => (h0.items x hx).color) (fun c hc => (h0.fixed c hc).1)]
    next h =>
      have l0 : Loaded T hist := by
        rcases hc with l | ⟨h1, h2⟩
        · exact l
        · refine absurd ?_ h
          rw [Bool.and_eq_true]
          exact ⟨by simpa using h1, h2⟩
      obtain ⟨he, hl⟩ := findLoopD_fin (op := op) (env := env) hm' hts (attr.feedbackTrials hist.items.length) (FindState.init attr hist) log 0
        (by simp [FindState.init]; exact ht) h0 l0 hm le_rfl (by intro p hp; simp [FindState.init] at hp)
      rw [PM.bind_apply, PM.bind_apply, he]
      cases hfl : findLoop env attr (attr.targetMseFor hist.items.length).2.1 (attr.feedbackTrials hist.items.length)
          (FindState.init attr hist) log with
      | mk r l =>
        cases r with
        | error f => rfl
        | ok x =>
          obtain ⟨p, st⟩ := x
          obtain ⟨hq, hh, -⟩ := findLoop_fin hm' _ _ (FindState.init attr hist) _ 0 (by simp [FindState.init]; exact ht) h0 hm le_rfl
            (by intro p hp; simp [FindState.init] at hp) (by intro p hp; simp [FindState.init] at hp) hfl
          exact refineLoopD_fin _ _ _ _ _ _ _ _ _ hh (hl _ _ _ hfl) hq

end Verif
