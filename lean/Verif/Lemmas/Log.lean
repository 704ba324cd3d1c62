import Verif.Model.Log
import Verif.Lemmas.QuantRun

/-! Computations with log messages: leaving the messages out, and which messages there are. -/

set_option linter.unusedSectionVars false

namespace Verif
open Flt

variable {F : Type} [Flt F] {α β : Type}

theorem reportsOf_append (a b : List (Event F)) : reportsOf (a ++ b) = reportsOf a ++ reportsOf b := List.filterMap_append

theorem messagesOf_append (a b : List (Event F)) : messagesOf (a ++ b) = messagesOf a ++ messagesOf b := List.filterMap_append

theorem LM.bind_apply (m : LM F α) (f : α → LM F β) (ev : List (Event F)) : (m >>= f) ev =
    match m ev with
    | (.ok a, ev') => f a ev'
    | (.error e, ev') => (.error e, ev') := rfl

/-! ### Leaving the messages out -/

/-- `m` is `l` without messages -/
structure Erases (l : LM F α) (m : PM F α) : Prop where
  eq : ∀ ev, ((l ev).1, reportsOf (l ev).2) = m (reportsOf ev)

namespace Erases

theorem bind {l : LM F α} {m : PM F α} {f : α → LM F β} {g : α → PM F β} (h : Erases l m) (hf : ∀ a, Erases (f a) (g a)) :
    Erases (l >>= f) (m >>= g) := by
  refine ⟨fun ev => ?_⟩
  have h1 := h.eq ev
  show _ = PM.bind m g (reportsOf ev)
  unfold PM.bind
  rw [← h1, LM.bind_apply]
  obtain ⟨r, ev'⟩ := l ev
  cases r with
  | error e => rfl
  | ok a => exact (hf a).eq ev'

theorem pure (a : α) : Erases (pure a : LM F α) (pure a) := ⟨fun _ => rfl⟩

theorem throw (e : Fail) : Erases (LM.throw e : LM F α) (PM.throw e) := ⟨fun _ => rfl⟩

theorem lift (r : Res α) : Erases (LM.lift r : LM F α) (PM.lift r) := ⟨fun _ => rfl⟩

theorem progress (cb : Option (List F → Bool)) (p : F) : Erases (LM.progress cb p) (Verif.progress cb p) := by
  refine ⟨fun ev => ?_⟩
  unfold LM.progress Verif.progress
  cases cb with
  | none => rfl
  | some f => simp [reportsOf]

theorem print (lc : Option ℕ) (m : Msg F) {f : LM F α} {g : PM F α} (h : Erases f g) : Erases (LM.print lc m >>= fun _ => f) g := by
  refine ⟨fun ev => ?_⟩
  rw [LM.bind_apply]
  unfold LM.print
  cases lc with
  | none => exact h.eq ev
  | some c =>
    dsimp only
    rw [h.eq, reportsOf_append]
    simp [reportsOf]

theorem ite {p : Prop} [Decidable p] {a b : LM F α} {a' b' : PM F α} (h1 : p → Erases a a') (h2 : ¬ p → Erases b b') :
    Erases (if p then a else b) (if p then a' else b') := by
  split
  next h => exact h1 h
  next h => exact h2 h

end Erases

theorem erases_findLoop (lc : Option ℕ) (env : Env F) (attr : Attr F) (targetMse : F) (total : ℕ) (st : FindState F) :
    Erases (findLoopL lc env attr targetMse total st) (findLoop env attr targetMse total st) := by
  generalize hn : st.trialsLeft.toNat = n
  induction n using Nat.strong_induction_on generalizing st with
  | _ n ih =>
    rw [findLoopL, findLoop]
    refine .bind (.lift _) fun ⟨newPal, hist⟩ => ?_
    refine .bind (.lift _) fun newPal => ?_
    refine .print lc _ ?_
    split
    · exact .pure _
    next hpos =>
      refine .bind (.lift _) fun ⟨hist, newPal, totalError⟩ => ?_
      refine .bind (.progress _ _) fun abort => ?_
      refine .ite (fun _ => ?_) (fun _ => ?_)
      · cases (trialUpdate st targetMse totalError newPal).best with
        | some p => exact .pure _
        | none => exact .throw _
      · have := trialUpdate_lt st targetMse totalError newPal
        exact ih _ (by dsimp only; omega) _ rfl

theorem erases_refineLoop (env : Env F) (attr : Attr F) (maxMse : Option F) (iterations : ℕ) (limit : F)
    (clock i : ℕ) (hist : HistogramInternal F) (p : PalF F) (err : Option F) :
    Erases (refineLoopL env attr maxMse iterations limit clock i hist p err)
      (refineLoop env attr maxMse iterations limit clock i hist p err) := by
  generalize hn : iterations - i = n
  induction n using Nat.strong_induction_on generalizing clock i hist p err with
  | _ n ih =>
    rw [refineLoopL, refineLoop]
    split
    next h =>
      refine .bind (.progress _ _) fun abort => ?_
      refine .ite (fun _ => .pure _) (fun _ => ?_)
      refine .bind (.lift _) fun ⟨hist, p, palErr⟩ => ?_
      refine .ite (fun _ => .pure _) (fun _ => ?_)
      exact ih _ (by split <;> omega) _ _ _ _ _ rfl
    · exact .pure _

theorem erases_refinePalette (lc : Option ℕ) (env : Env F) (attr : Attr F) (maxMse : Option F) (clock : ℕ)
    (hist : HistogramInternal F) (p : PalF F) (err : Option F) :
    Erases (refinePaletteL lc env attr maxMse clock hist p err) (refinePalette env attr maxMse clock hist p err) := by
  unfold refinePaletteL refinePalette
  dsimp only
  split
  · exact .print lc _ (erases_refineLoop ..)
  next h =>
    rw [refineLoop, dif_neg (by omega)]
    exact .pure _

theorem erases_findBestPalette (lc : Option ℕ) (env : Env F) (attr : Attr F) (targetMse : F) (z : Bool) (maxMse : Option F)
    (hist : HistogramInternal F) :
    Erases (findBestPaletteL lc env attr targetMse z maxMse hist) (findBestPalette env attr targetMse z maxMse hist) := by
  unfold findBestPaletteL findBestPalette
  refine .ite (fun _ => .lift _) (fun _ => ?_)
  exact .bind (erases_findLoop ..) fun ⟨p, st⟩ => erases_refinePalette ..

theorem erases_sortPalette (lc : Option ℕ) (last : Bool) (p : PalF F) :
    Erases (sortPaletteL lc last p) (pure (sortPalette last p)) := by
  unfold sortPaletteL
  dsimp only
  split
  · exact .pure _
  split
  · exact .print lc _ (.pure _)
  · exact .pure _

theorem qualityMessage_isSome (err maxMse : Option F) : (qualityMessage err maxMse).isSome = qualityTooLow err maxMse := by
  unfold qualityMessage qualityTooLow
  cases err <;> cases maxMse <;> try rfl
  dsimp only
  split
  next h => simp [h]
  next h => simp [h]

theorem erases_new (lc : Option ℕ) (env : Env F) (attr : Attr F) (hist : HistogramInternal F) (freeze : Bool) (gamma : F) :
    Erases (QuantizationResult.newL lc env attr hist freeze gamma) (QuantizationResult.new env attr hist freeze gamma) := by
  unfold QuantizationResult.newL QuantizationResult.new
  refine .bind (.progress _ _) fun abort => ?_
  refine .ite (fun _ => .throw _) (fun _ => ?_)
  dsimp only
  refine .bind (erases_findBestPalette ..) fun ⟨palette, err⟩ => ?_
  refine .bind (.progress _ _) fun abort => ?_
  refine .ite (fun _ => .throw _) (fun _ => ?_)
  have h := qualityMessage_isSome err (attr.targetMseFor hist.items.length).1
  cases hm : qualityMessage err (attr.targetMseFor hist.items.length).1 with
  | some m =>
    rw [hm] at h
    have hq : qualityTooLow err (attr.targetMseFor hist.items.length).1 = true := h.symm
    dsimp only
    rw [hq, if_pos rfl]
    exact .print lc _ (.throw _)
  | none =>
    rw [hm] at h
    have hq : qualityTooLow err (attr.targetMseFor hist.items.length).1 = false := h.symm
    dsimp only
    rw [hq]
    exact Erases.bind (g := fun p => (pure
      { palette := p, gamma := gamma, paletteError := err
        minPosterizationOutput := attr.minPosterizationOutput, useDitherMap := attr.useDitherMap
        remapped := none, progressCallback := none, intPalette := [], ditherLevel := lit32 1
        singleThreadedDithering := attr.singleThreadedDithering } : PM F (QuantizationResult F))) (erases_sortPalette ..) fun p => .pure _

theorem erases_quantizeInternal (lc : Option ℕ) (env : Env F) (h : Histogram F) (attr : Attr F) (freeze : Bool) :
    Erases (h.quantizeInternalL lc env attr freeze) (h.quantizeInternal env attr freeze) := by
  unfold Histogram.quantizeInternalL Histogram.quantizeInternal
  refine .ite (fun _ => .throw _) (fun _ => ?_)
  refine .bind (.progress _ _) fun abort => ?_
  refine .ite (fun _ => .throw _) (fun _ => ?_)
  refine .bind (.progress _ _) fun abort => ?_
  refine .ite (fun _ => .throw _) (fun _ => ?_)
  dsimp only
  exact .bind (.lift _) fun hist => .print lc _ (erases_new ..)

/-! ### Which messages there are -/

/-- an event of a computation with this log callback -/
def Event.Of (lc : Option ℕ) : Event F → Prop
  | .progress _ => True
  | .message c _ => lc = some c
  | .flush _ => False

/-- what a computation says -/
structure Says (lc : Option ℕ) (l : LM F α) (Q : Res α → List (Msg F) → Prop) : Prop where
  run : ∀ ev, ∃ new, (l ev).2 = ev ++ new ∧ (∀ e ∈ new, e.Of lc) ∧ Q (l ev).1 (messagesOf new)

namespace Says
variable {lc : Option ℕ}

theorem mono {l : LM F α} {Q R : Res α → List (Msg F) → Prop} (h : Says lc l Q) (hqr : ∀ r ms, Q r ms → R r ms) : Says lc l R := by
  refine ⟨fun ev => ?_⟩
  obtain ⟨new, h1, h2, h3⟩ := h.run ev
  exact ⟨new, h1, h2, hqr _ _ h3⟩

theorem bind {l : LM F α} {f : α → LM F β} {Q : Res α → List (Msg F) → Prop} {R : α → Res β → List (Msg F) → Prop}
    (h : Says lc l Q) (hf : ∀ a, Says lc (f a) (R a)) :
    Says lc (l >>= f) fun r ms => (∃ e, r = .error e ∧ Q (.error e) ms) ∨ ∃ a ms1 ms2, Q (.ok a) ms1 ∧ R a r ms2 ∧ ms = ms1 ++ ms2 := by
  refine ⟨fun ev => ?_⟩
  obtain ⟨new, h1, h2, h3⟩ := h.run ev
  rw [LM.bind_apply]
  cases hl : l ev with
  | mk r ev' =>
    rw [hl] at h1 h3
    dsimp only at h1 h3
    cases r with
    | error e => exact ⟨new, h1, h2, .inl ⟨e, rfl, h3⟩⟩
    | ok a =>
      obtain ⟨new', h1', h2', h3'⟩ := (hf a).run ev'
      refine ⟨new ++ new', ?_, ?_, .inr ⟨a, _, _, h3, h3', messagesOf_append ..⟩⟩
      · dsimp only; rw [h1', h1, List.append_assoc]
      · intro e he
        rcases List.mem_append.1 he with he | he
        · exact h2 e he
        · exact h2' e he

/-- a part that says nothing -/
theorem bind_quiet {l : LM F α} {f : α → LM F β} {R : Res β → List (Msg F) → Prop}
    (h : Says lc l fun _ ms => ms = []) (hf : ∀ a, Says lc (f a) R) (he : ∀ e, R (.error e) []) : Says lc (l >>= f) R := by
  refine (h.bind hf).mono ?_
  rintro r ms (⟨e, rfl, rfl⟩ | ⟨a, ms1, ms2, rfl, h2, rfl⟩)
  · exact he e
  · exact h2

theorem pure (a : α) : Says lc (pure a : LM F α) fun r ms => r = .ok a ∧ ms = [] :=
  ⟨fun ev => ⟨[], by simp; rfl, by simp, rfl, rfl⟩⟩

theorem throw (e : Fail) : Says lc (LM.throw e : LM F α) fun r ms => r = .error e ∧ ms = [] :=
  ⟨fun ev => ⟨[], by simp; rfl, by simp, rfl, rfl⟩⟩

theorem lift (r : Res α) : Says lc (LM.lift r : LM F α) fun r' ms => r' = r ∧ ms = [] :=
  ⟨fun ev => ⟨[], by simp; rfl, by simp, rfl, rfl⟩⟩

theorem progress (cb : Option (List F → Bool)) (p : F) : Says lc (LM.progress cb p) fun _ ms => ms = [] := by
  refine ⟨fun ev => ?_⟩
  unfold LM.progress
  cases cb with
  | none => exact ⟨[], by simp, by simp, rfl⟩
  | some f => exact ⟨[.progress p], rfl, by simp [Event.Of], rfl⟩

theorem print (m : Msg F) : Says lc (LM.print lc m) fun r ms => r = .ok () ∧ ms = (lc.map fun _ => m).toList := by
  refine ⟨fun ev => ?_⟩
  unfold LM.print
  cases lc with
  | none => exact ⟨[], by simp, by simp, rfl, rfl⟩
  | some c => exact ⟨[.message c m], rfl, by simp [Event.Of], rfl, rfl⟩

theorem ite {p : Prop} [Decidable p] {a b : LM F α} {Q : Res α → List (Msg F) → Prop} (h1 : p → Says lc a Q) (h2 : ¬ p → Says lc b Q) :
    Says lc (if p then a else b) Q := by
  split
  next h => exact h1 h
  next h => exact h2 h

/-- one message more in front -/
theorem print_bind {c : ℕ} {m : Msg F} {f : LM F α} {R : Res α → List (Msg F) → Prop} (hf : Says (some c) f fun r ms => R r (m :: ms)) :
    Says (some c) (LM.print (some c) m >>= fun _ => f) R := by
  refine ((print m).bind fun _ => hf).mono ?_
  rintro r ms (⟨e, rfl, h, -⟩ | ⟨a, ms1, ms2, ⟨-, rfl⟩, h2, rfl⟩)
  · cases h
  · exact h2

end Says

/-- the rounds of the search: how many trials are left in each of them -/
structure Rounds (start : ℤ) (ts : List ℤ) : Prop where
  falling : ts.Pairwise (· > ·)
  le : ∀ t ∈ ts, t ≤ start
  pos : ∀ t ∈ ts, t = start ∨ 0 < t
  short : ts.length ≤ max 1 start.toNat

theorem Rounds.nil (start : ℤ) : Rounds start [] := ⟨.nil, by simp, by simp, by simp⟩

theorem Rounds.single (start : ℤ) : Rounds start [start] := ⟨by simp, by simp, by simp, by simp⟩

theorem Rounds.cons {start next : ℤ} {ts : List ℤ} (h : Rounds next ts) (hp : 0 < next) (hn : next < start) :
    Rounds start (start :: ts) where
  falling := List.pairwise_cons.2 ⟨fun t ht => lt_of_le_of_lt (h.le t ht) hn, h.falling⟩
  le := by
    intro t ht
    rcases List.mem_cons.1 ht with rfl | ht
    · exact le_rfl
    · exact (h.le t ht).trans hn.le
  pos := by
    intro t ht
    rcases List.mem_cons.1 ht with rfl | ht
    · exact .inl rfl
    · rcases h.pos t ht with rfl | h'
      · exact .inr hp
      · exact .inr h'
  short := by
    have := h.short
    rw [List.length_cons]
    omega

/-- the messages of the rounds -/
def roundMessages (total : ℕ) (ts : List ℤ) : List (Msg F) :=
  ts.map fun t => .selecting (toU8 (lit32 100 *₃ stageDone total t : F))

theorem says_findLoop (c : ℕ) (env : Env F) (attr : Attr F) (targetMse : F) (total : ℕ) (st : FindState F) :
    Says (some c) (findLoopL (some c) env attr targetMse total st) fun r ms =>
      ∃ ts, Rounds st.trialsLeft ts ∧ ms = roundMessages total ts ∧ (∀ a, r = .ok a → ts ≠ [] ∧
        (st.best.isSome = st.paletteError.isSome →
          a.2.paletteError.isSome = (decide (0 < st.trialsLeft) || st.paletteError.isSome))) := by
  generalize hn : st.trialsLeft.toNat = n
  induction n using Nat.strong_induction_on generalizing st with
  | _ n ih =>
    have quiet : ∀ e : Fail, ∃ ts, Rounds st.trialsLeft ts ∧ ([] : List (Msg F)) = roundMessages total ts ∧
        (∀ a : PalF F × FindState F, (.error e : Res (PalF F × FindState F)) = .ok a → ts ≠ [] ∧
        (st.best.isSome = st.paletteError.isSome →
          a.2.paletteError.isSome = (decide (0 < st.trialsLeft) || st.paletteError.isSome))) :=
      fun e => ⟨[], .nil _, rfl, fun a h => by cases h⟩
    rw [findLoopL]
    refine .bind_quiet ((Says.lift _).mono fun _ _ h => h.2) (fun ⟨newPal, hist⟩ => ?_) quiet
    refine .bind_quiet ((Says.lift _).mono fun _ _ h => h.2) (fun newPal => ?_) quiet
    refine .print_bind ?_
    have last : ∀ r : Res (PalF F × FindState F), (∀ a, r = .ok a → (st.best.isSome = st.paletteError.isSome →
          a.2.paletteError.isSome = (decide (0 < st.trialsLeft) || st.paletteError.isSome))) → ∃ ts, Rounds st.trialsLeft ts ∧
        [Msg.selecting (toU8 (lit32 100 *₃ stageDone total st.trialsLeft : F))] = roundMessages total ts ∧
        (∀ a, r = .ok a → ts ≠ [] ∧ (st.best.isSome = st.paletteError.isSome →
          a.2.paletteError.isSome = (decide (0 < st.trialsLeft) || st.paletteError.isSome))) :=
      fun r hr => ⟨[st.trialsLeft], .single _, rfl, fun a h => ⟨by simp, hr a h⟩⟩
    split
    next hpos =>
      refine (Says.pure _).mono ?_
      rintro r ms ⟨rfl, rfl⟩
      refine last _ fun a h _ => ?_
      cases h
      simp [hpos]
    next hpos =>
      refine .bind_quiet ((Says.lift _).mono fun _ _ h => h.2) (fun ⟨hist, newPal, totalError⟩ => ?_) fun e => last _ fun a h => by cases h
      refine .bind_quiet (.progress _ _) (fun abort => ?_) fun e => last _ fun a h => by cases h
      have hinv : st.best.isSome = st.paletteError.isSome → (trialUpdate st targetMse totalError newPal).paletteError.isSome = true ∧
          (trialUpdate st targetMse totalError newPal).best.isSome = true := by
        intro hb
        unfold trialUpdate
        split
        · exact ⟨rfl, rfl⟩
        next hn =>
          have : st.best.isSome = true := by
            cases h : st.best with
            | none => simp [h] at hn
            | some _ => rfl
          exact ⟨hb ▸ this, this⟩
      refine .ite (fun _ => ?_) (fun hc => ?_)
      · cases hbest : (trialUpdate st targetMse totalError newPal).best with
        | some p =>
          refine (Says.pure _).mono ?_
          rintro r ms ⟨rfl, rfl⟩
          refine last _ fun a h hb => ?_
          cases h
          rw [decide_eq_true (by omega), Bool.true_or]
          exact (hinv hb).1
        | none =>
          refine (Says.throw _).mono ?_
          rintro r ms ⟨rfl, rfl⟩
          exact last _ fun a h => by cases h
      · have := trialUpdate_lt st targetMse totalError newPal
        simp only [Bool.or_eq_true, decide_eq_true_eq, not_or, not_le] at hc
        refine (ih _ (by dsimp only; omega) _ rfl).mono ?_
        rintro r ms ⟨ts, h1, rfl, h2⟩
        refine ⟨_, h1.cons hc.2 this, rfl, fun a h => ⟨by simp, fun hb => ?_⟩⟩
        have hi := hinv hb
        rw [(h2 a h).2 (hi.2.trans hi.1.symm), hi.1, decide_eq_true (by omega : 0 < st.trialsLeft)]
        simp

theorem says_refineLoop (lc : Option ℕ) (env : Env F) (attr : Attr F) (maxMse : Option F) (iterations : ℕ) (limit : F)
    (clock i : ℕ) (hist : HistogramInternal F) (p : PalF F) (err : Option F) :
    Says lc (refineLoopL env attr maxMse iterations limit clock i hist p err) fun _ ms => ms = [] := by
  generalize hn : iterations - i = n
  induction n using Nat.strong_induction_on generalizing clock i hist p err with
  | _ n ih =>
    rw [refineLoopL]
    split
    next h =>
      refine .bind_quiet (.progress _ _) (fun abort => ?_) fun _ => rfl
      refine .ite (fun _ => (Says.pure _).mono fun _ _ h => h.2) (fun _ => ?_)
      refine .bind_quiet ((Says.lift _).mono fun _ _ h => h.2) (fun ⟨hist, p, palErr⟩ => ?_) fun _ => rfl
      refine .ite (fun _ => (Says.pure _).mono fun _ _ h => h.2) (fun _ => ?_)
      exact ih _ (by split <;> omega) _ _ _ _ _ rfl
    · exact (Says.pure _).mono fun _ _ h => h.2

/-- refining is announced iff there are passes to be made; their number is positive for every histogram or for none -/
theorem kmeansIterationsFor_pos (attr : Attr F) (n : ℕ) (known : Bool) :
    0 < (attr.kmeansIterationsFor n known).1 ↔ 0 < attr.kmeansIterations ∨ known = false ∧ attr.maxMse.isSome = true := by
  have hr : 0 < Attr.reduceBySize attr.kmeansIterations n ↔ 0 < attr.kmeansIterations := by
    unfold Attr.reduceBySize Attr.reduce
    dsimp only
    repeat' split
    all_goals omega
  unfold Attr.kmeansIterationsFor
  dsimp only
  cases known <;> cases attr.maxMse.isSome <;> simp [hr]
  split <;> omega

theorem says_refinePalette (c : ℕ) (env : Env F) (attr : Attr F) (maxMse : Option F) (clock : ℕ)
    (hist : HistogramInternal F) (p : PalF F) (err : Option F) :
    Says (some c) (refinePaletteL (some c) env attr maxMse clock hist p err) fun _ ms =>
      ms = if 0 < attr.kmeansIterations ∨ err.isSome = false ∧ attr.maxMse.isSome = true then [.moving] else [] := by
  unfold refinePaletteL
  dsimp only
  have := kmeansIterationsFor_pos attr hist.items.length err.isSome
  split
  next h =>
    rw [if_pos (this.1 h)]
    exact .print_bind ((says_refineLoop ..).mono fun r ms h => by rw [h])
  next h =>
    rw [if_neg (fun h' => h (this.2 h'))]
    exact (Says.pure _).mono fun _ _ h => h.2

/-- a fact about the results of the computation without messages -/
theorem Says.erased {lc : Option ℕ} {l : LM F α} {m : PM F α} {Q : Res α → List (Msg F) → Prop} {P : Res α → Prop} (h : Says lc l Q)
    (he : Erases l m) (hp : ∀ log, P (m log).1) : Says lc l fun r ms => Q r ms ∧ P r := by
  refine ⟨fun ev => ?_⟩
  obtain ⟨new, h1, h2, h3⟩ := h.run ev
  refine ⟨new, h1, h2, h3, ?_⟩
  rw [show (l ev).1 = (m (reportsOf ev)).1 from congrArg Prod.fst (he.eq ev)]
  exact hp _

theorem feedbackTrials_pos (attr : Attr F) (n : ℕ) : 0 < attr.feedbackTrials n ↔ 0 < attr.feedbackLoopTrials := by
  unfold Attr.feedbackTrials Attr.reduceBySize Attr.reduce
  dsimp only
  repeat' split
  all_goals omega

/-- whether the search ends with moving the colours -/
def Attr.Moves (attr : Attr F) : Prop :=
  0 < attr.kmeansIterations ∨ attr.feedbackLoopTrials = 0 ∧ attr.maxMse.isSome = true

instance (attr : Attr F) : Decidable attr.Moves := inferInstanceAs (Decidable (_ ∨ _))

/-- messages of a search that ran to its end -/
structure SearchSaid (attr : Attr F) (n : ℕ) (ts : List ℤ) (ms : List (Msg F)) : Prop where
  rounds : Rounds (attr.feedbackTrials n) ts
  quick : n ≤ attr.maxColors ∧ eq attr.targetMse (lit64 0) = true → ms = []
  search : ¬ (n ≤ attr.maxColors ∧ eq attr.targetMse (lit64 0) = true) →
    ts ≠ [] ∧ ms = roundMessages (attr.feedbackTrials n) ts ++ if attr.Moves then [.moving] else []

theorem says_findBestPalette (c : ℕ) (env : Env F) (attr : Attr F) (targetMse : F) (maxMse : Option F) (hist : HistogramInternal F) :
    Says (some c) (findBestPaletteL (some c) env attr targetMse (eq attr.targetMse (lit64 0)) maxMse hist) fun r ms =>
      ∀ a, r = .ok a → ∃ ts, SearchSaid attr hist.items.length ts ms := by
  unfold findBestPaletteL
  refine .ite (fun hc => ?_) (fun hc => ?_)
  · simp only [Bool.and_eq_true, decide_eq_true_eq] at hc
    refine (Says.lift _).mono ?_
    rintro r ms ⟨rfl, rfl⟩ a -
    exact ⟨[], .nil _, fun _ => rfl, fun h => absurd hc h⟩
  · simp only [Bool.and_eq_true, decide_eq_true_eq] at hc
    refine ((says_findLoop ..).bind (R := fun a _ ms =>
      ms = if 0 < attr.kmeansIterations ∨ a.2.paletteError.isSome = false ∧ attr.maxMse.isSome = true then [.moving] else [])
      fun ⟨p, st⟩ => says_refinePalette ..).mono ?_
    rintro r ms (⟨e, rfl, -⟩ | ⟨⟨p, st⟩, ms1, ms2, ⟨ts, h1, rfl, h2⟩, rfl, rfl⟩) a ha
    · cases ha
    · obtain ⟨h3, h4⟩ := h2 _ rfl
      refine ⟨ts, h1, fun h => absurd h hc, fun _ => ⟨h3, ?_⟩⟩
      have h5 : st.paletteError.isSome = decide (0 < attr.feedbackLoopTrials) := by
        have h6 := h4 rfl
        rw [show (FindState.init attr hist).paletteError.isSome = false from rfl, Bool.or_false] at h6
        rw [h6]
        have := feedbackTrials_pos attr hist.items.length
        refine decide_eq_decide.2 ?_
        rw [← this]
        show (0 : ℤ) < (attr.feedbackTrials hist.items.length : ℤ) ↔ _
        omega
      dsimp only
      congr 1
      unfold Attr.Moves
      rw [h5]
      refine if_congr ?_ rfl rfl
      rw [decide_eq_false_iff_not, Nat.pos_iff_ne_zero (n := attr.feedbackLoopTrials), not_not]

/-- what is said about transparent entries -/
def transparentMessages (last : Bool) (p : PalF F) : List (Msg F) :=
  if last then [] else (lastTransparent p).toList.map .transparent

theorem says_sortPalette (c : ℕ) (last : Bool) (p : PalF F) :
    Says (some c) (sortPaletteL (some c) last p) fun r ms => r = .ok (sortPalette last p) ∧
      ms = transparentMessages last (sortPalette last p) := by
  unfold sortPaletteL transparentMessages
  dsimp only
  split
  · exact .pure _
  split
  next n h => exact .print_bind ((Says.pure _).mono fun r ms ⟨h1, h2⟩ => ⟨h1, by rw [h2, h]; rfl⟩)
  next h => exact (Says.pure _).mono fun r ms ⟨h1, h2⟩ => ⟨h1, by rw [h2, h]; rfl⟩

/-- What is said by a quantization, after the number of colours. -/
inductive Said (attr : Attr F) (n : ℕ) : Res (QuantizationResult F) → List (Msg F) → Prop
  | early : Said attr n (.error (.err .aborted)) []
  | late (ts : List ℤ) (ms : List (Msg F)) (h : SearchSaid attr n ts ms) : Said attr n (.error (.err .aborted)) ms
  | tooLow (ts : List ℤ) (ms : List (Msg F)) (h : SearchSaid attr n ts ms) (e m : F) (hm : (attr.targetMseFor n).1 = some m)
      (hlt : lt m e = true) : Said attr n (.error (.err .qualityTooLow))
        (ms ++ [.degraded (mseToStandardMse e) (mseToQuality e) (mseToStandardMse m) (mseToQuality m)])
  | ok (ts : List ℤ) (ms : List (Msg F)) (h : SearchSaid attr n ts ms) (r : QuantizationResult F)
      (hs : ∃ p, r.palette = sortPalette attr.lastIndexTransparent p) :
      Said attr n (.ok r) (ms ++ transparentMessages attr.lastIndexTransparent r.palette)

theorem says_new [FltSign F] (c : ℕ) (env : Env F) (attr : Attr F) (hm1 : 1 ≤ attr.maxColors) (hm : attr.maxColors ≤ 256)
    (hist : HistogramInternal F) (ht : hist.Tiled) (hpos : hist.items ≠ []) (freeze : Bool) (gamma : F) :
    Says (some c) (QuantizationResult.newL (some c) env attr hist freeze gamma) (Said attr hist.items.length) := by
  have hfind := (says_findBestPalette c env attr (attr.targetMseFor hist.items.length).2.1
    (attr.targetMseFor hist.items.length).1 hist).erased (P := fun r => ∃ a, r = .ok a) (erases_findBestPalette ..) (by
      intro log
      obtain ⟨p, err, log', h, -⟩ := findBestPalette_ok env attr hm1 hm (attr.targetMseFor hist.items.length).2.1
        (eq attr.targetMse (lit64 0)) (attr.targetMseFor hist.items.length).1 hist ht hpos log
      rw [h]
      exact ⟨_, rfl⟩)
  have hprog : ∀ p : F, Says (some c) (LM.progress attr.progressCallback p) fun r ms => ms = [] ∧ ∃ b, r = .ok b := by
    intro p
    refine ⟨fun ev => ?_⟩
    unfold LM.progress
    cases attr.progressCallback with
    | none => exact ⟨[], by simp, by simp, rfl, _, rfl⟩
    | some f => exact ⟨[.progress p], rfl, by simp [Event.Of], rfl, _, rfl⟩
  have hthrow : Says (some c) (LM.throw (.err .aborted) : LM F (QuantizationResult F)) fun r ms => r = .error (.err .aborted) ∧ ms = [] := .throw _
  unfold QuantizationResult.newL
  refine ((hprog _).bind (R := fun _ => Said attr hist.items.length) fun abort => ?_).mono ?_
  swap
  · rintro r ms (⟨e, rfl, -, b, hb⟩ | ⟨a, ms1, ms2, ⟨rfl, -⟩, h, rfl⟩)
    · cases hb
    · exact h
  refine .ite (fun _ => hthrow.mono (by rintro r ms ⟨rfl, rfl⟩; exact .early)) (fun _ => ?_)
  dsimp only
  refine (hfind.bind (R := fun a r ms => ∀ ts ms0, SearchSaid attr hist.items.length ts ms0 → Said attr hist.items.length r (ms0 ++ ms))
    fun ⟨palette, err⟩ => ?_).mono ?_
  swap
  · rintro r ms (⟨e, rfl, -, b, hb⟩ | ⟨a, ms1, ms2, ⟨h1, -⟩, h, rfl⟩)
    · cases hb
    · obtain ⟨ts, h2⟩ := h1 a rfl
      exact h ts ms1 h2
  refine ((hprog _).bind (R := fun _ r ms => ∀ ts ms0, SearchSaid attr hist.items.length ts ms0 → Said attr hist.items.length r (ms0 ++ ms))
    fun abort => ?_).mono ?_
  swap
  · rintro r ms (⟨e, rfl, -, b, hb⟩ | ⟨a, ms1, ms2, ⟨rfl, -⟩, h, rfl⟩)
    · cases hb
    · exact h
  refine .ite (fun _ => hthrow.mono (by rintro r ms ⟨rfl, rfl⟩ ts ms0 h; rw [List.append_nil]; exact .late ts ms0 h)) (fun _ => ?_)
  cases hq : qualityMessage err (attr.targetMseFor hist.items.length).1 with
  | some m =>
    dsimp only
    refine .print_bind ((Says.throw _).mono ?_)
    rintro r ms ⟨rfl, rfl⟩ ts ms0 h
    unfold qualityMessage at hq
    split at hq
    next e lim heq =>
      split at hq
      next hlt =>
        cases hq
        exact .tooLow ts ms0 h e lim heq hlt
      · cases hq
    · cases hq
  | none =>
    dsimp only
    refine ((says_sortPalette ..).bind fun p => .pure _).mono ?_
    rintro r ms (⟨e, rfl, hb, -⟩ | ⟨a, ms1, ms2, ⟨h1, rfl⟩, ⟨rfl, rfl⟩, rfl⟩) ts ms0 h
    · cases hb
    · cases h1
      rw [List.append_nil]
      exact Said.ok ts ms0 h (QuantizationResult.mk ..) ⟨_, rfl⟩

/-- what is said by `quantize` -/
inductive QuantizeSaid (attr : Attr F) (h : Histogram F) (n : ℕ) : Res (QuantizationResult F) → List (Msg F) → Prop
  | empty (h1 : h.hashmap = []) (h2 : h.fixedColors = []) : QuantizeSaid attr h n (.error (.err .unsupported)) []
  | early : QuantizeSaid attr h n (.error (.err .aborted)) []
  | found (r : Res (QuantizationResult F)) (ms : List (Msg F)) (hs : Said attr n r ms) : QuantizeSaid attr h n r (.found n :: ms)

theorem says_quantizeInternal [FltSign F] (c : ℕ) (env : Env F) (attr : Attr F) (hm1 : 1 ≤ attr.maxColors) (hm : attr.maxColors ≤ 256)
    (h : Histogram F) (freeze : Bool) :
    Says (some c) (h.quantizeInternalL (some c) env attr freeze) (QuantizeSaid attr h (h.insertFixedColors env.ho).length) := by
  have hprog : ∀ p : F, Says (some c) (LM.progress attr.progressCallback p) fun r ms => ms = [] ∧ ∃ b, r = .ok b := by
    intro p
    refine ⟨fun ev => ?_⟩
    unfold LM.progress
    cases attr.progressCallback with
    | none => exact ⟨[], by simp, by simp, rfl, _, rfl⟩
    | some f => exact ⟨[.progress p], rfl, by simp [Event.Of], rfl, _, rfl⟩
  have hthrow : Says (some c) (LM.throw (.err .aborted) : LM F (QuantizationResult F)) fun r ms => r = .error (.err .aborted) ∧ ms = [] := .throw _
  unfold Histogram.quantizeInternalL
  split
  next he =>
    simp only [Bool.and_eq_true, List.isEmpty_iff] at he
    refine (Says.throw _).mono ?_
    rintro r ms ⟨rfl, rfl⟩
    exact .empty he.1 he.2
  next he =>
    simp only [Bool.and_eq_true, List.isEmpty_iff] at he
    have hne : h.hashmap ≠ [] ∨ h.fixedColors ≠ [] := by tauto
    refine ((hprog _).bind (R := fun _ => QuantizeSaid attr h (h.insertFixedColors env.ho).length) fun abort => ?_).mono ?_
    swap
    · rintro r ms (⟨e, rfl, -, b, hb⟩ | ⟨a, ms1, ms2, ⟨rfl, -⟩, h, rfl⟩)
      · cases hb
      · exact h
    refine .ite (fun _ => hthrow.mono (by rintro r ms ⟨rfl, rfl⟩; exact .early)) (fun _ => ?_)
    refine ((hprog _).bind (R := fun _ => QuantizeSaid attr h (h.insertFixedColors env.ho).length) fun abort => ?_).mono ?_
    swap
    · rintro r ms (⟨e, rfl, -, b, hb⟩ | ⟨a, ms1, ms2, ⟨rfl, -⟩, h, rfl⟩)
      · cases hb
      · exact h
    refine .ite (fun _ => hthrow.mono (by rintro r ms ⟨rfl, rfl⟩; exact .early)) (fun _ => ?_)
    dsimp only
    obtain ⟨hist, e1, ht, hl⟩ := h.finalize_ok env.ho (h.gamma.getD (lit64 (45455/100000)))
    have hpos : hist.items ≠ [] := by
      apply List.ne_nil_of_length_pos
      rw [hl]
      exact List.length_pos_iff.2 (h.insertFixedColors_ne_nil env.ho hne)
    rw [e1]
    have hbind : ∀ f : HistogramInternal F → LM F (QuantizationResult F), (LM.lift (.ok hist) >>= f) = f hist := fun f => rfl
    rw [hbind]
    refine .print_bind ((says_new c env attr hm1 hm hist ht hpos freeze _).mono ?_)
    intro r ms hs
    rw [hl] at hs ⊢
    exact .found r ms hs

/-! ### Whom the messages go to -/

/-- every call made is one that a computation with this log callback may make -/
abbrev CallsOnly (lc : Option ℕ) (l : LM F α) : Prop := Says lc l fun _ _ => True

namespace CallsOnly
variable {lc : Option ℕ}

theorem bind {l : LM F α} {f : α → LM F β} (h : CallsOnly lc l) (hf : ∀ a, CallsOnly lc (f a)) : CallsOnly lc (l >>= f) :=
  (Says.bind h hf).mono fun _ _ _ => trivial

theorem pure (a : α) : CallsOnly lc (pure a : LM F α) := (Says.pure a).mono fun _ _ _ => trivial

theorem throw (e : Fail) : CallsOnly lc (LM.throw e : LM F α) := (Says.throw e).mono fun _ _ _ => trivial

theorem lift (r : Res α) : CallsOnly lc (LM.lift r : LM F α) := (Says.lift r).mono fun _ _ _ => trivial

theorem progress (cb : Option (List F → Bool)) (p : F) : CallsOnly lc (LM.progress cb p) := (Says.progress cb p).mono fun _ _ _ => trivial

theorem print (m : Msg F) : CallsOnly lc (LM.print lc m) := (Says.print m).mono fun _ _ _ => trivial

theorem ite {p : Prop} [Decidable p] {a b : LM F α} (h1 : CallsOnly lc a) (h2 : CallsOnly lc b) : CallsOnly lc (if p then a else b) :=
  Says.ite (fun _ => h1) (fun _ => h2)

end CallsOnly

theorem calls_findLoop (lc : Option ℕ) (env : Env F) (attr : Attr F) (targetMse : F) (total : ℕ) (st : FindState F) :
    CallsOnly lc (findLoopL lc env attr targetMse total st) := by
  generalize hn : st.trialsLeft.toNat = n
  induction n using Nat.strong_induction_on generalizing st with
  | _ n ih =>
    rw [findLoopL]
    refine .bind (.lift _) fun ⟨newPal, hist⟩ => .bind (.lift _) fun newPal => .bind (.print _) fun _ => ?_
    split
    · exact .pure _
    next hpos =>
      refine .bind (.lift _) fun ⟨hist, newPal, totalError⟩ => .bind (.progress _ _) fun abort => .ite ?_ ?_
      · cases (trialUpdate st targetMse totalError newPal).best with
        | some p => exact .pure _
        | none => exact .throw _
      · have := trialUpdate_lt st targetMse totalError newPal
        exact ih _ (by dsimp only; omega) _ rfl

theorem calls_quantizeInternal (lc : Option ℕ) (env : Env F) (h : Histogram F) (attr : Attr F) (freeze : Bool) :
    CallsOnly lc (h.quantizeInternalL lc env attr freeze) := by
  unfold Histogram.quantizeInternalL
  refine .ite (.throw _) (.bind (.progress _ _) fun _ => .ite (.throw _) (.bind (.progress _ _) fun _ => .ite (.throw _) ?_))
  refine .bind (.lift _) fun hist => .bind (.print _) fun _ => ?_
  unfold QuantizationResult.newL
  refine .bind (.progress _ _) fun _ => .ite (.throw _) ?_
  dsimp only
  refine .bind ?_ fun ⟨palette, err⟩ => .bind (.progress _ _) fun _ => .ite (.throw _) ?_
  · unfold findBestPaletteL
    refine .ite (.lift _) (.bind (calls_findLoop ..) fun ⟨p, st⟩ => ?_)
    unfold refinePaletteL
    dsimp only
    exact .ite (.bind (.print _) fun _ => (says_refineLoop ..).mono fun _ _ _ => trivial) (.pure _)
  · cases qualityMessage err (attr.targetMseFor hist.items.length).1 with
    | some m => exact .bind (.print _) fun _ => .throw _
    | none =>
      refine .bind ?_ fun p => .pure _
      unfold sortPaletteL
      dsimp only
      refine .ite (.pure _) ?_
      split
      · exact .bind (.print _) fun _ => .pure _
      · exact .pure _

end Verif
