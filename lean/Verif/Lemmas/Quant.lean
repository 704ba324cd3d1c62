import Verif.Model.Quant
import Verif.Lemmas.Kmeans

/-! Invariants of the palette search (`find_best_palette`, `refine_palette`), for any float arithmetic. -/

set_option linter.unusedSectionVars false

namespace Verif
open Flt

variable {F : Type} [Flt F]

/-- the callback's answer to its newest report (no callback: continue) -/
def answered (cb : Option (List F → Bool)) (log : List F) : Bool :=
  match cb with
  | none => false
  | some f => f log

/-- the reports after reporting `v` (no callback: nothing is reported) -/
def reported (cb : Option (List F → Bool)) (log : List F) (v : F) : List F :=
  match cb with
  | none => log
  | some _ => log ++ [v]

theorem progress_eq (cb : Option (List F → Bool)) (v : F) (log : List F) :
    progress cb v log = (.ok (answered cb (reported cb log v)), reported cb log v) := by
  unfold progress answered reported; cases cb <;> rfl

theorem PM.bind_apply {α β : Type} (m : PM F α) (f : α → PM F β) (log : List F) :
    (m >>= f) log = match m log with
      | (.ok a, log') => f a log'
      | (.error e, log') => (.error e, log') := rfl

theorem PM.bind_ok {α β : Type} {m : PM F α} {f : α → PM F β} {log log' : List F} {a : α}
    (h : m log = (.ok a, log')) : (m >>= f) log = f a log' := by rw [PM.bind_apply, h]

theorem PM.bind_err {α β : Type} {m : PM F α} {f : α → PM F β} {log log' : List F} {e : Fail}
    (h : m log = (.error e, log')) : (m >>= f) log = (.error e, log') := by rw [PM.bind_apply, h]

/-- A palette that meets the limits and starts with the fixed colours. -/
structure PalOK (m : ℕ) (fs : List (FPixel F)) (p : PalF F) : Prop where
  pos : p ≠ []
  le : p.length ≤ m
  fixed : FixedPrefix (fs.take m) p

theorem PalOK.keep {m : ℕ} {fs : List (FPixel F)} {p p' : PalF F} (h : PalOK m fs p) (k : KeepsFixed p p') :
    PalOK m fs p' :=
  ⟨by apply List.ne_nil_of_length_pos; rw [k.1]; exact List.length_pos_iff.2 h.pos, by rw [k.1]; exact h.le,
    h.fixed.keep k⟩

/-- A working copy of the histogram `h0`: the same colours with the same weights, tiled by the same clusters. -/
structure HistOK (h0 h : HistogramInternal F) : Prop where
  tiled : h.Tiled
  pos : h.items ≠ []
  perm : (h.items.map fun x => (x.color, x.perceptualWeight)).Perm (h0.items.map fun x => (x.color, x.perceptualWeight))
  total : h.totalPerceptualWeight = h0.totalPerceptualWeight
  fixed : h.fixedColors = h0.fixedColors

theorem HistOK.len {h0 h : HistogramInternal F} (x : HistOK h0 h) : h.items.length = h0.items.length := by
  simpa using x.perm.length_eq

theorem HistOK.cut {h0 h h' : HistogramInternal F} {o : SortOracle F} {t : ℕ} {pal : PalF F} {boxes : List (MBox F)}
    (x : HistOK h0 h) (c : CutInto o h t pal h' boxes) : HistOK h0 h' where
  tiled := c.tiled x.tiled
  pos := by
    apply List.ne_nil_of_length_pos; rw [c.items_len]; exact List.length_pos_iff.2 x.pos
  perm := by
    have := (c.items_core).map (fun y => (y.1, y.2.2))
    simp only [List.map_map] at this
    exact List.Perm.trans this x.perm
  total := by rw [c.rest]; exact x.total
  fixed := by rw [c.rest]; exact x.fixed

theorem HistOK.same {h0 h h' : HistogramInternal F} (x : HistOK h0 h) (s : Kmeans.SameColors h h') : HistOK h0 h' where
  tiled := s.tiled x.tiled
  pos := by apply List.ne_nil_of_length_pos; rw [s.len]; exact List.length_pos_iff.2 x.pos
  perm := by rw [s.items]; exact x.perm
  total := by rw [s.rest]; exact x.total
  fixed := by rw [s.rest]; exact x.fixed

/-- Invariant of the search loop's variables. -/
structure FindOK (m : ℕ) (h0 : HistogramInternal F) (st : FindState F) : Prop where
  hist : HistOK h0 st.hist
  mc_pos : 1 ≤ st.maxColors
  mc_le : st.maxColors ≤ m
  best : ∀ p, st.best = some p → PalOK m h0.fixedColors p

theorem trialUpdate_best (st : FindState F) (t e : F) (p : PalF F) :
    (trialUpdate st t e p).best = some p ∨ ((trialUpdate st t e p).best = st.best ∧ st.best.isSome = true) := by
  unfold trialUpdate
  split
  · exact Or.inl rfl
  next h =>
    refine Or.inr ⟨rfl, ?_⟩
    simp only [Bool.or_eq_true, not_or, Option.isNone_iff_eq_none] at h
    exact Option.isSome_iff_ne_none.2 h.1.1

theorem trialUpdate_maxColors (st : FindState F) (t e : F) (p : PalF F) (h : 1 ≤ st.maxColors) :
    1 ≤ (trialUpdate st t e p).maxColors ∧ (trialUpdate st t e p).maxColors ≤ st.maxColors := by
  unfold trialUpdate
  split
  · exact ⟨by simp; omega, by simp⟩
  · exact ⟨h, le_rfl⟩

/-- the variables for the next round -/
def nextState (st : FindState F) (targetMse err : F) (newPal : PalF F) (hist : HistogramInternal F) : FindState F :=
  { trialUpdate st targetMse err newPal with hist := hist, clock := st.clock + 1 }

theorem FindOK.next {m : ℕ} {h0 hist : HistogramInternal F} {st : FindState F} (ok : FindOK m h0 st)
    (targetMse err : F) {newPal : PalF F} (hp : PalOK m h0.fixedColors newPal) (hh : HistOK h0 hist) :
    FindOK m h0 (nextState st targetMse err newPal hist) := by
  obtain ⟨h1, h2⟩ := trialUpdate_maxColors st targetMse err newPal ok.mc_pos
  refine ⟨hh, h1, h2.trans ok.mc_le, ?_⟩
  intro p hb
  rcases trialUpdate_best st targetMse err newPal with h | h
  · have : some newPal = some p := h.symm.trans hb
    cases this; exact hp
  · exact ok.best p (h.1.symm.trans hb)

/-- Median cut followed by the insertion of the fixed colours. -/
theorem cut_fixed_ok [FltSign F] (o : SortOracle F) {m : ℕ} (hm : m ≤ 256) {h0 h : HistogramInternal F} (hh : HistOK h0 h)
    {k : ℕ} (hk1 : 1 ≤ k) (hkm : k ≤ m) (a b : F) :
    ∃ pal hist boxes pal2, mediancut o h k a b = .ok (pal, hist) ∧ CutInto o h k pal hist boxes ∧ HistOK h0 hist ∧
      pal.withFixedColors m hist.fixedColors = .ok pal2 ∧ PalOK m h0.fixedColors pal2 := by
  obtain ⟨pal, hist, boxes, e1, c⟩ := mediancut_spec o h k a b hh.tiled (hkm.trans hm)
  have hl := c.pal_len
  obtain ⟨pal2, e2, l2, f2⟩ := withFixedColors_spec pal m hist.fixedColors (by omega) hm
  refine ⟨pal, hist, boxes, pal2, e1, c, hh.cut c, e2, ?_, by omega, ?_⟩
  · apply List.ne_nil_of_length_pos
    have := List.length_pos_iff.2 (c.pal_pos hh.pos)
    omega
  · rw [← (hh.cut c).fixed]; exact f2

/-- Reasoning principle for the search loop: an invariant `I` of the variables and the reports so far is
established by `hstep` for the next round, and gives `Q` at the end. -/
theorem findLoop_inv [FltSign F] (env : Env F) (attr : Attr F) (targetMse : F) (total : ℕ) (h0 : HistogramInternal F)
    (hm : attr.maxColors ≤ 256)
    (I : FindState F → List F → Prop) (Q : PalF F → FindState F → List F → Prop)
    (hstop : ∀ st log p hist, FindOK attr.maxColors h0 st → I st log → st.trialsLeft ≤ 0 →
      PalOK attr.maxColors h0.fixedColors p → HistOK h0 hist → Q p { st with hist := hist } log)
    (hstep : ∀ st log newPal hist err, FindOK attr.maxColors h0 st → I st log → 0 < st.trialsLeft →
      PalOK attr.maxColors h0.fixedColors newPal → HistOK h0 hist →
      let st' := nextState st targetMse err newPal hist
      let log' := reported attr.progressCallback log (overallDone attr total st.trialsLeft)
      (answered attr.progressCallback log' = false → 0 < st'.trialsLeft → I st' log') ∧
      (answered attr.progressCallback log' = true ∨ st'.trialsLeft ≤ 0 → ∀ p, st'.best = some p → Q p st' log'))
    (st : FindState F) (log : List F) (hst : FindOK attr.maxColors h0 st) (hI : I st log) :
    ∃ p st' log', findLoop env attr targetMse total st log = (.ok (p, st'), log') ∧
      PalOK attr.maxColors h0.fixedColors p ∧ FindOK attr.maxColors h0 st' ∧ Q p st' log' := by
  generalize hn : st.trialsLeft.toNat = n
  induction n using Nat.strong_induction_on generalizing st log with
  | _ n ih =>
    obtain ⟨pal, hist, boxes, pal2, e1, -, hh, e2, hp2⟩ := cut_fixed_ok env.so hm hst.hist hst.mc_pos hst.mc_le
      (targetMse *₆ st.overshoot) (maxMsePerColor targetMse st.paletteError)
    rw [findLoop]
    rw [PM.bind_ok (a := (pal, hist)) (log' := log) (by rw [PM.lift, e1])]
    dsimp only
    rw [PM.bind_ok (a := pal2) (log' := log) (by rw [PM.lift, e2])]
    by_cases ht : st.trialsLeft ≤ 0
    · rw [dif_pos ht]
      exact ⟨_, _, _, rfl, hp2, ⟨hh, hst.mc_pos, hst.mc_le, hst.best⟩, hstop st log pal2 hist hst hI ht hp2 hh⟩
    · rw [dif_neg ht]
      obtain ⟨hist', p', err, e3, k3, s3, -⟩ := Kmeans.iteration_ok
        (env.sched st.clock (Kmeans.numChunks hist.items.length)) hist pal2
        (!(st.best.isNone && lt (lit64 0) targetMse)) hp2.pos (hp2.le.trans hm)
      have e3' : env.kmeans st.clock hist pal2 (!(st.best.isNone && lt (lit64 0) targetMse)) = .ok (hist', p', err) := e3
      rw [PM.bind_ok (a := (hist', p', err)) (log' := log) (by rw [PM.lift, e3'])]
      dsimp only
      rw [PM.bind_ok (progress_eq _ _ _)]
      have hp3 := hp2.keep k3
      have hh3 := hh.same s3
      have hnext := hst.next targetMse err hp3 hh3
      have hs := hstep st log p' hist' err hst hI (by omega) hp3 hh3
      dsimp only at hs
      have hlt := trialUpdate_lt st targetMse err p'
      obtain ⟨b, hb⟩ : ∃ b, (trialUpdate st targetMse err p').best = some b := by
        rcases trialUpdate_best st targetMse err p' with h | h
        · exact ⟨_, h⟩
        · rw [h.1]; exact Option.isSome_iff_exists.1 h.2
      by_cases hd : (answered attr.progressCallback (reported attr.progressCallback log
          (overallDone attr total st.trialsLeft)) || decide ((trialUpdate st targetMse err p').trialsLeft ≤ 0)) = true
      · rw [if_pos hd]
        have hd2 : answered attr.progressCallback (reported attr.progressCallback log
          (overallDone attr total st.trialsLeft)) = true ∨ (trialUpdate st targetMse err p').trialsLeft ≤ 0 := by
          simpa using hd
        have hq := hs.2 hd2 b hb
        have hbest := hnext.best b hb
        simp only [nextState, hb] at hnext hq
        rw [hb]
        exact ⟨b, _, _, rfl, hbest, hnext, hq⟩
      · rw [if_neg hd]
        have hd' : answered attr.progressCallback (reported attr.progressCallback log
          (overallDone attr total st.trialsLeft)) = false ∧ 0 < (trialUpdate st targetMse err p').trialsLeft := by
          simpa using hd
        exact ih _ (by rw [← hn]; show (trialUpdate st targetMse err p').trialsLeft.toNat < _; omega)
          (nextState st targetMse err p' hist') _ hnext (hs.1 hd'.1 hd'.2) rfl

/-- Reasoning principle for the refinement loop. -/
theorem refineLoop_inv (env : Env F) (attr : Attr F) (maxMse : Option F) (iterations : ℕ) (limit : F)
    (m : ℕ) (hm : m ≤ 256) (h0 : HistogramInternal F)
    (I : ℕ → ℕ → Option F → List F → Prop) (Q : Option F → List F → Prop)
    (hend : ∀ c i err log, I c i err log → iterations ≤ i → Q err log)
    (hstep : ∀ c i err log, I c i err log → i < iterations →
      let log' := reported attr.progressCallback log (refineDone attr iterations i)
      (answered attr.progressCallback log' = true → Q err log') ∧
      (answered attr.progressCallback log' = false → ∀ e, Q (some e) log' ∧
        ∀ j, i + 1 ≤ j → j ≤ i + 2 → I (c + 1) j (some e) log'))
    (clock i : ℕ) (hist : HistogramInternal F) (p : PalF F) (err : Option F) (log : List F)
    (hp : PalOK m h0.fixedColors p) (hI : I clock i err log) :
    ∃ p' err' log', refineLoop env attr maxMse iterations limit clock i hist p err log = (.ok (p', err'), log') ∧
      PalOK m h0.fixedColors p' ∧ KeepsFixed p p' ∧ Q err' log' := by
  generalize hn : iterations - i = n
  induction n using Nat.strong_induction_on generalizing clock i hist p err log with
  | _ n ih =>
    rw [refineLoop]
    by_cases hi : i < iterations
    · rw [dif_pos hi]
      rw [PM.bind_ok (progress_eq _ _ _)]
      have hs := hstep clock i err log hI hi
      dsimp only at hs
      cases ha : answered attr.progressCallback
        (reported attr.progressCallback log (refineDone attr iterations i)) with
      | true => exact ⟨p, err, _, rfl, hp, KeepsFixed.refl _, hs.1 ha⟩
      | false =>
        simp only [Bool.false_eq_true, if_false]
        obtain ⟨hist', p', e, e3, k3, -, -⟩ := Kmeans.iteration_ok
          (env.sched clock (Kmeans.numChunks hist.items.length)) hist p false hp.pos (hp.le.trans hm)
        have e3' : env.kmeans clock hist p false = .ok (hist', p', e) := e3
        rw [PM.bind_ok (a := (hist', p', e))
          (log' := reported attr.progressCallback log (refineDone attr iterations i)) (by rw [PM.lift, e3'])]
        dsimp only
        have hs2 := hs.2 ha e
        have hp' := hp.keep k3
        have key : ∀ b : Bool, ∃ p'' err' log', (if b = true then (pure (p', some e) : PM F (PalF F × Option F)) else
          refineLoop env attr maxMse iterations limit (clock + 1)
          (i + if lt (maxMse.getD (lit64 (10 ^ 20)) *₆ lit64 (15/10)) e then 2 else 1) hist' p' (some e))
          (reported attr.progressCallback log (refineDone attr iterations i)) = (.ok (p'', err'), log') ∧
          PalOK m h0.fixedColors p'' ∧ KeepsFixed p p'' ∧ Q err' log' := by
          intro b
          cases b with
          | true => exact ⟨p', some e, _, rfl, hp', k3, hs2.1⟩
          | false =>
            simp only [Bool.false_eq_true, if_false]
            obtain ⟨p'', err', log', e4, hp4, k4, q4⟩ := ih _ (by split <;> omega) (clock + 1)
              (i + if lt (maxMse.getD (lit64 (10 ^ 20)) *₆ lit64 (15/10)) e then 2 else 1) hist' p' (some e)
              (reported attr.progressCallback log (refineDone attr iterations i)) hp'
              (hs2.2 _ (by split <;> omega) (by split <;> omega)) rfl
            exact ⟨p'', err', log', e4, hp4, k3.trans k4, q4⟩
        exact key _
    · rw [dif_neg hi]
      exact ⟨p, err, log, rfl, hp, KeepsFixed.refl _, hend clock i err log hI (by omega)⟩

end Verif
