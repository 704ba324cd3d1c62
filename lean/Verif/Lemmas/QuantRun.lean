import Verif.Lemmas.Quant
import Verif.Lemmas.Hist

/-! Outcome of a whole quantization, for any float arithmetic and any callback. -/

set_option linter.unusedSectionVars false

namespace Verif
open Flt

variable {F : Type} [Flt F]

/-- between the logs `log` (excluded) and `log'` the callback asked to stop at some report -/
def Broke (cb : Option (List F → Bool)) (log log' : List F) : Prop :=
  ∃ l, log <+: l ∧ l ≠ log ∧ l <+: log' ∧ answered cb l = true

theorem prefix_reported (cb : Option (List F → Bool)) (log : List F) (v : F) : log <+: reported cb log v := by
  unfold reported; cases cb
  · exact List.prefix_rfl
  · exact List.prefix_append _ _

theorem Broke.now {cb : Option (List F → Bool)} {log0 log : List F} {v : F} (h0 : log0 <+: log)
    (h : answered cb (reported cb log v) = true) : Broke cb log0 (reported cb log v) := by
  refine ⟨reported cb log v, h0.trans (prefix_reported cb log v), ?_, List.prefix_rfl, h⟩
  cases cb with
  | none => simp [answered] at h
  | some f =>
    intro e
    have h1 := h0.length_le
    have h2 := congrArg List.length e
    simp [reported] at h2; omega

theorem Broke.mono {cb : Option (List F → Bool)} {log0 log log' : List F} (h : Broke cb log0 log) (hp : log <+: log') :
    Broke cb log0 log' := by
  obtain ⟨l, h1, h2, h3, h4⟩ := h
  exact ⟨l, h1, h2, h3.trans hp, h4⟩

theorem Broke.weaken {cb : Option (List F → Bool)} {log00 log0 log : List F} (hp : log00 <+: log0) (h : Broke cb log0 log) :
    Broke cb log00 log := by
  obtain ⟨l, h1, h2, h3, h4⟩ := h
  refine ⟨l, hp.trans h1, ?_, h3, h4⟩
  rintro rfl
  exact h2 (hp.eq_of_length_le h1.length_le |>.symm ▸ rfl)

theorem pushAll_ok (items : List (HistItem F)) (p : PalF F) (h : p.length + items.length ≤ 256) :
    items.foldlM (fun p item => PalF.push p item.color (PalPop.new item.perceptualWeight)) p =
      (.ok (p ++ items.map fun x => ⟨x.color, PalPop.new x.perceptualWeight⟩) : Res (PalF F)) := by
  induction items generalizing p with
  | nil => simp; rfl
  | cons x xs ih =>
    simp only [List.length_cons] at h
    rw [List.foldlM_cons, PalF.push, if_pos (by show _ < 256; omega)]
    show xs.foldlM _ (p ++ [⟨x.color, PalPop.new x.perceptualWeight⟩]) = _
    rw [ih _ (by simp; omega)]
    simp

theorem paletteFromHistogram_ok [FltSign F] {h : HistogramInternal F} {m : ℕ} (hm : m ≤ 256) (hpos : h.items ≠ [])
    (hle : h.items.length ≤ m) :
    ∃ p, paletteFromHistogram h m = .ok (p, some (lit64 0)) ∧ PalOK m h.fixedColors p ∧
      PalF.withFixedColors (h.items.map fun x => (⟨x.color, PalPop.new x.perceptualWeight⟩ : PalEntry F)) m h.fixedColors = .ok p := by
  have e1 := pushAll_ok h.items [] (by simp; omega)
  obtain ⟨p, e2, l2, f2⟩ := withFixedColors_spec
    (h.items.map fun x => (⟨x.color, PalPop.new x.perceptualWeight⟩ : PalEntry F)) m h.fixedColors (by simpa using hle) hm
  refine ⟨p, ?_, ⟨?_, ?_, f2⟩, e2⟩
  · unfold paletteFromHistogram
    rw [e1]
    show (PalF.withFixedColors ([] ++ _) m h.fixedColors >>= _) = _
    rw [List.nil_append, e2]; rfl
  · apply List.ne_nil_of_length_pos
    rw [l2, List.length_map]
    have := List.length_pos_iff.2 hpos
    omega
  · rw [l2, List.length_map]; omega

/-- `find_best_palette` always finds a palette. Its error is known, or no minimum quality is set, or
the callback asked to stop. -/
theorem findBestPalette_ok [FltSign F] (env : Env F) (attr : Attr F) (hm1 : 1 ≤ attr.maxColors) (hm : attr.maxColors ≤ 256)
    (targetMse : F) (z : Bool) (maxMse : Option F) (h0 : HistogramInternal F) (ht : h0.Tiled) (hpos : h0.items ≠ [])
    (log : List F) :
    ∃ p err log', findBestPalette env attr targetMse z maxMse h0 log = (.ok (p, err), log') ∧
      PalOK attr.maxColors h0.fixedColors p ∧ log <+: log' ∧
      (err.isSome = true ∨ attr.maxMse.isSome = false ∨ Broke attr.progressCallback log log') := by
  unfold findBestPalette
  split
  next hc =>
    simp only [Bool.and_eq_true, decide_eq_true_eq] at hc
    obtain ⟨p, e, hp, -⟩ := paletteFromHistogram_ok hm hpos hc.1
    exact ⟨p, some (lit64 0), log, by rw [PM.lift, e], hp, List.prefix_rfl, Or.inl rfl⟩
  · have hh : HistOK h0 h0 := ⟨ht, hpos, List.Perm.refl _, rfl, rfl⟩
    have hinit : FindOK attr.maxColors h0 (FindState.init attr h0) :=
      ⟨hh, hm1, le_rfl, by intro p hp; simp [FindState.init] at hp⟩
    obtain ⟨p, st, log1, e1, hp1, hst1, hlog1⟩ := findLoop_inv env attr targetMse (attr.feedbackTrials h0.items.length) h0
      hm (fun _ l => log <+: l) (fun _ _ l => log <+: l)
      (by intro st l p hist _ h _ _ _; exact h)
      (by intro st l np hist err _ h _ _ _
          exact ⟨fun _ _ => h.trans (prefix_reported _ _ _), fun _ _ _ => h.trans (prefix_reported _ _ _)⟩)
      (FindState.init attr h0) log hinit List.prefix_rfl
    rw [PM.bind_ok e1]
    dsimp only
    unfold refinePalette
    obtain ⟨p', err', log', e2, hp2, -, q2⟩ := refineLoop_inv env attr maxMse
      (attr.kmeansIterationsFor st.hist.items.length st.paletteError.isSome).1
      (attr.kmeansIterationsFor st.hist.items.length st.paletteError.isSome).2 attr.maxColors hm h0
      (fun _ i err l => log <+: l ∧ (err.isSome = true ∨ i = 0 ∧ err = st.paletteError))
      (fun err l => log <+: l ∧ (err.isSome = true ∨ attr.maxMse.isSome = false ∨ Broke attr.progressCallback log l))
      (by
        rintro c i err l ⟨h1, h2⟩ hi
        refine ⟨h1, ?_⟩
        rcases h2 with h2 | ⟨rfl, rfl⟩
        · exact Or.inl h2
        · simp only [Attr.kmeansIterationsFor] at hi
          by_cases hs : st.paletteError.isSome = true
          · exact Or.inl hs
          · by_cases hx : attr.maxMse.isSome = true
            · rw [Bool.not_eq_true] at hs
              simp only [hs, Bool.false_eq_true, not_false_eq_true, hx, and_true] at hi
              split at hi
              · omega
              next hcon => exact absurd (by omega) hcon
            · exact Or.inr (Or.inl (by simpa using hx)))
      (by
        rintro c i err l ⟨h1, h2⟩ hi
        dsimp only
        have h3 := h1.trans (prefix_reported attr.progressCallback l (refineDone attr
          (attr.kmeansIterationsFor st.hist.items.length st.paletteError.isSome).1 i))
        refine ⟨fun ha => ⟨h3, Or.inr (Or.inr (Broke.now h1 ha))⟩, fun _ e => ⟨⟨h3, Or.inl rfl⟩, fun j _ _ => ⟨h3, Or.inl rfl⟩⟩⟩)
      st.clock 0 st.hist p st.paletteError log1 hp1 ⟨hlog1, Or.inr ⟨rfl, rfl⟩⟩
    exact ⟨p', err', log', e2, hp2, q2.1, q2.2⟩

theorem length_sortPalette (last : Bool) (p : PalF F) : (sortPalette last p).length = p.length := by
  unfold sortPalette
  dsimp only
  split
  · split
    · rw [length_swapAt, List.length_mergeSort]
    · rw [List.length_mergeSort]
  · rw [List.length_mergeSort]

theorem sortPalette_perm (last : Bool) (p : PalF F) : (sortPalette last p).Perm p := by
  unfold sortPalette
  dsimp only
  split
  · split
    · exact (swapAt_perm _ _ _).trans (List.mergeSort_perm _ _)
    · exact List.mergeSort_perm _ _
  · exact List.mergeSort_perm _ _

/-- What is known about a successful result. -/
structure ResultOK (attr : Attr F) (fs : List (FPixel F)) (freeze : Bool) (gamma : F) (r : QuantizationResult F) : Prop where
  pal : ∃ p, PalOK attr.maxColors fs p ∧
    r.palette.Perm (if freeze then p.map fun e => { e with pop := e.pop.toFixed } else p)
  frozen : freeze = true → ∀ e ∈ r.palette, e.pop.isFixed = true
  rest : r = { palette := r.palette, gamma := gamma, paletteError := r.paletteError
               minPosterizationOutput := attr.minPosterizationOutput, useDitherMap := attr.useDitherMap
               remapped := none, progressCallback := none, intPalette := [], ditherLevel := lit32 1
               singleThreadedDithering := attr.singleThreadedDithering }

/-- The three ways a quantization of a non-empty histogram can end. -/
inductive Outcome (attr : Attr F) (n : ℕ) (fs : List (FPixel F)) (freeze : Bool) (gamma : F) (log : List F) :
    Res (QuantizationResult F) × List F → Prop
  | aborted (log' : List F) (hp : log <+: log') (hb : answered attr.progressCallback log' = true) (hne : log' ≠ log) :
      Outcome attr n fs freeze gamma log (.error (.err .aborted), log')
  | tooLow (log' : List F) (e m : F) (hp : log <+: log') (hc : answered attr.progressCallback log' = false)
      (hm : (attr.targetMseFor n).1 = some m) (hlt : lt m e = true) :
      Outcome attr n fs freeze gamma log (.error (.err .qualityTooLow), log')
  | ok (r : QuantizationResult F) (log' : List F) (hp : log <+: log') (hc : answered attr.progressCallback log' = false)
      (hr : ResultOK attr fs freeze gamma r)
      (hq : qualityTooLow r.paletteError (attr.targetMseFor n).1 = false)
      (he : r.paletteError.isSome = true ∨ attr.maxMse.isSome = false ∨ Broke attr.progressCallback log log')
      (hlast : attr.progressCallback.isSome = true → log' ≠ log) :
      Outcome attr n fs freeze gamma log (.ok r, log')

theorem reported_ne {cb : Option (List F → Bool)} {log0 log : List F} {v : F} (h0 : log0 <+: log)
    (h : cb.isSome = true) : reported cb log v ≠ log0 := by
  cases cb with
  | none => simp at h
  | some f =>
    intro e
    have h1 := h0.length_le
    have h2 := congrArg List.length e
    simp [reported] at h2; omega

theorem answered_some {cb : Option (List F → Bool)} {log : List F} (h : answered cb log = true) : cb.isSome = true := by
  cases cb with
  | none => simp [answered] at h
  | some f => rfl

theorem Outcome.weaken {attr : Attr F} {n : ℕ} {fs : List (FPixel F)} {freeze : Bool} {gamma : F} {log0 log : List F}
    {x : Res (QuantizationResult F) × List F} (hp : log0 <+: log) (h : Outcome attr n fs freeze gamma log x) :
    Outcome attr n fs freeze gamma log0 x := by
  have hne : ∀ {l : List F}, log <+: l → l ≠ log → l ≠ log0 := by
    rintro l h1 h2 rfl
    exact h2 (h1.eq_of_length_le hp.length_le).symm
  cases h with
  | aborted log' h1 h2 h3 => exact .aborted log' (hp.trans h1) h2 (hne h1 h3)
  | tooLow log' e m h1 h2 h3 h4 => exact .tooLow log' e m (hp.trans h1) h2 h3 h4
  | ok r log' h1 h2 h3 h4 h5 h6 =>
    refine .ok r log' (hp.trans h1) h2 h3 h4 ?_ (fun hs => hne h1 (h6 hs))
    rcases h5 with h | h | h
    · exact Or.inl h
    · exact Or.inr (Or.inl h)
    · exact Or.inr (Or.inr (h.weaken hp))

theorem new_outcome [FltSign F] (env : Env F) (attr : Attr F) (hm1 : 1 ≤ attr.maxColors) (hm : attr.maxColors ≤ 256)
    (h0 : HistogramInternal F) (ht : h0.Tiled) (hpos : h0.items ≠ []) (freeze : Bool) (gamma : F) (log : List F) :
    Outcome attr h0.items.length h0.fixedColors freeze gamma log (QuantizationResult.new env attr h0 freeze gamma log) := by
  unfold QuantizationResult.new
  rw [PM.bind_ok (progress_eq _ _ _)]
  set log1 := reported attr.progressCallback log (lit32 attr.progressStage1)
  have hp1 : log <+: log1 := prefix_reported _ _ _
  cases ha : answered attr.progressCallback log1 with
  | true => exact .aborted log1 hp1 ha (reported_ne List.prefix_rfl (answered_some ha))
  | false =>
    simp only [Bool.false_eq_true, if_false]
    obtain ⟨p, err, log2, e2, hpal, hp2, herr⟩ := findBestPalette_ok env attr hm1 hm
      (attr.targetMseFor h0.items.length).2.1 (attr.targetMseFor h0.items.length).2.2
      (attr.targetMseFor h0.items.length).1 h0 ht hpos log1
    rw [PM.bind_ok e2]
    dsimp only
    rw [PM.bind_ok (progress_eq _ _ _)]
    set log3 := reported attr.progressCallback log2 _ with hlog3
    have hp3 : log2 <+: log3 := prefix_reported _ _ _
    cases ha3 : answered attr.progressCallback log3 with
    | true => exact .aborted log3 ((hp1.trans hp2).trans hp3) ha3 (reported_ne (hp1.trans hp2) (answered_some ha3))
    | false =>
      simp only [Bool.false_eq_true, if_false]
      cases hq : qualityTooLow err (attr.targetMseFor h0.items.length).1 with
      | true =>
        simp only [if_true]
        cases err with
        | none => simp [qualityTooLow] at hq
        | some e =>
          cases hmse : (attr.targetMseFor h0.items.length).1 with
          | none => rw [hmse] at hq; simp [qualityTooLow] at hq
          | some m =>
            rw [hmse] at hq
            exact .tooLow log3 e m ((hp1.trans hp2).trans hp3) ha3 hmse hq
      | false =>
        simp only [Bool.false_eq_true, if_false]
        refine .ok _ log3 ((hp1.trans hp2).trans hp3) ha3 ⟨⟨p, hpal, sortPalette_perm _ _⟩, ?_, rfl⟩ hq ?_
          (fun hs => reported_ne (hp1.trans hp2) hs)
        · intro hf e he
          have := (sortPalette_perm _ _).mem_iff.1 he
          simp only [hf, if_true, List.mem_map] at this
          obtain ⟨y, -, rfl⟩ := this
          exact PalPop.toFixed_isFixed _
        · rcases herr with h | h | h
          · exact Or.inl h
          · exact Or.inr (Or.inl h)
          · exact Or.inr (Or.inr ((h.mono hp3).weaken hp1))

/-- the fixed colours that the palette search works with, in their order -/
def Histogram.fixedList (h : Histogram F) (ho : HashOrder) (gamma : F) : List (FPixel F) :=
  ((ho.set h.fixedColors).mergeSort (fun x y => decide (x.2 ≤ y.2))).map fun c => FPixel.fromRgba (gammaLut gamma) c.1

/-- Everything `quantize` can do: report that there is nothing to quantize, or one of the outcomes. -/
theorem quantize_outcome [FltSign F] (env : Env F) (attr : Attr F) (hm1 : 1 ≤ attr.maxColors) (hm : attr.maxColors ≤ 256)
    (h : Histogram F) (freeze : Bool) (log : List F) :
    (h.hashmap = [] ∧ h.fixedColors = [] ∧ h.quantizeInternal env attr freeze log = (.error (.err .unsupported), log)) ∨
    ((h.hashmap ≠ [] ∨ h.fixedColors ≠ []) ∧
      Outcome attr (h.insertFixedColors env.ho).length
        (h.fixedList env.ho (h.gamma.getD (lit64 (45455/100000)))) freeze
        (h.gamma.getD (lit64 (45455/100000))) log (h.quantizeInternal env attr freeze log)) := by
  unfold Histogram.quantizeInternal
  split
  next he =>
    simp only [Bool.and_eq_true, List.isEmpty_iff] at he
    exact Or.inl ⟨he.1, he.2, rfl⟩
  next he =>
    simp only [Bool.and_eq_true, List.isEmpty_iff] at he
    have hne : h.hashmap ≠ [] ∨ h.fixedColors ≠ [] := by tauto
    refine Or.inr ⟨hne, ?_⟩
    rw [PM.bind_ok (progress_eq _ _ _)]
    set log1 := reported attr.progressCallback log (lit32 0)
    have hp1 : log <+: log1 := prefix_reported _ _ _
    cases ha : answered attr.progressCallback log1 with
    | true => exact .aborted log1 hp1 ha (reported_ne List.prefix_rfl (answered_some ha))
    | false =>
      simp only [Bool.false_eq_true, if_false]
      rw [PM.bind_ok (progress_eq _ _ _)]
      set log2 := reported attr.progressCallback log1 _
      have hp2 : log1 <+: log2 := prefix_reported _ _ _
      cases ha2 : answered attr.progressCallback log2 with
      | true => exact .aborted log2 (hp1.trans hp2) ha2 (reported_ne hp1 (answered_some ha2))
      | false =>
        simp only [Bool.false_eq_true, if_false]
        obtain ⟨r, e1, ht, hl⟩ := h.finalize_ok env.ho (h.gamma.getD (lit64 (45455/100000)))
        obtain ⟨r', e1', -, -, -, hfix⟩ := h.finalize_spec env.ho (h.gamma.getD (lit64 (45455/100000)))
        rw [e1] at e1'
        cases e1'
        have hpos : r.items ≠ [] := by
          apply List.ne_nil_of_length_pos
          rw [hl]
          exact List.length_pos_iff.2 (h.insertFixedColors_ne_nil env.ho hne)
        rw [PM.bind_ok (a := r) (log' := log2) (by rw [PM.lift, e1])]
        have := new_outcome env attr hm1 hm r ht hpos freeze (h.gamma.getD (lit64 (45455/100000))) log2
        rw [hl, hfix] at this
        exact this.weaken (hp1.trans hp2)

end Verif
