import Verif.Model.Debug
import Verif.Lemmas.QuantError

/-! When the checks of a debug build pass, function by function. -/

set_option linter.unusedSectionVars false

namespace Verif
open Flt

variable {F : Type} [Flt F]

theorem Res.ok_bind {α β : Type} (a : α) (f : α → Res β) : ((Except.ok a : Res α) >>= f) = f a := rfl

theorem dbg_true {b : Bool} (h : b = true) : dbg b = .ok () := by rw [dbg, if_pos h]

theorem dbgNum_ok {num b : Bool} (h : num = true → b = true) : dbgNum num b = .ok () := by
  unfold dbgNum
  split
  next hn => exact dbg_true (h hn)
  · rfl

/-- What checks about numbers rely on: no overflow, and splits leave something on the right. -/
structure Sound (F : Type) [Flt F] (num : Bool) : Prop where
  fin : num = true → ∀ x : F, isFinite x = true
  split : num = true → ∀ (o : SortOracle F) (b : MBox F) (others : List (MBox F)), 1 < b.colors.length →
    (b.split o others).2.colors ≠ []
  zero : num = true → le (lit32 0) (lit32 0 : F) = true
  refl : num = true → ∀ x : F, eq x x = true

theorem Sound.off : Sound F false := by
  constructor <;> (intro h; cases h)

variable {num : Bool}

theorem dbgKeys_ok {α : Type} {key : α → F} {l : List α} (h : num = true → ∀ x ∈ l, isFinite (key x) = true) :
    dbgKeys num key l = .ok () :=
  dbgNum_ok fun hn => by rw [List.all_eq_true]; exact h hn

theorem dbgSort_ok {α : Type} {key : α → F} {l : List α} (h : num = true → ∀ x ∈ l, isFinite (key x) = true) :
    dbgSort num key l = .ok () := by
  unfold dbgSort
  split
  · rfl
  · exact dbgKeys_ok h

/-! ### Median cut -/

theorem newD_eq (start : ℕ) {l : List (HistItem F)} (hne : l ≠ []) (hfin : num = true → ∀ c ∈ l, isFinite c.adjustedWeight = true)
    (hpos : num = true → ∀ c ∈ l, lt (lit32 0) c.adjustedWeight = true) : MBox.newD num start l = .ok (MBox.new start l) := by
  unfold MBox.newD weighedAverageColorD
  rw [dbgNum_ok (fun h => by rw [List.all_eq_true]; exact hfin h),
    dbgNum_ok (fun h => by rw [List.all_eq_true]; exact hpos h), dbgNum_ok (fun _ => by cases l <;> simp_all)]
  rfl

theorem newSD_eq (start : ℕ) {l : List (HistItem F)} (hne : num = true → l ≠ [])
    (hk : num = true → ∀ c ∈ l, isFinite ((weighedAverageColor l).diff c.color) = true) (w : F) (others : List (MBox F)) : MBox.newSD num start l w others = .ok (MBox.newS start l w others) := by
  unfold MBox.newSD weighedAverageColorD MBox.newS
  have h1 : dbgNum num (!l.isEmpty) = .ok () := dbgNum_ok (fun h => by have := hne h; cases l <;> simp_all)
  rw [h1]
  show (if _ then _ else _) = _
  dsimp only
  split
  · rw [dbgKeys_ok hk]; rfl
  · rfl

theorem pivots_ok (base : List (HistItem F)) : pivotsInBounds base = true := by
  unfold pivotsInBounds
  by_cases h : base.length < 32
  · simp [h]
  · simp [h]; omega

theorem sortHalfD_eq (o : SortOracle F) (base : List (HistItem F)) (half : F) :
    sortHalfD o base half = .ok (sortHalf o base half) := by
  generalize hn : base.length = n
  induction n using Nat.strong_induction_on generalizing base half with
  | _ n ih =>
    rw [sortHalfD, sortHalf]
    split
    · rfl
    next hne =>
      have h1 := qsortPartition_lt o base hne
      have h2 := qsortPartition_length o base
      rw [dbg_true (pivots_ok base)]
      show (if _ then _ else _) = _
      dsimp only
      split
      · split
        · rfl
        · rw [ih _ (by rw [List.length_take]; omega) _ _ rfl]; rfl
      · split
        · rfl
        · rw [ih _ (by rw [List.length_drop]; omega) _ _ rfl]; rfl

/-- what the checks of a split ask for -/
structure SplitOK (num : Bool) (o : SortOracle F) (b : MBox F) (others : List (MBox F)) : Prop where
  var : num = true → ∀ i, isFinite (MBox.chan b.variance i) = true
  mc : num = true → ∀ x ∈ MBox.colorWeights o b.prepareSort, isFinite x.mcColorWeight = true
  right : num = true → (b.split o others).2.colors ≠ []
  diff1 : num = true → ∀ c ∈ (b.split o others).1.colors,
    isFinite ((weighedAverageColor (b.split o others).1.colors).diff c.color) = true
  diff2 : num = true → ∀ c ∈ (b.split o others).2.colors,
    isFinite ((weighedAverageColor (b.split o others).2.colors).diff c.color) = true

theorem Sound.splitOK (s : Sound F num) (o : SortOracle F) (b : MBox F) (others : List (MBox F)) (h : 1 < b.colors.length) :
    SplitOK num o b others :=
  ⟨fun hn _ => s.fin hn _, fun hn _ _ => s.fin hn _, fun hn => s.split hn o b others h, fun hn _ _ => s.fin hn _, fun hn _ _ => s.fin hn _⟩

theorem splitD_eq (o : SortOracle F) (b : MBox F) (others : List (MBox F)) (h : 1 < b.colors.length) (s : SplitOK num o b others) :
    b.splitD num o others = .ok (b.split o others) := by
  have hl : num = true → (b.split o others).1.colors ≠ [] := fun _ =>
    split_left_pos o b others (List.ne_nil_of_length_pos (by omega))
  obtain ⟨var, mc, hr, d1, d2⟩ := s
  unfold MBox.split at hl hr d1 d2 ⊢
  unfold MBox.splitD
  simp only [newS_colors] at hl hr d1 d2
  rw [dbgSort_ok (fun hn i _ => var hn i), Res.ok_bind]
  dsimp only
  rw [dbgNum_ok (fun h => by rw [List.all_eq_true]; exact mc h), Res.ok_bind, sortHalfD_eq]
  show (MBox.newSD _ _ _ _ _ >>= _) = _
  rw [newSD_eq _ hl d1]
  show (MBox.newSD _ _ _ _ _ >>= _) = _
  rw [newSD_eq _ hr d2]
  rfl

/-- What the checks of median cut ask for: it holds of the first boxes and stays true. -/
structure CutOK (num : Bool) (o : SortOracle F) (target : ℕ) (hw tm mm : F) (I : List (MBox F) → Prop) : Prop where
  priority : num = true → ∀ boxes, I boxes → boxes.length < target → ∀ b ∈ boxes,
    isFinite (splitPriority (fma64 (lit64 boxes.length /₆ lit64 target *₆ lit64 16) mm mm) b) = true
  split : ∀ boxes, I boxes → boxes.length < target → ∀ b i, boxes[i]? = some b → 1 < b.colors.length →
    SplitOK num o b (swapRemove boxes i)
  step : ∀ boxes, I boxes → boxes.length < target → ∀ b i, boxes[i]? = some b → 1 < b.colors.length →
    I (totalBoxErrorBelowTarget (swapRemove boxes i ++ [(b.split o (swapRemove boxes i)).1, (b.split o (swapRemove boxes i)).2]) hw tm).2

theorem Sound.cutOK (s : Sound F num) (o : SortOracle F) (target : ℕ) (hw tm mm : F) : CutOK num o target hw tm mm fun _ => True :=
  ⟨fun hn _ _ _ _ _ => s.fin hn _, fun _ _ _ _ _ _ h => s.splitOK _ _ _ h, fun _ _ _ _ _ _ _ => trivial⟩

theorem cutLoopD_eq {o : SortOracle F} {target : ℕ} {hw tm mm : F} {I : List (MBox F) → Prop} (s : CutOK num o target hw tm mm I)
    (fuel : ℕ) (boxes : List (MBox F)) (hI : I boxes) (hf : target ≤ boxes.length + fuel) :
    cutLoopD num o target hw tm mm fuel boxes = .ok (cutLoop o target hw tm mm boxes) := by
  induction fuel generalizing boxes with
  | zero =>
    rw [cutLoopD, cutLoop, if_neg (by omega)]
  | succ n ih =>
    rw [cutLoopD, cutLoop]
    split
    next hlt =>
      dsimp only
      rw [dbgKeys_ok (fun hn x hx => s.priority hn boxes hI hlt x.1
        (List.mem_of_getElem? (List.mem_zipIdx_iff_getElem?.1 (List.mem_filter.1 hx).1)))]
      show (match bestSplittable boxes _ with | none => _ | some (b, i) => _) = _
      split
      next hn =>
        split
        · rfl
        next h => rw [hn] at h; cases h
      next b i hn =>
        split
        next h => rw [hn] at h; cases h
        next b' i' h =>
          rw [hn] at h; cases h
          obtain ⟨h1, h2⟩ := bestSplittable_some hn
          rw [splitD_eq o b _ h2 (s.split boxes hI hlt b i h1 h2)]
          show (if _ then _ else _) = _
          split
          · rfl
          · apply ih _ (s.step boxes hI hlt b i h1 h2)
            have h3 := (List.getElem?_eq_some_iff.1 h1).1
            have h4 := length_swapRemove h3
            rw [totalBoxErrorBelowTarget_length]
            simp only [List.length_append, List.length_cons, List.length_nil]
            omega
    · rfl

theorem clusterBoxesD_eq (cap pushed start b0 n : ℕ) (items : List (HistItem F)) (cs : List (ℕ × ℕ))
    (h : ClusterChain b0 n cs) (hl : items.length + b0 = n) (hne : ∀ c ∈ cs, c.1 ≠ c.2) (hcap : pushed + cs.length ≤ cap)
    (hfin : num = true → ∀ c ∈ items, isFinite c.adjustedWeight = true)
    (hpos : num = true → ∀ c ∈ items, lt (lit32 0) c.adjustedWeight = true) :
    clusterBoxesD num cap pushed b0 start items cs = clusterBoxes start items cs := by
  induction cs generalizing pushed start b0 items with
  | nil => rfl
  | cons c cs ih =>
    obtain ⟨b, e⟩ := c
    obtain ⟨rfl, h2, h3⟩ := h
    have h4 := h3.le
    have hbe : b ≠ e := hne (b, e) (by simp)
    have hc : b ≤ e ∧ e - b ≤ items.length := ⟨h2, by omega⟩
    simp only [List.length_cons] at hcap
    rw [clusterBoxesD, clusterBoxes, if_pos hc, dbg_true (by simp), Res.ok_bind, if_pos hc, newD_eq _ (l := items.take (e - b)) (by
        apply List.ne_nil_of_length_pos; rw [List.length_take]; omega)
      (fun hn c hcm => hfin hn c (List.mem_of_mem_take hcm))
      (fun hn c hcm => hpos hn c (List.mem_of_mem_take hcm))]
    show (dbg _ >>= _) = _
    rw [dbg_true (by simp; omega)]
    show (clusterBoxesD _ _ _ _ _ _ _ >>= _) = _
    rw [ih _ _ _ _ h3 (by rw [List.length_drop]; omega) (fun c hc => hne c (by simp [hc])) (by omega)
      (fun hn c hcm => hfin hn c (List.mem_of_mem_drop hcm)) (fun hn c hcm => hpos hn c (List.mem_of_mem_drop hcm))]

theorem ClusterChain.ends {s n : ℕ} {cs : List (ℕ × ℕ)} (h : ClusterChain s n cs) (hne : cs ≠ []) :
    (∃ c, cs.head? = some c ∧ c.1 = s) ∧ ∃ c, cs.getLast? = some c ∧ c.2 = n := by
  induction cs generalizing s with
  | nil => exact absurd rfl hne
  | cons c cs ih =>
    obtain ⟨b, e⟩ := c
    obtain ⟨rfl, h2, h3⟩ := h
    refine ⟨⟨_, rfl, rfl⟩, ?_⟩
    cases cs with
    | nil => exact ⟨_, rfl, h3⟩
    | cons d ds =>
      rw [List.getLast?_cons_cons]
      exact (ih h3 (by simp)).2

theorem initialBoxesD_eq (hist : HistogramInternal F) (target : ℕ) (ht : hist.Tiled) (hne : hist.items ≠ [])
    (h1 : 1 ≤ target) (hfin : num = true → ∀ c ∈ hist.items, isFinite c.adjustedWeight = true)
    (hpos : num = true → ∀ c ∈ hist.items, lt (lit32 0) c.adjustedWeight = true) :
    initialBoxesD num hist target = initialBoxes hist target := by
  have hcl : hist.clusters ≠ [] := by
    intro hc
    unfold HistogramInternal.Tiled at ht
    rw [hc] at ht
    have : 0 = hist.items.length := ht
    exact hne (List.length_eq_zero_iff.1 this.symm)
  obtain ⟨⟨c, hc, hc0⟩, d, hd, hd0⟩ := ClusterChain.ends ht hcl
  unfold initialBoxesD initialBoxes
  rw [hc, hd]
  dsimp only
  rw [dbg_true (by simpa using hc0), dbg_true (by simpa using hd0)]
  show (if _ then _ else _) = _
  split
  next hle =>
    exact clusterBoxesD_eq target 0 0 0 hist.items.length hist.items _ ht.filter (by simp)
      (by intro c hc; simpa using (List.mem_filter.1 hc).2) (by omega) hfin hpos
  · rw [newD_eq _ hne hfin hpos]
    show (dbg _ >>= _) = _
    rw [dbg_true (by simp; omega)]; rfl

/-- every entry that median cut makes passes the check of its popularity -/
def EntriesOK (num : Bool) (hist : HistogramInternal F) : Prop :=
  num = true → ∀ l : List (HistItem F), l.length ≤ hist.items.length → (∀ x ∈ l, ∃ y ∈ hist.items, y.core = x.core) →
    le (lit32 0) (PalPop.new (to32 (sum64 (l.map (·.perceptualWeight))))).val = true

theorem mediancutD_cut {I : List (MBox F) → Prop} (o : SortOracle F) (hist : HistogramInternal F) (target : ℕ) (tm mm : F)
    (s : CutOK num o target hist.totalPerceptualWeight tm (Flt.fmax mm (qualityToMse 20)) I)
    (hI : ∀ b0, initialBoxes hist target = .ok b0 → I b0)
    (ht : hist.Tiled) (hne : hist.items ≠ []) (h1 : 1 ≤ target)
    (hfin : num = true → ∀ c ∈ hist.items, isFinite c.adjustedWeight = true)
    (hpos : num = true → ∀ c ∈ hist.items, lt (lit32 0) c.adjustedWeight = true) (hent : EntriesOK num hist) :
    mediancutD num o hist target tm mm = mediancut o hist target tm mm := by
  obtain ⟨b0, e0, -, hc0, -⟩ := initialBoxes_spec hist target ht
  unfold mediancutD mediancut
  rw [initialBoxesD_eq hist target ht hne h1 hfin hpos, e0]
  show (cutLoopD _ _ _ _ _ _ _ _ >>= _) = _
  rw [cutLoopD_eq s _ _ (hI _ e0) (by omega)]
  show ((intoPaletteD _ _) >>= _) = _
  have : intoPaletteD num (cutLoop o target hist.totalPerceptualWeight tm (Flt.fmax mm (qualityToMse 20)) b0) =
      intoPalette (cutLoop o target hist.totalPerceptualWeight tm (Flt.fmax mm (qualityToMse 20)) b0) := by
    unfold intoPaletteD
    rw [dbgNum_ok]
    · rfl
    · intro hn
      rw [List.all_eq_true]
      intro b hb
      have hcore := cutLoop_cores o target hist.totalPerceptualWeight tm (Flt.fmax mm (qualityToMse 20)) b0
      rw [boxCores_eq, boxCores_eq, hc0] at hcore
      refine hent hn _ ?_ ?_
      · have hl := hcore.length_eq
        rw [List.length_map, List.length_map] at hl
        rw [← hl, List.length_flatMap]
        exact List.single_le_sum (by simp) _ (List.mem_map_of_mem hb)
      intro x hx
      have := hcore.mem_iff.1 (List.mem_map_of_mem (List.mem_flatMap.2 ⟨b, hb, hx⟩))
      obtain ⟨y, hy, he⟩ := List.mem_map.1 this
      exact ⟨y, hy, he⟩
  rw [this]
  rfl

theorem mediancutD_eq (s : Sound F num) (o : SortOracle F) (hist : HistogramInternal F) (target : ℕ) (tm mm : F)
    (ht : hist.Tiled) (hne : hist.items ≠ []) (h1 : 1 ≤ target)
    (hpos : num = true → ∀ c ∈ hist.items, lt (lit32 0) c.adjustedWeight = true) (hent : EntriesOK num hist) :
    mediancutD num o hist target tm mm = mediancut o hist target tm mm :=
  mediancutD_cut o hist target tm mm (s.cutOK _ _ _ _ _) (fun _ _ => trivial) ht hne h1 (fun hn _ _ => s.fin hn _) hpos hent

/-! ### Fixed colours -/

/-- colours whose differences pass the checks -/
structure ColoursOK (num : Bool) (Q : FPixel F → Prop) : Prop where
  diff : num = true → ∀ x y, Q x → Q y → isFinite (x.diff y) = true
  same : num = true → ∀ x, Q x → FPixel.beq x x = true
  zero : num = true → le (lit32 0) (lit32 0 : F) = true

theorem Sound.coloursOK (s : Sound F num) : ColoursOK num fun _ : FPixel F => True :=
  ⟨fun hn _ _ _ _ => s.fin hn _, fun hn x _ => by simp only [FPixel.beq, s.refl hn, Bool.and_self], s.zero⟩

variable {Q : FPixel F → Prop}

theorem fixStepD_eq (s : ColoursOK num Q) (p : PalF F) (i : ℕ) (c : FPixel F) (hp : ∀ e ∈ p, Q e.color) (hc : Q c) :
    PalF.fixStepD num p i c = PalF.fixStep p i c := by
  unfold PalF.fixStepD PalF.fixStep
  rw [dbgKeys_ok (fun hn x hx => s.diff hn _ _ (hp _
    (List.mem_of_getElem? (List.mem_zipIdx_iff_getElem?.1 (List.mem_of_mem_drop hx)))) hc), Res.ok_bind]
  cases hx : minByKey (fun (x : PalEntry F × ℕ) => x.1.color.diff c) ((p.zipIdx).drop i) with
  | none => rfl
  | some x =>
    obtain ⟨e, best⟩ := x
    dsimp only
    have hm := minByKey_mem _ hx
    have hbi : i ≤ best := by
      obtain ⟨k, hk⟩ := List.mem_iff_getElem?.1 hm
      rw [List.getElem?_drop, List.getElem?_zipIdx] at hk
      cases hp : p[i + k]? with
      | none => rw [hp] at hk; simp at hk
      | some e => rw [hp] at hk; simp at hk; omega
    rw [dbg_true (by simpa using hbi)]
    rfl

theorem fixStep_colour {p p' : PalF F} {i : ℕ} {c : FPixel F} (hp : ∀ e ∈ p, Q e.color) (hc : Q c) (e : PalF.fixStep p i c = .ok p') :
    ∀ e ∈ p', Q e.color := by
  unfold PalF.fixStep at e
  split at e
  · cases e
  · dsimp only at e
    split at e
    · cases e
    · cases e
      intro x hx
      rcases List.mem_or_eq_of_mem_set hx with hx | rfl
      · exact hp x ((swapAt_perm _ _ _).mem_iff.1 hx)
      · exact hc

theorem fixLoopD_eq (s : ColoursOK num Q) (p : PalF F) (i : ℕ) (cs : List (FPixel F)) (hp : ∀ e ∈ p, Q e.color) (hc : ∀ c ∈ cs, Q c) :
    PalF.fixLoopD num p i cs = PalF.fixLoop p i cs := by
  induction cs generalizing p i with
  | nil => rfl
  | cons c cs ih =>
    rw [PalF.fixLoopD, PalF.fixLoop, fixStepD_eq s _ _ _ hp (hc c (by simp))]
    cases hq : PalF.fixStep p i c with
    | error f => rfl
    | ok q => exact ih q (i + 1) (fixStep_colour hp (hc c (by simp)) hq) (fun d hd => hc d (by simp [hd]))

theorem withFixedColorsD_of [FltSign F] (s : ColoursOK num Q) (p : PalF F) (m : ℕ) (fs : List (FPixel F)) (hp : p.length ≤ m)
    (hm : m ≤ 256) (hpq : ∀ e ∈ p, Q e.color) (hfq : ∀ c ∈ fs, Q c) : p.withFixedColorsD num m fs = p.withFixedColors m fs := by
  obtain ⟨p', e1, l1, f1⟩ := withFixedColors_spec p m fs hp hm
  have hlast : dbgNum num ((p'.zip fs).all fun x => FPixel.beq x.1.color x.2) = .ok () ∧
      dbg ((p'.take fs.length).all fun e => e.pop.isFixed) = .ok () := by
    have hget : ∀ (i : ℕ) (e : PalEntry F) (c : FPixel F), p'[i]? = some e → fs[i]? = some c → e.color = c ∧ e.pop.isFixed = true := by
      intro i e c he hc
      have hi := (List.getElem?_eq_some_iff.1 he).1
      have hi2 := (List.getElem?_eq_some_iff.1 hc).1
      obtain ⟨e', he', h2, h3⟩ := f1 i c (by rw [List.getElem?_take_of_lt (by omega)]; exact hc)
      rw [he] at he'; cases he'
      exact ⟨h2, h3⟩
    constructor
    · apply dbgNum_ok
      intro hn
      rw [List.all_eq_true]
      rintro ⟨e, c⟩ hx
      obtain ⟨i, hi⟩ := List.mem_iff_getElem?.1 hx
      rw [List.getElem?_zip_eq_some] at hi
      obtain ⟨rfl, -⟩ := hget i e c hi.1 hi.2
      exact s.same hn _ (hfq _ (List.mem_of_getElem? hi.2))
    · apply dbg_true
      rw [List.all_eq_true]
      intro e he
      obtain ⟨i, hi⟩ := List.mem_iff_getElem?.1 he
      have h1 := (List.getElem?_eq_some_iff.1 hi).1
      rw [List.length_take] at h1
      rw [List.getElem?_take_of_lt (by omega)] at hi
      exact (hget i e (fs[i]'(by omega)) hi (List.getElem?_eq_getElem _)).2
  rw [e1]
  unfold PalF.withFixedColors at e1
  unfold PalF.withFixedColorsD
  split
  next hc => rw [if_pos hc] at e1; exact e1
  next hc =>
    rw [if_neg hc] at e1
    dsimp only at e1 ⊢
    have key : ∀ q : PalF F, (∀ e ∈ q, Q e.color) → PalF.fixLoop q 0 (fs.take q.length) = .ok p' → (do
        let p ← PalF.fixLoopD num q 0 (fs.take q.length)
        dbgNum num ((p.zip fs).all fun x => FPixel.beq x.1.color x.2)
        dbg ((p.take fs.length).all fun e => e.pop.isFixed)
        return p : Res (PalF F)) = .ok p' := by
      intro q hqq hq
      rw [fixLoopD_eq s _ _ _ hqq (fun c hc => hfq c (List.mem_of_mem_take hc)), hq]
      show (dbgNum _ _ >>= _) = _
      rw [hlast.1]
      show (dbg _ >>= _) = _
      rw [hlast.2]; rfl
    by_cases hlt : p.length < min fs.length m
    · rw [if_pos hlt] at e1 ⊢
      have hlen : (fs.take (min fs.length m - p.length)).length = min fs.length m - p.length := by
        rw [List.length_take]; omega
      have hx : PalF.extendZero p (fs.take (min fs.length m - p.length)) =
          .ok (p ++ (fs.take (min fs.length m - p.length)).map fun c => ⟨c, PalPop.new (lit32 0)⟩) := by
        rw [PalF.extendZero, if_pos (by rw [hlen]; show _ ≤ 256; omega)]
      have hd : PalPop.newD num (lit32 0 : F) = .ok (PalPop.new (lit32 0)) := by
        unfold PalPop.newD
        rw [dbgNum_ok s.zero]; rfl
      rw [hx] at e1 ⊢
      simp only [bind, Except.bind] at e1 ⊢
      rw [hd]
      dsimp only
      rw [dbg_true (by
        rw [decide_eq_true_eq, List.length_append, List.length_map, hlen]; omega)]
      refine key _ (fun e he => ?_) e1
      rcases List.mem_append.1 he with he | he
      · exact hpq e he
      · obtain ⟨c, hc, rfl⟩ := List.mem_map.1 he
        exact hfq c (List.mem_of_mem_take hc)
    · rw [if_neg hlt] at e1 ⊢
      simp only [bind, Except.bind] at e1 ⊢
      exact key _ hpq e1

theorem withFixedColorsD_eq [FltSign F] (s : Sound F num) (p : PalF F) (m : ℕ) (fs : List (FPixel F)) (hp : p.length ≤ m)
    (hm : m ≤ 256) : p.withFixedColorsD num m fs = p.withFixedColors m fs :=
  withFixedColorsD_of s.coloursOK p m fs hp hm (fun _ _ => trivial) (fun _ _ => trivial)

/-! ### Nearest colours -/

/-- palettes whose popularities and distances pass the checks -/
structure PaletteOK (num : Bool) (p : PalF F) : Prop where
  pop : num = true → ∀ i, isFinite (palPopularity p i) = true
  dist : num = true → ∀ i j, isFinite (vpDist p (palColor p i) j) = true

theorem Sound.paletteOK (s : Sound F num) (p : PalF F) : PaletteOK num p := ⟨fun hn _ => s.fin hn _, fun hn _ _ => s.fin hn _⟩

theorem vpCreateD_eq {p : PalF F} (s : PaletteOK num p) (l : List ℕ) (hne : l ≠ []) : vpCreateD num p l = .ok (vpCreate p l) := by
  generalize hn : l.length = n
  induction n using Nat.strong_induction_on generalizing l with
  | _ n ih =>
    rw [vpCreateD, vpCreate]
    rw [dbg_true (by cases l <;> simp_all)]
    show (if _ then _ else _) = _
    split
    · rfl
    next hlen =>
      rw [dbgKeys_ok (fun hn x _ => s.pop hn x.1)]
      show (match h : popularFirst p l with | [] => _ | ref :: rest => _) = _
      split
      · split
        · rfl
        next h1 _ _ h2 => rw [h1] at h2; cases h2
      next ref rest h1 =>
        split
        next h2 => rw [h1] at h2; cases h2
        next ref' rest' h2 =>
          rw [h1] at h2
          cases h2
          have hl := length_popularFirst p l
          rw [h1] at hl
          simp only [List.length_cons] at hl
          dsimp only
          rw [dbgSort_ok (fun hn j _ => s.dist hn ref j)]
          show (if _ then _ else _) = _
          split
          · rfl
          next hbig =>
            have hs : (sortByKey (vpDist p (palColor p ref)) rest).length = rest.length := by simp [sortByKey]
            have h6 : 6 < (sortByKey (vpDist p (palColor p ref)) rest).length := by
              have : leafMaxSize = 6 := rfl
              omega
            have hnear : (sortByKey (vpDist p (palColor p ref)) rest).take
                ((sortByKey (vpDist p (palColor p ref)) rest).length / 2) ≠ [] := by
              apply List.ne_nil_of_length_pos; rw [List.length_take]; omega
            have hfar : (sortByKey (vpDist p (palColor p ref)) rest).drop
                ((sortByKey (vpDist p (palColor p ref)) rest).length / 2) ≠ [] := by
              apply List.ne_nil_of_length_pos; rw [List.length_drop]; omega
            rw [dbg_true (by simpa using hnear)]
            show (dbg _ >>= _) = _
            rw [dbg_true (by simpa using hfar)]
            show (vpCreateD _ _ _ >>= _) = _
            rw [ih _ (by rw [List.length_take]; omega) _ hnear rfl]
            show (vpCreateD _ _ _ >>= _) = _
            rw [ih _ (by rw [List.length_drop]; omega) _ hfar rfl]
            rfl

theorem Nearest.newD_eq {p : PalF F} (s : PaletteOK num p) : Nearest.newD num p = Nearest.new p := by
  unfold Nearest.newD Nearest.new
  split
  · rfl
  · split
    · rfl
    next h0 =>
      rw [vpCreateD_eq s _ (by intro hc; simp at hc; exact h0 (by rw [hc]; rfl))]
      rfl

/-! ### K-means -/

namespace Kmeans

theorem replaceUnusedD_of {P : PalF F → Prop} (items : List (HistItem F)) (hP : ∀ q, P q → PaletteOK num q)
    (hstep : ∀ q i q', P q → replaceUnusedAt q items i = .ok q' → P q') (p : PalF F) (hp : P p)
    (hpos : num = true → ∀ x ∈ items, le (lit32 0) x.adjustedWeight = true) :
    replaceUnusedD num p items = replaceUnused p items := by
  have hat : ∀ q i, P q → replaceUnusedAtD num q items i = replaceUnusedAt q items i := by
    intro q i hq
    unfold replaceUnusedAtD replaceUnusedAt
    cases hqi : q[i]? with
    | none => rfl
    | some e =>
      dsimp only
      split
      · rw [Nearest.newD_eq (hP q hq)]
        congr 1
        funext n
        have hmem : ∀ (l : List (HistItem F)) (st : Option (HistItem F) × F), (∀ x ∈ l, x ∈ items) →
            (∀ w, st.1 = some w → w ∈ items) → ∀ w, (l.foldl (worstStep n q) st).1 = some w → w ∈ items := by
          intro l
          induction l with
          | nil => intro st _ hst w hw; exact hst w hw
          | cons x l ih =>
            intro st hl hst w hw
            rw [List.foldl_cons] at hw
            refine ih _ (fun y hy => hl y (by simp [hy])) ?_ w hw
            intro v hv
            have hstep : worstStep n q st x = st ∨ (worstStep n q st x).1 = some x := by
              have key : ∀ b : Bool, (if b = true then (if lt st.2 (n.search x.color x.tmp).2 = true
                  then (some x, (n.search x.color x.tmp).2) else st) else st) = st ∨
                  (if b = true then (if lt st.2 (n.search x.color x.tmp).2 = true
                  then (some x, (n.search x.color x.tmp).2) else st) else st).1 = some x := by
                intro b
                cases b
                · exact .inl rfl
                · simp only [if_true]
                  split
                  · exact .inr rfl
                  · exact .inl rfl
              exact key _
            rcases hstep with h | h
            · rw [h] at hv; exact hst v hv
            · rw [h] at hv; cases hv; exact hl _ (by simp)
        cases hw : (items.foldl (worstStep n q) (none, lit32 0)).1 with
        | some w =>
          dsimp only
          unfold PalPop.newD
          rw [dbgNum_ok (fun hn => hpos hn w (hmem items _ (fun _ h => h) (by simp) w hw))]
          rfl
        | none => rfl
      · rfl
  unfold replaceUnusedD replaceUnused
  generalize List.range p.length = l
  induction l generalizing p with
  | nil => rfl
  | cons i l ih =>
    rw [List.foldlM_cons, List.foldlM_cons, hat p i hp]
    cases hq : replaceUnusedAt p items i with
    | error f => rfl
    | ok q => exact ih q (hstep p i q hp hq)

theorem iterationD_of {P : PalF F → Prop} (hP : ∀ q, P q → PaletteOK num q) (sched : List (List ℕ)) (hist : HistogramInternal F) (p : PalF F) (adjust : Bool)
    (hd : num = true → ∀ n, Nearest.new p = .ok n → ∀ x ∈ hist.items, lt (matchItem n adjust x).2 (lit64 (10 ^ 20)) = true)
    (hw : num = true → ∀ n, Nearest.new p = .ok n → ∀ x ∈ hist.items, le (lit32 0) (matchItem n adjust x).1.adjustedWeight = true)
    (hf : num = true → ∀ n k, Nearest.new p = .ok n →
      reduceWorkers (sched.map (worker n adjust p.length hist.items)) = some k → finalizeChecks k.averages p = true)
    (hp : P p) (hfp : ∀ n k, Nearest.new p = .ok n → reduceWorkers (sched.map (worker n adjust p.length hist.items)) = some k →
      P (finalizePalette k.averages p))
    (hstep : ∀ n, Nearest.new p = .ok n → ∀ q i q', P q →
      replaceUnusedAt q (hist.items.map fun x => (matchItem n adjust x).1) i = .ok q' → P q') :
    iterationD num sched hist p adjust = iteration sched hist p adjust := by
  unfold iterationD iteration
  split
  · rfl
  · rw [Nearest.newD_eq (hP p hp)]
    cases hn : Nearest.new p with
    | error f => rfl
    | ok n =>
      show (dbgNum _ _ >>= _) = _
      rw [dbgNum_ok (fun h => by rw [List.all_eq_true]; exact hd h n hn)]
      simp only [bind, Except.bind]
      have hr : ∀ q : PalF F, P q → replaceUnusedD num q (hist.items.map fun x => (matchItem n adjust x).1) =
          replaceUnused q (hist.items.map fun x => (matchItem n adjust x).1) := by
        intro q hq
        apply replaceUnusedD_of _ hP (hstep n hn) q hq
        intro h x hx
        obtain ⟨y, hy, rfl⟩ := List.mem_map.1 hx
        exact hw h n hn y hy
      cases hk : reduceWorkers (sched.map (worker n adjust p.length hist.items)) with
      | none => dsimp only; rw [hr _ hp]
      | some k =>
        dsimp only
        rw [dbgNum_ok (fun h => hf h n k hn hk)]
        dsimp only
        rw [hr _ (hfp n k hn hk)]

theorem iterationD_eq (s : Sound F num) (sched : List (List ℕ)) (hist : HistogramInternal F) (p : PalF F) (adjust : Bool)
    (hd : num = true → ∀ n, Nearest.new p = .ok n → ∀ x ∈ hist.items, lt (matchItem n adjust x).2 (lit64 (10 ^ 20)) = true)
    (hw : num = true → ∀ n, Nearest.new p = .ok n → ∀ x ∈ hist.items, le (lit32 0) (matchItem n adjust x).1.adjustedWeight = true)
    (hf : num = true → ∀ n k, Nearest.new p = .ok n →
      reduceWorkers (sched.map (worker n adjust p.length hist.items)) = some k → finalizeChecks k.averages p = true) :
    iterationD num sched hist p adjust = iteration sched hist p adjust :=
  iterationD_of (P := fun _ => True) (fun q _ => s.paletteOK q) sched hist p adjust hd hw hf trivial (fun _ _ _ _ => trivial)
    (fun _ _ _ _ _ _ _ => trivial)

end Kmeans

/-! ### The search -/

/-- The checks of the steps of the search pass while `H` holds of the histogram and `P` of the palette. -/
structure Checked (num : Bool) (env : Env F) (m : ℕ) (H : HistogramInternal F → Prop) (P : PalF F → Prop) : Prop where
  kept : Kept env m H P
  cut : ∀ h k a b, H h → 1 ≤ k → k ≤ m → mediancutD num env.so h k a b = mediancut env.so h k a b
  fixed : ∀ h k a b pal h', H h → 1 ≤ k → k ≤ m → mediancut env.so h k a b = .ok (pal, h') →
    pal.withFixedColorsD num m h'.fixedColors = pal.withFixedColors m h'.fixedColors
  pass : ∀ t h p adj, H h → P p → env.kmeansD num t h p adj = env.kmeans t h p adj
  err : num = true → ∀ t h p h' p' e, H h → P p → env.kmeans t h p false = .ok (h', p', e) → lt e (lit64 (10 ^ 20)) = true

variable {env : Env F} {attr : Attr F} {H : HistogramInternal F → Prop} {P : PalF F → Prop}

theorem PM.bind_congr {α β : Type} {m : PM F α} {f g : α → PM F β} {log : List F}
    (h : ∀ a l, m log = (.ok a, l) → f a l = g a l) : (m >>= f) log = (m >>= g) log := by
  rw [PM.bind_apply, PM.bind_apply]
  cases hm : m log with
  | mk r l =>
    cases r with
    | error e => rfl
    | ok a => exact h a l hm

theorem findLoopD_eq (c : Checked num env attr.maxColors H P) (targetMse : F) (total : ℕ) (st : FindState F) (log : List F)
    (h0 : H st.hist) (h1 : 1 ≤ st.maxColors) (h1' : st.maxColors ≤ attr.maxColors) :
    findLoopD num env attr targetMse total st log = findLoop env attr targetMse total st log := by
  generalize hn : st.trialsLeft.toNat = n
  induction n using Nat.strong_induction_on generalizing st log with
  | _ n ih =>
    rw [findLoopD, findLoop, c.cut _ _ _ _ h0 h1 h1']
    refine PM.bind_congr fun ⟨pal, hist⟩ l e1 => ?_
    obtain ⟨f1, rfl⟩ := PM.lift_ok_inv e1
    dsimp only
    rw [c.fixed _ _ _ _ _ _ h0 h1 h1' f1]
    refine PM.bind_congr fun pal2 l2 e2 => ?_
    obtain ⟨f2, rfl⟩ := PM.lift_ok_inv e2
    obtain ⟨hh, hp⟩ := c.kept.cut _ _ _ _ _ _ _ h0 h1 h1' f1 f2
    by_cases ht : st.trialsLeft ≤ 0
    · rw [dif_pos ht, dif_pos ht]
    · rw [dif_neg ht, dif_neg ht, c.pass _ _ _ _ hh hp]
      refine PM.bind_congr fun ⟨hist', p', err⟩ l3 e3 => ?_
      obtain ⟨f3, rfl⟩ := PM.lift_ok_inv e3
      obtain ⟨hh', hp'⟩ := c.kept.pass _ _ _ _ _ _ _ hh hp f3
      dsimp only
      refine PM.bind_congr fun ab l4 e4 => ?_
      split
      · rfl
      next hd =>
        have hlt := trialUpdate_lt st targetMse err p'
        refine ih _ ?_ (nextState st targetMse err p' hist') _ hh' (trialUpdate_maxColors st targetMse err p' h1).1
          ((trialUpdate_maxColors st targetMse err p' h1).2.trans h1') rfl
        rw [← hn]
        show (trialUpdate st targetMse err p').trialsLeft.toNat < _
        omega

theorem refineLoopD_eq {m : ℕ} (c : Checked num env m H P) (maxMse : Option F) (iterations : ℕ) (limit : F) (clock i : ℕ)
    (hist : HistogramInternal F) (p : PalF F) (err : Option F) (log : List F) (h0 : H hist) (h1 : P p) :
    refineLoopD num env attr maxMse iterations limit clock i hist p err log =
      refineLoop env attr maxMse iterations limit clock i hist p err log := by
  generalize hn : iterations - i = n
  induction n using Nat.strong_induction_on generalizing clock i hist p err log with
  | _ n ih =>
    rw [refineLoopD, refineLoop]
    by_cases hi : i < iterations
    · rw [dif_pos hi, dif_pos hi]
      refine PM.bind_congr fun ab l e => ?_
      split
      · rfl
      · rw [c.pass _ _ _ _ h0 h1]
        refine PM.bind_congr fun ⟨hist', q, pe⟩ l3 e3 => ?_
        obtain ⟨f3, rfl⟩ := PM.lift_ok_inv e3
        obtain ⟨hh', hp'⟩ := c.kept.pass _ _ _ _ _ _ _ h0 h1 f3
        dsimp only
        rw [dbgNum_ok (fun hnum => c.err hnum _ _ _ _ _ _ h0 h1 f3)]
        rw [PM.bind_ok (m := PM.lift (Except.ok ())) (a := ()) (log := l3) (log' := l3) rfl]
        have key : ∀ b : Bool, (if b = true then (pure (q, some pe) : PM F (PalF F × Option F)) else
            refineLoopD num env attr maxMse iterations limit (clock + 1)
            (i + if lt (maxMse.getD (lit64 (10 ^ 20)) *₆ lit64 (15/10)) pe then 2 else 1) hist' q (some pe)) l3 =
            (if b = true then (pure (q, some pe) : PM F (PalF F × Option F)) else
            refineLoop env attr maxMse iterations limit (clock + 1)
            (i + if lt (maxMse.getD (lit64 (10 ^ 20)) *₆ lit64 (15/10)) pe then 2 else 1) hist' q (some pe)) l3 := by
          intro b
          cases b with
          | true => rfl
          | false => exact ih _ (by split <;> omega) _ _ _ _ _ _ hh' hp' rfl
        exact key _
    · rw [dif_neg hi, dif_neg hi]

theorem paletteFromHistogramD_of [FltSign F] (s : ColoursOK num Q) {hist : HistogramInternal F} {m : ℕ} (hm : m ≤ 256)
    (hle : hist.items.length ≤ m) (hw : num = true → ∀ x ∈ hist.items, le (lit32 0) x.perceptualWeight = true)
    (hq : ∀ x ∈ hist.items, Q x.color) (hfq : ∀ c ∈ hist.fixedColors, Q c) :
    paletteFromHistogramD num hist m = paletteFromHistogram hist m := by
  unfold paletteFromHistogramD paletteFromHistogram
  have h1 : ∀ (l : List (HistItem F)) (p : PalF F), (∀ x ∈ l, x ∈ hist.items) →
      l.foldlM (fun p item => do
        let pop ← PalPop.newD num item.perceptualWeight
        PalF.push p item.color pop) p =
      l.foldlM (fun p item => PalF.push p item.color (PalPop.new item.perceptualWeight)) p := by
    intro l
    induction l with
    | nil => intro p _; rfl
    | cons x l ih =>
      intro p hl
      have hx : PalPop.newD num x.perceptualWeight = .ok (PalPop.new x.perceptualWeight) := by
        unfold PalPop.newD
        rw [dbgNum_ok (fun hn => hw hn x (hl x (by simp)))]; rfl
      rw [List.foldlM_cons, List.foldlM_cons, hx]
      show (PalF.push p x.color _ >>= _) = _
      congr 1
      funext q
      exact ih q (fun y hy => hl y (by simp [hy]))
  rw [h1 _ _ (fun _ h => h), pushAll_ok hist.items [] (by simp; omega)]
  show (PalF.withFixedColorsD num _ m hist.fixedColors >>= _) = _
  rw [withFixedColorsD_of s _ m _ (by simpa using hle) hm (fun e he => ?_) hfq]
  · rfl
  · simp only [List.nil_append, List.mem_map] at he
    obtain ⟨x, hx, rfl⟩ := he
    exact hq x hx

theorem paletteFromHistogramD_eq [FltSign F] (s : Sound F num) {hist : HistogramInternal F} {m : ℕ} (hm : m ≤ 256)
    (hle : hist.items.length ≤ m) (hw : num = true → ∀ x ∈ hist.items, le (lit32 0) x.perceptualWeight = true) :
    paletteFromHistogramD num hist m = paletteFromHistogram hist m :=
  paletteFromHistogramD_of s.coloursOK hm hle hw (fun _ _ => trivial) (fun _ _ => trivial)

theorem sortPaletteD_eq (last : Bool) (p : PalF F)
    (h : num = true → ∀ e ∈ p, isFinite e.pop.popularity = true ∧ isFinite e.color.a = true) :
    sortPaletteD num last p = .ok (sortPalette last p) := by
  unfold sortPaletteD
  rw [dbgSort_ok (fun hn e he => (h hn e he).1), Res.ok_bind]
  dsimp only
  rw [dbgKeys_ok (fun hn x hx => (h hn x.1 (List.mem_mergeSort.1
    (List.mem_of_getElem? (List.mem_zipIdx_iff_getElem?.1 (List.mem_filter.1 hx).1)))).2)]
  cases last <;> rfl

theorem newD_of_find {hist : HistogramInternal F} (freeze : Bool) (gamma : F)
    (hs : num = true → ∀ log p err log', findBestPalette env attr (attr.targetMseFor hist.items.length).2.1
      (attr.targetMseFor hist.items.length).2.2 (attr.targetMseFor hist.items.length).1 hist log = (.ok (p, err), log') →
      ∀ e ∈ (if freeze then p.map fun e => { e with pop := e.pop.toFixed } else p : PalF F),
        isFinite e.pop.popularity = true ∧ isFinite e.color.a = true)
    (hf : ∀ log, findBestPaletteD num env attr (attr.targetMseFor hist.items.length).2.1 (attr.targetMseFor hist.items.length).2.2
      (attr.targetMseFor hist.items.length).1 hist log = findBestPalette env attr (attr.targetMseFor hist.items.length).2.1
      (attr.targetMseFor hist.items.length).2.2 (attr.targetMseFor hist.items.length).1 hist log) (log : List F) :
    QuantizationResult.newD num env attr hist freeze gamma log = QuantizationResult.new env attr hist freeze gamma log := by
  unfold QuantizationResult.newD QuantizationResult.new
  refine PM.bind_congr fun ab l e => ?_
  split
  · rfl
  · dsimp only
    rw [PM.bind_apply, PM.bind_apply, hf]
    cases hfl : findBestPalette env attr (attr.targetMseFor hist.items.length).2.1 (attr.targetMseFor hist.items.length).2.2
        (attr.targetMseFor hist.items.length).1 hist l with
    | mk r l' =>
      cases r with
      | error f => rfl
      | ok x =>
        obtain ⟨p, err⟩ := x
        dsimp only
        refine PM.bind_congr fun ab l e => ?_
        split
        · rfl
        · split
          · rfl
          · rw [sortPaletteD_eq _ _ (fun hn => hs hn _ _ _ _ hfl)]; rfl

theorem newD_checked [FltSign F] (s : Sound F num) (c : Checked num env attr.maxColors H P) (hm1 : 1 ≤ attr.maxColors)
    (hm : attr.maxColors ≤ 256) {hist : HistogramInternal F} (h0 : H hist)
    (hw : num = true → ∀ x ∈ hist.items, le (lit32 0) x.perceptualWeight = true) (freeze : Bool) (gamma : F) (log : List F) :
    QuantizationResult.newD num env attr hist freeze gamma log = QuantizationResult.new env attr hist freeze gamma log := by
  refine newD_of_find freeze gamma (fun hn _ _ _ _ _ _ _ => ⟨s.fin hn _, s.fin hn _⟩) (fun log => ?_) log
  unfold findBestPaletteD findBestPalette
  split
  next hc =>
    simp only [Bool.and_eq_true, decide_eq_true_eq] at hc
    rw [paletteFromHistogramD_eq s hm hc.1 hw]
  · have he := findLoopD_eq c (attr.targetMseFor hist.items.length).2.1 (attr.feedbackTrials hist.items.length)
      (FindState.init attr hist) log h0 hm1 le_rfl
    rw [PM.bind_apply, PM.bind_apply, he]
    cases hfl : findLoop env attr (attr.targetMseFor hist.items.length).2.1 (attr.feedbackTrials hist.items.length)
        (FindState.init attr hist) log with
    | mk r l =>
      cases r with
      | error f => rfl
      | ok x =>
        obtain ⟨p, st⟩ := x
        obtain ⟨hp, hh⟩ := findLoop_kept c.kept _ _ (FindState.init attr hist) _ h0 hm1 le_rfl
          (by intro p hp; simp [FindState.init] at hp) hfl
        exact refineLoopD_eq c _ _ _ _ _ _ _ _ _ hh hp

/-- a histogram whose colours all fit and are to be kept is not cut -/
theorem newD_kept [FltSign F] (s : Sound F num) (hm : attr.maxColors ≤ 256) {hist : HistogramInternal F}
    (hle : hist.items.length ≤ attr.maxColors) (hz : eq attr.targetMse (lit64 0) = true)
    (hw : num = true → ∀ x ∈ hist.items, le (lit32 0) x.perceptualWeight = true) (freeze : Bool) (gamma : F) (log : List F) :
    QuantizationResult.newD num env attr hist freeze gamma log = QuantizationResult.new env attr hist freeze gamma log := by
  refine newD_of_find freeze gamma (fun hn _ _ _ _ _ _ _ => ⟨s.fin hn _, s.fin hn _⟩) (fun log => ?_) log
  have hc : (decide (hist.items.length ≤ attr.maxColors) && (attr.targetMseFor hist.items.length).2.2) = true := by
    rw [Bool.and_eq_true]
    exact ⟨by simpa using hle, hz⟩
  unfold findBestPaletteD findBestPalette
  rw [if_pos hc, if_pos hc, paletteFromHistogramD_eq s hm hle hw]

/-! ### Histograms -/

/-- what is placed does not depend on what was in the places before -/
theorem Histogram.Placing.unique {lut : UInt8 → F} {maxW : F} {temp : List (Histogram.TempHistItem F)}
    (hc : ∀ t ∈ temp, t.cluster < Histogram.maxCluster) {st st' : List (ℕ × ℕ) × List (HistItem F) × F}
    (p : Histogram.Placing lut maxW temp temp st) (p' : Histogram.Placing lut maxW temp temp st') : st = st' := by
  refine Prod.ext ?_ (Prod.ext ?_ (p.total.trans p'.total.symm))
  · apply List.ext_getElem?
    intro k
    by_cases hk : k < Histogram.maxCluster
    · rw [p.cl k hk, p'.cl k hk]
    · rw [List.getElem?_eq_none (by rw [p.clen]; omega), List.getElem?_eq_none (by rw [p'.clen]; omega)]
  · apply List.ext_getElem?
    intro n
    by_cases hn : n < temp.length
    · obtain ⟨k, hk, h1, h2⟩ := Histogram.cluster_of temp Histogram.maxCluster n (by rw [Histogram.beginOf_end temp hc]; exact hn)
      rw [Histogram.beginOf_succ] at h2
      have hj : n - Histogram.beginOf temp k < (Histogram.placed lut maxW temp k).length := by
        simp only [Histogram.placed, List.length_map]; show _ < Histogram.cnt temp k; omega
      have e1 := p.items k hk (n - Histogram.beginOf temp k) _ (List.getElem?_eq_getElem hj)
      have e2 := p'.items k hk (n - Histogram.beginOf temp k) _ (List.getElem?_eq_getElem hj)
      rw [show Histogram.beginOf temp k + (n - Histogram.beginOf temp k) = n by omega] at e1 e2
      rw [e1, e2]
    · rw [List.getElem?_eq_none (by rw [p.ilen]; omega), List.getElem?_eq_none (by rw [p'.ilen]; omega)]

theorem finalizeBuilderD_eq (blank : HistItem F) (ho : HashOrder) (h : Histogram F) (gamma : F)
    (hg : num = true → lt (lit64 0) gamma = true) :
    h.finalizeBuilderD num blank ho gamma = h.finalizeBuilder ho gamma := by
  unfold Histogram.finalizeBuilderD Histogram.finalizeBuilder
  rw [dbgNum_ok hg, Res.ok_bind]
  dsimp only
  generalize htemp : (Histogram.tempItems ho (h.insertFixedColors ho) : List (Histogram.TempHistItem F)) = temp
  have hc : ∀ t ∈ temp, t.cluster < Histogram.maxCluster := by rw [← htemp]; exact Histogram.tempItems_cluster ho _
  have hstart : ∀ b : HistItem F, Histogram.Placing (gammaLut gamma) (Histogram.maxPerceptualWeight temp) temp []
      (Histogram.clusterBegins 0 (Histogram.clusterCounts temp), List.replicate temp.length b, lit64 0) := fun b =>
    ⟨by simp [Histogram.length_clusterBegins, Histogram.counts_eq temp], by
      intro k hk
      simp only
      rw [Histogram.begins_get temp k hk]; simp [Histogram.cnt], by simp, by
      intro k hk j x hx; simp [Histogram.placed] at hx, rfl⟩
  obtain ⟨st, e, p⟩ := Histogram.place_all (gammaLut gamma) _ temp hc temp [] rfl _ (hstart blank)
  obtain ⟨st', e', p'⟩ := Histogram.place_all (gammaLut gamma) _ temp hc temp [] rfl _ (hstart Histogram.blankItem)
  rw [e, e', p.unique hc p']

theorem quantizeInternalD_checked (blank : HistItem F) (env : Env F) {attr : Attr F} (h : Histogram F) (freeze : Bool) (log : List F)
    (hg : num = true → lt (lit64 0) (h.gamma.getD (lit64 (45455/100000))) = true)
    (hq : ∀ hist, (h.hashmap ≠ [] ∨ h.fixedColors ≠ []) → h.finalizeBuilder env.ho (h.gamma.getD (lit64 (45455/100000))) = .ok hist →
      ∀ log, QuantizationResult.newD num env attr hist freeze (h.gamma.getD (lit64 (45455/100000))) log =
        QuantizationResult.new env attr hist freeze (h.gamma.getD (lit64 (45455/100000))) log) :
    h.quantizeInternalD num blank env attr freeze log = h.quantizeInternal env attr freeze log := by
  unfold Histogram.quantizeInternalD Histogram.quantizeInternal
  split
  · rfl
  next hne =>
    have hne' : h.hashmap ≠ [] ∨ h.fixedColors ≠ [] := by
      by_contra hc
      push Not at hc
      exact hne (by simp [hc.1, hc.2])
    refine PM.bind_congr fun ab l e => ?_
    split
    · rfl
    · refine PM.bind_congr fun ab2 l2 e2 => ?_
      split
      · rfl
      · dsimp only
        rw [finalizeBuilderD_eq blank env.ho h _ hg]
        refine PM.bind_congr fun hist l3 e3 => ?_
        exact hq hist hne' (PM.lift_ok_inv e3).1 l3

end Verif
