import Verif.Lemmas.OwnCalls

/-! # The calls of the C API that take, hold and free memory (C18) -/

set_option linter.unusedSectionVars false

namespace Verif
open Flt Spec

variable {F : Type} [Flt F]

theorem setAt_same {α : Type} (f : ℕ → α) (i : ℕ) (a : α) : setAt f i a i = a := by simp [setAt]
theorem setAt_other {α : Type} (f : ℕ → α) {i j : ℕ} (a : α) (h : j ≠ i) : setAt f i a j = f j := by simp [setAt, h]

theorem World.objs_set (w : World F) (i : ℕ) (s : Slot F) (j : ℕ) :
    (w.set (some i) s).objs j = if j = i then s else w.objs j := rfl

theorem World.objs_create (w : World F) (s : Slot F) (j : ℕ) :
    (w.create s).1.objs j = if j = w.next then s else w.objs j := rfl

theorem Slot.mem_isSome (s : Slot F) {x : HSource × Option HSource × ℕ} (h : s.mem = some x) :
    ∃ img, s = .image img x.2.2 ∧ img.px.source = x.1 ∧ img.background.map (·.source) = x.2.1 := by
  cases s <;> simp [Slot.mem] at h
  subst h
  exact ⟨_, rfl, rfl, rfl⟩

theorem WInv.held_live {l : Ledger} {w : World F} (i : WInv l w) {j : ℕ} {img : HImage F} {fn : ℕ} (h : w.objs j = .image img fn) :
    heldBy l w j = some img.px.source := by
  have := (i.live j).mpr ⟨img, fn, h⟩
  unfold heldBy
  rw [this, h]; rfl

theorem WInv.held_none {l : Ledger} {w : World F} (i : WInv l w) : heldBy l w w.next = none := by
  unfold heldBy
  rw [(i.fresh _ (le_refl _)).2]

theorem WInv.slot_lt {l : Ledger} {w : World F} (i : WInv l w) {j : ℕ} (h : w.objs j ≠ .other) : j < w.next := by
  by_contra hh
  exact h (i.fresh j (by omega)).1

theorem WInv.status_lt {l : Ledger} {w : World F} (i : WInv l w) {j : ℕ} (h : l.status j ≠ .unknown) : j < w.next := by
  by_contra hh
  exact h (i.fresh j (by omega)).2

/-! ### Memory of the caller -/

theorem WInv.malloc {l : Ledger} {w : World F} (i : WInv l w) (b : Block) :
    WInv { l with mallocs := w.heap.next :: l.mallocs } { w with heap := (w.heap.alloc b).1 } :=
  ⟨i.oinv.malloc b, i.live, i.fn, i.attr, i.bg, i.unique, i.bgLive, i.fresh, i.defined⟩

theorem WInv.free {l : Ledger} {w : World F} (i : WInv l w) {b : ℕ} (hb : b ∈ l.mallocs) :
    WInv l { w with heap := w.heap.dealloc b } :=
  ⟨i.oinv.heap rfl (le_refl _) fun c _ hc => by
      have : c ≠ b := fun e => hc (e ▸ hb)
      simp [Heap.dealloc, this],
    i.live, i.fn, i.attr, i.bg, i.unique, i.bgLive, i.fresh, i.defined⟩

/-! ### Settings -/

theorem WInv.createAttr {l : Ledger} {w : World F} (i : WInv l w) (a : Attr F) (fn : ℕ) :
    WInv { l with alloc := setAt l.alloc w.next fn } (w.create (.attr a fn)).1 := by
  have ho : ∀ j, j ≠ w.next → (w.create (.attr a fn)).1.objs j = w.objs j := fun j hj => by
    rw [World.objs_create, if_neg hj]
  have hn : (w.create (.attr a fn)).1.objs w.next = .attr a fn := by rw [World.objs_create, if_pos rfl]
  have himg : ∀ j img f, (w.create (.attr a fn)).1.objs j = .image img f ↔ w.objs j = .image img f := by
    intro j img f
    by_cases e : j = w.next
    · subst e
      rw [hn, (i.fresh _ (le_refl _)).1]; simp
    · rw [ho j e]
  have hmem : ∀ j, ((w.create (.attr a fn)).1.objs j).mem = (w.objs j).mem := by
    intro j
    by_cases e : j = w.next
    · subst e
      rw [hn, (i.fresh _ (le_refl _)).1]; rfl
    · rw [ho j e]
  refine ⟨i.oinv.relabel _ rfl (fun _ h => h) fun k => ?_, fun j => ?_, fun j img f h => i.fn j img f ((himg _ _ _).mp h),
    fun j a' f h => ?_, fun k img f h => i.bg k img f ((himg _ _ _).mp h), i.unique, fun k j h => ?_, fun j hj => ?_, i.defined⟩
  · unfold heldBy
    simp only [hmem]
  · simp only [himg]; exact i.live j
  · by_cases e : j = w.next
    · subst e
      rw [hn] at h; cases h
      exact setAt_same _ _ _
    · rw [ho j e] at h
      exact (setAt_other _ _ e).trans (i.attr j a' f h)
  · simp only [himg]; exact i.bgLive k j h
  · simp only [World.create] at hj
    rw [ho j (by omega)]
    exact i.fresh j (by omega)

/-! ### Images -/

theorem WInv.createImage {l : Ledger} {w : World F} (i : WInv l w) (r : HRows F) (o : Origin) (fn : ℕ)
    (hs : OriginShape (l.create w.next o fn) w.heap w.next r.source) (ho' : r.source.owned = [])
    (hb : ∀ k t, heldBy l w k = some t → ∀ b ∈ r.source.boxes, b ∉ t.boxes) :
    WInv (l.create w.next o fn) (w.create (.image (.ofRows r) fn)).1 := by
  have ho : ∀ j, j ≠ w.next → (w.create (.image (.ofRows r) fn)).1.objs j = w.objs j := fun j hj => by
    rw [World.objs_create, if_neg hj]
  have hn : (w.create (.image (.ofRows r) fn)).1.objs w.next = .image (.ofRows r) fn := by rw [World.objs_create, if_pos rfl]
  have hst : ∀ j, j ≠ w.next → (l.create w.next o fn).status j = l.status j := fun j hj => setAt_other _ _ hj
  have hstn : (l.create w.next o fn).status w.next = .live := setAt_same _ _ _
  have hbgn : ∀ j k, l.status j = .backgroundOf k → k ≠ w.next := fun j k h e => by
    obtain ⟨img, f, h'⟩ := i.bgLive k j h
    rw [e, (i.fresh _ (le_refl _)).1] at h'
    cases h'
  have hbg : ∀ j k, (l.create w.next o fn).status j = .backgroundOf k ↔ l.status j = .backgroundOf k := by
    intro j k
    by_cases e : j = w.next
    · subst e
      rw [hstn, (i.fresh _ (le_refl _)).2]; simp
    · rw [hst j e]
  refine ⟨?_, fun j => ?_, fun j img f h => ?_, fun j a f h => ?_, fun k img f h => ?_, fun k j j' h h' => ?_, fun k j h => ?_,
    fun j hj => ?_, i.defined⟩
  · refine i.oinv.create i.held_none (l.create w.next o fn) rfl rfl rfl (fun k hk => ⟨setAt_other _ _ hk, setAt_other _ _ hk, setAt_other _ _ hk,
      setAt_other _ _ hk, setAt_other _ _ hk⟩) ho' hs hb _ ?_ fun k hk => ?_
    · unfold heldBy
      rw [hstn, hn]; rfl
    · unfold heldBy
      rw [hst k hk]
      split
      · rw [ho k hk]
      · rename_i h e
        rw [ho h (hbgn k h e)]
      · rfl
  · by_cases e : j = w.next
    · subst e
      rw [hstn, hn]
      exact ⟨fun _ => ⟨_, _, rfl⟩, fun _ => rfl⟩
    · rw [hst j e, ho j e]; exact i.live j
  · by_cases e : j = w.next
    · subst e
      rw [hn] at h; cases h
      exact setAt_same _ _ _
    · rw [ho j e] at h
      exact (setAt_other _ _ e).trans (i.fn j img f h)
  · by_cases e : j = w.next
    · subst e
      rw [hn] at h; cases h
    · rw [ho j e] at h
      exact i.attr j a f h
  · simp only [hbg]
    by_cases e : k = w.next
    · subst e
      rw [hn] at h; cases h
      simp only [HImage.ofRows, Option.isSome_none, Bool.false_eq_true, false_iff, not_exists]
      exact fun j hj => hbgn j _ hj rfl
    · rw [ho k e] at h
      exact i.bg k img f h
  · rw [hbg] at h h'
    exact i.unique k j j' h h'
  · rw [hbg] at h
    rw [ho k (hbgn j k h)]
    exact i.bgLive k j h
  · simp only [World.create] at hj
    rw [ho j (by omega), hst j (by omega)]
    exact i.fresh j (by omega)

theorem Ledger.dropBackground_live (l : Ledger) (i j : ℕ) : (l.dropBackground i).status j = .live ↔ l.status j = .live := by
  unfold Ledger.dropBackground
  dsimp only
  split
  · split <;> simp_all
  · rfl

theorem Ledger.dropBackground_unknown (l : Ledger) {i j : ℕ} (h : l.status j = .unknown) :
    (l.dropBackground i).status j = .unknown := by
  unfold Ledger.dropBackground
  simp [h]

theorem Ledger.dropBackground_bg (l : Ledger) (i j k : ℕ) :
    (l.dropBackground i).status j = .backgroundOf k ↔ l.status j = .backgroundOf k ∧ k ≠ i := by
  unfold Ledger.dropBackground
  dsimp only
  split
  · rename_i h e
    split
    · rename_i e'
      subst e'
      rw [e]
      simp only [reduceCtorEq, Status.backgroundOf.injEq, ne_eq, false_iff, not_and, not_not]
      exact Eq.symm
    · rename_i e'
      rw [e]
      simp only [Status.backgroundOf.injEq, ne_eq, iff_self_and]
      rintro rfl; exact e'
  · rename_i h
    simp only [iff_self_and]
    exact fun e => absurd e (h k)

/-- the background of an image goes -/
theorem OInv.dropBackground {l : Ledger} {w : World F} (i : WInv l w) {j : ℕ} {img : HImage F} {fn : ℕ}
    (h : w.objs j = .image img fn) (held' : ℕ → Option HSource)
    (hk : ∀ k, held' k = if l.status k = .backgroundOf j then none else heldBy l w k) :
    OInv (l.dropBackground j) (HImage.dropBackground img.background w.heap) held' := by
  cases hb : img.background with
  | none =>
    refine i.oinv.relabel (l.dropBackground j) rfl (fun _ h => h) fun k => ?_
    rw [hk, if_neg]
    intro e
    have := (i.bg j img fn h).mpr ⟨k, e⟩
    rw [hb] at this; cases this
  | some b =>
    obtain ⟨m, hm⟩ := (i.bg j img fn h).mp (by rw [hb]; rfl)
    have hh : heldBy l w m = some b.source := by
      unfold heldBy
      rw [hm]
      simp only [h, Slot.mem, hb]; rfl
    refine i.oinv.drop hh (l.dropBackground j) rfl (fun _ h => h) none (.inl rfl) held' (by rw [hk, if_pos hm]) fun k hkm => ?_
    rw [hk, if_neg]
    exact fun e => hkm (i.unique j k m e hm)

/-- dropping the pixels of an image and then its background -/
theorem WInv.dropImage {l : Ledger} {w : World F} (i : WInv l w) {j : ℕ} {img : HImage F} {fn : ℕ}
    (h : w.objs j = .image img fn) (s : Slot F) (hs : s.mem = none) (hs' : s.attrFn = none) :
    WInv (l.drop j) ({ w with heap := img.drop w.heap }.set (some j) s) := by
  have hlive := (i.live j).mpr ⟨img, fn, h⟩
  have hjlt : j < w.next := i.slot_lt (by rw [h]; simp)
  have hso : ∀ img f, s ≠ .image img f := fun img f e => by rw [e] at hs; cases hs
  have hsa : ∀ a f, s ≠ .attr a f := fun a f e => by rw [e] at hs'; cases hs'
  have hstj : (l.drop j).status j = .gone := setAt_same _ _ _
  have hst : ∀ k, k ≠ j → (l.drop j).status k = (l.dropBackground j).status k := fun k hk => setAt_other _ _ hk
  have hbg : ∀ k m, (l.drop j).status k = .backgroundOf m ↔ l.status k = .backgroundOf m ∧ m ≠ j := by
    intro k m
    by_cases e : k = j
    · subst e
      rw [hstj, hlive]; simp
    · rw [hst k e, Ledger.dropBackground_bg]
  have hobj : ∀ k, k ≠ j → ({ w with heap := img.drop w.heap }.set (some j) s).objs k = w.objs k := fun k hk => by
    rw [World.objs_set, if_neg hk]
  have hobjj : ({ w with heap := img.drop w.heap }.set (some j) s).objs j = s := by
    rw [World.objs_set, if_pos rfl]
  refine ⟨?_, fun k => ?_, fun k img' f h' => ?_, fun k a f h' => ?_, fun k img' f h' => ?_, fun k m m' h1 h2 => ?_,
    fun k m h' => ?_, fun k hk => ?_, i.defined⟩
  · -- first the image, then its background
    have h1 : OInv { l with status := (l.drop j).status } (img.px.drop w.heap) (fun k => if k = j then none else heldBy l w k) :=
      i.oinv.drop (i.held_live h) { l with status := (l.drop j).status } rfl (fun _ h => h) none (.inl rfl) _ (by simp)
        fun k hk => by simp [hk]
    change OInv (l.drop j) (HImage.dropBackground img.background (img.px.drop w.heap)) _
    have hfin : ∀ k, heldBy (l.drop j) ({ w with heap := img.drop w.heap }.set (some j) s) k =
        if k = j ∨ l.status k = .backgroundOf j then none else heldBy l w k := by
      intro k
      unfold heldBy
      by_cases e : k = j
      · subst e
        simp only [hstj, true_or, if_true]
      · by_cases e' : l.status k = .backgroundOf j
        · have : (l.drop j).status k = .gone := by
            rw [hst k e]; unfold Ledger.dropBackground; simp [e']
          simp only [this, e', or_true, if_true]
        · simp only [e, e', or_self, if_false]
          have : (l.drop j).status k = l.status k := by
            rw [hst k e]; unfold Ledger.dropBackground; dsimp only
            split
            · rename_i m hm
              rw [if_neg (fun c => e' (by rw [hm, c]))]
              exact hm.symm
            · rfl
          rw [this]
          split
          · rw [hobj k e]
          · rename_i m hm
            rw [hobj m (fun c => e' (by rw [hm, c]))]
          · rfl
    cases hb : img.background with
    | none =>
      refine h1.relabel (l.drop j) rfl (fun _ h => h) fun k => ?_
      rw [hfin]
      have : ¬ l.status k = .backgroundOf j := fun e => by
        have := (i.bg j img fn h).mpr ⟨k, e⟩
        rw [hb] at this; cases this
      simp [this]
    | some b =>
      obtain ⟨m, hm⟩ := (i.bg j img fn h).mp (by rw [hb]; rfl)
      have hmj : m ≠ j := fun e => by rw [e, hlive] at hm; cases hm
      have hh : heldBy l w m = some b.source := by
        unfold heldBy
        rw [hm]
        simp only [h, Slot.mem, hb]; rfl
      refine h1.drop (j := m) (s := b.source) (by simp [hmj, hh]) (l.drop j) rfl (fun _ h => h) none (.inl rfl) _ (by simp [hfin, hm])
        fun k hkm => ?_
      rw [hfin]
      have : ¬ l.status k = .backgroundOf j := fun e => hkm (i.unique j k m e hm)
      simp [this]
  · by_cases e : k = j
    · subst e
      rw [hstj, hobjj]
      exact ⟨fun h => (by cases h), fun ⟨_, _, h⟩ => absurd h (hso _ _)⟩
    · rw [hst k e, hobj k e, Ledger.dropBackground_live]; exact i.live k
  · by_cases e : k = j
    · subst e
      rw [hobjj] at h'; exact absurd h' (hso _ _)
    · rw [hobj k e] at h'; exact i.fn k img' f h'
  · by_cases e : k = j
    · subst e
      rw [hobjj] at h'; exact absurd h' (hsa _ _)
    · rw [hobj k e] at h'; exact i.attr k a f h'
  · by_cases e : k = j
    · subst e
      rw [hobjj] at h'; exact absurd h' (hso _ _)
    · rw [hobj k e] at h'
      rw [i.bg k img' f h']
      simp only [hbg]
      exact ⟨fun ⟨m, hm⟩ => ⟨m, hm, e⟩, fun ⟨m, hm, _⟩ => ⟨m, hm⟩⟩
  · rw [hbg] at h1 h2
    exact i.unique k m m' h1.1 h2.1
  · rw [hbg] at h'
    rw [hobj k h'.2]
    exact i.bgLive k m h'.1
  · have hkn : w.next ≤ k := hk
    rw [hobj k (by omega), hst k (by omega)]
    exact ⟨(i.fresh k hkn).1, Ledger.dropBackground_unknown _ (i.fresh k hkn).2⟩

/-- a background is set -/
theorem WInv.setBackground {l : Ledger} {w : World F} (i : WInv l w) {j b : ℕ} (hjb : j ≠ b) {img bg : HImage F} {fn fnb : ℕ}
    (h : w.objs j = .image img fn) (hb : w.objs b = .image bg fnb) (hnone : bg.background = none) :
    WInv { l.dropBackground j with status := setAt (l.dropBackground j).status b (.backgroundOf j) }
      (({ w with heap := HImage.dropBackground img.background w.heap }.set (some j)
        (.image { img with background := some bg.px } fn)).set (some b) .taken) := by
  have hlj := (i.live j).mpr ⟨img, fn, h⟩
  have hlb := (i.live b).mpr ⟨bg, fnb, hb⟩
  obtain ⟨w', hw'⟩ : ∃ w', w' = (({ w with heap := HImage.dropBackground img.background w.heap }.set (some j)
        (.image { img with background := some bg.px } fn)).set (some b) (.taken : Slot F)) := ⟨_, rfl⟩
  obtain ⟨l', hl'⟩ : ∃ l', l' = { l.dropBackground j with status := setAt (l.dropBackground j).status b (.backgroundOf j) } :=
    ⟨_, rfl⟩
  rw [← hw', ← hl']
  have hsb : l'.status b = .backgroundOf j := by rw [hl']; exact setAt_same _ _ _
  have hst : ∀ k, k ≠ b → l'.status k = (l.dropBackground j).status k := fun k hk => by rw [hl']; exact setAt_other _ _ hk
  have ob : w'.objs b = .taken := by rw [hw', World.objs_set, if_pos rfl]
  have oj : w'.objs j = .image { img with background := some bg.px } fn := by
    rw [hw', World.objs_set, if_neg hjb, World.objs_set, if_pos rfl]
  have oo : ∀ k, k ≠ b → k ≠ j → w'.objs k = w.objs k := fun k h1 h2 => by
    rw [hw', World.objs_set, if_neg h1, World.objs_set, if_neg h2]
  have nob : ∀ k, l.status k ≠ .backgroundOf b := fun k e => by
    have := (i.bg b bg fnb hb).mpr ⟨k, e⟩
    rw [hnone] at this; cases this
  have hbg : ∀ k m, l'.status k = .backgroundOf m ↔ (k = b ∧ m = j) ∨ (k ≠ b ∧ l.status k = .backgroundOf m ∧ m ≠ j) := by
    intro k m
    by_cases e : k = b
    · subst e
      rw [hsb]; simp; exact ⟨Eq.symm, Eq.symm⟩
    · rw [hst k e, Ledger.dropBackground_bg]; simp [e]
  refine ⟨?_, fun k => ?_, fun k img' f h' => ?_, fun k a f h' => ?_, fun k img' f h' => ?_, fun k m m' h1 h2 => ?_,
    fun k m h' => ?_, fun k hk => ?_, by rw [hw']; exact i.defined⟩
  · have hheap : w'.heap = HImage.dropBackground img.background w.heap := by rw [hw']; rfl
    rw [hheap]
    have h1 := OInv.dropBackground i h (fun k => if l.status k = .backgroundOf j then none else heldBy l w k) fun _ => rfl
    refine h1.relabel l' (by rw [hl']) (fun _ h => by rw [hl']; exact h) fun k => ?_
    by_cases e : k = b
    · subst e
      rw [if_neg (by rw [hlb]; simp), i.held_live hb]
      unfold heldBy
      rw [hsb]
      simp only [oj, Slot.mem]; rfl
    · by_cases e' : l.status k = .backgroundOf j
      · rw [if_pos e']
        unfold heldBy
        have : l'.status k = .gone := by
          rw [hst k e]; unfold Ledger.dropBackground; simp [e']
        rw [this]
      · rw [if_neg e']
        have : l'.status k = l.status k := by
          rw [hst k e]; unfold Ledger.dropBackground; dsimp only
          split
          · rename_i m hm
            rw [if_neg (fun c => e' (by rw [hm, c]))]
            exact hm.symm
          · rfl
        unfold heldBy
        rw [this]
        split
        · by_cases ej : k = j
          · subst ej
            rw [oj, h]; rfl
          · rw [oo k e ej]
        · rename_i m hm
          rw [oo m (fun c => nob k (by rw [hm, c])) (fun c => e' (by rw [hm, c]))]
        · rfl
  · by_cases e : k = b
    · subst e
      rw [hsb, ob]; simp
    · rw [hst k e, Ledger.dropBackground_live]
      by_cases ej : k = j
      · subst ej
        rw [oj]
        exact ⟨fun _ => ⟨_, _, rfl⟩, fun _ => hlj⟩
      · rw [oo k e ej]; exact i.live k
  · have hfn : l'.fn = l.fn := by rw [hl']; rfl
    rw [hfn]
    by_cases e : k = b
    · subst e
      rw [ob] at h'; cases h'
    · by_cases ej : k = j
      · subst ej
        rw [oj] at h'; cases h'
        exact i.fn k img fn h
      · rw [oo k e ej] at h'; exact i.fn k img' f h'
  · have hal : l'.alloc = l.alloc := by rw [hl']; rfl
    rw [hal]
    by_cases e : k = b
    · subst e
      rw [ob] at h'; cases h'
    · by_cases ej : k = j
      · subst ej
        rw [oj] at h'; cases h'
      · rw [oo k e ej] at h'; exact i.attr k a f h'
  · by_cases e : k = b
    · subst e
      rw [ob] at h'; cases h'
    · by_cases ej : k = j
      · subst ej
        rw [oj] at h'; cases h'
        exact ⟨fun _ => ⟨b, hsb⟩, fun _ => rfl⟩
      · rw [oo k e ej] at h'
        rw [i.bg k img' f h']
        simp only [hbg]
        constructor
        · rintro ⟨m, hm⟩
          exact ⟨m, .inr ⟨(fun c => by rw [c, hlb] at hm; cases hm), hm, ej⟩⟩
        · rintro ⟨m, ⟨_, h2⟩ | ⟨_, h2, _⟩⟩
          · exact absurd h2 ej
          · exact ⟨m, h2⟩
  · rw [hbg] at h1 h2
    rcases h1 with ⟨rfl, rfl⟩ | ⟨_, h1, h1'⟩
    · rcases h2 with ⟨rfl, _⟩ | ⟨_, _, h2'⟩
      · rfl
      · exact absurd rfl h2'
    · rcases h2 with ⟨_, rfl⟩ | ⟨_, h2, _⟩
      · exact absurd rfl h1'
      · exact i.unique k m m' h1 h2
  · rw [hbg] at h'
    rcases h' with ⟨rfl, rfl⟩ | ⟨h1, h2, h3⟩
    · exact ⟨_, _, oj⟩
    · rw [oo k (fun c => nob m (by rw [h2, c])) h3]
      exact i.bgLive k m h2
  · have hkn : w.next ≤ k := by rw [hw'] at hk; exact hk
    have h1 : k ≠ b := fun c => by rw [(i.fresh b (c ▸ hkn)).1] at hb; cases hb
    have h2 : k ≠ j := fun c => by rw [(i.fresh j (c ▸ hkn)).1] at h; cases h
    rw [oo k h1 h2, hst k h1]
    exact ⟨(i.fresh k hkn).1, Ledger.dropBackground_unknown _ (i.fresh k hkn).2⟩

/-- the source of a live image is replaced, with a new state of the heap -/
theorem WInv.replace {l l' : Ledger} {w : World F} (i : WInv l w) {j : ℕ} {img img' : HImage F} {fn : ℕ}
    (h : w.objs j = .image img fn) (hbg : img'.background.map (·.source) = img.background.map (·.source)) (hp : Heap)
    (hst : l'.status = l.status) (hfn : l'.fn = l.fn) (hal : l'.alloc = l.alloc)
    (ho : OInv l' hp (fun k => if k = j then some img'.px.source else heldBy l w k)) :
    WInv l' ({ w with heap := hp }.set (some j) (.image img' fn)) := by
  obtain ⟨w', hw'⟩ : ∃ w', w' = ({ w with heap := hp }.set (some j) (.image img' fn)) := ⟨_, rfl⟩
  rw [← hw']
  have oj : w'.objs j = .image img' fn := by rw [hw', World.objs_set, if_pos rfl]
  have oo : ∀ k, k ≠ j → w'.objs k = w.objs k := fun k h2 => by rw [hw', World.objs_set, if_neg h2]
  have hlj := (i.live j).mpr ⟨img, fn, h⟩
  refine ⟨?_, fun k => ?_, fun k im f h' => ?_, fun k a f h' => ?_, fun k im f h' => ?_, by rw [hst]; exact i.unique,
    fun k m h' => ?_, fun k hk => ?_, by rw [hw']; exact i.defined⟩
  · have hheap : w'.heap = hp := by rw [hw']; rfl
    rw [hheap]
    refine ho.relabel l' rfl (fun _ h => h) fun k => ?_
    by_cases e : k = j
    · subst e
      unfold heldBy
      rw [if_pos rfl, hst, hlj, oj]; rfl
    · rw [if_neg e]
      unfold heldBy
      rw [hst]
      split
      · rw [oo k e]
      · rename_i m hm
        by_cases em : m = j
        · subst em
          rw [oj, h]; simp only [Slot.mem, Option.bind_some]; exact hbg
        · rw [oo m em]
      · rfl
  · rw [hst, i.live]
    by_cases e : k = j
    · subst e
      rw [oj, h]
      exact ⟨fun _ => ⟨_, _, rfl⟩, fun _ => ⟨_, _, rfl⟩⟩
    · rw [oo k e]
  · rw [hfn]
    by_cases e : k = j
    · subst e
      rw [oj] at h'; cases h'
      exact i.fn k img fn h
    · rw [oo k e] at h'; exact i.fn k im f h'
  · rw [hal]
    by_cases e : k = j
    · subst e
      rw [oj] at h'; cases h'
    · rw [oo k e] at h'; exact i.attr k a f h'
  · rw [hst]
    by_cases e : k = j
    · subst e
      rw [oj] at h'; cases h'
      rw [← i.bg k img fn h]
      have := congrArg Option.isSome hbg
      simpa using this
    · rw [oo k e] at h'; exact i.bg k im f h'
  · rw [hst] at h'
    by_cases e : k = j
    · subst e
      exact ⟨_, _, oj⟩
    · rw [oo k e]; exact i.bgLive k m h'
  · have hkn : w.next ≤ k := by rw [hw'] at hk; exact hk
    have h2 : k ≠ j := fun c => by rw [(i.fresh j (c ▸ hkn)).1] at h; cases h
    rw [oo k h2, hst]
    exact i.fresh k hkn

end Verif
