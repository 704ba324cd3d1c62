import Verif.Lemmas.OwnSteps

/-! # Every allowed call keeps the books right (C18) -/

set_option linter.unusedSectionVars false

namespace Verif
open Flt Spec

variable {F : Type} [Flt F]

/-! ### Ownership flags -/

theorem flags_ok {flags : Int32} (h : ¬ (flags = 0 ∨ flags ||| (ownRowsFlag ||| ownPixelsFlag) ≠ (ownRowsFlag ||| ownPixelsFlag))) :
    (flags &&& ownRowsFlag == ownRowsFlag) = ownsRows flags ∧ (flags &&& ownPixelsFlag == ownPixelsFlag) = ownsPixels flags ∧
      (ownsRows flags = true ∨ ownsPixels flags = true) := by
  simp only [not_or, ne_eq, not_not] at h
  obtain ⟨h0, h1⟩ := h
  have e12 : (ownRowsFlag ||| ownPixelsFlag : Int32) = 12 := by decide
  rw [e12] at h1
  have hb : flags.toBitVec ||| 12#32 = 12#32 := by
    have := congrArg Int32.toBitVec h1
    simpa using this
  have hand : flags.toBitVec &&& 12#32 = flags.toBitVec := by
    rw [← hb]
    ext i hi
    simp only [BitVec.getElem_and, BitVec.getElem_or]
    cases flags.toBitVec[i] <;> simp
  have hle : flags.toBitVec.toNat ≤ 12 := by
    rw [← hand, BitVec.toNat_and]
    exact Nat.and_le_right
  have key : ∀ n ≤ 12, ∀ b : BitVec 32, b = BitVec.ofNat 32 n → b ||| 12#32 = 12#32 → n ≠ 0 → n = 4 ∨ n = 8 ∨ n = 12 := by
    intro n hn b hb
    subst hb
    interval_cases n <;> decide
  have hn : flags.toBitVec.toNat ≠ 0 := by
    intro e
    apply h0
    apply Int32.toBitVec_inj.mp
    apply BitVec.eq_of_toNat_eq
    rw [e]; rfl
  have := key _ hle flags.toBitVec (by simp) hb hn
  have hf : flags = 4 ∨ flags = 8 ∨ flags = 12 := by
    rcases this with e | e | e
    · left; apply Int32.toBitVec_inj.mp; apply BitVec.eq_of_toNat_eq; rw [e]; rfl
    · right; left; apply Int32.toBitVec_inj.mp; apply BitVec.eq_of_toNat_eq; rw [e]; rfl
    · right; right; apply Int32.toBitVec_inj.mp; apply BitVec.eq_of_toNat_eq; rw [e]; rfl
  rcases hf with rfl | rfl | rfl <;> decide

theorem rowsAt_zero (h : Heap) (p : Ptr) : h.rowsAt p 0 = [] := by
  unfold Heap.rowsAt
  split <;> simp

theorem lowest_isSome {l : List Ptr} (h : l ≠ []) : ∃ p, HRows.lowest l = some p := by
  cases l with
  | nil => exact absurd rfl h
  | cons a l =>
    unfold HRows.lowest
    split <;> simp

/-- what `set_memory_ownership` does to the source of an image -/
theorem setMemory (l : Ledger) (h : Heap) (j : ℕ) (r : HRows F) (flags : Int32)
    (hr : Released l j r.source ∨ OriginShape l h j r.source)
    (hf : ownsRows flags = true ∨ ownsPixels flags = true) (hro : ownsRows flags = true → l.remapped j = false)
    (hne : ownsPixels flags = true → ∀ p n, l.origin j = .rows p n → h.rowsAt p n ≠ []) :
    (∃ r', r.setMemoryOwnership (ownsRows flags) (ownsPixels flags) (l.fn j) h = (.ok (), r') ∧
      r'.source.owned.Perm (r.source.owned ++ (l.newRows j flags ++ l.newPixels h j flags)) ∧
      r'.source.boxes = r.source.boxes ∧ OriginShape (l.give h j flags) h j r'.source) ∨
    ∃ e, r.setMemoryOwnership (ownsRows flags) (ownsPixels flags) (l.fn j) h = (.error (.err e), r) := by
  obtain ⟨wd, ht, fp, s, g⟩ := r
  dsimp only at hr
  rcases hr with ⟨rfl, hrel⟩ | ho
  · -- released
    have h1 : ownsRows flags = false := by
      by_contra c
      rw [hro (by simpa using c)] at hrel
      cases hrel
    have h2 : ownsPixels flags = true := by simpa [h1] using hf
    refine .inr ⟨.unsupported, ?_⟩
    simp [HRows.setMemoryOwnership, h1, h2, HRows.ownPixels, Cow.rowSlice, Cow.empty, Cow.len, HRows.lowest]
  · unfold OriginShape at ho ⊢
    have e0 : (l.give h j flags).origin j = l.origin j := rfl
    have e1 : (l.give h j flags).fn j = l.fn j := rfl
    have e2 : (l.give h j flags).mallocs = l.mallocs := rfl
    have e3 : (l.give h j flags).gaveRows j = (l.gaveRows j || ownsRows flags) := by
      unfold Ledger.give
      cases ownsRows flags <;> simp [setAt]
    have e4 : (l.give h j flags).gavePixels j = (l.gavePixels j || ownsPixels flags) := by
      unfold Ledger.give
      cases ownsPixels flags <;> simp [setAt]
    rw [e0]
    cases horig : l.origin j with
    | custom =>
      rw [horig] at ho
      obtain ⟨f, rfl⟩ := ho
      refine .inr ⟨.valueOutOfRange, ?_⟩
      cases h1 : ownsRows flags <;> cases h2 : ownsPixels flags <;>
        simp_all [HRows.setMemoryOwnership, HRows.ownRows, HRows.ownPixels]
    | bitmap p =>
      rw [horig] at ho
      obtain ⟨b, rows, px, rfl, hm, hl, hb1, hb2, hpx⟩ := ho
      left
      have hrs : (Cow.boxed ⟨b, 0⟩ rows.length).rowSlice h = rows := by
        simp [Cow.rowSlice, Cow.ptr, Cow.len, Heap.rowsAt, hm]
      have hnr : l.newRows j flags = [] := by
        simp [Ledger.newRows, Ledger.rowsOf, horig]
      rw [hnr]
      unfold Ledger.newPixels Ledger.pixelsOf PxShape
      simp only [horig, e1, e2, e4]
      rcases hpx with ⟨rfl, hgp⟩ | ⟨q, n, rfl, hgp⟩
      · cases h2 : ownsPixels flags with
        | false =>
          refine ⟨_, by
            cases h1 : ownsRows flags <;>
              simp [HRows.setMemoryOwnership, HRows.ownRows, Cow.makeOwned] <;> rfl, ?_, ?_, ?_⟩
          · simp
          · rfl
          · exact ⟨b, rows, none, rfl, hm, hl, hb1, hb2, by simp [hgp]⟩
        | true =>
          refine ⟨⟨wd, ht, fp, .pixels (.boxed ⟨b, 0⟩ rows.length) (some (.owned p (wd * ht) (l.fn j))), g⟩, by
            cases h1 : ownsRows flags <;>
              simp [HRows.setMemoryOwnership, HRows.ownRows, HRows.ownPixels, Cow.makeOwned, hrs, hl], ?_, ?_, ?_⟩
          · simp [HSource.owned, Cow.owned', hgp]
          · simp [HSource.boxes, Cow.boxes]
          · exact ⟨b, rows, _, rfl, hm, hl, hb1, hb2, by simp⟩
      · refine ⟨_, by
            cases h1 : ownsRows flags <;> cases h2 : ownsPixels flags <;>
              simp [HRows.setMemoryOwnership, HRows.ownRows, HRows.ownPixels, Cow.makeOwned] <;> rfl, ?_, ?_, ?_⟩
        · simp [hgp]
        · rfl
        · exact ⟨b, rows, _, rfl, hm, hl, hb1, hb2, by simp [hgp]⟩
    | rows p m =>
      rw [horig] at ho
      obtain ⟨rc, px, rfl, hm, hrc, hpx⟩ := ho
      left
      have hrs : rc.rowSlice h = h.rowsAt p m := by
        rcases hrc with ⟨rfl, _⟩ | ⟨rfl, _⟩ <;> rfl
      unfold Ledger.newRows Ledger.newPixels Ledger.rowsOf Ledger.pixelsOf PxShape
      simp only [horig, e1, e3, e4]
      obtain ⟨rc', hrc'⟩ : ∃ rc', rc' = (if ownsRows flags then rc.makeOwned (l.fn j) else rc) := ⟨_, rfl⟩
      have hrs' : rc'.rowSlice h = h.rowsAt p m := by
        rw [hrc', ← hrs]
        rcases hrc with ⟨rfl, _⟩ | ⟨rfl, _⟩ <;> cases ownsRows flags <;> rfl
      have hown : rc'.owned'.Perm (rc.owned' ++ if ownsRows flags && !l.gaveRows j then [(l.fn j, p)] else []) := by
        rw [hrc']
        rcases hrc with ⟨rfl, e⟩ | ⟨rfl, e⟩ <;> cases ownsRows flags <;> simp [Cow.makeOwned, Cow.owned', e]
      have hbox : rc'.boxes = [] ∧ rc.boxes = [] := by
        rw [hrc']
        rcases hrc with ⟨rfl, e⟩ | ⟨rfl, e⟩ <;> cases ownsRows flags <;> simp [Cow.makeOwned, Cow.boxes]
      have hshape : rc' = .borrowed p m ∧ (l.gaveRows j || ownsRows flags) = false ∨
          rc' = .owned p m (l.fn j) ∧ (l.gaveRows j || ownsRows flags) = true := by
        rw [hrc']
        rcases hrc with ⟨rfl, e⟩ | ⟨rfl, e⟩ <;> cases ownsRows flags <;> simp [Cow.makeOwned, e]
      have hstep : (if ownsRows flags = true then (HRows.ownRows ⟨wd, ht, fp, .pixels rc px, g⟩ (l.fn j) : Res (HRows F))
          else .ok ⟨wd, ht, fp, .pixels rc px, g⟩) = .ok ⟨wd, ht, fp, .pixels rc' px, g⟩ := by
        rw [hrc']
        cases ownsRows flags <;> simp [HRows.ownRows]
      have hstep' : ∀ px', (if ownsPixels flags = true then (HRows.ownPixels ⟨wd, ht, fp, .pixels rc' px, g⟩ (l.fn j) h : Res (HRows F))
          else .ok ⟨wd, ht, fp, .pixels rc' px, g⟩) = .ok ⟨wd, ht, fp, .pixels rc' px', g⟩ →
          HRows.setMemoryOwnership ⟨wd, ht, fp, .pixels rc px, g⟩ (ownsRows flags) (ownsPixels flags) (l.fn j) h =
            (.ok (), ⟨wd, ht, fp, .pixels rc' px', g⟩) := by
        intro px' hp
        unfold HRows.setMemoryOwnership
        rw [hstep]
        dsimp only
        rw [hp]
      have hrows : ((if ownsRows flags && !l.gaveRows j then ((some p).map fun p => (l.fn j, p)).toList else []) : List (ℕ × Ptr)) =
          if ownsRows flags && !l.gaveRows j then [(l.fn j, p)] else [] := by
        simp
      rw [hrows]
      rcases hpx with ⟨rfl, hgp⟩ | ⟨q, n, rfl, hgp⟩
      · cases h2 : ownsPixels flags with
        | false =>
          refine ⟨⟨wd, ht, fp, .pixels rc' none, g⟩, ?_, ?_, ?_, ?_⟩
          · rw [← h2]; exact hstep' _ (by rw [h2]; simp)
          · simpa [HSource.owned] using hown
          · simp [HSource.boxes, hbox]
          · exact ⟨rc', none, rfl, hm, hshape, by simp [hgp]⟩
        | true =>
          obtain ⟨q, hq⟩ := lowest_isSome (hne h2 p m horig)
          refine ⟨⟨wd, ht, fp, .pixels rc' (some (.owned q (wd * ht) (l.fn j))), g⟩, ?_, ?_, ?_, ?_⟩
          · rw [← h2]; exact hstep' _ (by rw [h2]; simp [HRows.ownPixels, hrs', hq])
          · simp only [HSource.owned, Cow.owned', hgp, hq, Option.map_some, Option.getD_some, Option.map_none, Option.getD_none,
              List.append_nil, Bool.not_false, Bool.and_self, if_true, Option.toList_some, ← List.append_assoc]
            exact hown.append_right _
          · simp only [HSource.boxes, hbox.1, hbox.2]; rfl
          · exact ⟨rc', _, rfl, hm, hshape, by simp⟩
      · refine ⟨⟨wd, ht, fp, .pixels rc' (some (.owned q n (l.fn j))), g⟩, ?_, ?_, ?_, ?_⟩
        · exact hstep' _ (by cases ownsPixels flags <;> simp [HRows.ownPixels, Cow.makeOwned])
        · simp only [HSource.owned, Cow.owned', hgp, Option.map_some, Option.getD_some, Bool.not_true, Bool.and_false,
            Bool.false_eq_true, if_false, List.append_nil]
          refine (hown.append_right _).trans ?_
          rw [List.append_assoc, List.append_assoc]
          exact List.Perm.append_left _ List.perm_append_comm
        · simp only [HSource.boxes, hbox.1, hbox.2]
        · exact ⟨rc', _, rfl, hm, hshape, by simp [hgp]⟩

/-! ### One call -/

theorem Image.setImportanceMap_no_panic (i : Image F) (m : List UInt8) : i.setImportanceMap m ≠ .error .panic := by
  unfold Image.setImportanceMap
  split <;> simp

theorem HRows.newInternal_source {s : HSource} {w h : ℕ} {g : F} {r : HRows F} (e : HRows.newInternal s w h g = .ok r) :
    r.source = s := by
  unfold HRows.newInternal at e
  split at e
  · cases e
  · split at e
    · cases e
    · cases e; rfl

/-- the rows of a bitmap start at the bitmap -/
theorem lowest_rows (p : Ptr) (width n : ℕ) :
    HRows.lowest ((List.range (n + 1)).map fun y => (⟨p.block, p.off + width * y⟩ : Ptr)) = some p := by
  have key : ∀ (l : List ℕ), (∀ y ∈ l, 0 ≤ y) → ∀ q, HRows.lowest (l.map fun y => (⟨p.block, p.off + width * y⟩ : Ptr)) = some q →
      q.block = p.block ∧ p.off ≤ q.off := by
    intro l
    induction l with
    | nil => intro _ q h; cases h
    | cons y l ih =>
      intro hl q h
      simp only [List.map_cons, HRows.lowest] at h
      split at h
      · cases h; exact ⟨rfl, Nat.le_add_right _ _⟩
      · rename_i q' hq'
        have := ih (fun y _ => Nat.zero_le y) q' hq'
        cases h
        split
        · exact ⟨rfl, Nat.le_add_right _ _⟩
        · exact this
  rw [List.range_succ_eq_map]
  simp only [List.map_cons, HRows.lowest]
  split
  · simp
  · rename_i q hq
    have := key _ (fun y _ => Nat.zero_le y) q hq
    simp only [Nat.mul_zero, Nat.add_zero, Option.some.injEq]
    rw [if_pos (.inr ⟨this.1.symm, this.2⟩)]

theorem Ledger.note_same {l : Ledger} {h : Heap} {c : CCall F} {r : Reply F} {w : World F} (e : l.note h c r = l) (i : WInv l w) :
    WInv (l.note h c r) w := by rw [e]; exact i

theorem WInv.remap {l : Ledger} {w : World F} (i : WInv l w) {hr : Handle} {j : ℕ} {q : QuantizationResult F}
    {img : HImage F} {fn : ℕ} (hq : w.get hr = .result q) (hj : w.objs j = .image img fn)
    (rows : List (List (Option UInt8))) (env : RemapEnv F) :
    WInv { l with remapped := setAt l.remapped j true } (w.remap hr (some j) q img fn rows env).1 := by
  obtain ⟨⟨res, s⟩, hrun⟩ : ∃ t, writeRemapped env ⟨q, img.view w.heap, rows, w.log, false⟩ = t := ⟨_, rfl⟩
  obtain ⟨l', hl'⟩ : ∃ l', l' = { l with remapped := setAt l.remapped j true } := ⟨_, rfl⟩
  have hrm : ∀ k, l.remapped k = true → l'.remapped k = true := fun k hk => by
    rw [hl']; simp only [setAt]; split <;> simp_all
  have hl : l' = { l with remapped := l'.remapped } := by rw [hl']
  rw [← hl']
  -- the image and the heap afterwards
  obtain ⟨⟨img', hp'⟩, haf⟩ : ∃ t, img.afterRemap q w.log s.image w.heap = t := ⟨_, rfl⟩
  have core : WInv l' ({ w with heap := hp' }.set (some j) (.image img' fn)) := by
    have hbg : (img.absorb s.image).background.map (·.source) = img.background.map (·.source) := by
      cases hb : img.background <;> simp [HImage.absorb, hb]
    have quiet : WInv l' (w.set (some j) (.image (img.absorb s.image) fn)) :=
      i.neutral (Neutral.setImage (h := some j) hj s.image) hl hrm
    unfold HImage.afterRemap at haf
    by_cases hrel : HImage.releases q w.log = true
    · rw [if_pos hrel] at haf
      by_cases hfp : img.px.fPixels.isSome = true
      · rw [show img.px.freeHistogramInputs w.heap = (img.px.source.drop w.heap, { img.px with source := .pixels .empty none }) by
          unfold HRows.freeHistogramInputs; rw [if_pos hfp]] at haf
        obtain ⟨rfl, rfl⟩ := Prod.mk.inj haf
        refine i.replace (l' := l') hj (by exact hbg) _ (by rw [hl]) (by rw [hl]) (by rw [hl]) ?_
        refine i.oinv.drop (i.held_live hj) l' (by rw [hl]) hrm (some (.pixels .empty none)) (.inr ⟨rfl, by rw [hl']; simp [setAt]⟩)
          _ (by simp [HImage.absorb]) fun k hk => by simp [hk]
      · rw [show img.px.freeHistogramInputs w.heap = (w.heap, img.px) by
          unfold HRows.freeHistogramInputs; rw [if_neg hfp]] at haf
        obtain ⟨rfl, rfl⟩ := Prod.mk.inj haf
        exact quiet
    · rw [if_neg hrel] at haf
      obtain ⟨rfl, rfl⟩ := Prod.mk.inj haf
      exact quiet
  have hres : ∀ i', hr = some i' → i' ≠ j := by
    rintro i' rfl e
    subst e
    rw [show w.get (some i') = w.objs i' from rfl, hj] at hq; cases hq
  have fin : WInv l' (({ w with heap := hp', log := s.log }.set (some j) (.image img' fn)).set hr (.result s.quant)) := by
    refine (core.same (Neutral.log _ s.log)).same (Neutral.setResult (q := q) ?_ s.quant)
    cases hr with
    | none => cases hq
    | some i' => simp only [World.get, World.set, if_neg (hres i' rfl)]; exact hq
  unfold World.remap
  rw [hrun]
  dsimp only
  rw [haf]
  dsimp only
  split <;> exact fin

theorem WInv.step {l : Ledger} {w : World F} (i : WInv l w) (c : CCall F) (ok : Allowed l w c) :
    WInv (l.note w.heap c (exec w c).2) (exec w c).1 := by
  have hf : ∀ j, w.next ≤ j → w.objs j = .other := fun j hj => (i.fresh j hj).1
  have ne : ∀ {c : CCall F}, (∀ r, l.note w.heap c r = l) → Neutral w (exec w c).1 →
      WInv (l.note w.heap c (exec w c).2) (exec w c).1 := fun h n => by rw [h]; exact i.same n
  have at_ : ∀ {h : Handle} {r : Res (Attr F)} {a : Attr F} {fn : ℕ}, w.get h = .attr a fn →
      Neutral w (w.update h r (.attr · fn)).1 := fun e => Neutral.update fun a' => Neutral.setAttr e a'
  have dead : ∀ {h : Handle} {s : Slot F}, w.get h = s → s.mem = none → s ≠ .other →
      Neutral w (w.set h .freed) := fun {h s} e hm hn =>
    Neutral.set (by rw [e, hm]; rfl) (fun fn h => by cases h) (by rw [e]; exact hn)
  cases c with
  | version => exact ne (fun _ => rfl) (Neutral.refl w)
  | setMinOpacity h n => exact ne (fun _ => rfl) (Neutral.refl w)
  | getMinOpacity h => exact ne (fun _ => rfl) (Neutral.refl w)
  | setLastIndexTransparent h b => exact ne (fun _ => rfl) (Neutral.withAttr fun a fn e => Neutral.setAttr e _)
  | getPalette h => exact ne (fun _ => rfl) (Neutral.withResult fun q e => Neutral.setResult e _)
  | attrSetProgressCallback h cb => exact ne (fun _ => rfl) (Neutral.withAttr fun a fn e => Neutral.setAttr e _)
  | resultSetProgressCallback h cb => exact ne (fun _ => rfl) (Neutral.withResult fun q e => Neutral.setResult e _)
  | setLogCallback h => exact ne (fun _ => rfl) (Neutral.withAttr fun a fn e => Neutral.refl w)
  | setLogFlushCallback h => exact ne (fun _ => rfl) (Neutral.withAttr fun a fn e => Neutral.refl w)
  | setMaxColors h n => exact ne (fun _ => rfl) (Neutral.withAttr fun a fn e => at_ e)
  | getMaxColors h => exact ne (fun _ => rfl) (Neutral.withAttr fun a fn e => Neutral.refl w)
  | setMinPosterization h n => exact ne (fun _ => rfl) (Neutral.withAttr fun a fn e => at_ e)
  | getMinPosterization h => exact ne (fun _ => rfl) (Neutral.withAttr fun a fn e => Neutral.refl w)
  | setSpeed h n =>
    obtain ⟨a, fn, e⟩ := ok
    refine ne (fun _ => rfl) ?_
    simp only [exec, e]
    exact at_ e
  | getSpeed h => exact ne (fun _ => rfl) (Neutral.withAttr fun a fn e => Neutral.refl w)
  | setQuality h m t => exact ne (fun _ => rfl) (Neutral.withAttr fun a fn e => at_ e)
  | getMinQuality h => exact ne (fun _ => rfl) (Neutral.withAttr fun a fn e => Neutral.refl w)
  | getMaxQuality h => exact ne (fun _ => rfl) (Neutral.withAttr fun a fn e => Neutral.refl w)
  | quantizeImage ha hi env =>
    refine ne (fun _ => rfl) (Neutral.withAttr fun a fn e => Neutral.withImage ok fun im fn' e' => ?_)
    have n := Neutral.quantize e' a env
    exact n.trans (Neutral.returnResult (n.fresh hf))
  | imageQuantize hi ha env =>
    refine ne (fun _ => rfl) (Neutral.withAttr fun a fn e => Neutral.withImage ok fun im fn' e' => ?_)
    have n := Neutral.quantize e' a env
    exact n.trans (Neutral.storeResult (n.fresh hf))
  | histogramQuantize hh ha env =>
    refine ne (fun _ => rfl) (Neutral.withAttr fun a fn e => Neutral.withHistogram fun x e' => ?_)
    have n : Neutral w ({ w with log := (x.quantize env a w.log).2 }.set hh (.histogram (x.afterQuantize env a w.log))) :=
      (Neutral.log w _).trans (Neutral.setHistogram (x := x) (by cases hh <;> exact e') _)
    exact n.trans (Neutral.storeResult (n.fresh hf))
  | writeRemappedImage hr hi buf env =>
    cases hi with
    | none =>
      refine ne (fun _ => rfl) (Neutral.withResult fun q e => Neutral.withImage ok fun im fn' e' => ?_)
      cases e'
    | some j =>
      have hnote : ∀ r, l.note w.heap (.writeRemappedImage hr (some j) buf env) r =
          { l with remapped := setAt l.remapped j true } := fun _ => rfl
      have idle : WInv { l with remapped := setAt l.remapped j true } w :=
        i.neutral (Neutral.refl w) rfl fun k hk => by simp only [setAt]; split <;> simp_all
      rw [hnote]
      simp only [exec, World.withResult, World.withImage]
      split
      · rename_i q hq
        split
        · rename_i im fn him
          split
          · exact idle
          · split
            · exact idle
            · exact i.remap hq him _ env
        · exact absurd (by assumption) ok
        · exact idle
      · exact idle
  | writeRemappedImageRows hr hi rows env =>
    cases hi with
    | none =>
      refine ne (fun _ => rfl) (Neutral.withResult fun q e => Neutral.withImage ok fun im fn' e' => ?_)
      cases e'
    | some j =>
      have hnote : ∀ r, l.note w.heap (.writeRemappedImageRows hr (some j) rows env) r =
          { l with remapped := setAt l.remapped j true } := fun _ => rfl
      have idle : WInv { l with remapped := setAt l.remapped j true } w :=
        i.neutral (Neutral.refl w) rfl fun k hk => by simp only [setAt]; split <;> simp_all
      rw [hnote]
      simp only [exec, World.withResult, World.withImage]
      split
      · rename_i q hq
        split
        · rename_i im fn him
          split
          · exact idle
          · exact i.remap hq him _ env
        · exact absurd (by assumption) ok
        · exact idle
      · exact idle
  | imageAddFixedColor h c =>
    exact ne (fun _ => rfl) (Neutral.withImage ok fun im fn e => Neutral.update fun v => Neutral.setImage e v)
  | histogramAddFixedColor h c g =>
    exact ne (fun _ => rfl) (Neutral.withHistogram fun x e => Neutral.update fun v => Neutral.setHistogram e v)
  | imageGetWidth h => exact ne (fun _ => rfl) (Neutral.withImage ok fun im fn e => Neutral.refl w)
  | imageGetHeight h => exact ne (fun _ => rfl) (Neutral.withImage ok fun im fn e => Neutral.refl w)
  | imageDestroy h =>
    cases h with
    | none => exact ne (fun _ => rfl) (Neutral.refl w)
    | some j =>
      rcases ok with ok | ⟨im, fn, e⟩
      · cases ok
      · have e' : w.objs j = .image im fn := e
        have hex : exec w (.imageDestroy (some j)) = ({ w with heap := im.drop w.heap }.set (some j) .freed, .nothing) := by
          simp [exec, World.dropImage, e']
        rw [hex]
        exact i.dropImage e' .freed rfl rfl
  | imageSetBackground h b =>
    obtain ⟨hne, ht, hb⟩ := ok
    cases b with
    | none =>
      have hnote : ∀ r, l.note w.heap (.imageSetBackground h none : CCall F) r = l := fun r => by
        cases h <;> rfl
      refine ne hnote ?_
      have : (exec w (.imageSetBackground h none)).1 = w := by
        simp only [exec, World.get]
        cases h with
        | none => rfl
        | some j =>
          dsimp only
          cases hj : w.objs j <;> rfl
      rw [this]; exact Neutral.refl w
    | some b =>
      rcases hb with hb | ⟨bg, fnb, hb⟩
      · cases hb
      have hb' : w.objs b = .image bg fnb := hb
      -- the image handle
      by_cases hg : ∃ im fn, w.get h = .image im fn
      · obtain ⟨im, fn, hg⟩ := hg
        cases h with
        | none => cases hg
        | some j =>
          have hj : w.objs j = .image im fn := hg
          have hjb : j ≠ b := fun e => hne (by rw [e])
          have hex : exec w (.imageSetBackground (some j) (some b)) =
              (({ w with heap := (im.setBackground bg w.heap).2.2 }.set (some j) (.image (im.setBackground bg w.heap).2.1 fn)).set
                (some b) .taken, .ofRes (im.setBackground bg w.heap).1) := by
            simp only [exec, hg, hb, if_neg hne]
          rw [hex]
          cases hsb : (im.view w.heap).setBackground (bg.view w.heap) with
          | error e =>
            have h1 : im.setBackground bg w.heap = (.error e, im, bg.drop w.heap) := by
              unfold HImage.setBackground; rw [hsb]
            rw [h1]
            have hnote : l.note w.heap (.imageSetBackground (some j) (some b) : CCall F) (Reply.ofRes (.error e) : Reply F) = l.drop b := by
              cases e <;> rfl
            dsimp only
            rw [hnote]
            have hw : ({ w with heap := bg.drop w.heap }.set (some j) (.image im fn)) = { w with heap := bg.drop w.heap } := by
              simp only [World.set]
              congr 1
              funext k
              by_cases ek : k = j
              · subst ek; rw [if_pos rfl, hj]
              · rw [if_neg ek]
            rw [hw]
            exact i.dropImage hb' .taken rfl rfl
          | ok v =>
            have h1 : im.setBackground bg w.heap =
                (.ok (), { im with background := some bg.px }, HImage.dropBackground im.background w.heap) := by
              unfold HImage.setBackground; rw [hsb]
            rw [h1]
            have hnone : bg.background = none := by
              unfold Image.setBackground at hsb
              split at hsb
              · cases hsb
              · rename_i hc
                simpa [HImage.view] using hc
            exact i.setBackground hjb hj hb' hnone
      · have hex : exec w (.imageSetBackground h (some b)) =
            ({ w with heap := bg.drop w.heap }.set (some b) .freed, .code (some .invalidPointer)) := by
          simp only [exec, hb]
          cases hj : w.get h with
          | image im fn => exact absurd ⟨im, fn, hj⟩ hg
          | taken => exact absurd hj ht
          | _ => simp [World.dropImage, hb']
        rw [hex]
        have hnote : l.note w.heap (.imageSetBackground h (some b) : CCall F) (.code (some .invalidPointer) : Reply F) = l.drop b := by
          cases h <;> rfl
        rw [hnote]
        exact i.dropImage hb' .freed rfl rfl
  | imageSetImportanceMap h p size own =>
    obtain ⟨ht, hgive⟩ := ok
    cases h with
    | none =>
      exact ne (fun _ => rfl) (Neutral.withImage ht fun im fn' e' => by cases e')
    | some j =>
      cases p with
      | none =>
        refine ne (fun _ => rfl) (Neutral.withImage ht fun im fn' e' => Neutral.refl w)
      | some q =>
        have herr : ∀ e, l.note w.heap (.imageSetImportanceMap (some j) (some q) size own : CCall F) (.code (some e) : Reply F) = l :=
          fun e => rfl
        have hcrash : l.note w.heap (.imageSetImportanceMap (some j) (some q) size own : CCall F) (.crash : Reply F) = l := rfl
        have hok : l.note w.heap (.imageSetImportanceMap (some j) (some q) size own : CCall F) (.code none : Reply F) =
          if own = 8 then { l with maps := l.maps ++ [(l.fn j, q)] } else l := rfl
        simp only [exec, World.withImage]
        split
        · rename_i im fn him
          have him' : w.objs j = .image im fn := him
          split
          · rw [herr]; exact i
          · split
            · rw [herr]; exact i
            · split
              · rename_i hcopy
                have h8 : own ≠ 8 := by rw [hcopy]; decide
                have hn : ∀ r, l.note w.heap (.imageSetImportanceMap (some j) (some q) size own : CCall F) r = l := fun r => by
                  cases r with
                  | code e =>
                    cases e with
                    | none => rw [hok, if_neg h8]
                    | some e => rfl
                  | _ => rfl
                rw [hn]
                exact i.same (Neutral.update fun v => Neutral.setImage him v)
              · split
                · rename_i hown
                  have h8 : own = 8 := hown
                  have hg := hgive h8 j rfl q rfl
                  have hnew : q ∉ l.handedOver.map (·.2) := by
                    have := hg.1
                    rw [List.map_append] at this
                    intro hq
                    exact (List.nodup_append.mp this).2.2 q hq q (by simp) rfl
                  have hb := hg.2 (l.fn j, q) (by simp)
                  have hm : WInv { l with maps := l.maps ++ [(l.fn j, q)] } { w with heap := w.heap.cFree fn q } := by
                    rw [i.fn j im fn him']
                    exact ⟨i.oinv.map hb.1 hb.2 hnew, i.live, i.fn, i.attr, i.bg, i.unique, i.bgLive, i.fresh, i.defined⟩
                  split
                  · rw [hok, if_pos h8]
                    exact hm.same (Neutral.setImage (w := { w with heap := w.heap.cFree fn q }) (h := some j) him' _)
                  · rw [hok, if_pos h8]; exact hm
                  · rename_i hpan
                    exact absurd hpan (Image.setImportanceMap_no_panic _ _)
                · rw [herr]; exact i
        · exact absurd (by assumption) ht
        · rw [herr]; exact i
  | imageSetMemoryOwnership h flags =>
    obtain ⟨ht, hall⟩ := ok
    cases h with
    | none =>
      exact ne (fun _ => rfl) (Neutral.withImage ht fun im fn' e' => by cases e')
    | some j =>
      have herr : ∀ e, l.note w.heap (.imageSetMemoryOwnership (some j) flags : CCall F) (.code (some e) : Reply F) = l := fun e => rfl
      have hok : l.note w.heap (.imageSetMemoryOwnership (some j) flags : CCall F) (.code none : Reply F) = l.give w.heap j flags := rfl
      obtain ⟨hg, hro, hne⟩ := hall j rfl
      simp only [exec, World.withImage]
      split
      · rename_i im fn him
        have him' : w.objs j = .image im fn := him
        split
        · rw [herr]; exact i
        · rename_i hfl
          obtain ⟨f1, f2, f3⟩ := flags_ok hfl
          rw [f1, f2, ← i.fn j im fn him']
          rcases setMemory l w.heap j im.px flags (i.oinv.shape j _ (i.held_live him')) f3 hro hne with
            ⟨r', h1, h2, h3, h4⟩ | ⟨e, h1⟩
          · rw [h1]
            dsimp only
            rw [show (Reply.ofRes (.ok ()) : Reply F) = .code none from rfl, hok, i.fn j im fn him']
            refine i.replace (img' := { im with px := r' }) him' rfl w.heap rfl rfl rfl ?_
            refine i.oinv.give (i.held_live him') (l.newRows j flags ++ l.newPixels w.heap j flags)
              (l.give w.heap j flags) rfl rfl rfl
              (fun k hk => ⟨rfl, rfl, rfl, ?_, ?_⟩) hg.1 hg.2 h2 h3 (.inr h4) _ (by simp) fun k hk => by simp [hk]
            · unfold Ledger.give
              cases ownsRows flags <;> simp [setAt, hk]
            · unfold Ledger.give
              cases ownsPixels flags <;> simp [setAt, hk]
          · rw [h1]
            dsimp only
            rw [show (Reply.ofRes (.error (.err e)) : Reply F) = .code (some e) from rfl, herr]
            have hw : (w.set (some j) (.image im (l.fn j))) = w := by
              rw [i.fn j im fn him']
              simp only [World.set]
              cases w
              congr 1
              funext k
              by_cases ek : k = j
              · subst ek; rw [if_pos rfl]; exact him'.symm
              · rw [if_neg ek]
            have : ({ im with px := im.px } : HImage F) = im := rfl
            rw [this, hw]; exact i
      · exact absurd (by assumption) ht
      · rw [herr]; exact i
  | histogramCreate h =>
    exact ne (fun _ => rfl) (Neutral.withAttr fun a fn e => Neutral.create rfl rfl hf)
  | histogramDestroy h =>
    refine ne (fun _ => rfl) ?_
    rcases ok with rfl | ⟨x, e⟩
    · exact Neutral.refl w
    · cases h with
      | none => exact Neutral.refl w
      | some j =>
        have e' : w.objs j = .histogram x := e
        simp only [exec, World.destroy, e']
        exact dead e rfl (by simp)
  | attrCreateWithAllocator fn => exact i.createAttr _ fn
  | attrCreate => exact i.createAttr _ 0
  | attrCopy h =>
    simp only [exec, World.withAttr]
    split
    · rename_i a fn e
      cases h with
      | none => cases e
      | some j =>
        have := i.attr j a fn e
        subst this
        exact i.createAttr a _
    · cases h <;> exact i
  | attrDestroy h =>
    refine ne (fun _ => rfl) ?_
    rcases ok with rfl | ⟨x, fn, e⟩
    · exact Neutral.refl w
    · cases h with
      | none => exact Neutral.refl w
      | some j =>
        have e' : w.objs j = .attr x fn := e
        simp only [exec, World.destroy, e']
        exact dead e rfl (by simp)
  | resultDestroy h =>
    refine ne (fun _ => rfl) ?_
    rcases ok with rfl | ⟨x, e⟩
    · exact Neutral.refl w
    · cases h with
      | none => exact Neutral.refl w
      | some j =>
        have e' : w.objs j = .result x := e
        simp only [exec, World.destroy, e']
        exact dead e rfl (by simp)
  | setOutputGamma h g =>
    exact ne (fun _ => rfl) (Neutral.withResult fun q e => Neutral.update fun v => Neutral.setResult e v)
  | setDitheringLevel h g =>
    exact ne (fun _ => rfl) (Neutral.withResult fun q e => Neutral.update fun v => Neutral.setResult e v)
  | getOutputGamma h => exact ne (fun _ => rfl) (Neutral.withResult fun q e => Neutral.refl w)
  | getQuantizationError h => exact ne (fun _ => rfl) (Neutral.withResult fun q e => Neutral.refl w)
  | getRemappingError h => exact ne (fun _ => rfl) (Neutral.withResult fun q e => Neutral.refl w)
  | getQuantizationQuality h => exact ne (fun _ => rfl) (Neutral.withResult fun q e => Neutral.refl w)
  | getRemappingQuality h => exact ne (fun _ => rfl) (Neutral.withResult fun q e => Neutral.refl w)
  | imageCreateCustom h f width height g =>
    obtain ⟨a, fn, e⟩ := ok
    cases h with
    | none => cases e
    | some j =>
      simp only [exec, e, World.returnImage]
      split
      · rename_i r hr
        have hsrc := HRows.newInternal_source hr
        have := i.attr j a fn e
        subst this
        refine i.createImage r .custom _ ?_ (by rw [hsrc]; rfl) (by rw [hsrc]; simp [HSource.boxes])
        unfold OriginShape
        rw [show (l.create w.next .custom (l.alloc j)).origin w.next = .custom from setAt_same _ _ _]
        exact ⟨f, hsrc⟩
      · exact i
  | imageCreateRgbaRows h rows width height g =>
    simp only [exec, World.withAttr]
    have hno : ∀ h, l.note w.heap (.imageCreateRgbaRows h rows width height g : CCall F) (.object none : Reply F) = l := fun h => by
      cases h <;> cases rows <;> rfl
    split
    · rename_i a fn e
      cases h with
      | none => cases e
      | some j =>
        split
        · rw [hno]; exact i
        · rename_i hsz
          split
          · exact i
          · rename_i p
            split
            · exact i
            · simp only [World.returnImage]
              split
              · rename_i r hr
                have hsrc := HRows.newInternal_source hr
                have := i.attr j a fn e
                subst this
                refine i.createImage r (.rows p height.toNat) _ ?_ (by rw [hsrc]; rfl) (by rw [hsrc]; simp [HSource.boxes, Cow.boxes])
                unfold OriginShape
                rw [show (l.create w.next (.rows p height.toNat) (l.alloc j)).origin w.next = .rows p height.toNat from
                  setAt_same _ _ _]
                refine ⟨_, none, hsrc, ?_, .inl ⟨rfl, setAt_same _ _ _⟩, .inl ⟨rfl, setAt_same _ _ _⟩⟩
                by_contra c
                have hz : height.toNat = 0 := by omega
                simp [checkSizeC, hz] at hsz
              · exact i
    · rw [hno]; exact i
  | imageCreateRgba h pixels width height g =>
    have hno : ∀ h pixels, l.note w.heap (.imageCreateRgba h pixels width height g : CCall F) (.object none : Reply F) = l :=
      fun h p => by cases h <;> cases p <;> rfl
    cases pixels with
    | none => simp only [exec]; rw [hno]; exact i
    | some p =>
      simp only [exec, World.withAttr]
      split
      · rename_i a fn e
        cases h with
        | none => cases e
        | some j =>
          split
          · rw [hno]; exact i
          · rename_i hsz
            have halloc : ∀ rows, WInv l { w with heap := (w.heap.alloc (.rows rows)).1 } := fun rows =>
              ⟨i.oinv.heap rfl (by simp) fun c hc _ => Heap.alloc_mem_old _ hc, i.live, i.fn, i.attr, i.bg, i.unique, i.bgLive,
                i.fresh, i.defined⟩
            split
            · rename_i r hr
              have hsrc := HRows.newInternal_source hr
              have := i.attr j a fn e
              subst this
              simp only [World.returnImage]
              refine (halloc _).createImage r (.bitmap p) _ ?_ (by rw [hsrc]; rfl) ?_
              · unfold OriginShape
                rw [show (l.create w.next (.bitmap p) (l.alloc j)).origin w.next = .bitmap p from setAt_same _ _ _]
                refine ⟨w.heap.next, (List.range height.toNat).map fun y => (⟨p.block, p.off + width.toNat * y⟩ : Ptr), none,
                  ?_, ?_, ?_, ?_, ?_, .inl ⟨rfl, setAt_same _ _ _⟩⟩
                · rw [hsrc]; simp [Heap.alloc]
                · simp [Heap.alloc]
                · have hz : height.toNat ≠ 0 := fun hz => by simp [checkSizeC, hz] at hsz
                  obtain ⟨n, hn⟩ := Nat.exists_eq_succ_of_ne_zero hz
                  rw [hn]
                  exact lowest_rows p width.toNat n
                · simp [Heap.alloc]
                · intro hmal
                  have := i.oinv.mallocs _ hmal
                  omega
              · rw [hsrc]
                intro k t ht b hb hb'
                have h1 := (i.oinv.boxes_lt (show heldBy l w k = some t from ht) b hb').1
                simp only [HSource.boxes, Cow.boxes, Heap.alloc, Option.map_none, Option.getD_none, List.append_nil,
                  List.mem_singleton] at hb
                omega
            · rw [hno]
              refine ⟨i.oinv.heap rfl (by simp [Heap.dealloc]) fun c hc _ => ?_, i.live, i.fn, i.attr, i.bg, i.unique, i.bgLive,
                i.fresh, i.defined⟩
              have : c ≠ w.heap.next := by omega
              simp [Heap.dealloc, Heap.alloc, this]
      · rw [hno]; exact i
  | histogramAddColors hh ha entries num g =>
    refine ne (fun _ => rfl) (Neutral.withAttr fun a fn e => Neutral.withHistogram fun x e' => ?_)
    split
    · exact Neutral.refl w
    · split
      · exact Neutral.refl w
      · split
        · exact Neutral.refl w
        · exact Neutral.update fun v => Neutral.setHistogram e' v
  | histogramAddImage hh ha hi ho =>
    refine ne (fun _ => rfl) (Neutral.withAttr fun a fn e => Neutral.withHistogram fun x e' => Neutral.withImage ok fun im fn' e'' => ?_)
    dsimp only
    obtain ⟨⟨⟨r, x', c⟩, log⟩, hrun⟩ : ∃ t, t = x.addImage ho a (im.view w.heap) w.log := ⟨_, rfl⟩
    rw [← hrun]
    dsimp only
    have n1 : Neutral w ({ w with log := log }.set hi (.image (im.absorb c) fn')) :=
      (Neutral.log w log).trans (Neutral.setImage (w := { w with log := log }) (by cases hi <;> exact e'') c)
    refine n1.trans (Neutral.setHistogram (x := x) ?_ x')
    cases hh with
    | none => cases e'
    | some k =>
      cases hi with
      | none => cases e''
      | some m =>
        have hkm : k ≠ m := fun c => by
          subst c
          rw [e'] at e''; cases e''
        simp only [World.get, World.set, if_neg hkm]
        exact e'
  | malloc b => exact i.malloc b
  | free b => exact i.free ok

end Verif
