import Verif.Lemmas.Own

/-! # How the calls of the C API change the caller's books on memory (C18) -/

set_option linter.unusedSectionVars false

namespace Verif
open Flt

variable {F : Type} [Flt F]

namespace Spec

def setAt {α : Type} (f : ℕ → α) (i : ℕ) (a : α) : ℕ → α := fun j => if j = i then a else f j

/-- a new image -/
def Ledger.create (l : Ledger) (i : ℕ) (o : Origin) (fn : ℕ) : Ledger :=
  { l with origin := setAt l.origin i o, fn := setAt l.fn i fn, status := setAt l.status i .live,
           remapped := setAt l.remapped i false, gaveRows := setAt l.gaveRows i false,
           gavePixels := setAt l.gavePixels i false }

/-- the background of image `i` is gone -/
def Ledger.dropBackground (l : Ledger) (i : ℕ) : Ledger :=
  { l with status := fun j => match l.status j with
      | .backgroundOf k => if k = i then .gone else .backgroundOf k
      | s => s }

/-- image `i` and its background are gone -/
def Ledger.drop (l : Ledger) (i : ℕ) : Ledger :=
  { l.dropBackground i with status := setAt (l.dropBackground i).status i .gone }

/-- `LIQ_OWN_ROWS` and `LIQ_OWN_PIXELS` of `libimagequant.h` -/
def ownsRows (flags : Int32) : Bool := flags = 4 ∨ flags = 12
def ownsPixels (flags : Int32) : Bool := flags = 8 ∨ flags = 12

/-- the row pointers of image `i` hand over this array -/
def Ledger.rowsOf (l : Ledger) (i : ℕ) : Option Ptr :=
  match l.origin i with
  | .rows p _ => some p
  | _ => none

/-- the pixels of image `i` start here: what was passed to `liq_image_create_rgba`, or the lowest row pointer that is in
the caller's array -/
def Ledger.pixelsOf (l : Ledger) (h : Heap) (i : ℕ) : Option Ptr :=
  match l.origin i with
  | .custom => none
  | .bitmap p => some p
  | .rows p n => HRows.lowest (h.rowsAt p n)

/-- what `liq_image_set_memory_ownership` hands over: nothing that it handed over before -/
def Ledger.newRows (l : Ledger) (i : ℕ) (flags : Int32) : List (ℕ × Ptr) :=
  if ownsRows flags && !l.gaveRows i then ((l.rowsOf i).map fun p => (l.fn i, p)).toList else []

def Ledger.newPixels (l : Ledger) (h : Heap) (i : ℕ) (flags : Int32) : List (ℕ × Ptr) :=
  if ownsPixels flags && !l.gavePixels i then ((l.pixelsOf h i).map fun p => (l.fn i, p)).toList else []

def Ledger.give (l : Ledger) (h : Heap) (i : ℕ) (flags : Int32) : Ledger :=
  { l with given := l.given ++ (l.newRows i flags ++ l.newPixels h i flags).map (fun x => ⟨x.1, x.2, i⟩),
           gaveRows := if ownsRows flags then setAt l.gaveRows i true else l.gaveRows,
           gavePixels := if ownsPixels flags then setAt l.gavePixels i true else l.gavePixels }

/-- the caller notes a call and its reply; `h` is the memory at the time of the call -/
def Ledger.note (l : Ledger) (h : Heap) (c : CCall F) (r : Reply F) : Ledger :=
  match c, r with
  | .malloc _, .uint b => { l with mallocs := b :: l.mallocs }
  | .attrCreate, .object (some i) => { l with alloc := setAt l.alloc i 0 }
  | .attrCreateWithAllocator fn, .object (some i) => { l with alloc := setAt l.alloc i fn }
  | .attrCopy (some a), .object (some i) => { l with alloc := setAt l.alloc i (l.alloc a) }
  | .imageCreateCustom (some a) _ _ _ _, .object (some i) => l.create i .custom (l.alloc a)
  | .imageCreateRgbaRows (some a) (some p) _ height _, .object (some i) => l.create i (.rows p height.toNat) (l.alloc a)
  | .imageCreateRgba (some a) (some p) _ _ _, .object (some i) => l.create i (.bitmap p) (l.alloc a)
  | .imageDestroy (some i), _ => l.drop i
  | .imageSetBackground (some i) (some b), .code none =>
      { l.dropBackground i with status := setAt (l.dropBackground i).status b (.backgroundOf i) }
  | .imageSetBackground _ (some b), _ => l.drop b
  | .writeRemappedImage _ (some i) _ _, _ => { l with remapped := setAt l.remapped i true }
  | .writeRemappedImageRows _ (some i) _ _, _ => { l with remapped := setAt l.remapped i true }
  | .imageSetMemoryOwnership (some i) flags, .code none => l.give h i flags
  | .imageSetImportanceMap (some i) (some p) _ own, .code none =>
      if own = 8 then { l with maps := l.maps ++ [(l.fn i, p)] } else l
  | _, _ => l

/-- pointers that may be handed over: starts of blocks that the caller has allocated, none of them handed over before -/
def Ledger.MayGive (l : Ledger) (new : List (ℕ × Ptr)) : Prop :=
  ((l.handedOver ++ new).map (·.2)).Nodup ∧ ∀ x ∈ new, x.2.block ∈ l.mallocs ∧ x.2.off = 0

/-- what the documentation asks of callers, and no ownership of rows after a remap -/
def Allowed (l : Ledger) (w : World F) : CCall F → Prop
  | .imageDestroy h => h = none ∨ ∃ i fn, w.get h = .image i fn
  | .attrDestroy h => h = none ∨ ∃ a fn, w.get h = .attr a fn
  | .resultDestroy h => h = none ∨ ∃ q, w.get h = .result q
  | .histogramDestroy h => h = none ∨ ∃ x, w.get h = .histogram x
  | .setSpeed h _ => ∃ a fn, w.get h = .attr a fn
  | .imageCreateCustom h _ _ _ _ => ∃ a fn, w.get h = .attr a fn
  | .imageSetBackground h b => h ≠ b ∧ w.get h ≠ .taken ∧ (b = none ∨ ∃ i fn, w.get b = .image i fn)
  | .quantizeImage _ h _ => w.get h ≠ .taken
  | .imageQuantize h _ _ => w.get h ≠ .taken
  | .writeRemappedImage _ h _ _ => w.get h ≠ .taken
  | .writeRemappedImageRows _ h _ _ => w.get h ≠ .taken
  | .imageAddFixedColor h _ => w.get h ≠ .taken
  | .imageGetWidth h => w.get h ≠ .taken
  | .imageGetHeight h => w.get h ≠ .taken
  | .histogramAddImage _ _ h _ => w.get h ≠ .taken
  | .imageSetImportanceMap h p _ own => w.get h ≠ .taken ∧
      (own = 8 → ∀ i, h = some i → ∀ q, p = some q → l.MayGive [(l.fn i, q)])
  | .imageSetMemoryOwnership h flags => w.get h ≠ .taken ∧ ∀ i, h = some i →
      l.MayGive (l.newRows i flags ++ l.newPixels w.heap i flags) ∧
      (ownsRows flags = true → l.remapped i = false) ∧
      (ownsPixels flags = true → ∀ p n, l.origin i = .rows p n → w.heap.rowsAt p n ≠ [])
  | .free b => b ∈ l.mallocs
  | _ => True

/-- a program that keeps to the rules; the caller keeps its books along the way -/
def keeps (l : Ledger) (w : World F) : List (CCall F) → Prop
  | [] => True
  | c :: cs => Allowed l w c ∧ keeps (l.note w.heap c (exec w c).2) (exec w c).1 cs

def books (l : Ledger) (w : World F) : List (CCall F) → Ledger
  | [] => l
  | c :: cs => books (l.note w.heap c (exec w c).2) (exec w c).1 cs

end Spec

open Spec

/-- of an object, what ownership depends on -/
def Slot.mem : Slot F → Option (HSource × Option HSource × ℕ)
  | .image i fn => some (i.px.source, i.background.map (·.source), fn)
  | _ => none

/-- the source that an image, or the background of an image, holds -/
def heldBy (l : Ledger) (w : World F) (j : ℕ) : Option HSource :=
  match l.status j with
  | .live => (w.objs j).mem.map (·.1)
  | .backgroundOf h => (w.objs h).mem.bind (·.2.1)
  | _ => none

structure WInv (l : Ledger) (w : World F) : Prop where
  oinv : OInv l w.heap (heldBy l w)
  live : ∀ j, l.status j = .live ↔ ∃ img fn, w.objs j = .image img fn
  fn : ∀ j img fn, w.objs j = .image img fn → l.fn j = fn
  attr : ∀ j a fn, w.objs j = .attr a fn → l.alloc j = fn
  bg : ∀ i img fn, w.objs i = .image img fn → (img.background.isSome ↔ ∃ j, l.status j = .backgroundOf i)
  unique : ∀ i j j', l.status j = .backgroundOf i → l.status j' = .backgroundOf i → j = j'
  bgLive : ∀ i j, l.status j = .backgroundOf i → ∃ img fn, w.objs i = .image img fn
  fresh : ∀ j, w.next ≤ j → w.objs j = .other ∧ l.status j = .unknown
  defined : w.undefined = false

/-! ### Calls that do not touch memory -/

def Slot.attrFn : Slot F → Option ℕ
  | .attr _ fn => some fn
  | _ => none

structure Neutral (w w' : World F) : Prop where
  heap : w'.heap = w.heap
  undefined : w'.undefined = w.undefined
  next : w.next ≤ w'.next
  mem : ∀ j, (w'.objs j).mem = (w.objs j).mem
  attr : ∀ j fn, (w'.objs j).attrFn = some fn → (w.objs j).attrFn = some fn
  fresh : (∀ j, w.next ≤ j → w.objs j = .other) → ∀ j, w'.next ≤ j → w'.objs j = .other

theorem Neutral.refl (w : World F) : Neutral w w := ⟨rfl, rfl, le_refl _, fun _ => rfl, fun _ _ h => h, fun h => h⟩

theorem Neutral.trans {w w' w'' : World F} (a : Neutral w w') (b : Neutral w' w'') : Neutral w w'' :=
  ⟨b.heap.trans a.heap, b.undefined.trans a.undefined, a.next.trans b.next, fun j => (b.mem j).trans (a.mem j),
    fun j fn h => a.attr j fn (b.attr j fn h), fun h => b.fresh (a.fresh h)⟩

theorem Neutral.set {w : World F} {h : Handle} {s : Slot F} (hm : s.mem = (w.get h).mem)
    (ha : ∀ fn, s.attrFn = some fn → (w.get h).attrFn = some fn) (hn : (w.get h) ≠ .other) : Neutral w (w.set h s) := by
  cases h with
  | none => exact Neutral.refl w
  | some i =>
    refine ⟨rfl, rfl, le_refl _, fun j => ?_, fun j fn => ?_, fun hf j hj => ?_⟩
    · simp only [World.set]
      split
      · rename_i e; subst e; exact hm
      · rfl
    · simp only [World.set]
      split
      · rename_i e; subst e; exact ha fn
      · exact id
    · have hij : j ≠ i := fun e => hn (by subst e; exact hf j hj)
      simp only [World.set, hij, if_false]
      exact hf j hj

theorem Neutral.log (w : World F) (l : List F) : Neutral w { w with log := l } :=
  ⟨rfl, rfl, le_refl _, fun _ => rfl, fun _ _ h => h, fun h => h⟩

theorem Neutral.create {w : World F} {s : Slot F} (hm : s.mem = none) (ha : s.attrFn = none)
    (hf : ∀ j, w.next ≤ j → w.objs j = .other) : Neutral w (w.create s).1 := by
  refine ⟨rfl, rfl, by simp [World.create], fun j => ?_, fun j fn => ?_, fun hf j hj => ?_⟩
  · simp only [World.create]
    split
    · rename_i e; subst e; rw [hm, hf _ (le_refl _)]; rfl
    · rfl
  · simp only [World.create]
    split
    · rw [ha]; exact fun h => by cases h
    · exact id
  · simp only [World.create] at hj ⊢
    rw [if_neg (by omega)]
    exact hf j (by omega)

theorem Neutral.heldBy {w w' : World F} (n : Neutral w w') (l : Ledger) (j : ℕ) : heldBy l w' j = heldBy l w j := by
  unfold Verif.heldBy
  split <;> simp [n.mem]

theorem Neutral.image {w w' : World F} (n : Neutral w w') {j : ℕ} {img' : HImage F} {fn : ℕ} (h : w'.objs j = .image img' fn) :
    ∃ img, w.objs j = .image img fn ∧ img'.px.source = img.px.source ∧
      img'.background.map (·.source) = img.background.map (·.source) := by
  have := n.mem j
  rw [h] at this
  cases e : w.objs j <;> rw [e] at this <;> simp [Slot.mem] at this
  obtain ⟨h1, h2, rfl⟩ := this
  exact ⟨_, rfl, h1, h2⟩

theorem Neutral.symm_image {w w' : World F} (n : Neutral w w') {j : ℕ} {img : HImage F} {fn : ℕ} (h : w.objs j = .image img fn) :
    ∃ img', w'.objs j = .image img' fn := by
  have := n.mem j
  rw [h] at this
  cases e : w'.objs j <;> rw [e] at this <;> simp [Slot.mem] at this
  obtain ⟨h1, h2, rfl⟩ := this
  exact ⟨_, rfl⟩

theorem WInv.neutral {l l' : Ledger} {w w' : World F} (i : WInv l w) (n : Neutral w w')
    (hl : l' = { l with remapped := l'.remapped }) (hr : ∀ k, l.remapped k = true → l'.remapped k = true) : WInv l' w' := by
  have hst : l'.status = l.status := by rw [hl]
  have hfn : l'.fn = l.fn := by rw [hl]
  have hal : l'.alloc = l.alloc := by rw [hl]
  refine ⟨?_, fun j => ?_, fun j img fn h => ?_, fun j a fn h => ?_, fun k img fn h => ?_, ?_, fun k j h => ?_, fun j hj => ?_, ?_⟩
  · rw [n.heap]
    refine i.oinv.relabel l' (hl.trans (by rw [hst, hal])) hr fun k => ?_
    rw [n.heldBy]; unfold Verif.heldBy; rw [hst]
  · rw [hst, i.live]
    constructor
    · rintro ⟨img, fn, h⟩
      obtain ⟨img', h'⟩ := n.symm_image h
      exact ⟨img', fn, h'⟩
    · rintro ⟨img, fn, h⟩
      obtain ⟨img', h', _⟩ := n.image h
      exact ⟨img', fn, h'⟩
  · rw [hfn]
    obtain ⟨img', h', _⟩ := n.image h
    exact i.fn j img' fn h'
  · rw [hal]
    have := n.attr j fn (by rw [h]; rfl)
    cases e : w.objs j <;> rw [e] at this <;> simp [Slot.attrFn] at this
    subst this
    exact i.attr j _ _ e
  · obtain ⟨img', h', _, h2⟩ := n.image h
    rw [hst, ← i.bg k img' fn h']
    have := congrArg Option.isSome h2
    simpa using this
  · rw [hst]; exact i.unique
  · rw [hst] at h
    obtain ⟨img, fn, h'⟩ := i.bgLive k j h
    obtain ⟨img', h''⟩ := n.symm_image h'
    exact ⟨img', fn, h''⟩
  · exact ⟨n.fresh (fun j hj => (i.fresh j hj).1) j hj, by rw [hst]; exact (i.fresh j (n.next.trans hj)).2⟩
  · rw [n.undefined]; exact i.defined

theorem WInv.same {l : Ledger} {w w' : World F} (i : WInv l w) (n : Neutral w w') : WInv l w' := i.neutral n rfl fun _ h => h

theorem HImage.absorb_mem (i : HImage F) (c : Image F) (fn : ℕ) : (Slot.image (i.absorb c) fn).mem = (Slot.image i fn).mem := by
  simp only [Slot.mem, HImage.absorb, Option.map_map]
  congr 3

theorem Neutral.setAttr {w : World F} {h : Handle} {a : Attr F} {fn : ℕ} (e : w.get h = .attr a fn) (a' : Attr F) :
    Neutral w (w.set h (.attr a' fn)) :=
  Neutral.set (by rw [e]; rfl) (fun _ => by rw [e]; exact id) (by rw [e]; simp)

theorem Neutral.setResult {w : World F} {h : Handle} {q : QuantizationResult F} (e : w.get h = .result q)
    (q' : QuantizationResult F) : Neutral w (w.set h (.result q')) :=
  Neutral.set (by rw [e]; rfl) (fun _ => by rw [e]; exact id) (by rw [e]; simp)

theorem Neutral.setHistogram {w : World F} {h : Handle} {x : Histogram F} (e : w.get h = .histogram x) (x' : Histogram F) :
    Neutral w (w.set h (.histogram x')) :=
  Neutral.set (by rw [e]; rfl) (fun _ => by rw [e]; exact id) (by rw [e]; simp)

theorem Neutral.setImage {w : World F} {h : Handle} {i : HImage F} {fn : ℕ} (e : w.get h = .image i fn) (c : Image F) :
    Neutral w (w.set h (.image (i.absorb c) fn)) :=
  Neutral.set (by rw [e]; exact i.absorb_mem c fn) (fun _ => by rw [e]; exact id) (by rw [e]; simp)

theorem Neutral.update {α : Type} {w : World F} {h : Handle} {r : Res α} {slot : α → Slot F}
    (hs : ∀ a, Neutral w (w.set h (slot a))) : Neutral w (w.update h r slot).1 := by
  unfold World.update
  split
  · exact hs _
  · exact Neutral.refl w
  · exact Neutral.refl w

theorem Neutral.withAttr {w : World F} {h : Handle} {bad : Reply F} {k : Attr F → ℕ → World F × Reply F}
    (hk : ∀ a fn, w.get h = .attr a fn → Neutral w (k a fn).1) : Neutral w (w.withAttr h bad k).1 := by
  unfold World.withAttr
  split
  · exact hk _ _ (by assumption)
  · exact Neutral.refl w

theorem Neutral.withResult {w : World F} {h : Handle} {bad : Reply F} {k : QuantizationResult F → World F × Reply F}
    (hk : ∀ q, w.get h = .result q → Neutral w (k q).1) : Neutral w (w.withResult h bad k).1 := by
  unfold World.withResult
  split
  · exact hk _ (by assumption)
  · exact Neutral.refl w

theorem Neutral.withHistogram {w : World F} {h : Handle} {bad : Reply F} {k : Histogram F → World F × Reply F}
    (hk : ∀ q, w.get h = .histogram q → Neutral w (k q).1) : Neutral w (w.withHistogram h bad k).1 := by
  unfold World.withHistogram
  split
  · exact hk _ (by assumption)
  · exact Neutral.refl w

theorem Neutral.withImage {w : World F} {h : Handle} {bad : Reply F} {k : HImage F → ℕ → World F × Reply F}
    (ht : w.get h ≠ .taken) (hk : ∀ a fn, w.get h = .image a fn → Neutral w (k a fn).1) :
    Neutral w (w.withImage h bad k).1 := by
  unfold World.withImage
  split
  · exact hk _ _ (by assumption)
  · exact absurd (by assumption) ht
  · exact Neutral.refl w

theorem Neutral.storeResult {w : World F} {r : Res (QuantizationResult F)} (hf : ∀ j, w.next ≤ j → w.objs j = .other) :
    Neutral w (w.storeResult r).1 := by
  unfold World.storeResult
  split
  · exact Neutral.create rfl rfl hf
  · exact Neutral.refl w
  · exact Neutral.refl w

theorem Neutral.returnResult {w : World F} {r : Res (QuantizationResult F)} (hf : ∀ j, w.next ≤ j → w.objs j = .other) :
    Neutral w (w.returnResult r).1 := by
  unfold World.returnResult
  split
  · exact Neutral.create rfl rfl hf
  · exact Neutral.refl w
  · exact Neutral.refl w

theorem Neutral.quantize {w : World F} {h : Handle} {i : HImage F} {fn : ℕ} (e : w.get h = .image i fn) (a : Attr F)
    (env : Env F) : Neutral w (w.quantize a h i fn env).2 := by
  unfold World.quantize
  dsimp only
  exact (Neutral.log w _).trans (Neutral.setImage (w := { w with log := _ }) (by cases h <;> exact e) _)

end Verif
