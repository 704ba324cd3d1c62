import Verif.Lemmas.OwnRun
import Verif.Props.Lossless

/-! # C18: memory handed over through the C API is freed exactly once -/

set_option linter.unusedSectionVars false

namespace Verif
open Flt Spec

variable {F : Type} [Flt F]

theorem WInv.init : WInv Ledger.init (World.init : World F) := by
  refine ⟨⟨?_, ?_, ?_, ?_, ⟨?_, ?_⟩, ⟨?_, ?_⟩, ?_, ?_⟩, ?_, ?_, ?_, ?_, ?_, ?_, ?_, rfl⟩ <;>
    simp [Ledger.init, World.init, Heap.init, heldBy, Ledger.handedOver]

theorem WInv.run (cs : List (CCall F)) {l : Ledger} {w : World F} (i : WInv l w) (hk : keeps l w cs) :
    WInv (books l w cs) (runC w cs).1 := by
  induction cs generalizing l w with
  | nil => exact i
  | cons c cs ih =>
    have := ih (i.step c hk.1) hk.2
    simpa [books, runC] using this

theorem nodup_ptrs {α β : Type} {l m : List (α × β)} (hl : l.Nodup) (hm : (m.map (·.2)).Nodup) (h : ∀ x ∈ l, x ∈ m) :
    (l.map (·.2)).Nodup :=
  List.Nodup.map_on (fun x hx y hy e => List.inj_on_of_nodup_map hm (h x hx) (h y hy) e) hl

/-- **C18** (part; any float arithmetic). Take any program that keeps to the rules of `Allowed`: any number of settings,
images, results, histograms and buffers in any order. At its end, and so at each point,

* no address was passed to a `free` function twice;
* what was passed to a `free` function was handed over by the caller, belongs to this function, and is the start of a
  block that the caller allocated;
* what was handed over with an image is freed once the image is gone: destroyed, or the background of an image that was
  destroyed or that got another background, or refused as a background;
* an importance map that was handed over is freed;
* nothing undefined happened (no use of moved-out images, no memory of the wrong kind deallocated).

Missing: programs that pass `LIQ_OWN_ROWS` for an image that was remapped, see `C18_does_not_hold`. -/
theorem C18_freed_once_partial (cs : List (CCall F)) (hk : keeps Ledger.init World.init cs) :
    let w := (runC (World.init : World F) cs).1
    let l := books Ledger.init (World.init : World F) cs
    (w.heap.frees.map (·.2)).Nodup ∧
    (∀ x ∈ w.heap.frees, x ∈ l.handedOver ∧ x.2.block ∈ l.mallocs ∧ x.2.off = 0) ∧
    (∀ g ∈ l.given, l.status g.image = .gone → (g.fn, g.ptr) ∈ w.heap.frees) ∧
    (∀ x ∈ l.maps, x ∈ w.heap.frees) ∧
    w.undefined = false := by
  intro w l
  have i : WInv l w := WInv.init.run cs hk
  refine ⟨nodup_ptrs i.oinv.frees.1 i.oinv.ptrs.1 i.oinv.frees.2,
    fun x hx => ⟨i.oinv.frees.2 x hx, i.oinv.ptrs.2 x (i.oinv.frees.2 x hx)⟩, fun g hg hs => ?_, i.oinv.maps, i.defined⟩
  rcases i.oinv.given g hg with h | ⟨s, hs', _⟩
  · exact h
  · unfold heldBy at hs'
    rw [hs] at hs'
    cases hs'

/-- a pointer that was not handed over is not freed -/
theorem C18_kept_partial (cs : List (CCall F)) (hk : keeps Ledger.init World.init cs) (p : Ptr)
    (hp : p ∉ (books Ledger.init (World.init : World F) cs).handedOver.map (·.2)) :
    p ∉ (runC (World.init : World F) cs).1.heap.frees.map (·.2) := by
  intro h
  obtain ⟨x, hx, rfl⟩ := List.mem_map.mp h
  exact hp (List.mem_map_of_mem ((C18_freed_once_partial cs hk).2.1 x hx).1)

theorem books_cons (l : Ledger) (w : World F) (c : CCall F) (cs : List (CCall F)) {w' : World F} {r : Reply F}
    (h : exec w c = (w', r)) : books l w (c :: cs) = books (l.note w.heap c r) w' cs := by
  simp only [books, h]

theorem keeps_cons {l : Ledger} {w : World F} {c : CCall F} {cs : List (CCall F)} {w' : World F} {r : Reply F}
    (ha : Allowed l w c) (h : exec w c = (w', r)) (hk : keeps (l.note w.heap c r) w' cs) : keeps l w (c :: cs) := by
  refine ⟨ha, ?_⟩
  rw [h]; exact hk

/-- a 2×1 image from an array of rows -/
theorem newInternal_two (p : Ptr) : HRows.newInternal (.pixels (.borrowed p 1) none) 2 1 (0 : ℝ) =
    .ok ⟨2, 1, none, .pixels (.borrowed p 1) none, lit64 (45455/100000)⟩ := by
  simp [HRows.newInternal, Image.checkImageSize]

set_option maxHeartbeats 1000000 in
/-- The rules of `Allowed` are kept by the program for which the ownership functions are made: the caller allocates pixels
and an array of rows, makes an image, hands both over and destroys the image. Both are handed over, so both are freed. -/
example : ∃ cs : List (CCall ℝ), keeps Ledger.init World.init cs ∧
    (books Ledger.init World.init cs).given = [⟨7, ⟨2, 0⟩, 1⟩, ⟨7, ⟨1, 0⟩, 1⟩] ∧
    (books Ledger.init World.init cs).status 1 = .gone ∧ (books Ledger.init World.init cs).mallocs = [2, 1] ∧
    (7, ⟨2, 0⟩) ∈ (runC World.init cs).1.heap.frees ∧ (7, ⟨1, 0⟩) ∈ (runC World.init cs).1.heap.frees := by
  obtain ⟨cs, hcs⟩ : ∃ cs : List (CCall ℝ), cs = [.malloc (.pixels [⟨1, 2, 3, 255⟩, ⟨4, 5, 6, 255⟩]), .malloc (.rows [⟨1, 0⟩]),
    .attrCreateWithAllocator 7, .imageCreateRgbaRows (some 0) (some ⟨2, 0⟩) 2 1 0, .imageSetMemoryOwnership (some 1) 12,
    .imageDestroy (some 1)] := ⟨_, rfl⟩
  obtain ⟨heap, hheap⟩ : ∃ heap : Heap, heap =
    ((Heap.init.alloc (.pixels [⟨1, 2, 3, 255⟩, ⟨4, 5, 6, 255⟩])).1.alloc (.rows [⟨1, 0⟩])).1 := ⟨_, rfl⟩
  have hrows : heap.rowsAt ⟨2, 0⟩ 1 = [⟨1, 0⟩] := by rw [hheap]; rfl
  obtain ⟨w4, hw4⟩ : ∃ w4 : World ℝ, w4 = ⟨heap, fun j => if j = 1 then .image (.ofRows
    ⟨2, 1, none, .pixels (.borrowed ⟨2, 0⟩ 1) none, lit64 (45455/100000)⟩) 7 else if j = 0 then
    .attr Attr.new 7 else .other, 2, [], false⟩ := ⟨_, rfl⟩
  have e4 : exec ⟨heap, fun j => if j = 0 then .attr Attr.new 7 else .other, 1, [], false⟩
      (.imageCreateRgbaRows (some 0) (some ⟨2, 0⟩) 2 1 0) = (w4, .object (some 1)) := by
    have hnull : Heap.null ∉ heap.rowsAt ⟨2, 0⟩ (1 : UInt32).toNat := by
      rw [show (1 : UInt32).toNat = 1 from rfl, hrows]; decide
    simp only [exec, World.withAttr, World.get, if_true]
    rw [show checkSizeC (2 : UInt32).toNat (1 : UInt32).toNat = true by decide, if_neg (by decide), if_neg hnull,
      show (2 : UInt32).toNat = 2 from rfl, show (1 : UInt32).toNat = 1 from rfl, newInternal_two, hw4]
    rfl
  obtain ⟨l4, hl4⟩ : ∃ l4 : Ledger, l4 =
    { Ledger.init.create 1 (.rows ⟨2, 0⟩ 1) 7 with mallocs := [2, 1], alloc := setAt Ledger.init.alloc 0 7 } := ⟨_, rfl⟩
  obtain ⟨i5, hi5⟩ : ∃ i5 : HImage ℝ, i5 = .ofRows ⟨2, 1, none, .pixels (.owned ⟨2, 0⟩ 1 7) (some (.owned ⟨1, 0⟩ 2 7)),
    lit64 (45455/100000)⟩ := ⟨_, rfl⟩
  have hg4 : w4.get (some 1) = .image (.ofRows ⟨2, 1, none, .pixels (.borrowed ⟨2, 0⟩ 1) none, lit64 (45455/100000)⟩) 7 := by
    rw [hw4]; rfl
  have e5 : exec w4 (.imageSetMemoryOwnership (some 1) 12) = (w4.set (some 1) (.image i5 7), .code none) := by
    simp only [exec, World.withImage, hg4]
    rw [if_neg (by decide)]
    have e1 : ((12 : Int32) &&& ownRowsFlag == ownRowsFlag) = true := by decide
    have e2 : ((12 : Int32) &&& ownPixelsFlag == ownPixelsFlag) = true := by decide
    rw [e1, e2, show w4.heap = heap by rw [hw4], hi5]
    simp [HRows.setMemoryOwnership, HRows.ownRows, HRows.ownPixels, HImage.ofRows, hrows, Reply.ofRes, Cow.makeOwned,
      Cow.rowSlice, Cow.ptr, Cow.len, HRows.lowest]
  have hk : keeps l4 w4 [.imageSetMemoryOwnership (some 1) 12, .imageDestroy (some 1)] := by
    refine ⟨⟨by rw [hg4]; exact (fun h => by cases h), fun i hi => ?_⟩, ?_, trivial⟩
    · cases hi
      refine ⟨?_, fun _ => by rw [hl4]; rfl, fun _ p n hp => ?_⟩
      · rw [hl4, show w4.heap = heap by rw [hw4]]
        simp [Ledger.MayGive, Ledger.newRows, Ledger.newPixels, Ledger.rowsOf, Ledger.pixelsOf, Ledger.create, setAt,
          ownsRows, ownsPixels, Ledger.init, Ledger.handedOver, hrows, HRows.lowest]
      · have : l4.origin 1 = .rows ⟨2, 0⟩ 1 := by rw [hl4]; rfl
        rw [this] at hp
        cases hp
        rw [show w4.heap = heap by rw [hw4], hrows]
        exact List.cons_ne_nil _ _
    · rw [e5]
      exact .inr ⟨i5, 7, by simp [World.get, World.set]⟩
  have hb : ∀ tail : List (CCall ℝ), books Ledger.init World.init (.malloc (.pixels [⟨1, 2, 3, 255⟩, ⟨4, 5, 6, 255⟩]) ::
      .malloc (.rows [⟨1, 0⟩]) :: .attrCreateWithAllocator 7 :: .imageCreateRgbaRows (some 0) (some ⟨2, 0⟩) 2 1 0 :: tail) =
      books l4 w4 tail := by
    intro tail
    refine (books_cons _ _ _ _ rfl).trans ((books_cons _ _ _ _ rfl).trans ((books_cons _ _ _ _ rfl).trans
      ((books_cons _ _ _ _ (w' := w4) (r := .object (some 1)) ?_).trans ?_)))
    · rw [← e4, hheap]; rfl
    · rw [hl4]; congr 1
  have hks : keeps Ledger.init World.init cs := by
    rw [hcs]
    refine keeps_cons trivial rfl (keeps_cons trivial rfl (keeps_cons trivial rfl (keeps_cons (w' := w4)
      (r := .object (some 1)) trivial ?_ ?_)))
    · rw [← e4, hheap]; rfl
    · rw [hl4] at hk; exact hk
  have hgiven : (books Ledger.init World.init cs).given = [⟨7, ⟨2, 0⟩, 1⟩, ⟨7, ⟨1, 0⟩, 1⟩] := by
    rw [hcs, hb, books_cons _ _ _ _ e5, books_cons _ _ _ _ rfl, show w4.heap = heap by rw [hw4], hl4]
    simp [books, Ledger.note, Ledger.drop, Ledger.dropBackground, Ledger.give, Ledger.newRows, Ledger.newPixels,
      Ledger.rowsOf, Ledger.pixelsOf, Ledger.create, setAt, ownsRows, ownsPixels, Ledger.init, hrows, HRows.lowest]
  have hstatus : (books Ledger.init World.init cs).status 1 = .gone := by
    rw [hcs, hb, books_cons _ _ _ _ e5, books_cons _ _ _ _ rfl]
    simp [books, Ledger.note, Ledger.drop, setAt]
  have hfree := (C18_freed_once_partial cs hks).2.2.1
  rw [hgiven] at hfree
  refine ⟨cs, hks, hgiven, hstatus, ?_, hfree ⟨7, ⟨2, 0⟩, 1⟩ (by simp) hstatus,
    hfree ⟨7, ⟨1, 0⟩, 1⟩ (by simp) hstatus⟩
  rw [hcs, hb, books_cons _ _ _ _ e5, books_cons _ _ _ _ rfl, hl4]
  rfl

/-! ### What is wrong -/

/-- the source of an image that is remapped is released if its pixels were converted before -/
theorem remap_releases (w : World F) {hr : Handle} {j : ℕ} {q : QuantizationResult F} {img : HImage F} {fn : ℕ}
    (hq : w.get hr = .result q) (hj : w.objs j = .image img fn) (hcb : q.progressCallback = none)
    (hfp : img.px.fPixels.isSome = true) (rows : List (List (Option UInt8))) (env : RemapEnv F) :
    ∃ img', (w.remap hr (some j) q img fn rows env).1.objs j = .image img' fn ∧ img'.px.source = .pixels .empty none ∧
      img'.background.map (·.source) = img.background.map (·.source) ∧
      (w.remap hr (some j) q img fn rows env).1.heap = img.px.source.drop w.heap := by
  obtain ⟨⟨res, s⟩, hrun⟩ : ∃ t, writeRemapped env ⟨q, img.view w.heap, rows, w.log, false⟩ = t := ⟨_, rfl⟩
  have hrel : HImage.releases q w.log = true := by
    unfold HImage.releases progress
    rw [hcb]
  have haf : img.afterRemap q w.log s.image w.heap =
      (({ img with px := { img.px with source := .pixels .empty none } } : HImage F).absorb s.image, img.px.source.drop w.heap) := by
    unfold HImage.afterRemap HRows.freeHistogramInputs
    rw [if_pos hrel, if_pos hfp]
  have hne : ∀ i', hr = some i' → j ≠ i' := by
    rintro i' rfl e
    subst e
    rw [show w.get (some j) = w.objs j from rfl, hj] at hq; cases hq
  obtain ⟨w', hw'⟩ : ∃ w', w' = (({ w with heap := img.px.source.drop w.heap, log := s.log }.set (some j) (.image
      (({ img with px := { img.px with source := .pixels .empty none } } : HImage F).absorb s.image) fn)).set hr
      (.result s.quant)) := ⟨_, rfl⟩
  have hfin : (w.remap hr (some j) q img fn rows env).1 = w' := by
    unfold World.remap
    rw [hrun]
    dsimp only
    rw [haf]
    dsimp only
    rw [hw']
    split <;> rfl
  rw [hfin]
  refine ⟨({ img with px := { img.px with source := .pixels .empty none } } : HImage F).absorb s.image, ?_, rfl, ?_, ?_⟩
  · rw [hw']
    cases hr with
    | none => simp [World.set]
    | some i' => simp [World.set, hne i' rfl]
  · cases hb : img.background <;> simp [HImage.absorb]
  · rw [hw']; cases hr <;> rfl

/-- **C18**, what is wrong: `LIQ_OWN_ROWS` for an image that was remapped is accepted, the address that is then freed is
not the caller's array but a made-up one. -/
theorem C18_late_rows (w : World F) {j : ℕ} {img : HImage F} {fn : ℕ} (hj : w.objs j = .image img fn)
    (hs : img.px.source = .pixels .empty none) (hbg : img.background = none) :
    ∃ w' w'', exec w (.imageSetMemoryOwnership (some j) 4) = (w', .code none) ∧
      exec w' (.imageDestroy (some j)) = (w'', .nothing) ∧ w''.heap.frees = w.heap.frees ++ [(fn, Heap.dangling)] := by
  have h1 : exec w (.imageSetMemoryOwnership (some j) 4) =
      (w.set (some j) (.image { img with px := { img.px with source := .pixels (.owned Heap.dangling 0 fn) none } } fn),
        .code none) := by
    have hg : w.get (some j) = .image img fn := hj
    simp only [exec, World.withImage, hg]
    rw [if_neg (by decide)]
    have e1 : ((4 : Int32) &&& ownRowsFlag == ownRowsFlag) = true := by decide
    have e2 : ((4 : Int32) &&& ownPixelsFlag == ownPixelsFlag) = false := by decide
    rw [e1, e2]
    unfold HRows.setMemoryOwnership HRows.ownRows
    rw [hs]
    simp [Reply.ofRes, Cow.empty, Cow.makeOwned]
  refine ⟨_, _, h1, rfl, ?_⟩
  simp [World.dropImage, World.set, HImage.drop, HImage.dropBackground, HRows.drop, HSource.drop, dropPixels, Cow.drop,
    Heap.cFree, hbg, Heap.dealloc]

theorem allRowsF_cached {r r' : Rows F} {rows : List (List (FPixel F))} (h : r.allRowsF = .ok (r', rows)) :
    r'.fPixels.isSome = true := by
  unfold Rows.allRowsF at h
  cases hp : r.prepare false with
  | error x => rw [hp] at h; cases h
  | ok q =>
    rw [hp] at h
    simp only [bind, Except.bind] at h
    cases hq : q.fPixels with
    | none => rw [hq] at h; cases h
    | some x => rw [hq] at h; cases h; rw [hq]; rfl

theorem contrastMaps_cached {img img' : Image F} (h : img.contrastMaps = .ok img')
    (hs : Image.skipsContrastMaps img.width img.height = false) : img'.px.fPixels.isSome = true := by
  unfold Image.contrastMaps at h
  rw [hs] at h
  simp only [Bool.false_eq_true, if_false, bind, Except.bind] at h
  split at h
  · cases h
  · rename_i v hv
    split at h
    · cases h
    · split at h
      · cases h
      · cases h
        exact allRowsF_cached hv

theorem quantizeImage_cached (env : Env F) (attr : Attr F) (img : Image F) (log : List F) (himp : img.importanceMap = none)
    (hc : attr.useContrastMaps = true) (hs : Image.skipsContrastMaps img.width img.height = false) {q : QuantizationResult F}
    {img' : Image F} {log' : List F} (h : quantizeImage env attr img log = ((.ok q, img'), log')) :
    img'.px.fPixels.isSome = true := by
  cases hm : img.contrastMaps with
  | error e =>
    unfold quantizeImage Histogram.addImage at h
    simp only [himp, hc, hm, Option.isNone_none, Bool.and_self, if_true] at h
    cases h
  | ok i =>
    have key : ((Histogram.new attr).addImage env.ho attr img log).1.2.2 = i := by
      unfold Histogram.addImage
      simp only [himp, hc, hm, Option.isNone_none, Bool.and_self, if_true]
      repeat' split
      all_goals rfl
    have : img' = i := by
      rw [← key]
      unfold quantizeImage at h
      split at h
      · rename_i e
        rw [e]; cases h
      · rename_i e
        rw [e]
        simp only [Prod.mk.injEq] at h
        exact h.1.2.symm
    rw [this]
    exact contrastMaps_cached hm hs

/-! The contents of an image with memory after a call are the contents that the call left. -/

/-- the same pixels, perhaps converted -/
def Rows.OnlyF (r r' : Rows F) : Prop := r' = { r with fPixels := r'.fPixels }

theorem Rows.OnlyF.refl (r : Rows F) : r.OnlyF r := rfl

theorem prepare_onlyF {r r' : Rows F} {b : Bool} (h : r.prepare b = .ok r') : r.OnlyF r' := by
  unfold Rows.prepare at h
  split at h
  · cases h; rfl
  · simp only [bind, Except.bind] at h
    split at h
    · cases h
    · cases h; rfl

theorem allRowsF_onlyF {r r' : Rows F} {rows : List (List (FPixel F))} (h : r.allRowsF = .ok (r', rows)) : r.OnlyF r' := by
  unfold Rows.allRowsF at h
  cases hp : r.prepare false with
  | error x => rw [hp] at h; cases h
  | ok q =>
    rw [hp] at h
    simp only [bind, Except.bind] at h
    cases hq : q.fPixels with
    | none => rw [hq] at h; cases h
    | some x => rw [hq] at h; cases h; exact prepare_onlyF hp

theorem contrastMaps_onlyF {img img' : Image F} (h : img.contrastMaps = .ok img') :
    img.px.OnlyF img'.px ∧ img'.background = img.background := by
  unfold Image.contrastMaps at h
  split at h
  · cases h; exact ⟨rfl, rfl⟩
  · simp only [bind, Except.bind] at h
    split at h
    · cases h
    · rename_i v hv
      split at h
      · cases h
      · split at h
        · cases h
        · cases h
          exact ⟨allRowsF_onlyF hv, rfl⟩

theorem addImage_onlyF (ho : HashOrder) (h : Histogram F) (attr : Attr F) (img : Image F) (log : List F) :
    img.px.OnlyF (h.addImage ho attr img log).1.2.2.px ∧ (h.addImage ho attr img log).1.2.2.background = img.background := by
  unfold Histogram.addImage
  split
  · exact ⟨rfl, rfl⟩
  · rename_i i hi
    have key : img.px.OnlyF i.px ∧ i.background = img.background := by
      split at hi
      · exact contrastMaps_onlyF hi
      · cases hi; exact ⟨rfl, rfl⟩
    dsimp only
    repeat' split
    all_goals exact key

theorem quantizeImage_onlyF (env : Env F) (attr : Attr F) (img : Image F) (log : List F) :
    img.px.OnlyF (quantizeImage env attr img log).1.2.px ∧ (quantizeImage env attr img log).1.2.background = img.background := by
  have key := addImage_onlyF env.ho (Histogram.new attr) attr img log
  unfold quantizeImage
  split
  · rename_i e
    rw [e] at key; exact key
  · rename_i e
    rw [e] at key; exact key

/-- after quantization the image with memory shows what the model of contents says -/
theorem absorb_view (i : HImage F) (h : Heap) (c : Image F) (hpx : (i.view h).px.OnlyF c.px)
    (hbg : c.background = (i.view h).background) : (i.absorb c).view h = c := by
  unfold HImage.view HImage.absorb
  cases c with
  | mk px imp edges dm bg fixed =>
    dsimp only at hpx hbg
    unfold HImage.view at hpx hbg
    dsimp only at hpx hbg
    subst hbg
    congr 1
    · rw [hpx]; rfl
    · cases i.background with
      | none => rfl
      | some b => rfl

/-- 16 pixels of one colour -/
def onePixels : List RGBA := List.replicate 16 ⟨1, 2, 3, 255⟩

/-- the caller's program: a 4×4 image from its array of row pointers is quantized and remapped, the array is handed over
and the image destroyed -/
noncomputable def lateProgram : List (CCall ℝ) :=
  [.malloc (.pixels onePixels), .malloc (.rows [⟨1, 0⟩, ⟨1, 4⟩, ⟨1, 8⟩, ⟨1, 12⟩]), .attrCreate,
   .imageCreateRgbaRows (some 0) (some ⟨2, 0⟩) 4 4 0, .imageQuantize (some 1) (some 0) Env.simple,
   .writeRemappedImage (some 2) (some 1) (some (List.replicate 16 none)) RemapEnv.simple,
   .imageSetMemoryOwnership (some 1) 4, .imageDestroy (some 1)]

theorem runC_cons (w : World F) (c : CCall F) (cs : List (CCall F)) {w' w'' : World F} {r : Reply F} {rs : List (Reply F)}
    (h : exec w c = (w', r)) (h' : runC w' cs = (w'', rs)) : runC w (c :: cs) = (w'', r :: rs) := by
  simp only [runC, h, h']

set_option maxHeartbeats 1000000 in
/-- **C18** does not hold in general: every call of `lateProgram` succeeds, then an address is freed that is in no block
of the caller, and the caller's array, which it handed over, is not freed although the image is gone. -/
theorem C18_does_not_hold : ∃ (w : World ℝ) (l : Ledger) (out : List (List (Option UInt8))),
    runC World.init lateProgram = (w, [.uint 1, .uint 2, .object (some 0), .object (some 1), .stored none (.object 2),
      .wrote none out, .code none, .nothing]) ∧
    books Ledger.init World.init lateProgram = l ∧
    l.given = [⟨0, ⟨2, 0⟩, 1⟩] ∧ l.status 1 = .gone ∧ l.mallocs = [2, 1] ∧
    w.heap.frees = [(0, ⟨0, 0⟩)] := by
  obtain ⟨ptrs, hptrs⟩ : ∃ ptrs : List Ptr, ptrs = [⟨1, 0⟩, ⟨1, 4⟩, ⟨1, 8⟩, ⟨1, 12⟩] := ⟨_, rfl⟩
  obtain ⟨heap, hheap⟩ : ∃ heap : Heap, heap = ((Heap.init.alloc (.pixels onePixels)).1.alloc (.rows ptrs)).1 := ⟨_, rfl⟩
  obtain ⟨r, hr⟩ : ∃ r : HRows ℝ, r = ⟨4, 4, none, .pixels (.borrowed ⟨2, 0⟩ 4) none, lit64 (45455/100000)⟩ := ⟨_, rfl⟩
  have hnew : HRows.newInternal (.pixels (.borrowed ⟨2, 0⟩ 4) none) 4 4 (0 : ℝ) = .ok r := by
    rw [hr]
    simp [HRows.newInternal, Image.checkImageSize]
  have hrows : heap.rowsAt ⟨2, 0⟩ 4 = ptrs := by
    rw [hheap, hptrs]; rfl
  have hview : Image.newStride onePixels 4 4 4 (0 : ℝ) = .ok ((HImage.ofRows r).view heap) := by
    have h1 : (HImage.ofRows r).view heap = ⟨⟨4, 4, none, .pixels (ptrs.map heap.pixelsAt), lit64 (45455/100000)⟩,
        none, none, none, none, []⟩ := by
      rw [hr]
      simp only [HImage.ofRows, HImage.view, HRows.view, HSource.view, Cow.rowSlice, Cow.ptr, Cow.len, hrows]
      rfl
    have h2 : ptrs.map heap.pixelsAt = [onePixels.drop 0, onePixels.drop 4, onePixels.drop 8, onePixels.drop 12] := by
      rw [hheap, hptrs]; rfl
    rw [h1, h2]
    unfold Image.newStride Source.forPixels Image.newInternal Image.toU32
    simp [Image.checkImageSize, Bind.bind, Except.bind, onePixels]
    norm_num
    rfl
  -- the calls before the quantization
  obtain ⟨w4, hw4⟩ : ∃ w4 : World ℝ, w4 = ⟨heap, fun j => if j = 1 then .image (.ofRows r) 0 else if j = 0 then
    .attr Attr.new 0 else .other, 2, [], false⟩ := ⟨_, rfl⟩
  have e4 : exec ⟨heap, fun j => if j = 0 then .attr Attr.new 0 else .other, 1, [], false⟩
      (.imageCreateRgbaRows (some 0) (some ⟨2, 0⟩) 4 4 0) = (w4, .object (some 1)) := by
    have hnull : Heap.null ∉ heap.rowsAt ⟨2, 0⟩ (4 : UInt32).toNat := by
      rw [show (4 : UInt32).toNat = 4 from rfl, hrows, hptrs]; decide
    simp only [exec, World.withAttr, World.get, if_true]
    rw [show checkSizeC (4 : UInt32).toNat (4 : UInt32).toNat = true by decide, if_neg (by decide), if_neg hnull,
      show (4 : UInt32).toNat = 4 from rfl, hnew, hw4]
    rfl
  -- quantization
  obtain ⟨q, img', log', hq, huq, hui, _, _, hwid, hhei, _, _, hcb, _⟩ := quantizeImage_few Env.simple [] (by decide) (by decide)
    (by decide) (.inr ⟨onePixels, 4, hview, fun y hy x hx => by
      rw [onePixels, List.getElem?_replicate, if_pos (by omega)]⟩) [⟨1, 2, 3, 255⟩] (by decide)
    (fun y _ x _ => ⟨_, List.mem_singleton_self _, .inl rfl⟩) []
  obtain ⟨w5, hw5⟩ : ∃ w5 : World ℝ, w5 = ⟨heap, fun j => if j = 2 then .result q else if j = 1 then
    .image ((HImage.ofRows r).absorb img') 0 else if j = 0 then .attr Attr.new 0 else .other, 3, log', false⟩ := ⟨_, rfl⟩
  have e5 : exec w4 (.imageQuantize (some 1) (some 0) Env.simple) = (w5, .stored none (.object 2)) := by
    have hq' : quantizeImage Env.simple Attr.new ((HImage.ofRows r).view heap) [] = ((.ok q, img'), log') := hq
    rw [hw4, hw5]
    simp only [exec, World.withAttr, World.withImage, World.get, World.quantize, World.storeResult, World.create, World.set]
    simp only [if_true, Nat.zero_ne_one, if_false, hq', World.mk.injEq, Prod.mk.injEq, true_and, and_true]
    funext j
    by_cases h2 : j = 2 <;> by_cases h1 : j = 1 <;> simp [h2, h1]
  -- the remap
  have hv5 : ((HImage.ofRows r).absorb img').view heap = img' := by
    have := quantizeImage_onlyF Env.simple (userAttr [] none) ((HImage.ofRows r).view heap) []
    rw [hq] at this
    exact absorb_view _ _ _ this.1 this.2
  have hc5 : img'.px.fPixels.isSome = true :=
    quantizeImage_cached Env.simple (userAttr [] none) _ _ (by rfl) (by rfl) (by rw [hr]; rfl) hq
  obtain ⟨w6, hw6⟩ : ∃ w6 : World ℝ, w6 = (w5.remap (some 2) (some 1) q ((HImage.ofRows r).absorb img') 0
    (chunksExact 4 ((List.replicate 16 none).take 16)) RemapEnv.simple).1 := ⟨_, rfl⟩
  obtain ⟨⟨res, s⟩, hrun⟩ : ∃ t, writeRemapped RemapEnv.simple ⟨q, img', chunksExact 4 ((List.replicate 16 none).take 16),
    log', false⟩ = t := ⟨_, rfl⟩
  have hres : res = .ok () := by
    have := C48_succeeds RemapEnv.simple huq hui (List.replicate 16 none) log' (by rw [hwid, hhei]; simp) hcb (fun x => by simp)
    unfold remapInto at this
    rw [hwid, hhei] at this
    simp only [List.length_replicate, Nat.lt_irrefl, if_false, show 4 * 4 = 16 from rfl] at this
    rw [hrun] at this
    exact this
  have e6 : exec w5 (.writeRemappedImage (some 2) (some 1) (some (List.replicate 16 none)) RemapEnv.simple) =
      (w6, .wrote none s.out) := by
    have hg2 : w5.get (some 2) = .result q := by rw [hw5]; rfl
    have hg1 : w5.get (some 1) = .image ((HImage.ofRows r).absorb img') 0 := by rw [hw5]; rfl
    have hw : ((HImage.ofRows r).absorb img').px.width = 4 := by rw [hr]; rfl
    have hh : ((HImage.ofRows r).absorb img').px.height = 4 := by rw [hr]; rfl
    have hrun' : writeRemapped RemapEnv.simple ⟨q, ((HImage.ofRows r).absorb img').view w5.heap,
        chunksExact 4 ((List.replicate 16 none).take 16), w5.log, false⟩ = (.ok (), s) := by
      rw [show w5.heap = heap by rw [hw5], hv5, show w5.log = log' by rw [hw5], hrun, hres]
    simp only [exec, World.withResult, World.withImage, hg1, hg2, hw, hh, List.length_replicate]
    rw [if_neg (by decide), show 4 * 4 = 16 from rfl, hw6]
    unfold World.remap
    rw [hrun']
  obtain ⟨img6, h6, hs6, hb6, hh6⟩ := remap_releases w5 (hr := some 2) (j := 1) (q := q) (img := (HImage.ofRows r).absorb img')
    (fn := 0) (by rw [hw5]; rfl) (by rw [hw5]; rfl) hcb hc5 (chunksExact 4 ((List.replicate 16 none).take 16)) RemapEnv.simple
  rw [← hw6] at h6 hh6
  obtain ⟨w7, w8, e7, e8, h8⟩ := C18_late_rows w6 h6 hs6 (by
    cases hb : img6.background with
    | none => rfl
    | some b => rw [hb] at hb6; simp [HImage.ofRows, HImage.absorb] at hb6)
  refine ⟨w8, books Ledger.init World.init lateProgram, s.out, ?_, rfl, ?_⟩
  · have e : runC w4 [.imageQuantize (some 1) (some 0) Env.simple,
        .writeRemappedImage (some 2) (some 1) (some (List.replicate 16 none)) RemapEnv.simple,
        .imageSetMemoryOwnership (some 1) 4, .imageDestroy (some 1)] = _ :=
      runC_cons _ _ _ e5 (runC_cons _ _ _ e6 (runC_cons _ _ _ e7 (runC_cons _ _ _ e8 rfl)))
    unfold lateProgram
    rw [← hptrs]
    refine runC_cons _ _ _ rfl (runC_cons _ _ _ rfl (runC_cons _ _ _ rfl (runC_cons _ _ _ (w' := w4) ?_ e)))
    rw [← e4, hheap]; rfl
  · have e : ∀ l, books l w4 [.imageQuantize (some 1) (some 0) Env.simple,
        .writeRemappedImage (some 2) (some 1) (some (List.replicate 16 none)) RemapEnv.simple,
        .imageSetMemoryOwnership (some 1) 4, .imageDestroy (some 1)] = _ := fun l =>
      (books_cons _ _ _ _ e5).trans ((books_cons _ _ _ _ e6).trans ((books_cons _ _ _ _ e7).trans (books_cons _ _ _ _ e8)))
    have e0 : ∀ tail : List (CCall ℝ), books Ledger.init World.init (.malloc (.pixels onePixels) :: .malloc (.rows ptrs) ::
        .attrCreate :: .imageCreateRgbaRows (some 0) (some ⟨2, 0⟩) 4 4 0 :: tail) = books
        { Ledger.init.create 1 (.rows ⟨2, 0⟩ 4) 0 with mallocs := [2, 1], alloc := setAt Ledger.init.alloc 0 0 } w4 tail := by
      intro tail
      refine (books_cons _ _ _ _ rfl).trans ((books_cons _ _ _ _ rfl).trans ((books_cons _ _ _ _ rfl).trans
        ((books_cons _ _ _ _ (w' := w4) (r := .object (some 1)) ?_).trans ?_)))
      · rw [← e4, hheap]; rfl
      · congr 1
    unfold lateProgram
    rw [← hptrs, e0, e]
    refine ⟨?_, ?_, ?_, ?_⟩
    · simp [Ledger.note, Ledger.give, Ledger.create, Ledger.newRows, Ledger.newPixels, Ledger.rowsOf, ownsRows, ownsPixels,
        setAt, books, Ledger.drop, Ledger.dropBackground, Ledger.init]
    · simp [Ledger.note, Ledger.drop, setAt, books]
    · simp [Ledger.note, Ledger.give, Ledger.create, books, Ledger.drop, Ledger.dropBackground]
    · have hd : (HSource.pixels (.borrowed ⟨2, 0⟩ 4) none).drop heap = heap := rfl
      rw [h8, hh6, show w5.heap = heap by rw [hw5],
        show ((HImage.ofRows r).absorb img').px.source = .pixels (.borrowed ⟨2, 0⟩ 4) none by rw [hr]; rfl, hd, hheap]
      rfl

end Verif
