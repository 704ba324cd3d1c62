import Verif.Model.Heap
import Verif.Lemmas.Shows

/-! # Lemmas on the heap model -/

set_option linter.unusedSectionVars false

namespace Verif
open Flt

variable {F : Type} [Flt F]

namespace Heap

@[simp] theorem alloc_mem_new (h : Heap) (b : Block) : (h.alloc b).1.mem h.next = some b := by simp [alloc]

theorem alloc_mem_old {h : Heap} (b : Block) {i : ℕ} (hi : i < h.next) : (h.alloc b).1.mem i = h.mem i := by
  simp [alloc, Nat.ne_of_lt hi]

@[simp] theorem alloc_next (h : Heap) (b : Block) : (h.alloc b).1.next = h.next + 1 := rfl
@[simp] theorem alloc_ptr (h : Heap) (b : Block) : (h.alloc b).2 = ⟨h.next, 0⟩ := rfl
@[simp] theorem alloc_frees (h : Heap) (b : Block) : (h.alloc b).1.frees = h.frees := rfl
@[simp] theorem dealloc_next (h : Heap) (i : ℕ) : (h.dealloc i).next = h.next := rfl
@[simp] theorem dealloc_frees (h : Heap) (i : ℕ) : (h.dealloc i).frees = h.frees := rfl
@[simp] theorem cFree_next (h : Heap) (fn : ℕ) (p : Ptr) : (h.cFree fn p).next = h.next := rfl

theorem dealloc_mem_ne (h : Heap) {i j : ℕ} (hij : j ≠ i) : (h.dealloc i).mem j = h.mem j := by simp [dealloc, hij]

@[simp] theorem rowsAt_zero (h : Heap) (p : Ptr) : h.rowsAt p 0 = [] := by
  unfold rowsAt
  split <;> simp

theorem pixelsAt_congr {h h' : Heap} {p : Ptr} (e : h'.mem p.block = h.mem p.block) : h'.pixelsAt p = h.pixelsAt p := by
  unfold pixelsAt; rw [e]

theorem rowsAt_congr {h h' : Heap} {p : Ptr} (n : ℕ) (e : h'.mem p.block = h.mem p.block) : h'.rowsAt p n = h.rowsAt p n := by
  unfold rowsAt; rw [e]

theorem rowsAt_all {h : Heap} {b : ℕ} {l : List Ptr} (e : h.mem b = some (.rows l)) : h.rowsAt ⟨b, 0⟩ l.length = l := by
  simp [rowsAt, e]

end Heap

@[simp] theorem Cow.ptr_boxed (p : Ptr) (n : ℕ) : (Cow.boxed p n).ptr = p := rfl
@[simp] theorem Cow.len_boxed (p : Ptr) (n : ℕ) : (Cow.boxed p n).len = n := rfl

@[simp] theorem Cow.empty_slice (h : Heap) : Cow.empty.rowSlice h = [] := by
  simp [Cow.rowSlice, Cow.empty, Cow.len]

/-- the rows of an image after a change of the heap that keeps the memory behind them -/
theorem HRows.view_congr {r : HRows F} {h h' : Heap} (e : ∀ rows px, r.source = .pixels rows px →
    rows.rowSlice h' = rows.rowSlice h ∧ ∀ p ∈ rows.rowSlice h, h'.mem p.block = h.mem p.block) :
    r.view h' = r.view h := by
  unfold HRows.view HSource.view
  congr 1
  split
  next rows px hs =>
    obtain ⟨e1, e2⟩ := e rows px hs
    rw [e1]
    congr 1
    exact List.map_congr_left fun p hp => Heap.pixelsAt_congr (e2 p hp)
  · rfl

theorem HRows.free_view (r : HRows F) (h : Heap) :
    (r.freeHistogramInputs h).2.view (r.freeHistogramInputs h).1 = (r.view h).freeHistogramInputs := by
  unfold HRows.freeHistogramInputs Rows.freeHistogramInputs
  by_cases hf : r.fPixels.isSome
  · rw [if_pos hf, if_pos (show (r.view h).fPixels.isSome from hf)]
    simp [HRows.view, HSource.view]
  · rw [if_neg hf, if_neg (show ¬ (r.view h).fPixels.isSome from hf)]

/-- `for_pixels` on the heap makes the source that `Model/Image.lean` describes -/
theorem HSource.forPixels_view {c : Cow} {w hgt stride : ℕ} {h : Heap} {l : List RGBA}
    (hm : h.mem c.ptr.block = some (.pixels l)) (hlen : (l.drop c.ptr.off).length = c.len) (hlt : c.ptr.block < h.next) :
    match HSource.forPixels c w hgt stride h with
    | .error e => Source.forPixels (h.pixelsAt c.ptr) w hgt stride = .error e
    | .ok (h', s) => Source.forPixels (h.pixelsAt c.ptr) w hgt stride = .ok (s.view h') ∧
        ∃ ptrs : List Ptr, h' = (h.alloc (.rows ptrs)).1 ∧ s = .pixels (.boxed ⟨h.next, 0⟩ ptrs.length) (some c) ∧
          ∀ p ∈ ptrs, p.block = c.ptr.block := by
  have hp : h.pixelsAt c.ptr = l.drop c.ptr.off := by simp [Heap.pixelsAt, hm]
  unfold HSource.forPixels Source.forPixels
  rw [hp, hlen]
  by_cases h1 : stride < w ∨ hgt = 0 ∨ w = 0
  · simp only [if_pos h1]
  simp only [if_neg h1]
  by_cases h2 : stride * hgt ≥ 2 ^ 64 ∨ stride * hgt + w ≥ 2 ^ 64
  · simp only [if_pos h2]
  simp only [if_neg h2]
  by_cases h3 : c.len < stride * hgt + w - stride
  · simp only [if_pos h3]
  simp only [if_neg h3]
  refine ⟨?_, _, rfl, rfl, ?_⟩
  · simp only [HSource.view, Cow.rowSlice, Cow.ptr_boxed, Cow.len_boxed, Heap.alloc_ptr]
    rw [Heap.rowsAt_all (Heap.alloc_mem_new _ _), List.map_take, List.map_map]
    congr 3
    refine List.map_congr_left fun y _ => ?_
    simp only [Function.comp]
    unfold Heap.pixelsAt
    dsimp only
    rw [Heap.alloc_mem_old _ hlt, hm]
    simp [List.drop_drop]
  · intro p hp'
    obtain ⟨y, _, rfl⟩ := List.mem_map.mp (List.mem_of_mem_take hp')
    rfl

theorem HRows.newInternal_view (src : HSource) (w hgt : ℕ) (γ : F) (h : Heap) :
    match HRows.newInternal src w hgt γ with
    | .error e => Image.newInternal (src.view h) w hgt γ = .error e
    | .ok r => ∃ img, Image.newInternal (src.view h) w hgt γ = .ok img ∧ img.px = r.view h ∧ r.source = src := by
  unfold HRows.newInternal Image.newInternal
  by_cases h1 : (!Image.checkImageSize w hgt) = true
  · simp only [if_pos h1]
  simp only [if_neg h1]
  by_cases h2 : (!(le (lit64 0) γ && le γ (lit64 1))) = true
  · simp only [if_pos h2]
  simp only [if_neg h2]
  exact ⟨_, rfl, rfl, trivial⟩

/-- making an image from pixels on the heap makes the image that `Model/Image.lean` describes -/
theorem HRows.newStride_view {c : Cow} {w hgt stride : ℕ} {γ : F} {h : Heap} {l : List RGBA}
    (hm : h.mem c.ptr.block = some (.pixels l)) (hlen : (l.drop c.ptr.off).length = c.len) (hlt : c.ptr.block < h.next)
    {h' : Heap} {r : HRows F} (e : HRows.newStride c w hgt stride γ h = .ok (h', r)) :
    (∃ img, Image.newStride (h.pixelsAt c.ptr) w hgt stride γ = .ok img ∧ img.px = r.view h') ∧
    ∃ ptrs : List Ptr, h' = (h.alloc (.rows ptrs)).1 ∧ r.source = .pixels (.boxed ⟨h.next, 0⟩ ptrs.length) (some c) ∧
      ∀ p ∈ ptrs, p.block = c.ptr.block := by
  unfold HRows.newStride at e
  unfold Image.newStride
  simp only [Bind.bind, Except.bind, Pure.pure, Except.pure] at e ⊢
  cases h1 : Image.toU32 w with
  | error x => rw [h1] at e; cases e
  | ok w' =>
  cases h2 : Image.toU32 hgt with
  | error x => rw [h1, h2] at e; cases e
  | ok hgt' =>
  cases h3 : Image.toU32 stride with
  | error x => rw [h1, h2, h3] at e; cases e
  | ok stride' =>
  rw [h1, h2, h3] at e
  dsimp only at e ⊢
  have hv := HSource.forPixels_view (w := w') (hgt := hgt') (stride := stride') hm hlen hlt
  cases h4 : HSource.forPixels c w' hgt' stride' h with
  | error x => rw [h4] at e; cases e
  | ok p =>
  obtain ⟨h'', src⟩ := p
  rw [h4] at e hv
  dsimp only at e
  obtain ⟨hv1, hv2⟩ := hv
  rw [hv1]
  dsimp only
  have hn := HRows.newInternal_view src w' hgt' γ h''
  cases h5 : HRows.newInternal src w' hgt' γ with
  | error x => rw [h5] at e; cases e
  | ok r' =>
  rw [h5] at e hn
  simp only [Except.ok.injEq, Prod.mk.injEq] at e
  obtain ⟨rfl, rfl⟩ := e
  obtain ⟨img, i1, i2, i3⟩ := hn
  refine ⟨⟨img, i1, i2⟩, ?_⟩
  rw [i3]
  exact hv2

theorem HRows.newFn_view {f : ℕ → ℕ → RGBA} {w hgt : ℕ} {γ : F} {r : HRows F} (e : HRows.newFn f w hgt γ = .ok r) (h : Heap) :
    (∃ img, Image.newFn f w hgt γ = .ok img ∧ img.px = r.view h) ∧ r.source = .callback f := by
  unfold HRows.newFn at e
  unfold Image.newFn
  simp only [Bind.bind, Except.bind] at e ⊢
  cases h1 : Image.toU32 w with
  | error x => rw [h1] at e; cases e
  | ok w' =>
  cases h2 : Image.toU32 hgt with
  | error x => rw [h1, h2] at e; cases e
  | ok hgt' =>
  rw [h1, h2] at e
  dsimp only at e ⊢
  have hn := HRows.newInternal_view (.callback f) w' hgt' γ h
  rw [e] at hn
  obtain ⟨img, i1, i2, i3⟩ := hn
  exact ⟨⟨img, i1, i2⟩, i3⟩

end Verif
