import Verif.Lemmas.Heap

/-!
# C17: clones of images

Images derived from one image by any sequence of clones, drops, conversions of pixels and releases of the source.
`CState` holds the heap and all images made so far (`none` once dropped).
-/

set_option linter.unusedSectionVars false

namespace Verif
open Flt

variable {F : Type} [Flt F]

structure CState (F : Type) where
  heap : Heap
  imgs : List (Option (HRows F))

inductive CloneOp where
  | clone (i : ℕ)
  | drop (i : ℕ)
  /-- `prepare_iter`, done by quantization and remapping -/
  | convert (i : ℕ) (streamed : Bool)
  /-- `free_histogram_inputs`, done by remapping -/
  | release (i : ℕ)

/-- one operation; operations on dropped images do nothing (the compiler rejects them) -/
def CState.step (s : CState F) (op : CloneOp) : Res (CState F) :=
  match op with
  | .clone i =>
    match s.imgs[i]? with
    | some (some r) =>
      match r.clone s.heap with
      | .ok (h, r') => .ok ⟨h, s.imgs ++ [some r']⟩
      | .error e => .error e
    | _ => .ok s
  | .drop i =>
    match s.imgs[i]? with
    | some (some r) => .ok ⟨r.drop s.heap, s.imgs.set i none⟩
    | _ => .ok s
  | .convert i streamed =>
    match s.imgs[i]? with
    | some (some r) =>
      match (r.view s.heap).prepare streamed with
      | .ok v => .ok ⟨s.heap, s.imgs.set i (some { r with fPixels := v.fPixels })⟩
      | .error e => .error e
    | _ => .ok s
  | .release i =>
    match s.imgs[i]? with
    | some (some r) => .ok ⟨(r.freeHistogramInputs s.heap).1, s.imgs.set i (some (r.freeHistogramInputs s.heap).2)⟩
    | _ => .ok s

def CState.run (s : CState F) : List CloneOp → Res (CState F)
  | [] => .ok s
  | op :: ops =>
    match s.step op with
    | .ok s => s.run ops
    | .error e => .error e

/-- blocks that are deallocated when the image is dropped -/
def Cow.blocks : Cow → List ℕ
  | .boxed p _ => [p.block]
  | _ => []

def HSource.blocks : HSource → List ℕ
  | .pixels rows px => rows.blocks ++ (px.map Cow.blocks).getD []
  | .callback _ => []

/-- Facts about one image. `t` is the block its row pointers point into. -/
structure CImage (v0 : Rows F) (h : Heap) (r : HRows F) (t : ℕ) : Prop where
  same : Rows.Same v0 (r.view h)
  nodup : r.source.blocks.Nodup
  lt : ∀ b ∈ r.source.blocks, b < h.next
  /-- the source is a callback, or was released, or is live -/
  source : (∃ f, r.source = .callback f) ∨ (r.source = .pixels .empty none ∧ r.fPixels.isSome) ∨
    ∃ (b : ℕ) (ptrs : List Ptr) (px : Cow) (l : List RGBA),
      r.source = .pixels (.boxed ⟨b, 0⟩ ptrs.length) (some px) ∧ h.mem b = some (.rows ptrs) ∧
      (∀ p ∈ ptrs, p.block = t) ∧ h.mem t = some (.pixels l) ∧ t < h.next ∧
      ((∃ p n, px = .borrowed p n) ∨ ∃ p n, px = .boxed p n)

/-- Invariant. Images in `P` are never dropped or released, images in `S` are never cloned. -/
structure CInv (P S : ℕ → Prop) (v0 : Rows F) (s : CState F) (ext : ℕ → Prop) : Prop where
  img : ∀ (i : ℕ) (r : HRows F), s.imgs[i]? = some (some r) → ∃ t, CImage v0 s.heap r t ∧
    ((∀ rows px, r.source ≠ .pixels rows (some px)) ∨ ext t ∨ (t ∈ r.source.blocks ∧ (S i ∨ P i)) ∨
      ∃ (j : ℕ) (r' : HRows F), P j ∧ s.imgs[j]? = some (some r') ∧ t ∈ r'.source.blocks)
  disjoint : ∀ (i j : ℕ) (r r' : HRows F), i ≠ j → s.imgs[i]? = some (some r) → s.imgs[j]? = some (some r') →
    ∀ b ∈ r.source.blocks, b ∉ r'.source.blocks
  ext_ : ∀ b, ext b → b < s.heap.next ∧ ∀ (i : ℕ) (r : HRows F), s.imgs[i]? = some (some r) → b ∉ r.source.blocks

/-- an image is untouched by a heap that keeps its rows array and what it points to -/
theorem CImage.keep {v0 : Rows F} {h h' : Heap} {r : HRows F} {t : ℕ} (c : CImage v0 h r t) (hn : h.next ≤ h'.next)
    (hb : ∀ b ∈ r.source.blocks, h'.mem b = h.mem b)
    (ht : (∀ rows px, r.source ≠ .pixels rows (some px)) ∨ h'.mem t = h.mem t) : CImage v0 h' r t := by
  have hv : r.view h' = r.view h := by
    refine HRows.view_congr fun rows px hs => ?_
    rcases c.source with ⟨f, e⟩ | ⟨e, _⟩ | ⟨b, ptrs, px', l, e, e1, e2, e3, _, _⟩
    · rw [e] at hs; cases hs
    · rw [e] at hs; cases hs
      simp
    · rw [e] at hs; cases hs
      have hbb : h'.mem b = h.mem b := hb b (by rw [e]; simp [HSource.blocks, Cow.blocks])
      have ht' : h'.mem t = h.mem t := ht.resolve_left fun h => h _ _ e
      have es : Cow.rowSlice (.boxed ⟨b, 0⟩ ptrs.length) h = ptrs := Heap.rowsAt_all e1
      refine ⟨Heap.rowsAt_congr _ hbb, fun p hp => ?_⟩
      rw [es] at hp
      rw [e2 p hp]; exact ht'
  refine ⟨by rw [hv]; exact c.same, c.nodup, fun b hb' => lt_of_lt_of_le (c.lt b hb') hn, ?_⟩
  rcases c.source with h1 | h1 | ⟨b, ptrs, px', l, e, e1, e2, e3, e4, e5⟩
  · exact .inl h1
  · exact .inr (.inl h1)
  · refine .inr (.inr ⟨b, ptrs, px', l, e, ?_, e2, ?_, lt_of_lt_of_le e4 hn, e5⟩)
    · rw [hb b (by rw [e]; simp [HSource.blocks, Cow.blocks])]; exact e1
    · rw [ht.resolve_left fun h => h _ _ e]; exact e3

theorem Cow.drop_mem {c : Cow} (h : Heap) (hc : ∀ p n f, c ≠ .owned p n f) {b : ℕ} (hb : b ∉ c.blocks) :
    (c.drop h).mem b = h.mem b ∧ (c.drop h).next = h.next := by
  cases c with
  | owned p n f => exact absurd rfl (hc p n f)
  | borrowed p n => exact ⟨rfl, rfl⟩
  | boxed p n => exact ⟨Heap.dealloc_mem_ne _ (by simpa [Cow.blocks] using hb), rfl⟩

/-- dropping an image deallocates its own blocks only -/
theorem CImage.drop_mem {v0 : Rows F} {h h' : Heap} {r : HRows F} {t : ℕ} (c : CImage v0 h r t) {b : ℕ}
    (hb : b ∉ r.source.blocks) : (r.source.drop h').mem b = h'.mem b ∧ (r.source.drop h').next = h'.next := by
  rcases c.source with ⟨f, e⟩ | ⟨e, _⟩ | ⟨b', ptrs, px, l, e, _, _, _, _, e5⟩
  · rw [e]; exact ⟨rfl, rfl⟩
  · rw [e]; exact ⟨rfl, rfl⟩
  · rw [e] at hb ⊢
    have h1 : b ∉ (Cow.boxed ⟨b', 0⟩ ptrs.length).blocks := fun h => hb (by simp [HSource.blocks, h])
    have h2 : b ∉ px.blocks := fun h => hb (by simp [HSource.blocks, h])
    have d1 := Cow.drop_mem h' (by simp) h1
    have d2 := Cow.drop_mem (Cow.drop (.boxed ⟨b', 0⟩ ptrs.length) h') (c := px)
      (by rcases e5 with ⟨p, n, rfl⟩ | ⟨p, n, rfl⟩ <;> simp) h2
    exact ⟨d2.1.trans d1.1, d2.2.trans d1.2⟩

/-- the operations allowed by the two sets -/
def CloneOp.Ok (P S : ℕ → Prop) (n : ℕ) (s : CState F) : CloneOp → Prop
  | .clone i => ¬ S i ∧ ((∃ r, s.imgs[i]? = some (some r) ∧ ∃ f, r.source = .callback f) → S n)
  | .drop i => ¬ P i
  | .convert _ _ => True
  | .release i => ¬ P i

/-- an image is replaced by one with fewer blocks that reads the same memory, or by none -/
theorem CInv.replace {P S : ℕ → Prop} {v0 : Rows F} {s : CState F} {ext : ℕ → Prop} (inv : CInv P S v0 s ext) {i : ℕ}
    {r : HRows F} (hi : s.imgs[i]? = some (some r)) (hP : ¬ P i) {h' : Heap} {o : Option (HRows F)}
    (hn : h'.next = s.heap.next) (hm : ∀ b ∉ r.source.blocks, h'.mem b = s.heap.mem b)
    (ho : ∀ r', o = some r' → r'.source.blocks = [] ∧ (∀ rows px, r'.source ≠ .pixels rows (some px)) ∧
      ∀ t, CImage v0 s.heap r t → CImage v0 h' r' t) :
    CInv P S v0 ⟨h', s.imgs.set i o⟩ ext := by
  have hlt : i < s.imgs.length := (List.getElem?_eq_some_iff.mp hi).1
  have look : ∀ j r', (s.imgs.set i o)[j]? = some (some r') → (j = i ∧ o = some r') ∨ (j ≠ i ∧ s.imgs[j]? = some (some r')) := by
    intro j r' hj
    by_cases hji : j = i
    · subst hji
      rw [List.getElem?_set_self hlt] at hj
      exact .inl ⟨rfl, by simpa using hj⟩
    · rw [List.getElem?_set_ne (Ne.symm hji)] at hj
      exact .inr ⟨hji, hj⟩
  refine ⟨fun j r' hj => ?_, fun j k rj rk hjk hj hk b hb => ?_, fun b hb => ?_⟩
  · rcases look j r' hj with ⟨rfl, ho'⟩ | ⟨hji, hj⟩
    · obtain ⟨_, h2, h3⟩ := ho r' ho'
      obtain ⟨t, c, _⟩ := inv.img j r hi
      exact ⟨t, h3 t c, .inl h2⟩
    · obtain ⟨t, c, ht⟩ := inv.img j r' hj
      have hd := inv.disjoint j i r' r hji hj hi
      refine ⟨t, ?_, ?_⟩
      · refine c.keep (le_of_eq hn.symm) (fun b hb => hm b (hd b hb)) ?_
        rcases ht with h | h | h | ⟨k, rk, hPk, hk, h⟩
        · exact .inl h
        · exact .inr (hm t ((inv.ext_ t h).2 i r hi))
        · exact .inr (hm t (hd t h.1))
        · refine .inr (hm t fun hb => ?_)
          have hki : k ≠ i := fun e => hP (e ▸ hPk)
          exact inv.disjoint k i rk r hki hk hi t h hb
      · rcases ht with h | h | h | ⟨k, rk, hPk, hk, h⟩
        · exact .inl h
        · exact .inr (.inl h)
        · exact .inr (.inr (.inl h))
        · have hki : k ≠ i := fun e => hP (e ▸ hPk)
          exact .inr (.inr (.inr ⟨k, rk, hPk, by rw [List.getElem?_set_ne (Ne.symm hki)]; exact hk, h⟩))
  · rcases look j rj hj with ⟨_, ho'⟩ | ⟨hji, hj⟩
    · rw [(ho rj ho').1] at hb; cases hb
    rcases look k rk hk with ⟨_, ho'⟩ | ⟨hki, hk⟩
    · rw [(ho rk ho').1]; simp
    exact inv.disjoint j k rj rk hjk hj hk b hb
  · refine ⟨by show b < h'.next; rw [hn]; exact (inv.ext_ b hb).1, fun j rj hj => ?_⟩
    rcases look j rj hj with ⟨_, ho'⟩ | ⟨hji, hj⟩
    · rw [(ho rj ho').1]; simp
    · exact (inv.ext_ b hb).2 j rj hj

/-- an image is added -/
theorem CInv.add {P S : ℕ → Prop} {v0 : Rows F} {s : CState F} {ext : ℕ → Prop} (inv : CInv P S v0 s ext)
    {h' : Heap} {r' : HRows F} {t : ℕ} (hn : s.heap.next ≤ h'.next) (hm : ∀ b < s.heap.next, h'.mem b = s.heap.mem b)
    (c : CImage v0 h' r' t) (hnew : ∀ b ∈ r'.source.blocks, s.heap.next ≤ b)
    (ht : (∀ rows px, r'.source ≠ .pixels rows (some px)) ∨ ext t ∨ (t ∈ r'.source.blocks ∧ (S s.imgs.length ∨ P s.imgs.length)) ∨
      ∃ (j : ℕ) (r'' : HRows F), P j ∧ s.imgs[j]? = some (some r'') ∧ t ∈ r''.source.blocks) :
    CInv P S v0 ⟨h', s.imgs ++ [some r']⟩ ext := by
  have look : ∀ j rj, (s.imgs ++ [some r'])[j]? = some (some rj) →
      s.imgs[j]? = some (some rj) ∨ (j = s.imgs.length ∧ rj = r') := by
    intro j rj hj
    by_cases hjl : j < s.imgs.length
    · rw [List.getElem?_append_left hjl] at hj
      exact .inl hj
    · rw [List.getElem?_append_right (by omega)] at hj
      have : j - s.imgs.length = 0 := by
        by_contra h
        rw [List.getElem?_eq_none (by simp; omega)] at hj
        cases hj
      rw [this] at hj
      simp at hj
      exact .inr ⟨by omega, hj.symm⟩
  have old : ∀ (j : ℕ) (rj : HRows F), s.imgs[j]? = some (some rj) → (s.imgs ++ [some r'])[j]? = some (some rj) := by
    intro j rj hj
    rw [List.getElem?_append_left (List.getElem?_eq_some_iff.mp hj).1]; exact hj
  refine ⟨fun j rj hj => ?_, fun j k rj rk hjk hj hk b hb hbk => ?_, fun b hb => ⟨lt_of_lt_of_le (inv.ext_ b hb).1 hn, fun j rj hj hbj => ?_⟩⟩
  · rcases look j rj hj with hj | ⟨rfl, rfl⟩
    · obtain ⟨t', c', ht'⟩ := inv.img j rj hj
      refine ⟨t', c'.keep hn (fun b hb => hm b (c'.lt b hb)) ?_, ?_⟩
      · rcases c'.source with ⟨f, e⟩ | ⟨e, _⟩ | ⟨_, _, _, _, _, _, _, _, e4, _⟩
        · exact .inl fun rows px h => by rw [e] at h; cases h
        · exact .inl fun rows px h => by rw [e] at h; cases h
        · exact .inr (hm t' e4)
      · rcases ht' with h | h | h | ⟨k, rk, hPk, hk, h⟩
        · exact .inl h
        · exact .inr (.inl h)
        · exact .inr (.inr (.inl h))
        · exact .inr (.inr (.inr ⟨k, rk, hPk, old k rk hk, h⟩))
    · refine ⟨t, c, ?_⟩
      rcases ht with h | h | h | ⟨k, rk, hPk, hk, h⟩
      · exact .inl h
      · exact .inr (.inl h)
      · exact .inr (.inr (.inl h))
      · exact .inr (.inr (.inr ⟨k, rk, hPk, old k rk hk, h⟩))
  · rcases look j rj hj with h1 | ⟨hj', e1⟩ <;> rcases look k rk hk with h2 | ⟨hk', e2⟩
    · exact inv.disjoint j k rj rk hjk h1 h2 b hb hbk
    · obtain ⟨t', c', _⟩ := inv.img j rj h1
      exact absurd (c'.lt b hb) (not_lt.mpr (hnew b (e2 ▸ hbk)))
    · obtain ⟨t', c', _⟩ := inv.img k rk h2
      exact absurd (c'.lt b hbk) (not_lt.mpr (hnew b (e1 ▸ hb)))
    · exact hjk (hj'.trans hk'.symm)
  · rcases look j rj hj with hj | ⟨_, rfl⟩
    · exact (inv.ext_ b hb).2 j rj hj hbj
    · exact absurd (inv.ext_ b hb).1 (not_lt.mpr (hnew b hbj))

theorem flatMap_drop_take (g : ℕ → ℕ → RGBA) (w n : ℕ) {y : ℕ} (hy : y < n) :
    (((List.range n).flatMap fun y => (List.range w).map (g y)).drop (y * w)).take w = (List.range w).map (g y) := by
  induction n with
  | zero => omega
  | succ n ih =>
    rw [List.range_succ, List.flatMap_append, List.flatMap_singleton]
    have hl : ((List.range n).flatMap fun y => (List.range w).map (g y)).length = n * w := by
      rw [List.length_flatMap]; simp
    by_cases h : y < n
    · rw [List.drop_append_of_le_length (by rw [hl]; exact Nat.mul_le_mul_right _ (by omega)),
        List.take_append_of_le_length]
      · exact ih h
      · rw [List.length_drop, hl]
        have := Nat.mul_le_mul_right w (show y + 1 ≤ n by omega)
        rw [Nat.add_mul] at this
        omega
    · have : y = n := by omega
      subst this
      rw [← hl, List.drop_left]
      simp

/-- the clone of a callback image stores what the callback yields -/
theorem callback_clone (f : ℕ → ℕ → RGBA) {w hgt : ℕ} (hw : 0 < w) (hh : 0 < hgt) (hw' : w ≤ 2 ^ 32 - 1) (hh' : hgt ≤ 2 ^ 32 - 1)
    (fp : Option (List (List (FPixel F)))) (γ : F) :
    ∃ src, Source.forPixels ((List.range hgt).flatMap fun y => (List.range w).map (f y)) w hgt w = .ok src ∧
      Rows.Same ⟨w, hgt, fp, .callback f, γ⟩ ⟨w, hgt, fp, src, γ⟩ := by
  have hl : ((List.range hgt).flatMap fun y => (List.range w).map (f y)).length = hgt * w := by
    rw [List.length_flatMap]; simp
  rw [forPixels_eq _ hw' hh' hw', if_pos ⟨hw, hh, le_refl _⟩, if_pos (by
    rw [hl]; unfold Spec.neededPixels
    obtain ⟨k, rfl⟩ : ∃ k, hgt = k + 1 := ⟨hgt - 1, by omega⟩
    rw [Nat.add_sub_cancel, Nat.add_mul, Nat.mul_comm]; omega)]
  refine ⟨_, rfl, rfl, rfl, rfl, fun y hy => ?_⟩
  cases fp with
  | some rows => rfl
  | none =>
    simp only [Rows.rowF, Rows.rowRgba]
    rw [List.getElem?_map, List.getElem?_range hy]
    simp only [Option.map_some]
    have hlen := flatMap_drop_take f w hgt hy
    rw [if_neg, hlen]
    have := congrArg List.length hlen
    simp only [List.length_take, List.length_map, List.length_range] at this
    omega

/-- every allowed operation keeps the invariant and does not panic -/
theorem CInv.step {P S : ℕ → Prop} {v0 : Rows F} {s : CState F} {ext : ℕ → Prop} (inv : CInv P S v0 s ext)
    (hr : v0.Readable) (hw : 0 < v0.width ∧ v0.width ≤ 2 ^ 32 - 1) (hh : 0 < v0.height ∧ v0.height ≤ 2 ^ 32 - 1) (op : CloneOp)
    (hop : op.Ok P S s.imgs.length s) : ∃ s', s.step op = .ok s' ∧ CInv P S v0 s' ext := by
  have dead : ∀ {i : ℕ}, (∀ r, s.imgs[i]? ≠ some (some r)) → ∀ {α : Type} (k : HRows F → α) (d : α),
      (match s.imgs[i]? with
        | some (some r) => k r
        | _ => d) = d := by
    intro i hi α k d
    match h : s.imgs[i]? with
    | none => rfl
    | some none => rfl
    | some (some r) => exact absurd h (hi r)
  cases op with
  | clone i =>
    unfold CState.step
    by_cases hi : ∃ r, s.imgs[i]? = some (some r)
    swap
    · refine ⟨s, ?_, inv⟩
      have := dead (fun r h => hi ⟨r, h⟩) (fun r => match r.clone s.heap with
        | .ok (h, r') => (Except.ok ⟨h, s.imgs ++ [some r']⟩ : Res (CState F))
        | .error e => .error e) (.ok s)
      exact this
    obtain ⟨r, hi⟩ := hi
    simp only [hi]
    obtain ⟨t, c, ht⟩ := inv.img i r hi
    rcases c.source with ⟨f, e⟩ | ⟨e, hf⟩ | ⟨b, ptrs, px, l, e, e1, e2, e3, e4, e5⟩
    · -- a callback
      have hS := hop.2 ⟨r, hi, f, e⟩
      have hwd : r.width = v0.width := c.same.width
      have hht : r.height = v0.height := c.same.height
      obtain ⟨src, hsrc, hsame⟩ := callback_clone f (w := r.width) (hgt := r.height) (by omega) (by omega) (by omega) (by omega)
        r.fPixels r.gamma
      unfold HRows.clone
      rw [e]
      dsimp only
      generalize hbuf : (List.range r.height).flatMap (fun y => (List.range r.width).map (f y)) = buf at hsrc ⊢
      have hv := HSource.forPixels_view (c := .boxed ⟨s.heap.next, 0⟩ buf.length) (w := r.width) (hgt := r.height)
        (stride := r.width) (h := (s.heap.alloc (.pixels buf)).1) (l := buf) (by simp) (by simp) (by simp)
      have hpx : (s.heap.alloc (.pixels buf)).1.pixelsAt ⟨s.heap.next, 0⟩ = buf := by simp [Heap.pixelsAt]
      simp only [Cow.ptr_boxed, Heap.alloc_ptr] at hv ⊢
      rw [hpx, hsrc] at hv
      cases hfp : HSource.forPixels (.boxed ⟨s.heap.next, 0⟩ buf.length) r.width r.height r.width (s.heap.alloc (.pixels buf)).1 with
      | error e' => rw [hfp] at hv; cases hv
      | ok p =>
        obtain ⟨h', sr⟩ := p
        rw [hfp] at hv
        obtain ⟨hview, ptrs, rfl, rfl, hptrs⟩ := hv
        simp only [Except.ok.injEq] at hview
        have hnx : (s.heap.alloc (.pixels buf)).1.next = s.heap.next + 1 := rfl
        refine ⟨_, rfl, inv.add (t := s.heap.next) (by simp; omega) (fun b hb => ?_) ⟨?_, ?_, ?_, ?_⟩ ?_ ?_⟩
        · rw [Heap.alloc_mem_old _ (by rw [hnx]; omega), Heap.alloc_mem_old _ hb]
        · refine c.same.trans ?_
          have h1 : r.view s.heap = ⟨r.width, r.height, r.fPixels, .callback f, r.gamma⟩ := by
            simp [HRows.view, HSource.view, e]
          rw [h1]
          unfold HRows.view
          rw [← hview]
          exact hsame
        · simp [HSource.blocks, Cow.blocks]
        · simp [HSource.blocks, Cow.blocks]
        · refine .inr (.inr ⟨_, ptrs, _, buf, rfl, Heap.alloc_mem_new _ _, hptrs, ?_, by simp, .inr ⟨_, _, rfl⟩⟩)
          rw [Heap.alloc_mem_old _ (by simp), Heap.alloc_mem_new]
        · simp [HSource.blocks, Cow.blocks]
        · exact .inr (.inr (.inl ⟨by simp [HSource.blocks, Cow.blocks], .inl hS⟩))
    · -- released
      have hc : r.clone s.heap = .ok (s.heap, r) := by
        unfold HRows.clone
        rw [e]
        simp only [Cow.empty, Cow.cloneRows]
        rw [show HSource.pixels (Cow.borrowed Heap.dangling 0) none = r.source from e.symm]
      rw [hc]
      exact ⟨_, rfl, inv.add (t := t) (le_refl _) (fun _ _ => rfl) c (by rw [e]; simp [HSource.blocks, Cow.blocks, Cow.empty])
        (.inl fun rows px h => by rw [e] at h; cases h)⟩
    · -- live
      have es : Cow.rowSlice (.boxed ⟨b, 0⟩ ptrs.length) s.heap = ptrs := Heap.rowsAt_all e1
      have hSi := hop.1
      have ht' : ext t ∨ ∃ (j : ℕ) (r'' : HRows F), P j ∧ s.imgs[j]? = some (some r'') ∧ t ∈ r''.source.blocks := by
        rcases ht with h | h | ⟨h, h' | h'⟩ | h
        · exact absurd e (h _ _)
        · exact .inl h
        · exact absurd h' hSi
        · exact .inr ⟨i, r, h', hi, h⟩
        · exact .inr h
      -- both kinds of pixels end in a heap with a few more blocks
      have fin : ∀ (h' : Heap) (px' : Cow), s.heap.next + 1 ≤ h'.next → (∀ b < s.heap.next, h'.mem b = s.heap.mem b) →
          h'.mem s.heap.next = some (.rows ptrs) → (∀ b ∈ px'.blocks, s.heap.next < b ∧ b < h'.next) → px'.blocks.Nodup →
          ((∃ p n, px' = .borrowed p n) ∨ ∃ p n, px' = .boxed p n) →
          CInv P S v0 ⟨h', s.imgs ++ [some { r with source := .pixels (.boxed ⟨s.heap.next, 0⟩ ptrs.length) (some px') }]⟩ ext := by
        intro h' px' hn hm hrow hblk hnd hkind
        refine inv.add (t := t) (by omega) hm ⟨?_, ?_, ?_, ?_⟩ ?_ ?_
        · have hv : HRows.view { r with source := .pixels (.boxed ⟨s.heap.next, 0⟩ ptrs.length) (some px') } h' = r.view s.heap := by
            simp only [HRows.view, HSource.view, e]
            rw [es, show Cow.rowSlice (.boxed ⟨s.heap.next, 0⟩ ptrs.length) h' = ptrs from Heap.rowsAt_all hrow]
            congr 2
            exact List.map_congr_left fun p hp => Heap.pixelsAt_congr (by rw [e2 p hp]; exact hm t e4)
          rw [hv]; exact c.same
        · simp only [HSource.blocks, Cow.blocks, Option.map_some, Option.getD_some, List.singleton_append, List.nodup_cons]
          exact ⟨fun h => absurd (hblk _ h).1 (lt_irrefl _), hnd⟩
        · intro b' hb'
          simp only [HSource.blocks, Cow.blocks, Option.map_some, Option.getD_some, List.singleton_append, List.mem_cons] at hb'
          rcases hb' with rfl | hb'
          · show _ < h'.next; omega
          · exact (hblk b' hb').2
        · exact .inr (.inr ⟨_, ptrs, px', l, rfl, hrow, e2, by rw [hm t e4]; exact e3, by omega, hkind⟩)
        · intro b' hb'
          simp only [HSource.blocks, Cow.blocks, Option.map_some, Option.getD_some, List.singleton_append, List.mem_cons] at hb'
          rcases hb' with rfl | hb'
          · exact le_refl _
          · exact le_of_lt (hblk b' hb').1
        · rcases ht' with h | h
          · exact .inr (.inl h)
          · exact .inr (.inr (.inr h))
      rcases e5 with ⟨p, n, rfl⟩ | ⟨p, n, rfl⟩
      · have hc : r.clone s.heap = .ok ((s.heap.alloc (.rows ptrs)).1,
            { r with source := .pixels (.boxed ⟨s.heap.next, 0⟩ ptrs.length) (some (.borrowed p n)) }) := by
          unfold HRows.clone
          rw [e]
          simp only [Cow.cloneRows, Cow.clonePixels, es, Heap.alloc_ptr, Cow.len_boxed]
        rw [hc]
        exact ⟨_, rfl, fin _ _ (by simp) (fun b hb => Heap.alloc_mem_old _ hb) (Heap.alloc_mem_new _ _)
          (by simp [Cow.blocks]) (by simp [Cow.blocks]) (.inl ⟨_, _, rfl⟩)⟩
      · have hc : ∃ cp, r.clone s.heap = .ok ((((s.heap.alloc (.rows ptrs)).1).alloc (.pixels cp)).1,
            { r with source := .pixels (.boxed ⟨s.heap.next, 0⟩ ptrs.length) (some (.boxed ⟨s.heap.next + 1, 0⟩ n)) }) := by
          unfold HRows.clone
          rw [e]
          simp only [Cow.cloneRows, Cow.clonePixels, es, Heap.alloc_ptr, Cow.len_boxed, Heap.alloc_next]
          exact ⟨_, rfl⟩
        obtain ⟨cp, hc⟩ := hc
        rw [hc]
        have hnx : (s.heap.alloc (.rows ptrs)).1.next = s.heap.next + 1 := rfl
        refine ⟨_, rfl, fin _ _ (by simp) (fun b hb => ?_) ?_ (by simp [Cow.blocks]) (by simp [Cow.blocks]) (.inr ⟨_, _, rfl⟩)⟩
        · rw [Heap.alloc_mem_old _ (by rw [hnx]; omega), Heap.alloc_mem_old _ hb]
        · rw [Heap.alloc_mem_old _ (by rw [hnx]; omega), Heap.alloc_mem_new]
  | drop i =>
    unfold CState.step
    by_cases hi : ∃ r, s.imgs[i]? = some (some r)
    swap
    · exact ⟨s, dead (fun r h => hi ⟨r, h⟩) (fun r => (Except.ok ⟨r.drop s.heap, s.imgs.set i none⟩ : Res (CState F))) (.ok s), inv⟩
    obtain ⟨r, hi⟩ := hi
    simp only [hi]
    obtain ⟨t, c, _⟩ := inv.img i r hi
    refine ⟨_, rfl, inv.replace hi hop ?_ (fun b hb => (c.drop_mem hb).1) (fun r' h => by cases h)⟩
    by_cases hb : ∃ b, b ∉ r.source.blocks
    · obtain ⟨b, hb⟩ := hb
      exact (c.drop_mem hb).2
    · exact absurd ⟨s.heap.next, fun h => absurd (c.lt _ h) (lt_irrefl _)⟩ hb
  | convert i streamed =>
    unfold CState.step
    by_cases hi : ∃ r, s.imgs[i]? = some (some r)
    swap
    · exact ⟨s, dead (fun r h => hi ⟨r, h⟩) (fun r => match (r.view s.heap).prepare streamed with
        | .ok v => (Except.ok ⟨s.heap, s.imgs.set i (some { r with fPixels := v.fPixels })⟩ : Res (CState F))
        | .error e => .error e) (.ok s), inv⟩
    obtain ⟨r, hi⟩ := hi
    simp only [hi]
    obtain ⟨t, c, _⟩ := inv.img i r hi
    obtain ⟨v, hv, hsame, hcached, _⟩ := Rows.prepare_same (c.same.readable hr) streamed
    rw [hv]
    have hsrc : v = { r.view s.heap with fPixels := v.fPixels } := by
      unfold Rows.prepare at hv
      split at hv
      · cases hv; rfl
      · simp only [Bind.bind, Except.bind] at hv
        split at hv
        · cases hv
        · cases hv; rfl
    have hlt : i < s.imgs.length := (List.getElem?_eq_some_iff.mp hi).1
    have look : ∀ (j : ℕ) (r' : HRows F), (s.imgs.set i (some { r with fPixels := v.fPixels }))[j]? = some (some r') →
        ∃ r0, s.imgs[j]? = some (some r0) ∧ r'.source = r0.source ∧ ∀ t, CImage v0 s.heap r0 t → CImage v0 s.heap r' t := by
      intro j r' hj
      by_cases hji : j = i
      · subst hji
        rw [List.getElem?_set_self hlt] at hj
        simp only [Option.some.injEq] at hj
        subst hj
        refine ⟨r, hi, rfl, fun t c => ⟨?_, c.nodup, c.lt, ?_⟩⟩
        · rw [show HRows.view { r with fPixels := v.fPixels } s.heap = v from hsrc.symm]
          exact c.same.trans hsame
        · rcases c.source with h | ⟨h1, h2⟩ | h
          · exact .inl h
          · refine .inr (.inl ⟨h1, ?_⟩)
            rw [hcached h2]; exact h2
          · exact .inr (.inr h)
      · rw [List.getElem?_set_ne (Ne.symm hji)] at hj
        exact ⟨r', hj, rfl, fun _ h => h⟩
    have back : ∀ (j : ℕ) (r0 : HRows F), s.imgs[j]? = some (some r0) → ∃ r' : HRows F,
        (s.imgs.set i (some { r with fPixels := v.fPixels }))[j]? = some (some r') ∧ r'.source = r0.source := by
      intro j r0 hj
      by_cases hji : j = i
      · subst hji
        rw [hi] at hj
        cases hj
        exact ⟨_, List.getElem?_set_self hlt, rfl⟩
      · exact ⟨r0, by rw [List.getElem?_set_ne (Ne.symm hji)]; exact hj, rfl⟩
    refine ⟨_, rfl, fun j r' hj => ?_, fun j k rj rk hjk hj hk b hb => ?_, fun b hb => ⟨(inv.ext_ b hb).1, fun j rj hj => ?_⟩⟩
    · obtain ⟨r0, h1, h2, h3⟩ := look j r' hj
      obtain ⟨t, c, ht⟩ := inv.img j r0 h1
      refine ⟨t, h3 t c, ?_⟩
      rw [h2]
      rcases ht with h | h | h | ⟨k, rk, hPk, hk, h⟩
      · exact .inl h
      · exact .inr (.inl h)
      · exact .inr (.inr (.inl h))
      · obtain ⟨rk', h4, h5⟩ := back k rk hk
        exact .inr (.inr (.inr ⟨k, rk', hPk, h4, by rw [h5]; exact h⟩))
    · obtain ⟨r1, h1, h2, _⟩ := look j rj hj
      obtain ⟨r2, h3, h4, _⟩ := look k rk hk
      rw [h2] at hb; rw [h4]
      exact inv.disjoint j k r1 r2 hjk h1 h3 b hb
    · obtain ⟨r1, h1, h2, _⟩ := look j rj hj
      rw [h2]
      exact (inv.ext_ b hb).2 j r1 h1
  | release i =>
    unfold CState.step
    by_cases hi : ∃ r, s.imgs[i]? = some (some r)
    swap
    · exact ⟨s, dead (fun r h => hi ⟨r, h⟩) (fun r => (Except.ok ⟨(r.freeHistogramInputs s.heap).1,
        s.imgs.set i (some (r.freeHistogramInputs s.heap).2)⟩ : Res (CState F))) (.ok s), inv⟩
    obtain ⟨r, hi⟩ := hi
    simp only [hi]
    obtain ⟨t, c, _⟩ := inv.img i r hi
    by_cases hf : r.fPixels.isSome
    swap
    · have : r.freeHistogramInputs s.heap = (s.heap, r) := by
        unfold HRows.freeHistogramInputs; rw [if_neg hf]
      rw [this]
      have hset : s.imgs.set i (some r) = s.imgs := by
        obtain ⟨h1, h2⟩ := List.getElem?_eq_some_iff.mp hi
        rw [← h2, List.set_getElem_self]
      rw [hset]
      exact ⟨_, rfl, inv⟩
    have hview := HRows.free_view r s.heap
    have he : r.freeHistogramInputs s.heap = (r.source.drop s.heap, { r with source := .pixels .empty none }) := by
      unfold HRows.freeHistogramInputs; rw [if_pos hf]
    rw [he] at hview ⊢
    refine ⟨_, rfl, inv.replace hi hop ?_ (fun b hb => (c.drop_mem hb).1) (fun r' h => ?_)⟩
    · exact (c.drop_mem (b := s.heap.next) fun h => absurd (c.lt _ h) (lt_irrefl _)).2
    · cases h
      refine ⟨rfl, (fun rows px h => by cases h), fun t c => ⟨?_, List.nodup_nil, by simp [HSource.blocks, Cow.blocks, Cow.empty], .inr (.inl ⟨rfl, hf⟩)⟩⟩
      rw [hview]
      exact c.same.trans (Rows.free_same _)

/-- a condition on the operations of a history, which may look at the state it is applied to -/
def CState.All (s : CState F) (ok : CState F → CloneOp → Prop) : List CloneOp → Prop
  | [] => True
  | op :: ops => ok s op ∧ ∀ s', s.step op = .ok s' → s'.All ok ops

theorem CInv.run {P S : ℕ → Prop} {v0 : Rows F} {ext : ℕ → Prop} (hr : v0.Readable)
    (hw : 0 < v0.width ∧ v0.width ≤ 2 ^ 32 - 1) (hh : 0 < v0.height ∧ v0.height ≤ 2 ^ 32 - 1) (ops : List CloneOp) :
    ∀ {s : CState F}, CInv P S v0 s ext → s.All (fun s op => op.Ok P S s.imgs.length s) ops →
      ∃ s', s.run ops = .ok s' ∧ CInv P S v0 s' ext := by
  induction ops with
  | nil => intro s inv _; exact ⟨s, rfl, inv⟩
  | cons op ops ih =>
    intro s inv hall
    obtain ⟨s', e, inv'⟩ := inv.step hr hw hh op hall.1
    obtain ⟨s'', e', inv''⟩ := ih inv' (hall.2 s' e)
    exact ⟨s'', by simp only [CState.run, e]; exact e', inv''⟩

/-- a state with one live image, made from pixels on the heap -/
theorem CInv.start {P S : ℕ → Prop} {c : Cow} {w hgt stride : ℕ} {γ : F} {h h' : Heap} {l : List RGBA} {r : HRows F}
    (hm : h.mem c.ptr.block = some (.pixels l)) (hlen : (l.drop c.ptr.off).length = c.len) (hlt : c.ptr.block < h.next)
    (e : HRows.newStride c w hgt stride γ h = .ok (h', r)) (hk : (∃ p n, c = .borrowed p n) ∨ (P 0 ∧ ∃ p n, c = .boxed p n)) :
    CInv P S (r.view h') ⟨h', [some r]⟩ (fun b => (∃ p n, c = .borrowed p n) ∧ b = c.ptr.block) := by
  obtain ⟨_, ptrs, rfl, hsrc, hptrs⟩ := HRows.newStride_view hm hlen hlt e
  have one : ∀ (i : ℕ) (r' : HRows F), [some r][i]? = some (some r') → i = 0 ∧ r' = r := by
    intro i r' hi
    match i with
    | 0 => exact ⟨rfl, by simpa using hi.symm⟩
    | i + 1 => simp at hi
  have hblk : ∀ b ∈ c.blocks, b = c.ptr.block := by
    intro b hb
    rcases hk with ⟨p, n, rfl⟩ | ⟨_, p, n, rfl⟩
    · simp [Cow.blocks] at hb
    · simpa [Cow.blocks] using hb
  refine ⟨fun i r' hi => ?_, fun i j r1 r2 hij h1 h2 => ?_, fun b hb => ⟨?_, fun i r' hi => ?_⟩⟩
  · obtain ⟨rfl, rfl⟩ := one i r' hi
    refine ⟨c.ptr.block, ⟨Rows.Same.refl _, ?_, ?_, ?_⟩, ?_⟩
    · rw [hsrc]
      simp only [HSource.blocks, Cow.blocks, Option.map_some, Option.getD_some, List.singleton_append, List.nodup_cons]
      refine ⟨fun h => absurd (hblk _ h) (by omega), ?_⟩
      rcases hk with ⟨p, n, rfl⟩ | ⟨_, p, n, rfl⟩ <;> simp
    · rw [hsrc]
      intro b hb
      simp only [HSource.blocks, Cow.blocks, Option.map_some, Option.getD_some, List.singleton_append, List.mem_cons] at hb
      rcases hb with rfl | hb
      · simp
      · rw [hblk b hb]; simp only [Heap.alloc_next]; omega
    · refine .inr (.inr ⟨_, ptrs, c, l, hsrc, Heap.alloc_mem_new _ _, hptrs, ?_, by simp only [Heap.alloc_next]; omega, ?_⟩)
      · rw [Heap.alloc_mem_old _ hlt]; exact hm
      · exact hk.imp id And.right
    · rcases hk with ⟨p, n, hb⟩ | ⟨hP, p, n, hb⟩
      · exact .inr (.inl ⟨⟨p, n, hb⟩, rfl⟩)
      · refine .inr (.inr (.inl ⟨?_, .inr hP⟩))
        rw [hsrc, hb]
        simp [HSource.blocks, Cow.blocks]
  · obtain ⟨rfl, _⟩ := one i r1 h1
    obtain ⟨rfl, _⟩ := one j r2 h2
    exact absurd rfl hij
  · rw [hb.2]; simp only [Heap.alloc_next]; omega
  · obtain ⟨rfl, rfl⟩ := one i r' hi
    obtain ⟨⟨p, n, hc⟩, rfl⟩ := hb
    rw [hsrc, hc]
    simp only [hc] at hlt
    simp only [HSource.blocks, Cow.blocks, Option.map_some, Option.getD_some, List.append_nil, List.mem_singleton]
    omega

theorem CState.All.of_forall {ok : CState F → CloneOp → Prop} {good : CloneOp → Prop} (h : ∀ s op, good op → ok s op)
    (ops : List CloneOp) : ∀ s : CState F, (∀ op ∈ ops, good op) → s.All ok ops := by
  induction ops with
  | nil => intro s _; trivial
  | cons op ops ih => exact fun s hg => ⟨h s op (hg op (by simp)), fun s' _ => ih s' fun o ho => hg o (by simp [ho])⟩

/-- sizes of an image that was made -/
theorem newStride_sizes {buf : List RGBA} {w h stride : ℕ} {γ : F} {img : Image F}
    (e : Image.newStride buf w h stride γ = .ok img) :
    (0 < img.px.width ∧ img.px.width ≤ 2 ^ 32 - 1) ∧ (0 < img.px.height ∧ img.px.height ≤ 2 ^ 32 - 1) := by
  obtain ⟨hw, hh, _⟩ := C16_rows buf w h stride γ img e
  have hacc := (C16_accepts buf w h stride γ).mp ⟨img, e⟩
  obtain ⟨_, _, _, hr, _⟩ := hacc
  unfold Spec.Representable at hr
  have hw' : img.px.width = w := hw
  have hh' : img.px.height = h := hh
  omega

/-- no live image reads from a callback -/
def CState.NoCallback (s : CState F) : Prop := ∀ (i : ℕ) (r : HRows F), s.imgs[i]? = some (some r) → ∀ f, r.source ≠ .callback f

theorem set_live {l : List (Option (HRows F))} {i j : ℕ} {o : Option (HRows F)} {r : HRows F}
    (h : (l.set i o)[j]? = some (some r)) : o = some r ∨ l[j]? = some (some r) := by
  by_cases hij : i = j
  · subst hij
    by_cases hi : i < l.length
    · rw [List.getElem?_set_self hi] at h; exact .inl (by simpa using h)
    · rw [List.getElem?_eq_none (by simp; omega)] at h; cases h
  · rw [List.getElem?_set_ne hij] at h; exact .inr h

theorem CState.NoCallback.step {s s' : CState F} (hs : s.NoCallback) {op : CloneOp} (e : s.step op = .ok s') :
    s'.NoCallback := by
  intro j rj hj f
  cases op with
  | clone i =>
    simp only [CState.step] at e
    split at e
    next r hr =>
      split at e
      next h r' hc =>
        cases e
        rcases Nat.lt_or_ge j s.imgs.length with hlt | hge
        · rw [List.getElem?_append_left hlt] at hj; exact hs j rj hj f
        · rw [List.getElem?_append_right hge] at hj
          have : rj = r' := by
            cases hk : j - s.imgs.length with
            | zero => rw [hk] at hj; simpa using hj.symm
            | succ k => rw [hk] at hj; simp at hj
          subst this
          unfold HRows.clone at hc
          split at hc
          · dsimp only at hc
            split at hc <;> (cases hc; simp)
          next g hg => exact absurd hg (hs i r hr g)
      · cases e
    · cases e; exact hs j rj hj f
  | drop i =>
    simp only [CState.step] at e
    split at e
    · cases e
      rcases set_live hj with h | h
      · cases h
      · exact hs j rj h f
    · cases e; exact hs j rj hj f
  | convert i b =>
    simp only [CState.step] at e
    split at e
    next r hr =>
      split at e
      · cases e
        rcases set_live hj with h | h
        · cases h; exact hs i r hr f
        · exact hs j rj h f
      · cases e
    · cases e; exact hs j rj hj f
  | release i =>
    simp only [CState.step] at e
    split at e
    next r hr =>
      cases e
      rcases set_live hj with h | h
      · cases h
        unfold HRows.freeHistogramInputs
        split
        · simp
        · exact hs i r hr f
      · exact hs j rj h f
    · cases e; exact hs j rj hj f

theorem CState.step_length {s s' : CState F} {op : CloneOp} (e : s.step op = .ok s') : s.imgs.length ≤ s'.imgs.length := by
  cases op <;> simp only [CState.step] at e <;> (split at e) <;> first
    | (cases e; simp)
    | (split at e <;> first | (cases e; simp) | cases e)

/-- a history in which no image reads from a callback -/
theorem all_noCallback {P S : ℕ → Prop} (hS : ∀ i, ¬ S i) (ops : List CloneOp) (hP : ∀ op ∈ ops, ∀ i, P i → op ≠ .drop i ∧ op ≠ .release i) :
    ∀ s : CState F, s.NoCallback → s.All (fun s op => op.Ok P S s.imgs.length s) ops := by
  induction ops with
  | nil => intro s _; trivial
  | cons op ops ih =>
    intro s hs
    refine ⟨?_, fun s' e => ih (fun o ho => hP o (by simp [ho])) s' (hs.step e)⟩
    cases op with
    | clone i => exact ⟨hS i, fun ⟨r, hr, f, hf⟩ => absurd hf (hs i r hr f)⟩
    | drop i => exact fun h => (hP _ (by simp) i h).1 rfl
    | convert i b => trivial
    | release i => exact fun h => (hP _ (by simp) i h).2 rfl

/-- a history in which only the first image is cloned -/
theorem all_first (ops : List CloneOp) (hc : ∀ op ∈ ops, ∀ i, op = .clone i → i = 0) :
    ∀ s : CState F, 1 ≤ s.imgs.length → s.All (fun s op => op.Ok (fun _ => False) (fun i => 1 ≤ i) s.imgs.length s) ops := by
  induction ops with
  | nil => intro s _; trivial
  | cons op ops ih =>
    intro s hs
    refine ⟨?_, fun s' e => ih (fun o ho => hc o (by simp [ho])) s' (le_trans hs (CState.step_length e))⟩
    cases op with
    | clone i => exact ⟨by rw [hc _ (by simp) i rfl]; decide, fun _ => hs⟩
    | drop i => exact id
    | convert i b => trivial
    | release i => exact id

/-- `r` presents the pixels `f` at the size `w × h` with gamma `g`, on this heap -/
structure HRows.Presents (r : HRows F) (heap : Heap) (w h : ℕ) (g : F) (f : ℕ → ℕ → RGBA) : Prop where
  width : r.width = w
  height : r.height = h
  gamma : r.gamma = g
  rows : (r.view heap).Shows f

theorem presents_of_same {r r' : HRows F} {h h' : Heap} {f : ℕ → ℕ → RGBA} (s : Rows.Same (r.view h) (r'.view h'))
    (hs : (r.view h).Shows f) : r'.Presents h' r.width r.height r.gamma f :=
  ⟨s.width, s.height, s.gamma, s.shows hs⟩

/-- **C17** (part). An image made from memory that the caller keeps (`new_borrowed`, `new_stride_borrowed`): after every
sequence of clones of any image, drops, conversions and releases, every image that is left presents the caller's pixels.
Missing for the full claim: the same for images that own their pixels, which is false (`C17_dangling`). -/
theorem C17_borrowed_partial {buf : List RGBA} {p : Ptr} {w hgt stride : ℕ} {γ : F} {heap heap' : Heap} {r : HRows F}
    (hbuf : heap.mem p.block = some (.pixels buf)) (hp : p.block < heap.next)
    (e : HRows.newStride (.borrowed p (buf.drop p.off).length) w hgt stride γ heap = .ok (heap', r)) (ops : List CloneOp) :
    ∃ s', (CState.mk heap' [some r]).run ops = .ok s' ∧ ∀ (i : ℕ) (c : HRows F), s'.imgs[i]? = some (some c) →
      c.Presents s'.heap w hgt r.gamma (fun y x => buf.getD (p.off + (y * stride + x)) ⟨0, 0, 0, 0⟩) := by
  obtain ⟨⟨img, hi, hv⟩, ptrs, _, hsrc, _⟩ := HRows.newStride_view (c := .borrowed p (buf.drop p.off).length) hbuf rfl hp e
  have hpx : heap.pixelsAt p = buf.drop p.off := by simp [Heap.pixelsAt, hbuf]
  have hi : Image.newStride (buf.drop p.off) w hgt stride γ = .ok img := hpx ▸ hi
  obtain ⟨hw, hh⟩ := newStride_sizes hi
  have inv := CInv.start (P := fun _ => False) (S := fun _ => False) (c := .borrowed p (buf.drop p.off).length) hbuf rfl hp e
    (.inl ⟨_, _, rfl⟩)
  have hnc : (CState.mk heap' [some r]).NoCallback := by
    intro i r' hi' f
    match i with
    | 0 => cases hi'; rw [hsrc]; simp
    | i + 1 => simp at hi'
  obtain ⟨s', hrun, inv'⟩ := inv.run (hv ▸ (newStride_good hi).px) (hv ▸ hw) (hv ▸ hh) ops
    (all_noCallback (fun _ => id) ops (fun _ _ _ h => h.elim) _ hnc)
  refine ⟨s', hrun, fun i c hc => ?_⟩
  obtain ⟨t, ci, _⟩ := inv'.img i c hc
  obtain ⟨hW, hH, _⟩ := C16_rows _ _ _ _ _ _ hi
  have hrw : r.width = w := by rw [← hW]; show _ = img.px.width; rw [hv]; rfl
  have hrh : r.height = hgt := by rw [← hH]; show _ = img.px.height; rw [hv]; rfl
  have hshow := (newStride_shows hi).1
  rw [hv] at hshow
  have := presents_of_same ci.same hshow
  rw [hrw, hrh] at this
  refine ⟨this.width, this.height, this.gamma, ?_⟩
  have hs := this.rows
  simpa [List.getD_eq_getElem?_getD, List.getElem?_drop] using hs

/-- **C17** (part). An image that owns its pixels (`new`, `new_stride`): as long as the original is neither dropped nor
releases its pixels in a remapping, it and all its clones, and clones of clones, present its pixels.
Missing: the clones must not depend on the original being alive; they do (`C17_dangling`). -/
theorem C17_owned_partial {buf : List RGBA} {p : Ptr} {w hgt stride : ℕ} {γ : F} {heap heap' : Heap} {r : HRows F}
    (hbuf : heap.mem p.block = some (.pixels buf)) (hp : p.block < heap.next) (ho : p.off = 0)
    (e : HRows.newStride (.boxed p buf.length) w hgt stride γ heap = .ok (heap', r)) (ops : List CloneOp)
    (hops : CloneOp.drop 0 ∉ ops ∧ CloneOp.release 0 ∉ ops) :
    ∃ s', (CState.mk heap' [some r]).run ops = .ok s' ∧ ∀ (i : ℕ) (c : HRows F), s'.imgs[i]? = some (some c) →
      c.Presents s'.heap w hgt r.gamma (fun y x => buf.getD (y * stride + x) ⟨0, 0, 0, 0⟩) := by
  have hlen : (buf.drop (Cow.boxed p buf.length).ptr.off).length = (Cow.boxed p buf.length).len := by
    simp [ho]
  obtain ⟨⟨img, hi, hv⟩, ptrs, _, hsrc, _⟩ := HRows.newStride_view (c := .boxed p buf.length) hbuf hlen hp e
  have hpx : heap.pixelsAt p = buf := by simp [Heap.pixelsAt, hbuf, ho]
  have hi : Image.newStride buf w hgt stride γ = .ok img := hpx ▸ hi
  obtain ⟨hw, hh⟩ := newStride_sizes hi
  have inv := CInv.start (P := fun i => i = 0) (S := fun _ => False) (c := .boxed p buf.length) hbuf hlen hp e
    (.inr ⟨rfl, _, _, rfl⟩)
  have hnc : (CState.mk heap' [some r]).NoCallback := by
    intro i r' hi' f
    match i with
    | 0 => cases hi'; rw [hsrc]; simp
    | i + 1 => simp at hi'
  obtain ⟨s', hrun, inv'⟩ := inv.run (hv ▸ (newStride_good hi).px) (hv ▸ hw) (hv ▸ hh) ops
    (all_noCallback (fun _ => id) ops (fun op ho i h => by
      subst h
      exact ⟨fun h => hops.1 (h ▸ ho), fun h => hops.2 (h ▸ ho)⟩) _ hnc)
  refine ⟨s', hrun, fun i c hc => ?_⟩
  obtain ⟨t, ci, _⟩ := inv'.img i c hc
  obtain ⟨hW, hH, _⟩ := C16_rows _ _ _ _ _ _ hi
  have hrw : r.width = w := by rw [← hW]; show _ = img.px.width; rw [hv]; rfl
  have hrh : r.height = hgt := by rw [← hH]; show _ = img.px.height; rw [hv]; rfl
  have hshow := (newStride_shows hi).1
  rw [hv] at hshow
  have := presents_of_same ci.same hshow
  rw [hrw, hrh] at this
  exact this

/-- **C17** (part). An image that reads from a callback (`new_fn`): its direct clones present the callback's pixels after
any drops, conversions and releases, of the original too.
Missing: clones of clones, which own their pixels and so have the defect of `C17_dangling`. -/
theorem C17_callback_partial {f : ℕ → ℕ → RGBA} {w hgt : ℕ} {γ : F} {heap : Heap} {r : HRows F}
    (e : HRows.newFn f w hgt γ = .ok r) (ops : List CloneOp) (hops : ∀ i, CloneOp.clone i ∈ ops → i = 0) :
    ∃ s', (CState.mk heap [some r]).run ops = .ok s' ∧ ∀ (i : ℕ) (c : HRows F), s'.imgs[i]? = some (some c) →
      c.Presents s'.heap w hgt r.gamma f := by
  obtain ⟨⟨img, hi, hv⟩, hsrc⟩ := HRows.newFn_view e heap
  obtain ⟨hg, hW, hH, _⟩ := newFn_good hi
  have hrw : r.width = w := by rw [← hW]; show _ = img.px.width; rw [hv]; rfl
  have hrh : r.height = hgt := by rw [← hH]; show _ = img.px.height; rw [hv]; rfl
  have hsz : w ≤ 2 ^ 32 - 1 ∧ hgt ≤ 2 ^ 32 - 1 := by
    unfold Image.newFn at hi
    rw [toU32_eq, toU32_eq] at hi
    split at hi
    · split at hi
      · exact ⟨‹_›, ‹_›⟩
      · cases hi
    · cases hi
  have inv : CInv (fun _ => False) (fun i => 1 ≤ i) (r.view heap) ⟨heap, [some r]⟩ (fun _ => False) := by
    have one : ∀ (i : ℕ) (r' : HRows F), [some r][i]? = some (some r') → i = 0 ∧ r' = r := by
      intro i r' hi
      match i with
      | 0 => exact ⟨rfl, by simpa using hi.symm⟩
      | i + 1 => simp at hi
    refine ⟨fun i r' hi => ?_, fun i j r1 r2 hij h1 h2 => ?_, fun b hb => hb.elim⟩
    · obtain ⟨rfl, rfl⟩ := one i r' hi
      refine ⟨0, ⟨Rows.Same.refl _, ?_, ?_, .inl ⟨f, hsrc⟩⟩, .inl fun rows px h => ?_⟩
      · rw [hsrc]; simp [HSource.blocks]
      · rw [hsrc]; simp [HSource.blocks]
      · rw [hsrc] at h; cases h
    · obtain ⟨rfl, _⟩ := one i r1 h1
      obtain ⟨rfl, _⟩ := one j r2 h2
      exact absurd rfl hij
  have hw0 : 0 < w := hW ▸ hg.width_pos
  have hh0 : 0 < hgt := hH ▸ hg.height_pos
  obtain ⟨s', hrun, inv'⟩ := inv.run (hv ▸ hg.px) ⟨by show 0 < r.width; omega, by show r.width ≤ _; omega⟩
    ⟨by show 0 < r.height; omega, by show r.height ≤ _; omega⟩ ops
    (all_first ops (fun op ho i h => hops i (h ▸ ho)) _ (by simp))
  refine ⟨s', hrun, fun i c hc => ?_⟩
  obtain ⟨t, ci, _⟩ := inv'.img i c hc
  have hshow := (newFn_shows hi).1
  rw [hv] at hshow
  have := presents_of_same ci.same hshow
  rw [hrw, hrh] at this
  exact this

/-- **C17**, negation. The clone of *any* image that owns its pixels, once the original is dropped, reads every one of
its rows through a pointer to freed memory (`.panic` stands for undefined behaviour here). -/
theorem C17_dangling {buf : List RGBA} {p : Ptr} {w hgt stride : ℕ} {γ : F} {heap heap' : Heap} {r : HRows F}
    (hbuf : heap.mem p.block = some (.pixels buf)) (hp : p.block < heap.next) (ho : p.off = 0)
    (e : HRows.newStride (.boxed p buf.length) w hgt stride γ heap = .ok (heap', r)) :
    ∃ s' c, (CState.mk heap' [some r]).run [.clone 0, .drop 0] = .ok s' ∧ s'.imgs = [none, some c] ∧
      ∀ y, (c.view s'.heap).rowRgba y = .error .panic ∧ (c.view s'.heap).rowF y = .error .panic := by
  have hlen : (buf.drop (Cow.boxed p buf.length).ptr.off).length = (Cow.boxed p buf.length).len := by
    simp [ho]
  obtain ⟨⟨img, hi, hv⟩, ptrs, hheap, hsrc, hptrs⟩ := HRows.newStride_view (c := .boxed p buf.length) hbuf hlen hp e
  have hpx : heap.pixelsAt p = buf := by simp [Heap.pixelsAt, hbuf, ho]
  have hi : Image.newStride buf w hgt stride γ = .ok img := hpx ▸ hi
  have hw := (newStride_sizes hi).1.1
  have hw : 0 < r.width := by rw [hv] at hw; exact hw
  have hf : r.fPixels = none := by
    have h1 : img.px.fPixels = none := by
      rw [newStride_eq] at hi
      split at hi
      · split at hi
        · obtain ⟨_, _, rfl⟩ := newInternal_ok hi
          rfl
        · cases hi
      · cases hi
    rw [hv] at h1; exact h1
  subst hheap
  obtain ⟨c, hc⟩ : ∃ c : HRows F, c = { r with source := .pixels (.boxed ⟨heap.next + 1, 0⟩ ptrs.length) (some (.boxed ⟨heap.next + 2, 0⟩ buf.length)) } := ⟨_, rfl⟩
  obtain ⟨h2, hclone, hrows⟩ : ∃ h2 : Heap, r.clone (heap.alloc (.rows ptrs)).1 = .ok (h2, c) ∧
      h2.mem (heap.next + 1) = some (.rows ptrs) := by
    obtain ⟨h1, hh1⟩ : ∃ h1, h1 = ((heap.alloc (.rows ptrs)).1.alloc (.rows ptrs)).1 := ⟨_, rfl⟩
    refine ⟨(h1.alloc (.pixels ((h1.pixelsAt p).take buf.length))).1, ?_, ?_⟩
    · unfold HRows.clone
      rw [hsrc, hc, hh1]
      simp only [Cow.cloneRows, Cow.clonePixels, Cow.rowSlice, Cow.ptr_boxed, Cow.len_boxed]
      rw [Heap.rowsAt_all (Heap.alloc_mem_new _ _)]
      rfl
    · rw [Heap.alloc_mem_old _ (by simp [hh1]), hh1]
      exact Heap.alloc_mem_new (heap.alloc (.rows ptrs)).1 (.rows ptrs)
  have hdrop : r.drop h2 = (h2.dealloc heap.next).dealloc p.block := by
    unfold HRows.drop; rw [hsrc]; rfl
  refine ⟨⟨r.drop h2, [none, some c]⟩, c, by simp [CState.run, CState.step, hclone], rfl, ?_⟩
  have hread : ∀ y, (c.view (r.drop h2)).rowRgba y = .error .panic := by
    intro y
    have hslice : Cow.rowSlice (.boxed ⟨heap.next + 1, 0⟩ ptrs.length) (r.drop h2) = ptrs := by
      unfold Cow.rowSlice
      refine Heap.rowsAt_all ?_
      rw [hdrop, Heap.dealloc_mem_ne _ (by show heap.next + 1 ≠ p.block; omega), Heap.dealloc_mem_ne _ (by omega)]
      exact hrows
    have hview : (c.view (r.drop h2)).source = .pixels (ptrs.map fun _ => []) := by
      rw [hc]
      simp only [HRows.view, HSource.view, hslice]
      congr 1
      refine List.map_congr_left fun q hq => ?_
      have : (r.drop h2).mem q.block = none := by rw [hptrs q hq, hdrop]; simp [Heap.dealloc]
      simp [Heap.pixelsAt, this]
    have hcw : 0 < (c.view (r.drop h2)).width := by rw [hc]; exact hw
    unfold Rows.rowRgba
    rw [hview]
    simp only
    split
    · rfl
    next row hrow =>
      rw [List.getElem?_map] at hrow
      obtain ⟨q, _, rfl⟩ := Option.map_eq_some_iff.mp hrow
      exact if_pos (by simpa using hcw)
  refine fun y => ⟨hread y, ?_⟩
  unfold Rows.rowF
  rw [show (c.view (r.drop h2)).fPixels = none by rw [hc]; exact hf]
  simp only
  rw [hread y]; rfl

/-- a 2×1 image on the heap, owning its pixels (`Image::new`) or borrowing them (`Image::new_borrowed`) -/
def twoPixels : List RGBA := [⟨1, 2, 3, 255⟩, ⟨4, 5, 6, 255⟩]

/-- the hypotheses of `C17_dangling`, `C17_owned_partial` and `C17_borrowed_partial` are met -/
theorem twoPixels_made (c : Cow) (hc : c = .boxed ⟨1, 0⟩ 2 ∨ c = .borrowed ⟨1, 0⟩ 2) :
    ∃ heap' r, HRows.newStride (F := ℝ) c 2 1 2 0 (Heap.init.alloc (.pixels twoPixels)).1 = .ok (heap', r) := by
  have hl : c.len = 2 := by rcases hc with rfl | rfl <;> rfl
  unfold HRows.newStride Image.toU32 HSource.forPixels HRows.newInternal
  simp [Image.checkImageSize, Bind.bind, Except.bind, Pure.pure, Except.pure, hl]
  norm_num

/-- a clone and its clone, after the original image was dropped: with borrowed pixels all is well -/
example (heap' : Heap) (r : HRows ℝ)
    (e : HRows.newStride (.borrowed ⟨1, 0⟩ 2) 2 1 2 0 (Heap.init.alloc (.pixels twoPixels)).1 = .ok (heap', r)) :
    ∃ s', (CState.mk heap' [some r]).run [.clone 0, .clone 1, .drop 0, .convert 1 false, .release 1] = .ok s' ∧
      ∀ (i : ℕ) (c : HRows ℝ), s'.imgs[i]? = some (some c) →
        c.Presents s'.heap 2 1 r.gamma (fun y x => twoPixels.getD (0 + (y * 2 + x)) ⟨0, 0, 0, 0⟩) :=
  C17_borrowed_partial (p := ⟨1, 0⟩) (buf := twoPixels) rfl (by decide) e _

/-- the hypothesis of `C17_callback_partial` is met -/
example : ∃ r, HRows.newFn (F := ℝ) (fun y x => ⟨y.toUInt8, x.toUInt8, 0, 255⟩) 3 2 0 = .ok r := by
  unfold HRows.newFn Image.toU32 HRows.newInternal
  simp [Image.checkImageSize, Bind.bind, Except.bind]
  norm_num

/-- **C17** does not hold: there is an image and a history after which a clone no longer presents its pixels. -/
theorem C17_does_not_hold : ¬ ∀ (heap heap' : Heap) (c : Cow) (buf : List RGBA) (w hgt : ℕ) (γ : ℝ) (r : HRows ℝ),
    heap.mem c.ptr.block = some (.pixels buf) → c.ptr.block < heap.next → c.ptr.off = 0 → c.len = buf.length →
    HRows.newStride c w hgt w γ heap = .ok (heap', r) → ∀ ops : List CloneOp,
    ∃ s', (CState.mk heap' [some r]).run ops = .ok s' ∧ ∀ (i : ℕ) (k : HRows ℝ), s'.imgs[i]? = some (some k) →
      k.Presents s'.heap w hgt r.gamma (fun y x => buf.getD (y * w + x) ⟨0, 0, 0, 0⟩) := by
  intro h
  obtain ⟨heap', r, e⟩ := twoPixels_made _ (.inl rfl)
  obtain ⟨s1, h1, h2⟩ := h (Heap.init.alloc (.pixels twoPixels)).1 heap' (.boxed ⟨1, 0⟩ twoPixels.length) twoPixels 2 1 0 r
    rfl (by decide) rfl rfl e [.clone 0, .drop 0]
  obtain ⟨s', c, hrun, himgs, hbad⟩ := C17_dangling (p := ⟨1, 0⟩) (buf := twoPixels) rfl (by decide) rfl e
  rw [h1] at hrun
  cases hrun
  have hp := h2 1 c (by rw [himgs]; rfl)
  have hs := hp.rows 0 (by show 0 < c.height; rw [hp.height]; decide)
  rw [(hbad 0).2] at hs
  cases hs

end Verif
