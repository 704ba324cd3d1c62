import Verif.Lemmas.Heap
import Verif.Model.Ffi

/-!
# The caller's books on memory handed to the library (C18)

`Ledger` is kept by the caller from the calls it makes and the replies it gets. `OInv` relates it to the heap and to
what the images hold.
-/

set_option linter.unusedSectionVars false

namespace Verif
open Flt

namespace Spec

/-- where the pixels of an image come from -/
inductive Origin where
  | custom
  /-- `liq_image_create_rgba`: the caller's pixels -/
  | bitmap (pixels : Ptr)
  /-- `liq_image_create_rgba_rows`: the caller's array of row pointers -/
  | rows (array : Ptr) (height : ℕ)

/-- what has become of an image -/
inductive Status where
  | unknown
  | live
  | backgroundOf (image : ℕ)
  | gone
  deriving DecidableEq

/-- a pointer that was handed over together with an image, and the function to free it with -/
structure Given where
  fn : ℕ
  ptr : Ptr
  image : ℕ

structure Ledger where
  /-- blocks the caller has allocated -/
  mallocs : List ℕ
  /-- settings object → its function to free memory -/
  alloc : ℕ → ℕ
  origin : ℕ → Origin
  /-- image → function to free its memory -/
  fn : ℕ → ℕ
  status : ℕ → Status
  /-- images for which a remap was requested -/
  remapped : ℕ → Bool
  gaveRows : ℕ → Bool
  gavePixels : ℕ → Bool
  given : List Given
  /-- importance maps that were handed over -/
  maps : List (ℕ × Ptr)

def Ledger.init : Ledger :=
  ⟨[], fun _ => 0, fun _ => .custom, fun _ => 0, fun _ => .unknown, fun _ => false, fun _ => false, fun _ => false, [], []⟩

/-- all pointers ever handed over -/
def Ledger.handedOver (l : Ledger) : List (ℕ × Ptr) := l.given.map (fun g => (g.fn, g.ptr)) ++ l.maps

end Spec

open Spec

/-! ### What dropping frees -/

def Cow.owned' : Cow → List (ℕ × Ptr)
  | .owned p _ fn => [(fn, p)]
  | _ => []

/-- the calls of C `free` functions that dropping makes -/
def HSource.owned : HSource → List (ℕ × Ptr)
  | .pixels rows px => rows.owned' ++ (px.map Cow.owned').getD []
  | .callback _ => []

/-- blocks allocated by the library that dropping deallocates -/
def Cow.boxes : Cow → List ℕ
  | .boxed p _ => [p.block]
  | _ => []

def HSource.boxes : HSource → List ℕ
  | .pixels rows px => rows.boxes ++ (px.map Cow.boxes).getD []
  | .callback _ => []

theorem Cow.drop_frees (c : Cow) (h : Heap) : (c.drop h).frees = h.frees ++ c.owned' := by
  cases c <;> simp [Cow.drop, Cow.owned', Heap.cFree]

theorem Cow.drop_next (c : Cow) (h : Heap) : (c.drop h).next = h.next := by
  cases c <;> simp [Cow.drop]

theorem Cow.drop_keeps (c : Cow) (h : Heap) {b : ℕ} (h1 : b ∉ c.boxes) (h2 : ∀ x ∈ c.owned', x.2.block ≠ b) :
    (c.drop h).mem b = h.mem b := by
  cases c with
  | owned p n f =>
    have := h2 (f, p) (by simp [Cow.owned'])
    simp [Cow.drop, Heap.cFree, Heap.dealloc, Ne.symm this]
  | borrowed p n => rfl
  | boxed p n =>
    simp only [Cow.boxes, List.mem_singleton] at h1
    simp [Cow.drop, Heap.dealloc, h1]

theorem HSource.drop_frees (s : HSource) (h : Heap) : (s.drop h).frees = h.frees ++ s.owned := by
  cases s with
  | callback f => simp [HSource.drop, HSource.owned]
  | pixels rows px =>
    cases px with
    | none => simp [HSource.drop, dropPixels, HSource.owned, Cow.drop_frees]
    | some px => simp [HSource.drop, dropPixels, HSource.owned, Cow.drop_frees]

theorem HSource.drop_next (s : HSource) (h : Heap) : (s.drop h).next = h.next := by
  cases s with
  | callback f => rfl
  | pixels rows px => cases px <;> simp [HSource.drop, dropPixels, Cow.drop_next]

theorem HSource.drop_keeps (s : HSource) (h : Heap) {b : ℕ} (h1 : b ∉ s.boxes) (h2 : ∀ x ∈ s.owned, x.2.block ≠ b) :
    (s.drop h).mem b = h.mem b := by
  cases s with
  | callback f => rfl
  | pixels rows px =>
    simp only [HSource.boxes, List.mem_append, not_or] at h1
    have hr := Cow.drop_keeps rows h h1.1 fun x hx => h2 x (by simp [HSource.owned, hx])
    cases px with
    | none => exact hr
    | some px =>
      have hp := Cow.drop_keeps px (rows.drop h) (by simpa using h1.2) fun x hx => h2 x (by simp [HSource.owned, hx])
      exact hp.trans hr

/-! ### The invariant -/

/-- the pixels of image `j`: owned once they were handed over -/
def PxShape (l : Ledger) (j : ℕ) (px : Option Cow) : Prop :=
  (px = none ∧ l.gavePixels j = false) ∨ ∃ p n, px = some (.owned p n (l.fn j)) ∧ l.gavePixels j = true

/-- the source that image `j` holds -/
def OriginShape (l : Ledger) (h : Heap) (j : ℕ) (s : HSource) : Prop :=
  match l.origin j with
  | .custom => ∃ f, s = .callback f
  | .bitmap p => ∃ (b : ℕ) (rows : List Ptr) (px : Option Cow), s = .pixels (.boxed ⟨b, 0⟩ rows.length) px ∧
      h.mem b = some (.rows rows) ∧ HRows.lowest rows = some p ∧ b < h.next ∧ b ∉ l.mallocs ∧ PxShape l j px
  | .rows p n => ∃ (rc : Cow) (px : Option Cow), s = .pixels rc px ∧ 0 < n ∧
      (rc = .borrowed p n ∧ l.gaveRows j = false ∨ rc = .owned p n (l.fn j) ∧ l.gaveRows j = true) ∧ PxShape l j px

/-- released after the pixels were converted -/
def Released (l : Ledger) (j : ℕ) (s : HSource) : Prop := s = .pixels .empty none ∧ l.remapped j = true

structure OInv (l : Ledger) (h : Heap) (held : ℕ → Option HSource) : Prop where
  shape : ∀ j s, held j = some s → Released l j s ∨ OriginShape l h j s
  owned : ∀ j s, held j = some s → s.owned.Nodup ∧ ∀ x ∈ s.owned, ⟨x.1, x.2, j⟩ ∈ l.given ∧ x ∉ h.frees
  given : ∀ g ∈ l.given, (g.fn, g.ptr) ∈ h.frees ∨ ∃ s, held g.image = some s ∧ (g.fn, g.ptr) ∈ s.owned
  maps : ∀ x ∈ l.maps, x ∈ h.frees
  frees : h.frees.Nodup ∧ ∀ x ∈ h.frees, x ∈ l.handedOver
  ptrs : (l.handedOver.map (·.2)).Nodup ∧ ∀ x ∈ l.handedOver, x.2.block ∈ l.mallocs ∧ x.2.off = 0
  mallocs : ∀ b ∈ l.mallocs, b < h.next
  boxes : ∀ j j' s s', j ≠ j' → held j = some s → held j' = some s' → ∀ b ∈ s.boxes, b ∉ s'.boxes

theorem OriginShape.boxes {l : Ledger} {h : Heap} {j : ℕ} {s : HSource} (o : OriginShape l h j s) :
    ∀ b ∈ s.boxes, b < h.next ∧ b ∉ l.mallocs := by
  unfold OriginShape at o
  have hpx : ∀ px, PxShape l j px → (px.map Cow.boxes).getD [] = [] := by
    rintro px (⟨rfl, _⟩ | ⟨p, n, rfl, _⟩) <;> simp [Cow.boxes]
  intro b hb
  split at o
  · obtain ⟨f, rfl⟩ := o
    simp [HSource.boxes] at hb
  · obtain ⟨b', rows, px, rfl, _, _, h3, h4, h5⟩ := o
    simp only [HSource.boxes, hpx px h5, Cow.boxes, List.append_nil, List.mem_singleton] at hb
    subst hb
    exact ⟨h3, h4⟩
  · obtain ⟨rc, px, rfl, _, hrc, h5⟩ := o
    rw [HSource.boxes, hpx px h5] at hb
    rcases hrc with ⟨rfl, _⟩ | ⟨rfl, _⟩ <;> simp [Cow.boxes] at hb

theorem OInv.boxes_lt {l : Ledger} {h : Heap} {held : ℕ → Option HSource} (i : OInv l h held) {j : ℕ} {s : HSource}
    (hs : held j = some s) : ∀ b ∈ s.boxes, b < h.next ∧ b ∉ l.mallocs := by
  rcases i.shape j s hs with ⟨rfl, _⟩ | o
  · simp [HSource.boxes, Cow.empty, Cow.boxes]
  · exact o.boxes

theorem OriginShape.keep {l : Ledger} {h h' : Heap} {j : ℕ} {s : HSource} (o : OriginShape l h j s)
    (hn : h.next ≤ h'.next) (hm : ∀ b ∈ s.boxes, h'.mem b = h.mem b) : OriginShape l h' j s := by
  unfold OriginShape at o ⊢
  split at o
  · exact o
  · obtain ⟨b', rows, px, rfl, h1, h2, h3, h4, h5⟩ := o
    refine ⟨b', rows, px, rfl, ?_, h2, by omega, h4, h5⟩
    rw [hm b' (by simp [HSource.boxes, Cow.boxes])]; exact h1
  · exact o

/-- the same pointer is not handed over twice -/
theorem Ledger.given_unique {l : Ledger} (hn : (l.handedOver.map (·.2)).Nodup) {g g' : Given} (h : g ∈ l.given)
    (h' : g' ∈ l.given) (e : g.ptr = g'.ptr) : g = g' := by
  unfold Ledger.handedOver at hn
  rw [List.map_append] at hn
  have := (List.nodup_append.mp hn).1
  rw [List.map_map] at this
  exact List.inj_on_of_nodup_map this h h' e

theorem Ledger.given_not_map {l : Ledger} (hn : (l.handedOver.map (·.2)).Nodup) {g : Given} {x : ℕ × Ptr} (h : g ∈ l.given)
    (h' : x ∈ l.maps) : g.ptr ≠ x.2 := by
  unfold Ledger.handedOver at hn
  rw [List.map_append] at hn
  refine (List.nodup_append.mp hn).2.2 g.ptr ?_ x.2 (List.mem_map_of_mem h')
  rw [List.map_map]
  exact List.mem_map_of_mem (f := (fun x : ℕ × Ptr => x.2) ∘ fun g : Given => (g.fn, g.ptr)) h

/-- replacing what one image holds by nothing, or by nothing but the mark of a release -/
theorem OInv.drop {l : Ledger} {h : Heap} {held : ℕ → Option HSource} (i : OInv l h held) {j : ℕ} {s : HSource}
    (hs : held j = some s) (l' : Ledger) (hl : l' = { l with status := l'.status, remapped := l'.remapped })
    (hr : ∀ k, l.remapped k = true → l'.remapped k = true)
    (o : Option HSource) (ho : o = none ∨ (o = some (.pixels .empty none) ∧ l'.remapped j = true))
    (held' : ℕ → Option HSource) (hj : held' j = o) (hk : ∀ k, k ≠ j → held' k = held k) :
    OInv l' (s.drop h) held' := by
  have hmal : l'.mallocs = l.mallocs := by rw [hl]
  have hgiv : l'.given = l.given := by rw [hl]
  have hmaps : l'.maps = l.maps := by rw [hl]
  have hho : l'.handedOver = l.handedOver := by unfold Ledger.handedOver; rw [hgiv, hmaps]
  obtain ⟨own1, own2⟩ := i.owned j s hs
  have hoo : ∀ t, held' j = some t → t = .pixels .empty none ∧ l'.remapped j = true := by
    intro t ht
    rw [hj] at ht
    rcases ho with rfl | ⟨rfl, h2⟩
    · cases ht
    · cases ht; exact ⟨rfl, h2⟩
  have hgblk : ∀ x ∈ s.owned, x.2.block ∈ l.mallocs := fun x hx => by
    refine (i.ptrs.2 x ?_).1
    unfold Ledger.handedOver
    exact List.mem_append_left _ (List.mem_map.mpr ⟨_, (own2 x hx).1, rfl⟩)
  refine ⟨fun k t ht => ?_, fun k t ht => ?_, fun g hg => ?_, fun x hx => ?_, ⟨?_, fun x hx => ?_⟩, ?_, ?_, ?_⟩
  · by_cases hkj : k = j
    · subst hkj
      exact .inl ⟨(hoo t ht).1, (hoo t ht).2⟩
    · rw [hk k hkj] at ht
      rcases i.shape k t ht with ⟨h1, h2⟩ | o'
      · exact .inl ⟨h1, hr k h2⟩
      · refine .inr ?_
        have : OriginShape l (s.drop h) k t := o'.keep (by rw [HSource.drop_next]) fun b hb =>
          HSource.drop_keeps s h (fun hb' => i.boxes j k s t (Ne.symm hkj) hs ht b hb' hb)
            (fun x hx e => (o'.boxes b hb).2 (e ▸ hgblk x hx))
        unfold OriginShape PxShape at this ⊢
        rw [hl]; exact this
  · by_cases hkj : k = j
    · subst hkj
      rw [(hoo t ht).1]
      simp [HSource.owned, Cow.empty, Cow.owned']
    · rw [hk k hkj] at ht
      obtain ⟨a, b⟩ := i.owned k t ht
      refine ⟨a, fun x hx => ⟨hgiv ▸ (b x hx).1, ?_⟩⟩
      rw [HSource.drop_frees, List.mem_append, not_or]
      refine ⟨(b x hx).2, fun hx' => hkj ?_⟩
      have := Ledger.given_unique i.ptrs.1 (b x hx).1 (own2 x hx').1 rfl
      exact congrArg Given.image this
  · rw [hgiv] at hg
    rw [HSource.drop_frees]
    rcases i.given g hg with h1 | ⟨t, ht, h2⟩
    · exact .inl (List.mem_append_left _ h1)
    · by_cases hgj : g.image = j
      · rw [hgj] at ht
        have : t = s := Option.some.inj (ht.symm.trans hs)
        subst this
        exact .inl (List.mem_append_right _ h2)
      · exact .inr ⟨t, by rw [hk _ hgj]; exact ht, h2⟩
  · rw [hmaps] at hx
    rw [HSource.drop_frees]
    exact List.mem_append_left _ (i.maps x hx)
  · rw [HSource.drop_frees]
    exact List.nodup_append.mpr ⟨i.frees.1, own1, fun a ha b hb e => (own2 b hb).2 (e ▸ ha)⟩
  · rw [HSource.drop_frees, List.mem_append] at hx
    rw [hho]
    rcases hx with hx | hx
    · exact i.frees.2 x hx
    · unfold Ledger.handedOver
      exact List.mem_append_left _ (List.mem_map.mpr ⟨_, (own2 x hx).1, rfl⟩)
  · rw [hho, hmal]; exact i.ptrs
  · rw [hmal, HSource.drop_next]; exact i.mallocs
  · intro k k' t t' hkk ht ht' b hb
    by_cases hkj : k = j
    · subst hkj
      rw [(hoo t ht).1] at hb
      simp [HSource.boxes, Cow.empty, Cow.boxes] at hb
    · by_cases hkj' : k' = j
      · subst hkj'
        rw [(hoo t' ht').1]
        simp [HSource.boxes, Cow.empty, Cow.boxes]
      · rw [hk k hkj] at ht
        rw [hk k' hkj'] at ht'
        exact i.boxes k k' t t' hkk ht ht' b hb

/-- heap changes that keep what the library allocated, without calls of `free` functions -/
theorem OInv.heap {l : Ledger} {h h' : Heap} {held : ℕ → Option HSource} (i : OInv l h held) (hf : h'.frees = h.frees)
    (hn : h.next ≤ h'.next) (hm : ∀ b, b < h.next → b ∉ l.mallocs → h'.mem b = h.mem b) : OInv l h' held := by
  refine ⟨fun j s hs => ?_, fun j s hs => ?_, fun g hg => ?_, fun x hx => ?_, ?_, i.ptrs, fun b hb => ?_, i.boxes⟩
  · rcases i.shape j s hs with h1 | o
    · exact .inl h1
    · exact .inr (o.keep hn fun b hb => hm b (o.boxes b hb).1 (o.boxes b hb).2)
  · rw [hf]; exact i.owned j s hs
  · rw [hf]; exact i.given g hg
  · rw [hf]; exact i.maps x hx
  · rw [hf]; exact i.frees
  · exact lt_of_lt_of_le (i.mallocs b hb) hn

/-- the caller allocates -/
theorem OInv.malloc {l : Ledger} {h : Heap} {held : ℕ → Option HSource} (i : OInv l h held) (b : Block) :
    OInv { l with mallocs := h.next :: l.mallocs } (h.alloc b).1 held := by
  have i' := i.heap (h' := (h.alloc b).1) rfl (by simp) fun c hc _ => Heap.alloc_mem_old _ hc
  refine ⟨fun j s hs => ?_, i'.owned, i'.given, i'.maps, i'.frees, ⟨i'.ptrs.1, fun x hx => ⟨List.mem_cons_of_mem _ (i'.ptrs.2 x hx).1, (i'.ptrs.2 x hx).2⟩⟩,
    fun c hc => ?_, i'.boxes⟩
  · rcases i'.shape j s hs with h1 | o
    · exact .inl h1
    · refine .inr ?_
      have hb := i.boxes_lt hs
      unfold OriginShape PxShape at o ⊢
      dsimp only
      split at o
      · exact o
      · obtain ⟨b', rows, px, rfl, h1, h2, h3, h4, h5⟩ := o
        refine ⟨b', rows, px, rfl, h1, h2, h3, ?_, h5⟩
        have := (hb b' (by simp [HSource.boxes, Cow.boxes])).1
        simp only [List.mem_cons, not_or]
        exact ⟨by omega, h4⟩
      · exact o
  · simp only [List.mem_cons] at hc
    simp only [Heap.alloc_next]
    rcases hc with rfl | hc
    · omega
    · have := i.mallocs c hc; omega

/-- an importance map is taken over: freed at once -/
theorem OInv.map {l : Ledger} {h : Heap} {held : ℕ → Option HSource} (i : OInv l h held) {fn : ℕ} {p : Ptr}
    (hp : p.block ∈ l.mallocs) (hp0 : p.off = 0) (hnew : p ∉ l.handedOver.map (·.2)) :
    OInv { l with maps := l.maps ++ [(fn, p)] } (h.cFree fn p) held := by
  have hfr : (h.cFree fn p).frees = h.frees ++ [(fn, p)] := rfl
  have hho : Ledger.handedOver { l with maps := l.maps ++ [(fn, p)] } = l.handedOver ++ [(fn, p)] := by
    unfold Ledger.handedOver; simp
  have hnf : (fn, p) ∉ h.frees := fun hx => hnew (List.mem_map.mpr ⟨_, i.frees.2 _ hx, rfl⟩)
  refine ⟨fun j s hs => ?_, fun j s hs => ?_, fun g hg => ?_, fun x hx => ?_, ⟨?_, fun x hx => ?_⟩, ⟨?_, fun x hx => ?_⟩,
    i.mallocs, i.boxes⟩
  · rcases i.shape j s hs with h1 | o
    · exact .inl h1
    · exact .inr (o.keep (by simp) fun b hb => by
        have : p.block ≠ b := fun e => (o.boxes b hb).2 (e ▸ hp)
        simp [Heap.cFree, Heap.dealloc, Ne.symm this])
  · obtain ⟨a, b⟩ := i.owned j s hs
    refine ⟨a, fun x hx => ⟨(b x hx).1, ?_⟩⟩
    rw [hfr, List.mem_append, not_or]
    refine ⟨(b x hx).2, fun hx' => hnew ?_⟩
    simp only [List.mem_singleton] at hx'
    subst hx'
    unfold Ledger.handedOver
    exact List.mem_map.mpr ⟨_, List.mem_append_left _ (List.mem_map.mpr ⟨_, (b _ hx).1, rfl⟩), rfl⟩
  · rw [hfr]
    exact (i.given g hg).imp (List.mem_append_left _) id
  · rw [hfr]
    simp only [List.mem_append, List.mem_singleton] at hx ⊢
    exact hx.imp (i.maps x) id
  · rw [hfr]
    exact List.nodup_append.mpr ⟨i.frees.1, by simp, fun a ha b hb e => hnf (by
      simp only [List.mem_singleton] at hb; subst hb; exact e ▸ ha)⟩
  · rw [hfr, List.mem_append] at hx
    rw [hho, List.mem_append]
    exact hx.imp (i.frees.2 x) id
  · rw [hho, List.map_append]
    exact List.nodup_append.mpr ⟨i.ptrs.1, by simp, fun a ha b hb e => hnew (by
      simp only [List.map_cons, List.map_nil, List.mem_singleton] at hb; subst hb; exact e ▸ ha)⟩
  · rw [hho, List.mem_append, List.mem_singleton] at hx
    rcases hx with hx | rfl
    · exact i.ptrs.2 x hx
    · exact ⟨hp, hp0⟩

/-- a new image that owns nothing -/
theorem OInv.create {l : Ledger} {h : Heap} {held : ℕ → Option HSource} (i : OInv l h held) {j : ℕ} {s : HSource}
    (hj : held j = none) (l' : Ledger) (hm : l'.mallocs = l.mallocs) (hg : l'.given = l.given) (hmaps : l'.maps = l.maps)
    (hk : ∀ k, k ≠ j → l'.origin k = l.origin k ∧ l'.fn k = l.fn k ∧ l'.remapped k = l.remapped k ∧
      l'.gaveRows k = l.gaveRows k ∧ l'.gavePixels k = l.gavePixels k)
    (ho : s.owned = []) (hs : OriginShape l' h j s) (hb : ∀ k t, held k = some t → ∀ b ∈ s.boxes, b ∉ t.boxes)
    (held' : ℕ → Option HSource) (hj' : held' j = some s) (hk' : ∀ k, k ≠ j → held' k = held k) : OInv l' h held' := by
  have hho : l'.handedOver = l.handedOver := by unfold Ledger.handedOver; rw [hg, hmaps]
  refine ⟨fun k t ht => ?_, fun k t ht => ?_, fun g hg' => ?_, fun x hx => i.maps x (hmaps ▸ hx), ?_, ?_, ?_, ?_⟩
  · by_cases e : k = j
    · subst e
      rw [hj'] at ht; cases ht
      exact .inr hs
    · rw [hk' k e] at ht
      obtain ⟨e1, e2, e3, e4, e5⟩ := hk k e
      have := i.shape k t ht
      unfold Released OriginShape PxShape at this ⊢
      rw [e1, e2, e3, e4, e5, hm]; exact this
  · by_cases e : k = j
    · subst e
      rw [hj'] at ht; cases ht
      rw [ho]; simp
    · rw [hk' k e] at ht
      rw [hg]; exact i.owned k t ht
  · rw [hg] at hg'
    rcases i.given g hg' with h1 | ⟨t, ht, h2⟩
    · exact .inl h1
    · refine .inr ⟨t, ?_, h2⟩
      rw [hk' _ (fun e => by rw [e, hj] at ht; cases ht)]; exact ht
  · rw [hho]; exact i.frees
  · rw [hho, hm]; exact i.ptrs
  · rw [hm]; exact i.mallocs
  · intro k k' t t' hkk ht ht' b hb'
    by_cases e : k = j
    · subst e
      rw [hj'] at ht; cases ht
      rw [hk' k' (Ne.symm hkk)] at ht'
      exact hb k' t' ht' b hb'
    · rw [hk' k e] at ht
      by_cases e' : k' = j
      · subst e'
        rw [hj'] at ht'; cases ht'
        exact fun hb'' => hb k t ht b hb'' hb'
      · rw [hk' k' e'] at ht'
        exact i.boxes k k' t t' hkk ht ht' b hb'

/-- pointers are handed over -/
theorem OInv.give {l : Ledger} {h : Heap} {held : ℕ → Option HSource} (i : OInv l h held) {j : ℕ} {s s' : HSource}
    (hj : held j = some s) (news : List (ℕ × Ptr)) (l' : Ledger) (hm : l'.mallocs = l.mallocs)
    (hg : l'.given = l.given ++ news.map fun x => ⟨x.1, x.2, j⟩) (hmaps : l'.maps = l.maps)
    (hk : ∀ k, k ≠ j → l'.origin k = l.origin k ∧ l'.fn k = l.fn k ∧ l'.remapped k = l.remapped k ∧
      l'.gaveRows k = l.gaveRows k ∧ l'.gavePixels k = l.gavePixels k)
    (hnew : ((l.handedOver ++ news).map (·.2)).Nodup) (hblk : ∀ x ∈ news, x.2.block ∈ l.mallocs ∧ x.2.off = 0)
    (ho : s'.owned.Perm (s.owned ++ news)) (hb : s'.boxes = s.boxes) (hs : Released l' j s' ∨ OriginShape l' h j s')
    (held' : ℕ → Option HSource) (hj' : held' j = some s') (hk' : ∀ k, k ≠ j → held' k = held k) : OInv l' h held' := by
  have hho : ∀ x, x ∈ l'.handedOver ↔ x ∈ l.handedOver ∨ x ∈ news := by
    intro x
    unfold Ledger.handedOver
    rw [hg, hmaps]
    simp only [List.map_append, List.map_map, List.mem_append, List.mem_map, Function.comp_apply]
    constructor
    · rintro ((h1 | ⟨a, ha, rfl⟩) | h1)
      exacts [.inl (.inl h1), .inr ha, .inl (.inr h1)]
    · rintro ((h1 | h1) | h1)
      exacts [.inl (.inl h1), .inr h1, .inl (.inr ⟨x, h1, rfl⟩)]
  have hperm : l'.handedOver.Perm (l.handedOver ++ news) := by
    unfold Ledger.handedOver
    rw [hg, hmaps, List.map_append, List.map_map]
    have : news.map ((fun g : Given => (g.fn, g.ptr)) ∘ fun x => ⟨x.1, x.2, j⟩) = news := by
      conv_rhs => rw [← List.map_id news]
      rfl
    rw [this, List.append_assoc, List.append_assoc]
    exact List.Perm.append_left _ List.perm_append_comm
  rw [List.map_append] at hnew
  have hfresh : ∀ x ∈ news, x ∉ l.handedOver := fun x hx hx' =>
    (List.nodup_append.mp hnew).2.2 x.2 (List.mem_map_of_mem (f := fun y : ℕ × Ptr => y.2) hx') x.2
      (List.mem_map_of_mem (f := fun y : ℕ × Ptr => y.2) hx) rfl
  have hnn : news.Nodup := List.Nodup.of_map _ (List.nodup_append.mp hnew).2.1
  refine ⟨fun k t ht => ?_, fun k t ht => ?_, fun g hg' => ?_, fun x hx => i.maps x (hmaps ▸ hx), ?_, ?_, ?_, ?_⟩
  · by_cases e : k = j
    · subst e
      rw [hj'] at ht; cases ht
      exact hs
    · rw [hk' k e] at ht
      obtain ⟨e1, e2, e3, e4, e5⟩ := hk k e
      have := i.shape k t ht
      unfold Released OriginShape PxShape at this ⊢
      rw [e1, e2, e3, e4, e5, hm]; exact this
  · by_cases e : k = j
    · subst e
      rw [hj'] at ht; cases ht
      obtain ⟨a, b⟩ := i.owned k s hj
      refine ⟨ho.nodup_iff.mpr (List.nodup_append.mpr ⟨a, hnn, fun x hx y hy exy => ?_⟩), fun x hx => ?_⟩
      · subst exy
        refine hfresh x hy ?_
        unfold Ledger.handedOver
        exact List.mem_append_left _ (List.mem_map.mpr ⟨_, (b x hx).1, rfl⟩)
      · rw [ho.mem_iff, List.mem_append] at hx
        rw [hg, List.mem_append]
        rcases hx with hx | hx
        · exact ⟨.inl (b x hx).1, (b x hx).2⟩
        · exact ⟨.inr (List.mem_map.mpr ⟨x, hx, rfl⟩), fun hf => hfresh x hx (i.frees.2 x hf)⟩
    · rw [hk' k e] at ht
      obtain ⟨a, b⟩ := i.owned k t ht
      exact ⟨a, fun x hx => ⟨by rw [hg]; exact List.mem_append_left _ (b x hx).1, (b x hx).2⟩⟩
  · rw [hg, List.mem_append] at hg'
    rcases hg' with hg' | hg'
    · rcases i.given g hg' with h1 | ⟨t, ht, h2⟩
      · exact .inl h1
      · by_cases e : g.image = j
        · rw [e] at ht
          have : t = s := Option.some.inj (ht.symm.trans hj)
          subst this
          exact .inr ⟨s', by rw [e]; exact hj', ho.mem_iff.mpr (List.mem_append_left _ h2)⟩
        · exact .inr ⟨t, by rw [hk' _ e]; exact ht, h2⟩
    · obtain ⟨x, hx, rfl⟩ := List.mem_map.mp hg'
      exact .inr ⟨s', hj', ho.mem_iff.mpr (List.mem_append_right _ hx)⟩
  · exact ⟨i.frees.1, fun x hx => (hho x).mpr (.inl (i.frees.2 x hx))⟩
  · refine ⟨(hperm.map _).nodup_iff.mpr (by rw [List.map_append]; exact hnew), fun x hx => ?_⟩
    rw [hm]
    rcases (hho x).mp hx with h1 | h1
    · exact i.ptrs.2 x h1
    · exact hblk x h1
  · rw [hm]; exact i.mallocs
  · have key : ∀ k t, held' k = some t → ∃ t', held k = some t' ∧ t.boxes = t'.boxes := by
      intro k t ht
      by_cases e : k = j
      · subst e
        rw [hj'] at ht; cases ht
        exact ⟨s, hj, hb⟩
      · rw [hk' k e] at ht
        exact ⟨t, ht, rfl⟩
    intro k k' t t' hkk ht ht' b hb'
    obtain ⟨u, hu, eu⟩ := key k t ht
    obtain ⟨u', hu', eu'⟩ := key k' t' ht'
    rw [eu'] ; rw [eu] at hb'
    exact i.boxes k k' u u' hkk hu hu' b hb'

/-- only marks of remaps, images' whereabouts or settings change in the books -/
theorem OInv.relabel {l : Ledger} {h : Heap} {held held' : ℕ → Option HSource} (i : OInv l h held) (l' : Ledger)
    (hl : l' = { l with status := l'.status, remapped := l'.remapped, alloc := l'.alloc })
    (hr : ∀ k, l.remapped k = true → l'.remapped k = true) (hh : ∀ k, held' k = held k) : OInv l' h held' := by
  have : held' = held := funext hh
  subst this
  have hmal : l'.mallocs = l.mallocs := by rw [hl]
  have hgiv : l'.given = l.given := by rw [hl]
  have hmaps : l'.maps = l.maps := by rw [hl]
  have hho : l'.handedOver = l.handedOver := by unfold Ledger.handedOver; rw [hgiv, hmaps]
  refine ⟨fun k t ht => ?_, ?_, ?_, ?_, ?_, ?_, ?_, i.boxes⟩
  · rcases i.shape k t ht with ⟨h1, h2⟩ | o
    · exact .inl ⟨h1, hr k h2⟩
    · refine .inr ?_
      unfold OriginShape PxShape at o ⊢
      rw [hl]; exact o
  · rw [hgiv]; exact i.owned
  · rw [hgiv]; exact i.given
  · rw [hmaps]; exact i.maps
  · rw [hho]; exact i.frees
  · rw [hho, hmal]; exact i.ptrs
  · rw [hmal]; exact i.mallocs

end Verif
