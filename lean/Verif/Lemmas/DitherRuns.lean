import Verif.Lemmas.DitherMap
import Verif.Lemmas.RemapExact
import Verif.Spec.DitherMap

/-! # The dither map follows the runs of equal indices (any float arithmetic) -/

set_option linter.unusedSectionVars false

namespace Verif
open Flt Spec

variable {F : Type} [Flt F]

namespace Image

/-- `neighborCount` counts the equal neighbours -/
theorem neighborCount_eq {prevRow nextRow : Option (List UInt8)} {w : ℕ} (v : UInt8) {s e : ℕ}
    (hp : ∀ r, prevRow = some r → r.length = w) (hn : ∀ r, nextRow = some r → r.length = w) (he : e ≤ w) (hse : s ≤ e) :
    neighborCount prevRow nextRow v s e = .ok (10 * (e - s) +
      15 * ((Finset.Ico s e).filter fun x => ∃ r, prevRow = some r ∧ r[x]? = some v).card +
      15 * ((Finset.Ico s e).filter fun x => ∃ r, nextRow = some r ∧ r[x]? = some v).card) := by
  classical
  have hat : ∀ (row : Option (List UInt8)), (∀ r, row = some r → r.length = w) → ∀ i < w,
      neighborAt row v i = .ok (if ∃ r, row = some r ∧ r[i]? = some v then 15 else 0) := by
    intro row hr i hi
    cases row with
    | none => simp [neighborAt]
    | some r =>
      have hl := hr r rfl
      unfold neighborAt
      simp only
      rw [index_of_lt (by omega)]
      have : (∃ r', some r = some r' ∧ r'[i]? = some v) ↔ r[i]'(by omega) = v := by
        constructor
        · rintro ⟨r', h, h'⟩
          cases h
          rw [List.getElem?_eq_getElem (by omega)] at h'
          simpa using h'
        · intro h
          exact ⟨r, rfl, by rw [List.getElem?_eq_getElem (by omega), h]⟩
      simp only [this, Except.map]
  unfold neighborCount
  obtain ⟨n, e1, e2⟩ := foldlM_range'_inv (f := fun n i => do
    let above ← neighborAt prevRow v i
    let below ← neighborAt nextRow v i
    return n + above + below) (fun k n => n = 10 * (e - s) +
      15 * ((Finset.Ico s k).filter fun x => ∃ r, prevRow = some r ∧ r[x]? = some v).card +
      15 * ((Finset.Ico s k).filter fun x => ∃ r, nextRow = some r ∧ r[x]? = some v).card) s (e - s) (10 * (e - s)) (by simp) (by
      intro i n h1 h2 hn'
      rw [hat prevRow hp i (by omega), hat nextRow hn i (by omega)]
      refine ⟨_, rfl, ?_⟩
      rw [hn', ← Finset.insert_Ico_right_eq_Ico_add_one h1, Finset.filter_insert, Finset.filter_insert]
      have hnot : ∀ p : ℕ → Prop, ∀ [DecidablePred p], i ∉ (Finset.Ico s i).filter p := by
        intro p _; simp
      split <;> split <;> (try rw [Finset.card_insert_of_notMem (hnot _)]) <;>
        (try rw [Finset.card_insert_of_notMem (hnot _)]) <;> omega)
  rw [e1, e2, show s + (e - s) = e by omega]

/-- weight of a run between the rows `prevRow` and `nextRow` -/
noncomputable def rowWeight (prevRow nextRow : Option (List UInt8)) (s : ℕ) (v : UInt8) (e : ℕ) : ℕ := by
  classical
  exact 10 * (e - s) + 15 * ((Finset.Ico s e).filter fun x => ∃ r, prevRow = some r ∧ r[x]? = some v).card +
    15 * ((Finset.Ico s e).filter fun x => ∃ r, nextRow = some r ∧ r[x]? = some v).card

/-- indices that are ignored: those of transparent colours, in front of a background -/
def Ignored (colors : PalF F) (ub : Bool) (c : ℕ) : Prop :=
  ub = true ∧ ∃ e, colors[c]? = some e ∧ lt e.color.a minOpaqueA = true

/-- a row of indices as numbers -/
def rowIndex (row : List UInt8) (x : ℕ) : ℕ := (row.getD x 0).toNat

/-- the value of the map in column `x`, given the runs -/
def RowAt (F : Type) [Flt F] (w : ℕ) (prevRow nextRow : Option (List UInt8)) (this : List UInt8) (ignored : ℕ → Prop) (edges : List UInt8)
    (x : ℕ) (value : Option UInt8) : Prop :=
  ∃ (s : ℕ) (v : UInt8), RunStart w (rowIndex this) ignored s v.toNat ∧ s ≤ x ∧
    ((∃ e, RunEnd w (rowIndex this) ignored s v.toNat e ∧ x ≤ e ∧
        value = edges[x]?.map fun g => ditherEdge F g (rowWeight prevRow nextRow s v e)) ∨
     (∀ e, ¬ RunEnd w (rowIndex this) ignored s v.toNat e) ∧ value = edges[x]?)

/-- invariant of the loop over the columns: those up to `k` have been visited -/
structure RowInv (colors : PalF F) (ub : Bool) (w : ℕ) (prevRow nextRow : Option (List UInt8)) (this edges : List UInt8)
    (k : ℕ) (st : UInt8 × ℕ × List UInt8) : Prop where
  start : RunStart w (rowIndex this) (Ignored colors ub) st.2.1 st.1.toNat
  le : st.2.1 ≤ k + 1
  length : st.2.2.length = w
  pending : ∀ d, st.2.1 ≤ d → 1 ≤ d → d ≤ k →
    Ignored colors ub (rowIndex this d) ∨ rowIndex this d = st.1.toNat ∧ d + 1 ≠ w
  done : ∀ x < st.2.1, x < w → RowAt F w prevRow nextRow this (Ignored colors ub) edges x st.2.2[x]?
  rest : ∀ x, st.2.1 ≤ x → st.2.2[x]? = edges[x]?

theorem ditherMapStep_inv {colors : PalF F} {ub : Bool} {w : ℕ} {prevRow nextRow : Option (List UInt8)}
    {this edges : List UInt8} {st : UInt8 × ℕ × List UInt8} {k : ℕ} {px : UInt8}
    (hp : ∀ r, prevRow = some r → r.length = w) (hn : ∀ r, nextRow = some r → r.length = w)
    (ht : this.length = w) (hx : this[k + 1]? = some px) (hpx : px.toNat < colors.length)
    (h : RowInv colors ub w prevRow nextRow this edges k st) :
    ∃ st', ditherMapStep colors ub w prevRow nextRow st (px, k + 1) = .ok st' ∧
      RowInv colors ub w prevRow nextRow this edges (k + 1) st' := by
  have hk : k + 1 < w := by
    have := (List.getElem?_eq_some_iff.mp hx).1
    omega
  have hrow : rowIndex this (k + 1) = px.toNat := by
    unfold rowIndex
    rw [List.getD_eq_getElem?_getD, hx]; rfl
  obtain ⟨v, s, E⟩ := st
  obtain ⟨h1, h2, h3, h4, h5, h6⟩ := h
  simp only at h1 h2 h3 h4 h5 h6
  have key : ∀ b : Bool, (b = true ↔ Ignored colors ub px.toNat) →
      ∃ st', (if b = true then pure (v, s, E)
      else if px ≠ v ∨ k + 1 = w - 1 then do
        let count ← neighborCount prevRow nextRow v s (k + 1)
        let edges ← (List.range' s (k + 1 + 1 - s)).foldlM (fun edges i => do
          store edges i (ditherEdge F (← index edges i) count)) E
        pure (px, max s (k + 1 + 1), edges)
      else pure (v, s, E) : Res (UInt8 × ℕ × List UInt8)) = .ok st' ∧
        RowInv colors ub w prevRow nextRow this edges (k + 1) st' := by
    intro b hb
    split
    next hbt =>
      refine ⟨_, rfl, h1, by simp only; omega, h3, ?_, h5, h6⟩
      intro d hd1 hd2 hd3
      by_cases hd : d = k + 1
      · subst hd
        rw [hrow]
        exact .inl (hb.mp hbt)
      · exact h4 d hd1 hd2 (by omega)
    next hbf =>
      have hcnt : ¬ Ignored colors ub (rowIndex this (k + 1)) := by
        rw [hrow]; exact fun hi => hbf (hb.mpr hi)
      split
      next hc =>
        have hend : RunEnd w (rowIndex this) (Ignored colors ub) s v.toNat (k + 1) := by
          refine ⟨⟨h2, by omega, hk⟩, hcnt, ?_, ?_⟩
          · rw [hrow]
            rcases hc with hc | hc
            · left
              intro he
              exact hc (UInt8.toNat_inj.mp he)
            · right; omega
          · intro x hx1 hx2 hx3
            exact (h4 x hx1 hx2 (by omega)).imp id (·.1)
        rw [neighborCount_eq v hp hn (by omega) h2]
        simp only [bind, Except.bind]
        obtain ⟨E', e1, e2, e3⟩ := foldlM_range'_inv (f := fun edges i => do
            store edges i (ditherEdge F (← index edges i) (rowWeight prevRow nextRow s v (k + 1))))
            (fun j (es : List UInt8) => es.length = w ∧ ∀ x, es[x]? = if s ≤ x ∧ x < j then
              edges[x]?.map fun g => ditherEdge F g (rowWeight prevRow nextRow s v (k + 1)) else E[x]?)
            s (k + 1 + 1 - s) E ⟨h3, fun x => by rw [if_neg (by omega)]⟩ (by
          intro i es hi1 hi2 ⟨hl, hs⟩
          simp only [bind, Except.bind]
          rw [index_of_lt (show i < es.length by omega)]
          simp only
          rw [store_of_lt (by omega)]
          refine ⟨_, rfl, by simpa using hl, fun x => ?_⟩
          rw [getElem?_set_iff _ _ _ _ (by omega)]
          have hi := hs i
          rw [if_neg (by omega), h6 i hi1, List.getElem?_eq_getElem (by omega)] at hi
          by_cases hxi : x = i
          · subst hxi
            rw [if_pos rfl, if_pos (by omega), ← hi]
            rfl
          · rw [if_neg hxi, hs x]
            by_cases hxx : s ≤ x ∧ x < i
            · rw [if_pos hxx, if_pos (by omega)]
            · rw [if_neg hxx, if_neg (by omega)])
        simp only [bind, Except.bind, rowWeight] at e1
        rw [e1]
        refine ⟨_, rfl, ?_, ?_, e2, ?_, ?_, ?_⟩
        · simp only
          rw [max_eq_right (by omega), ← hrow]
          exact .next h1 hend
        · simp only; omega
        · intro d hd1 hd2 hd3
          simp only at hd1; omega
        · intro x hx hxw
          simp only at hx ⊢
          rw [e3 x]
          by_cases hxs : x < s
          · rw [if_neg (by omega)]
            exact h5 x hxs hxw
          · rw [if_pos (by omega)]
            exact ⟨s, v, h1, by omega, .inl ⟨k + 1, hend, by omega, rfl⟩⟩
        · intro x hx
          simp only at hx ⊢
          rw [e3 x, if_neg (by omega)]
          exact h6 x (by omega)
      next hc =>
        refine ⟨_, rfl, h1, by simp only; omega, h3, ?_, h5, h6⟩
        intro d hd1 hd2 hd3
        by_cases hd : d = k + 1
        · subst hd
          right
          rw [hrow]
          have : px = v := by
            by_contra hne
            exact hc (.inl hne)
          exact ⟨by rw [this], fun h => hc (.inr (by omega))⟩
        · exact h4 d hd1 hd2 (by omega)
  unfold ditherMapStep
  simp only
  cases ub
  · exact key false (by simp [Ignored])
  · simp only [if_true]
    rw [index_of_lt hpx]
    refine key _ ?_
    unfold Ignored
    simp [List.getElem?_eq_getElem hpx]

/-- one row of the dither map -/
theorem ditherMapRow_at {colors : PalF F} {ub : Bool} {w : ℕ} {prevRow nextRow : Option (List UInt8)}
    {this edges : List UInt8} (hp : ∀ r, prevRow = some r → r.length = w) (hn : ∀ r, nextRow = some r → r.length = w)
    (ht : this.length = w) (hb : ∀ b ∈ this, b.toNat < colors.length) (he : edges.length = w) (hw : 0 < w) :
    ∃ e, ditherMapRow colors ub w prevRow this nextRow edges = .ok e ∧ e.length = w ∧
      ∀ x < w, RowAt F w prevRow nextRow this (Ignored colors ub) edges x e[x]? := by
  unfold ditherMapRow
  rw [index_of_lt (show 0 < this.length by omega)]
  simp only [bind, Except.bind]
  obtain ⟨st, e, inv⟩ := foldlM_inv (f := ditherMapStep colors ub w prevRow nextRow)
    (fun k st => RowInv colors ub w prevRow nextRow this edges k st) (this.zipIdx.drop 1) (this[0], 0, edges)
    ⟨by
      have : this[0].toNat = rowIndex this 0 := by
        unfold rowIndex
        rw [List.getD_eq_getElem?_getD, List.getElem?_eq_getElem (by omega)]; rfl
      simp only
      rw [this]
      exact .first, by simp, he, fun d _ h1 h2 => by omega, fun x hx => by simp at hx, fun x _ => rfl⟩ (by
      intro k x s hx hs
      obtain ⟨px, col⟩ := x
      rw [List.getElem?_drop, List.getElem?_zipIdx] at hx
      rw [Nat.add_comm 1 k] at hx
      cases hk : this[k + 1]? with
      | none => rw [hk] at hx; cases hx
      | some q =>
        rw [hk] at hx
        simp only [Option.map_some, Option.some.injEq, Prod.mk.injEq] at hx
        obtain ⟨rfl, rfl⟩ := hx
        rw [Nat.zero_add]
        exact ditherMapStep_inv hp hn ht hk (hb _ (List.mem_of_getElem? hk)) hs)
  rw [e]
  refine ⟨_, rfl, inv.length, fun x hx => ?_⟩
  have hlen : (this.zipIdx.drop 1).length = w - 1 := by simp [ht]
  rw [hlen] at inv
  by_cases hlt : x < st.2.1
  · exact inv.done x hlt hx
  · refine ⟨st.2.1, st.1, inv.start, by omega, .inr ⟨fun e he => ?_, inv.rest x (by omega)⟩⟩
    obtain ⟨⟨i1, i2, i3⟩, hc, hl, hf⟩ := he
    rcases inv.pending e i1 i2 (by omega) with h | ⟨h, h'⟩
    · exact hc h
    · rcases hl with hl | hl
      · exact hl h
      · exact h' hl

theorem ditherMapRows_at {colors : PalF F} {ub : Bool} {w : ℕ} (hw : 0 < w)
    (rows : List (List UInt8 × List UInt8)) (prevRow : Option (List UInt8))
    (hp : ∀ r, prevRow = some r → r.length = w)
    (hr : ∀ x ∈ rows, x.1.length = w ∧ x.2.length = w ∧ ∀ b ∈ x.1, b.toNat < colors.length) :
    ∃ out, ditherMapRows colors ub w prevRow rows = .ok out ∧ out.length = rows.length ∧ (∀ r ∈ out, r.length = w) ∧
      ∀ y this e, rows[y]? = some (this, e) → ∃ o, out[y]? = some o ∧
        ∀ x < w, RowAt F w (if y = 0 then prevRow else rows[y - 1]?.map (·.1)) (rows[y + 1]?.map (·.1)) this
          (Ignored colors ub) e x o[x]? := by
  induction rows generalizing prevRow with
  | nil => exact ⟨[], rfl, rfl, (fun r h => by cases h), (fun y this e h => by cases h)⟩
  | cons x rest ih =>
    obtain ⟨this, e⟩ := x
    obtain ⟨h1, h2, h3⟩ := hr (this, e) (by simp)
    have hn : ∀ r, rest.head?.map (·.1) = some r → r.length = w := by
      intro r hh
      cases rest with
      | nil => simp at hh
      | cons y ys =>
        simp only [List.head?_cons, Option.map_some, Option.some.injEq] at hh
        subst hh
        exact (hr y (by simp)).1
    obtain ⟨e', he, le', hat⟩ := ditherMapRow_at (ub := ub) hp hn h1 h3 h2 hw
    obtain ⟨out, ho, lo, ro, hrest⟩ := ih (some this) (fun r hr' => by cases hr'; exact h1) (fun y hy => hr y (by simp [hy]))
    unfold ditherMapRows
    simp only [bind, Except.bind]
    rw [he]
    simp only
    rw [ho]
    refine ⟨_, rfl, by simp [lo], ?_, ?_⟩
    · intro r hr'
      rcases List.mem_cons.mp hr' with rfl | h
      · exact le'
      · exact ro r h
    · intro y t g hy
      cases y with
      | zero =>
        simp only [List.getElem?_cons_zero, Option.some.injEq, Prod.mk.injEq] at hy
        obtain ⟨rfl, rfl⟩ := hy
        refine ⟨e', rfl, fun x hx => ?_⟩
        have := hat x hx
        rw [List.head?_eq_getElem?] at this
        exact this
      | succ y =>
        obtain ⟨o, o1, o2⟩ := hrest y t g (by simpa using hy)
        refine ⟨o, by simpa using o1, fun x hx => ?_⟩
        have := o2 x hx
        cases y with
        | zero => exact this
        | succ y => exact this

/-- the palette index of a pixel -/
def indexAt (rows : List (List UInt8)) (y x : ℕ) : ℕ := ((rows.getD y []).getD x 0).toNat

/-- the byte of a map for a pixel -/
def mapAt (w : ℕ) (m : List UInt8) (y x : ℕ) : ℕ := (m.getD (y * w + x) 0).toNat

theorem chunk_getElem? {α : Type} {w : ℕ} {l : List α} {y x : ℕ} (hx : x < w) {c : List α}
    (hc : (chunksExact w l)[y]? = some c) : c[x]? = l[y * w + x]? := by
  unfold chunksExact at hc
  rw [List.getElem?_map] at hc
  have hy : y < l.length / w := by
    by_contra hy
    rw [List.getElem?_eq_none (by simpa using hy)] at hc
    cases hc
  rw [List.getElem?_range hy] at hc
  simp only [Option.map_some, Option.some.injEq] at hc
  rw [← hc, List.getElem?_take_of_lt hx, List.getElem?_drop]

theorem rowWeight_eq {rows : List (List UInt8)} {w h : ℕ} (hl : rows.length = h) (hr : ∀ r ∈ rows, r.length = w)
    {y s : ℕ} {v : UInt8} {e : ℕ} (hy : y < h) (he : e ≤ w) :
    rowWeight (if y = 0 then none else rows[y - 1]?) rows[y + 1]? s v e = runWeight h (indexAt rows) y s v.toNat e := by
  classical
  have key : ∀ (z x : ℕ), z < h → x < w → ((∃ r, rows[z]? = some r ∧ r[x]? = some v) ↔ indexAt rows z x = v.toNat) := by
    intro z x hz hx
    have h1 : rows[z]? = some rows[z] := List.getElem?_eq_getElem (by omega)
    have h2 : rows[z][x]? = some (rows[z][x]'(by rw [hr _ (List.getElem_mem _)]; exact hx)) :=
      List.getElem?_eq_getElem (by rw [hr _ (List.getElem_mem _)]; exact hx)
    unfold indexAt
    rw [h1, List.getD_eq_getElem?_getD (l := rows), h1, Option.getD_some, List.getD_eq_getElem?_getD, h2, Option.getD_some, UInt8.toNat_inj]
    constructor
    · rintro ⟨r, hr1, hr2⟩
      cases hr1
      rw [h2] at hr2
      exact Option.some.inj hr2
    · intro hv
      exact ⟨_, rfl, by rw [h2, hv]⟩
  unfold rowWeight runWeight
  congr 1
  · congr 2
    apply congrArg Finset.card
    apply Finset.filter_congr
    intro x hx
    rw [Finset.mem_Ico] at hx
    by_cases h0 : y = 0
    · subst h0
      simp
    · rw [if_neg h0, key (y - 1) x (by omega) (by omega)]
      exact ⟨fun h => ⟨by omega, h⟩, fun h => h.2⟩
  · congr 1
    apply congrArg Finset.card
    apply Finset.filter_congr
    intro x hx
    rw [Finset.mem_Ico] at hx
    by_cases h0 : y + 1 < h
    · rw [key (y + 1) x h0 (by omega)]
      exact ⟨fun h => ⟨h0, h⟩, fun h => h.2⟩
    · rw [List.getElem?_eq_none (by omega)]
      simp [h0]

/-- the dither map, given the map of edges -/
theorem updateDitherMap_at {img img1 img' : Image F} (hg : img1.Good) {remapped : List (List UInt8)} {palette : PalF F}
    {ub : Bool} {edges : List UInt8} (hwe : img.withEdges = .ok img1) (hed : img1.edges = some edges)
    (hl : remapped.length = img1.height) (hr : ∀ r ∈ remapped, r.length = img1.width ∧ ∀ b ∈ r, b.toNat < palette.length)
    (hu : img.updateDitherMap remapped palette ub = .ok img') :
    ∃ m, img'.ditherMap = some m ∧ img'.edges = none ∧ ∀ y < img1.height, ∀ x < img1.width,
      DitherMapAt (fun e n => (ditherEdge F (UInt8.ofNat e) n).toNat) img1.width img1.height (indexAt remapped)
        (Ignored palette ub) (mapAt img1.width edges) y x (mapAt img1.width m y x) := by
  have hel := hg.edges edges hed
  obtain ⟨c1, c2, c3⟩ := chunksExact_rows hg.width_pos edges hel
  obtain ⟨out, eo, lo, ro, hat⟩ := ditherMapRows_at (colors := palette) (ub := ub) hg.width_pos
    (remapped.zip (chunksExact img1.width edges)) none (fun r h => by cases h) (by
      rintro ⟨a, b⟩ hx
      obtain ⟨h1, h2⟩ := List.of_mem_zip hx
      obtain ⟨h3, h4⟩ := hr a h1
      exact ⟨h3, c2 b h2, h4⟩)
  unfold updateDitherMap at hu
  rw [hwe] at hu
  simp only [bind, Except.bind, hed] at hu
  rw [eo] at hu
  simp only [pure, Except.pure, Except.ok.injEq] at hu
  subst hu
  refine ⟨_, rfl, rfl, fun y hy x hx => ?_⟩
  have hz : ∀ j < img1.height, (remapped.zip (chunksExact img1.width edges))[j]? =
      some ((remapped[j]?).getD [], ((chunksExact img1.width edges)[j]?).getD []) := by
    intro j hj
    have h1 : remapped[j]? = some (remapped[j]'(by omega)) := List.getElem?_eq_getElem (by omega)
    have h2 : (chunksExact img1.width edges)[j]? = some ((chunksExact img1.width edges)[j]'(by omega)) :=
      List.getElem?_eq_getElem (by omega)
    rw [List.getElem?_zip_eq_some (z := (remapped[j]'(by omega), (chunksExact img1.width edges)[j]'(by omega))) |>.mpr ⟨h1, h2⟩,
      h1, h2]
    rfl
  have hlz : (remapped.zip (chunksExact img1.width edges)).length = img1.height := by
    rw [List.length_zip, hl, c1]; omega
  obtain ⟨o, o1, o2⟩ := hat y _ _ (hz y hy)
  have hval := o2 x hx
  have ho : o.length = img1.width := ro o (List.mem_of_getElem? o1)
  have hm : mapAt img1.width (out.flatten ++ edges.drop ((remapped.zip (chunksExact img1.width edges)).length * img1.width)) y x =
      (o[x]'(by omega)).toNat := by
    unfold mapAt
    have hf := flatten_getElem? ro o1 hx
    rw [List.getElem?_eq_getElem (show x < o.length by omega)] at hf
    rw [List.getD_eq_getElem?_getD, List.getElem?_append_left (List.getElem?_eq_some_iff.mp hf).1, hf]
    rfl
  rw [hm]
  have hprev : (if y = 0 then none else (remapped.zip (chunksExact img1.width edges))[y - 1]?.map (·.1)) =
      if y = 0 then none else remapped[y - 1]? := by
    by_cases h0 : y = 0
    · simp [h0]
    · rw [if_neg h0, if_neg h0, hz (y - 1) (by omega), Option.map_some, List.getElem?_eq_getElem (by omega)]
      rfl
  have hnext : (remapped.zip (chunksExact img1.width edges))[y + 1]?.map (·.1) = remapped[y + 1]? := by
    by_cases h0 : y + 1 < img1.height
    · rw [hz (y + 1) h0, Option.map_some, List.getElem?_eq_getElem (by omega)]
      rfl
    · rw [List.getElem?_eq_none (by omega), List.getElem?_eq_none (by omega)]
      rfl
  rw [hprev, hnext] at hval
  have hrow : rowIndex ((remapped[y]?).getD []) = indexAt remapped y := by
    funext x
    unfold rowIndex indexAt
    rw [List.getD_eq_getElem?_getD (l := remapped)]
  have hedge : (((chunksExact img1.width edges)[y]?).getD [])[x]? = edges[y * img1.width + x]? := by
    refine chunk_getElem? hx ?_
    rw [List.getElem?_eq_getElem (by omega)]
    rfl
  have hin : y * img1.width + x < edges.length := by
    rw [hel]
    calc y * img1.width + x < (y + 1) * img1.width := by rw [Nat.succ_mul]; omega
      _ ≤ img1.height * img1.width := Nat.mul_le_mul_right _ hy
      _ = _ := Nat.mul_comm _ _
  have hmap : mapAt img1.width edges y x = (edges[y * img1.width + x]'hin).toNat := by
    unfold mapAt
    rw [List.getD_eq_getElem?_getD, List.getElem?_eq_getElem hin]
    rfl
  unfold RowAt at hval
  rw [hrow, hedge, List.getElem?_eq_getElem (show x < o.length by omega), List.getElem?_eq_getElem hin] at hval
  obtain ⟨s, v, h1, h2, h3⟩ := hval
  refine ⟨s, v.toNat, h1, h2, ?_⟩
  rcases h3 with ⟨e, he, hxe, hv⟩ | ⟨hne, hv⟩
  · left
    refine ⟨e, he, hxe, ?_⟩
    rw [rowWeight_eq hl (fun r h => (hr r h).1) hy (by have := he.inside; omega)] at hv
    rw [hmap]
    dsimp only
    rw [UInt8.ofNat_toNat]
    exact congrArg UInt8.toNat (Option.some.inj hv)
  · right
    refine ⟨hne, ?_⟩
    rw [hmap]
    exact congrArg UInt8.toNat (Option.some.inj hv)

end Image
end Verif
