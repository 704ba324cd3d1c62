import Verif.Lemmas.Contrast
import Verif.Lemmas.RemapPlain

/-! # The dither map: it is always made without failing (any float arithmetic) -/

set_option linter.unusedSectionVars false

namespace Verif
open Flt

variable {F : Type} [Flt F]

theorem chunksExact_rows {α : Type} {w h : ℕ} (hw : 0 < w) (l : List α) (hl : l.length = w * h) :
    (chunksExact w l).length = h ∧ (∀ r ∈ chunksExact w l, r.length = w) ∧ (chunksExact w l).flatten = l := by
  unfold chunksExact
  have hd : l.length / w = h := by rw [hl, Nat.mul_div_cancel_left _ hw]
  rw [hd]
  have key : ∀ (n : ℕ) (l : List α), l.length = w * n →
      ((List.range n).map fun i => (l.drop (i * w)).take w).flatten = l := by
    intro n
    induction n with
    | zero => intro l h; simp at h; simp [h]
    | succ n ih =>
      intro l h
      rw [List.range_succ_eq_map, List.map_cons, List.flatten_cons, List.map_map]
      have := ih (l.drop w) (by rw [List.length_drop, h, Nat.mul_succ]; omega)
      simp only [List.drop_drop] at this
      have heq : (List.range n).map ((fun i => (l.drop (i * w)).take w) ∘ Nat.succ) =
          (List.range n).map fun i => (l.drop (w + i * w)).take w := by
        refine List.map_congr_left fun i _ => ?_
        simp only [Function.comp, Nat.succ_eq_add_one, Nat.add_mul, Nat.one_mul]
        rw [Nat.add_comm]
      rw [heq, this]
      simp
  refine ⟨by simp, ?_, key h l hl⟩
  intro r hr
  obtain ⟨i, hi, rfl⟩ := List.mem_map.mp hr
  have hi := List.mem_range.mp hi
  have : (i + 1) * w ≤ h * w := Nat.mul_le_mul_right _ hi
  rw [Nat.add_mul] at this
  rw [List.length_take, List.length_drop, hl, Nat.mul_comm w h]
  omega

namespace Image

theorem neighborAt_ok {row : Option (List UInt8)} {w i : ℕ} (px : UInt8) (h : ∀ r, row = some r → r.length = w) (hi : i < w) :
    ∃ n, neighborAt row px i = .ok n := by
  cases row with
  | none => exact ⟨_, rfl⟩
  | some r =>
    unfold neighborAt
    simp only
    rw [index_of_lt (by rw [h r rfl]; exact hi)]
    exact ⟨_, rfl⟩

theorem neighborCount_ok {prevRow nextRow : Option (List UInt8)} {w : ℕ} (lastpixel : UInt8) {lastcol col : ℕ}
    (hp : ∀ r, prevRow = some r → r.length = w) (hn : ∀ r, nextRow = some r → r.length = w) (hc : col ≤ w) :
    ∃ n, neighborCount prevRow nextRow lastpixel lastcol col = .ok n := by
  unfold neighborCount
  obtain ⟨n, e, _⟩ := foldlM_range'_inv (f := fun n i => do
    let above ← neighborAt prevRow lastpixel i
    let below ← neighborAt nextRow lastpixel i
    return n + above + below) (fun _ (_ : ℕ) => True) lastcol (col - lastcol) (10 * (col - lastcol)) trivial (by
      intro i s h1 h2 _
      obtain ⟨a, ha⟩ := neighborAt_ok lastpixel hp (show i < w by omega)
      obtain ⟨b, hb⟩ := neighborAt_ok lastpixel hn (show i < w by omega)
      rw [ha, hb]
      exact ⟨_, rfl, trivial⟩)
  exact ⟨n, e⟩

theorem ditherMapStep_ok {colors : PalF F} {ub : Bool} {w : ℕ} {prevRow nextRow : Option (List UInt8)}
    {st : UInt8 × ℕ × List UInt8} {px : UInt8} {col : ℕ}
    (hp : ∀ r, prevRow = some r → r.length = w) (hn : ∀ r, nextRow = some r → r.length = w)
    (hpx : px.toNat < colors.length) (hcol : col < w) (hst : st.2.2.length = w) :
    ∃ st', ditherMapStep colors ub w prevRow nextRow st (px, col) = .ok st' ∧ st'.2.2.length = w := by
  obtain ⟨lastpixel, lastcol, edges⟩ := st
  simp only at hst
  have key : ∀ b : Bool, ∃ st', (if b = true then pure (lastpixel, lastcol, edges)
      else if px ≠ lastpixel ∨ col = w - 1 then do
        let count ← neighborCount prevRow nextRow lastpixel lastcol col
        let edges ← (List.range' lastcol (col + 1 - lastcol)).foldlM (fun edges i => do
          store edges i (ditherEdge F (← index edges i) count)) edges
        pure (px, max lastcol (col + 1), edges)
      else pure (lastpixel, lastcol, edges) : Res (UInt8 × ℕ × List UInt8)) = .ok st' ∧ st'.2.2.length = w := by
    intro b
    split
    · exact ⟨_, rfl, hst⟩
    · split
      · obtain ⟨c, hc⟩ := neighborCount_ok lastpixel (lastcol := lastcol) hp hn (le_of_lt hcol)
        rw [hc]
        simp only [bind, Except.bind]
        obtain ⟨es, e, l⟩ := foldlM_range'_inv (f := fun edges i => do
            store edges i (ditherEdge F (← index edges i) c)) (fun _ (es : List UInt8) => es.length = w)
            lastcol (col + 1 - lastcol) edges hst (by
          intro i s h1 h2 hs
          simp only [bind, Except.bind]
          rw [index_of_lt (show i < s.length by omega)]
          simp only
          rw [store_of_lt (by omega)]
          exact ⟨_, rfl, by simpa using hs⟩)
        simp only [bind, Except.bind] at e
        rw [e]
        exact ⟨_, rfl, l⟩
      · exact ⟨_, rfl, hst⟩
  unfold ditherMapStep
  simp only
  cases ub
  · exact key false
  · simp only [if_true]
    rw [index_of_lt hpx]
    exact key _

theorem ditherMapRow_ok {colors : PalF F} {ub : Bool} {w : ℕ} {prevRow nextRow : Option (List UInt8)}
    {this edges : List UInt8} (hp : ∀ r, prevRow = some r → r.length = w) (hn : ∀ r, nextRow = some r → r.length = w)
    (ht : this.length = w) (hb : ∀ b ∈ this, b.toNat < colors.length) (he : edges.length = w) (hw : 0 < w) :
    ∃ e, ditherMapRow colors ub w prevRow this nextRow edges = .ok e ∧ e.length = w := by
  unfold ditherMapRow
  rw [index_of_lt (show 0 < this.length by omega)]
  simp only [bind, Except.bind]
  obtain ⟨st, e, l⟩ := foldlM_inv (f := ditherMapStep colors ub w prevRow nextRow)
    (fun _ st => st.2.2.length = w) (this.zipIdx.drop 1) (this[0], 0, edges) he (by
      intro k x s hx hs
      have hm : x ∈ this.zipIdx := List.mem_of_mem_drop (List.mem_of_getElem? hx)
      obtain ⟨px, col⟩ := x
      obtain ⟨_, hl, hpx⟩ := List.mem_zipIdx hm
      refine ditherMapStep_ok hp hn ?_ (by omega) hs
      rw [hpx]
      exact hb _ (List.getElem_mem _))
  rw [e]
  exact ⟨_, rfl, l⟩

theorem ditherMapRows_ok {colors : PalF F} {ub : Bool} {w : ℕ} (hw : 0 < w)
    (rows : List (List UInt8 × List UInt8)) (prevRow : Option (List UInt8))
    (hp : ∀ r, prevRow = some r → r.length = w)
    (hr : ∀ x ∈ rows, x.1.length = w ∧ x.2.length = w ∧ ∀ b ∈ x.1, b.toNat < colors.length) :
    ∃ out, ditherMapRows colors ub w prevRow rows = .ok out ∧ out.length = rows.length ∧ ∀ r ∈ out, r.length = w := by
  induction rows generalizing prevRow with
  | nil => exact ⟨[], rfl, rfl, fun r h => by cases h⟩
  | cons x rest ih =>
    obtain ⟨this, e⟩ := x
    obtain ⟨h1, h2, h3⟩ := hr (this, e) (by simp)
    have hn : ∀ r, rest.head?.map (·.1) = some r → r.length = w := by
      intro r hh
      cases rest with
      | nil => simp at hh
      | cons y ys =>
        simp only [List.head?_cons, Option.map_some, Option.some.injEq] at hh
        subst hh
        exact (hr y (by simp)).1
    obtain ⟨e', he, le'⟩ := ditherMapRow_ok (ub := ub) hp hn h1 h3 h2 hw
    obtain ⟨out, ho, lo, ro⟩ := ih (some this) (fun r hr' => by cases hr'; exact h1) (fun y hy => hr y (by simp [hy]))
    unfold ditherMapRows
    simp only [bind, Except.bind]
    rw [he]
    simp only
    rw [ho]
    refine ⟨_, rfl, by simp [lo], ?_⟩
    intro r hr'
    rcases List.mem_cons.mp hr' with rfl | h
    · exact le'
    · exact ro r h

/-- a map made from noise values: no byte is below a lower bound of the noise values -/
def Noisy (F : Type) [Flt F] (m : List UInt8) : Prop :=
  ∀ lo, (∀ a b c d e : FPixel F, lo ≤ (noisePixel a b c d e).1.toNat) → ∀ v ∈ m, lo ≤ v.toNat

/-- what happens to the maps when the dither map is made -/
def MapsAfterDither (img img' : Image F) : Prop :=
  -- nothing is done for images without an edge map that are too small or too large for one
  (img.edges = none ∧ skipsContrastMaps img.width img.height = true ∧ img'.importanceMap = img.importanceMap ∧
    img'.edges = none ∧ img'.ditherMap = img.ditherMap) ∨
  -- the edge map becomes the dither map
  (img.edges.isSome ∧ img'.importanceMap = img.importanceMap ∧ img'.edges = none ∧ img'.ditherMap.isSome) ∨
  -- both contrast maps are computed, replacing the importance map
  (img.edges = none ∧ skipsContrastMaps img.width img.height = false ∧
    (∃ m, img'.importanceMap = some m ∧ Noisy F m) ∧ img'.edges = none ∧ img'.ditherMap.isSome)

theorem updateDitherMap_ok {img : Image F} (hg : img.Good) {remapped : List (List UInt8)} {palette : PalF F} (ub : Bool)
    (hl : remapped.length = img.height) (hr : ∀ r ∈ remapped, r.length = img.width ∧ ∀ b ∈ r, b.toNat < palette.length) :
    ∃ img', img.updateDitherMap remapped palette ub = .ok img' ∧ img'.Good ∧ Rows.Same img.px img'.px ∧
      img'.background = img.background ∧ img'.fixedColors = img.fixedColors ∧ MapsAfterDither img img' := by
  have h1 : ∃ img1, img.withEdges = .ok img1 ∧ img1.Good ∧
      Rows.Same img.px img1.px ∧ img1.background = img.background ∧ img1.fixedColors = img.fixedColors ∧
      ((img.edges = none ∧ skipsContrastMaps img.width img.height = true ∧ img1 = img) ∨
       (img.edges.isSome ∧ img1 = img) ∨
       (img.edges = none ∧ skipsContrastMaps img.width img.height = false ∧ img1.edges.isSome ∧
        ∃ m, img1.importanceMap = some m ∧ Noisy F m)) := by
    unfold withEdges
    by_cases he : img.edges.isNone = true
    · rw [if_pos he]
      have he' : img.edges = none := by simpa using he
      obtain ⟨img1, e, g, same, _, hbg, hfx, _, hc⟩ := contrastMaps_ok hg
      refine ⟨img1, e, g, same, hbg, hfx, ?_⟩
      rcases hc with ⟨a, b⟩ | ⟨a, m, e, hm, hee, hno⟩
      · exact .inl ⟨he', a, b⟩
      · exact .inr (.inr ⟨he', a, by simp [hee], m, hm, hno⟩)
    · rw [if_neg he]
      exact ⟨img, rfl, hg, Rows.Same.refl _, rfl, rfl, .inr (.inl ⟨by simpa [Option.isSome_iff_ne_none] using he, rfl⟩)⟩
  obtain ⟨img1, e1, g1, same, hbg, hfx, hc⟩ := h1
  unfold updateDitherMap
  rw [e1]
  simp only [bind, Except.bind]
  have hw1 : img1.width = img.width := same.width
  have hh1 : img1.height = img.height := same.height
  cases hed : img1.edges with
  | none =>
    simp only [pure, Except.pure]
    refine ⟨img1, rfl, g1, same, hbg, hfx, ?_⟩
    rcases hc with ⟨a, b, rfl⟩ | ⟨a, rfl⟩ | ⟨_, _, a, _⟩
    · exact .inl ⟨a, b, rfl, a, rfl⟩
    · rw [hed] at a; cases a
    · rw [hed] at a; cases a
  | some edges =>
    have hel := g1.edges edges hed
    obtain ⟨c1, c2, c3⟩ := chunksExact_rows g1.width_pos edges hel
    obtain ⟨out, eo, lo, ro⟩ := ditherMapRows_ok (colors := palette) (ub := ub) g1.width_pos
      (remapped.zip (chunksExact img1.width edges)) none (fun r h => by cases h) (by
        rintro ⟨a, b⟩ hx
        obtain ⟨h1, h2⟩ := List.of_mem_zip hx
        obtain ⟨h3, h4⟩ := hr a h1
        exact ⟨by rw [hw1]; exact h3, c2 b h2, h4⟩)
    have hz : (remapped.zip (chunksExact img1.width edges)).length = img1.height := by
      rw [List.length_zip, hl, c1, hh1]; omega
    simp only
    rw [eo]
    simp only [pure, Except.pure]
    have hflat : out.flatten.length = img1.width * img1.height := by
      have : ∀ (n : ℕ) (l : List (List UInt8)), (∀ r ∈ l, r.length = n) → l.flatten.length = n * l.length := by
        intro n l
        induction l with
        | nil => simp
        | cons x xs ih =>
          intro h
          rw [List.flatten_cons, List.length_append, h x (by simp), ih fun r hr => h r (by simp [hr])]
          simp [Nat.mul_succ]; omega
      rw [this img1.width out ro, lo, hz]
    refine ⟨_, rfl, ⟨g1.px, g1.width_pos, g1.height_pos, g1.importance, ?_, ?_, g1.background⟩, same, hbg, hfx, ?_⟩
    · intro m hm; cases hm
    · intro m hm
      cases hm
      show _ = img1.width * img1.height
      rw [List.length_append, hflat, List.length_drop, hz, hel, Nat.mul_comm img1.height]; omega
    · rcases hc with ⟨a, b, rfl⟩ | ⟨a, rfl⟩ | ⟨a, b, _, c⟩
      · rw [hed] at a; cases a
      · exact .inr (.inl ⟨a, rfl, rfl, rfl⟩)
      · exact .inr (.inr ⟨a, b, c, rfl, rfl⟩)

end Image
end Verif
