import Verif.Model.Image

/-! # Rows: reading, caching and freeing keep the pixels -/

set_option linter.unusedSectionVars false

namespace Verif
open Flt

variable {F : Type} [Flt F]

theorem index_ok {α : Type} {l : List α} {i : ℕ} {x : α} : index l i = .ok x ↔ l[i]? = some x := by
  unfold index
  cases h : l[i]? with
  | none => simp
  | some y => simp

theorem index_of_lt {α : Type} {l : List α} {i : ℕ} (h : i < l.length) : index l i = .ok l[i] := by
  rw [index_ok]; exact List.getElem?_eq_getElem h

theorem index_getD {α : Type} {l : List α} {i : ℕ} (h : i < l.length) (d : α) : index l i = .ok (l.getD i d) := by
  rw [index_ok]; simp [List.getD, List.getElem?_eq_getElem h]

theorem store_of_lt {α : Type} {l : List α} {i : ℕ} (h : i < l.length) (v : α) : store l i v = .ok (l.set i v) := by
  unfold store; rw [if_pos h]

theorem slice_of_le {α : Type} {l : List α} {s n : ℕ} (h : s + n ≤ l.length) : slice l s n = .ok ((l.drop s).take n) := by
  unfold slice; rw [if_pos h]

/-- `mapM` of steps that all succeed -/
theorem mapM_ok {α β : Type} (f : α → Res β) (g : α → β) (l : List α) (h : ∀ x ∈ l, f x = .ok (g x)) :
    l.mapM f = .ok (l.map g) := by
  induction l with
  | nil => rfl
  | cons x xs ih =>
    rw [List.mapM_cons, h x (List.mem_cons_self ..), ih fun y hy => h y (List.mem_cons_of_mem _ hy)]
    rfl

/-- a successful `mapM`, element by element -/
theorem mapM_get {α β : Type} {f : α → Res β} {l : List α} {l' : List β} (h : l.mapM f = .ok l') :
    l'.length = l.length ∧ ∀ (i : ℕ) (x : α), l[i]? = some x → ∃ y, l'[i]? = some y ∧ f x = .ok y := by
  induction l generalizing l' with
  | nil =>
    have : l' = [] := by cases h; rfl
    subst this; exact ⟨rfl, fun i x hx => by simp at hx⟩
  | cons x xs ih =>
    rw [List.mapM_cons] at h
    cases hx : f x with
    | error e => rw [hx] at h; cases h
    | ok y =>
      rw [hx] at h
      cases hxs : xs.mapM f with
      | error e => rw [hxs] at h; cases h
      | ok ys =>
        rw [hxs] at h
        have : l' = y :: ys := by cases h; rfl
        subst this
        obtain ⟨hl, hi⟩ := ih hxs
        refine ⟨by simp [hl], ?_⟩
        intro i z hz
        cases i with
        | zero => simp only [List.getElem?_cons_zero, Option.some.injEq] at hz ⊢; subst hz; exact ⟨y, rfl, hx⟩
        | succ i => simp only [List.getElem?_cons_succ] at hz ⊢; exact hi i z hz

theorem mapM_range_get {β : Type} {f : ℕ → Res β} {n : ℕ} {l' : List β} (h : (List.range n).mapM f = .ok l') :
    l'.length = n ∧ ∀ i < n, ∃ y, l'[i]? = some y ∧ f i = .ok y := by
  obtain ⟨h1, h2⟩ := mapM_get h
  rw [List.length_range] at h1
  refine ⟨h1, fun i hi => h2 i i ?_⟩
  rw [List.getElem?_range hi]

namespace Rows

/-- the pixels of row `y` (empty if it cannot be read) -/
def pixelsF (r : Rows F) (y : ℕ) : List (FPixel F) :=
  match r.rowF y with
  | .ok row => row
  | .error _ => []

/-- Every row of the image can be read and has `width` pixels. -/
def Readable (r : Rows F) : Prop := ∀ y < r.height, ∃ row, r.rowF y = .ok row ∧ row.length = r.width

theorem Readable.rowF {r : Rows F} (h : r.Readable) {y : ℕ} (hy : y < r.height) :
    r.rowF y = .ok (r.pixelsF y) ∧ (r.pixelsF y).length = r.width := by
  obtain ⟨row, h1, h2⟩ := h y hy
  simp [pixelsF, h1, h2]

/-- the same pixels in every row (where they are read from may differ) -/
structure Same (r r' : Rows F) : Prop where
  width : r'.width = r.width
  height : r'.height = r.height
  gamma : r'.gamma = r.gamma
  rowF : ∀ y < r.height, r'.rowF y = r.rowF y

theorem Same.refl (r : Rows F) : Same r r := ⟨rfl, rfl, rfl, fun _ _ => rfl⟩

theorem Same.trans {a b c : Rows F} (h : Same a b) (k : Same b c) : Same a c :=
  ⟨k.width.trans h.width, k.height.trans h.height, k.gamma.trans h.gamma,
   fun y hy => (k.rowF y (h.height ▸ hy)).trans (h.rowF y hy)⟩

theorem Same.readable {r r' : Rows F} (h : Same r r') (hr : r.Readable) : r'.Readable := by
  intro y hy
  rw [h.height] at hy
  obtain ⟨row, h1, h2⟩ := hr y hy
  exact ⟨row, (h.rowF y hy).trans h1, h2.trans h.width.symm⟩

theorem Same.pixelsF {r r' : Rows F} (h : Same r r') {y : ℕ} (hy : y < r.height) : r'.pixelsF y = r.pixelsF y := by
  simp [Rows.pixelsF, h.rowF y hy]

/-- `free_histogram_inputs` keeps the pixels -/
theorem free_same (r : Rows F) : Same r r.freeHistogramInputs := by
  unfold freeHistogramInputs
  split
  next h =>
    refine ⟨rfl, rfl, rfl, fun y _ => ?_⟩
    obtain ⟨rows, hrows⟩ := Option.isSome_iff_exists.mp h
    simp [rowF, hrows]
  · exact Same.refl r

/-- `prepare_iter` succeeds on a readable image and keeps the pixels -/
theorem prepare_same {r : Rows F} (hr : r.Readable) (b : Bool) :
    ∃ r', r.prepare b = .ok r' ∧ Same r r' ∧ (r.fPixels.isSome → r' = r) ∧ (b = false → r'.fPixels.isSome) := by
  unfold prepare
  split
  next h =>
    refine ⟨r, rfl, Same.refl r, fun _ => rfl, fun hb => ?_⟩
    subst hb
    simpa using h
  next h =>
    have hnone : r.fPixels = none := by
      cases hf : r.fPixels with
      | none => rfl
      | some x => rw [hf] at h; simp at h
    have hrow : ∀ y ∈ List.range r.height, (r.rowRgba y).map (convertRow r.gamma) = .ok (r.pixelsF y) := by
      intro y hy
      have := (hr.rowF (List.mem_range.mp hy)).1
      unfold rowF at this
      rw [hnone] at this
      exact this
    rw [mapM_ok _ r.pixelsF _ hrow]
    refine ⟨_, rfl, ⟨rfl, rfl, rfl, fun y hy => ?_⟩, fun hs => ?_, fun _ => rfl⟩
    · have e := (hr.rowF hy).1
      rw [e]
      show index ((List.range r.height).map r.pixelsF) y = _
      rw [index_ok, List.getElem?_map, List.getElem?_range hy]; rfl
    · rw [hnone] at hs; simp at hs

/-- `all_rows_f` returns all the rows -/
theorem allRowsF_ok {r : Rows F} (hr : r.Readable) :
    ∃ r' rows, r.allRowsF = .ok (r', rows) ∧ Same r r' ∧ r'.fPixels = some rows := by
  obtain ⟨r', h1, h2, _, h4⟩ := prepare_same hr false
  obtain ⟨rows, hrows⟩ := Option.isSome_iff_exists.mp (h4 rfl)
  refine ⟨r', rows, ?_, h2, hrows⟩
  unfold allRowsF
  rw [h1]
  simp only [bind, Except.bind, hrows, pure, Except.pure]

end Rows

namespace Image

/-- Invariant of images: every row can be read, maps have one byte per pixel and the background has the same size. -/
structure Good (img : Image F) : Prop where
  px : img.px.Readable
  width_pos : 0 < img.width
  height_pos : 0 < img.height
  importance : ∀ m, img.importanceMap = some m → m.length = img.width * img.height
  edges : ∀ m, img.edges = some m → m.length = img.width * img.height
  ditherMap : ∀ m, img.ditherMap = some m → m.length = img.width * img.height
  background : ∀ b, img.background = some b → b.Readable ∧ b.width = img.width ∧ b.height = img.height

end Image
end Verif
