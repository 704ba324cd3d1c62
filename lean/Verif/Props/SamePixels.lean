import Verif.Lemmas.Twin
import Verif.Spec.Shelf
import Verif.Props.Clone

/-! # C81: only the pixels matter -/

set_option linter.unusedSectionVars false

namespace Verif
open Flt Spec

variable {F : Type} [Flt F]

theorem BgTwin.symm {w n : ℕ} {a b : Option (Rows F)} (h : BgTwin w n a b) : BgTwin w n b a := by
  cases a <;> cases b <;> simp only [BgTwin] at h ⊢
  exact Rows.Twin.symm h

theorem BgTwin.trans {w n : ℕ} {a b c : Option (Rows F)} (h : BgTwin w n a b) (k : BgTwin w n b c) : BgTwin w n a c := by
  cases a <;> cases b <;> simp only [BgTwin] at h <;> cases c <;> simp only [BgTwin] at k ⊢
  exact Rows.Twin.trans h k

theorem Image.Twin.symm {w n : ℕ} {a b : Image F} (h : Image.Twin w n a b) : Image.Twin w n b a :=
  ⟨h.px.symm, h.background.symm, h.importanceMap.symm, h.edges.symm, h.ditherMap.symm, h.fixedColors.symm⟩

theorem Image.Twin.trans {w n : ℕ} {a b c : Image F} (h : Image.Twin w n a b) (k : Image.Twin w n b c) : Image.Twin w n a c :=
  ⟨h.px.trans k.px, h.background.trans k.background, k.importanceMap.trans h.importanceMap, k.edges.trans h.edges,
    k.ditherMap.trans h.ditherMap, k.fixedColors.trans h.fixedColors⟩

/-- sizes that fit in a `u32` -/
def Sized (w n : ℕ) : Prop := 0 < w ∧ 0 < n ∧ w ≤ 2 ^ 32 - 1 ∧ n ≤ 2 ^ 32 - 1

theorem Rows.clone_twin {w n : ℕ} (hs : Sized w n) {a b : Rows F} (h : Rows.Twin w n a b) :
    ∃ c, b.clone = .ok c ∧ Rows.Twin w n a c := by
  obtain ⟨bw, bn, fp, src, γ⟩ := b
  unfold Rows.clone
  cases src with
  | pixels rows => exact ⟨_, rfl, h⟩
  | callback f =>
    obtain rfl : bw = w := h.widthRight
    obtain rfl : bn = n := h.right
    obtain ⟨h1, h2, h3, h4⟩ := hs
    have hl : ((List.range bn).flatMap fun y => (List.range bw).map (f y)).length = bn * bw := by
      rw [List.length_flatMap]; simp
    dsimp only
    rw [forPixels_eq _ h3 h4 h3, if_pos ⟨h1, h2, le_refl _⟩, if_pos (by
      rw [hl]; unfold Spec.neededPixels
      obtain ⟨k, rfl⟩ : ∃ k, bn = k + 1 := ⟨bn - 1, by omega⟩
      rw [Nat.add_sub_cancel, Nat.add_mul, Nat.mul_comm]; omega)]
    refine ⟨_, rfl, h.widthLeft, rfl, h.left, rfl, h.gamma, h.fPixels, ?_, fun y hy => ?_⟩
    · rw [← h.gone]
      obtain ⟨k, rfl⟩ : ∃ k, bn = k + 1 := ⟨bn - 1, by omega⟩
      rw [List.range_succ_eq_map]
      rfl
    · rw [← h.row y hy]
      simp only [Rows.rowRgba]
      rw [List.getElem?_map, List.getElem?_range hy]
      simp only [Option.map_some]
      have hlen := flatMap_drop_take f bw bn hy
      rw [if_neg, hlen]
      have := congrArg List.length hlen
      simp only [List.length_take, List.length_map, List.length_range] at this
      omega

theorem Image.clone_twin {w n : ℕ} (hs : Sized w n) {a b : Image F} (h : Image.Twin w n a b) :
    ∃ c, b.clone = .ok c ∧ Image.Twin w n a c := by
  obtain ⟨px, h1, h2⟩ := Rows.clone_twin hs h.px
  unfold Image.clone
  rw [h1]
  simp only [bind, Except.bind]
  cases hbb : b.background with
  | none =>
    refine ⟨_, rfl, h2, ?_, h.importanceMap, h.edges, h.ditherMap, h.fixedColors⟩
    have := h.background
    rw [hbb] at this
    exact this
  | some y =>
    have hk := h.background
    cases ha : a.background with
    | none => rw [ha, hbb] at hk; exact hk.elim
    | some z =>
      rw [ha, hbb] at hk
      obtain ⟨c, h3, h4⟩ := Rows.clone_twin hs (show Rows.Twin w n z y from hk)
      dsimp only
      rw [h3]
      refine ⟨_, rfl, h2, ?_, h.importanceMap, h.edges, h.ditherMap, h.fixedColors⟩
      rw [ha]
      exact h4

/-- the image with the pixels `f` that is fresh from a constructor -/
def freshImage (w h : ℕ) (gamma : F) (f : ℕ → ℕ → RGBA) : Image F :=
  ⟨⟨w, h, none, .callback f, if lt (lit64 0) gamma then gamma else lit64 (45455/100000)⟩, none, none, none, none, []⟩

theorem newInternal_sized {src : Source} {w h : ℕ} {gamma : F} {img : Image F} (e : Image.newInternal src w h gamma = .ok img) :
    Sized w h := by
  unfold Image.newInternal at e
  split at e
  · cases e
  next h1 =>
    have := (checkImageSize_iff w h).mp (by simpa using h1)
    exact ⟨this.1, this.2.1, by omega, by omega⟩

theorem newInternal_rows {rows : List (List RGBA)} {w h : ℕ} {gamma : F} {img : Image F} {f : ℕ → ℕ → RGBA}
    (e : Image.newInternal (.pixels rows) w h gamma = .ok img) (hl : rows.length = h)
    (hf : ∀ y < h, ∀ x < w, (rows.getD y [])[x]? = some (f y x)) : Image.Twin w h (freshImage w h gamma f) img := by
  obtain ⟨hw, hh, rfl⟩ := newInternal_ok e
  refine ⟨⟨rfl, rfl, rfl, rfl, rfl, rfl, ?_, fun y hy => ?_⟩, trivial, rfl, rfl, rfl, rfl⟩
  · cases rows with
    | nil => simp at hl; omega
    | cons r rs => rfl
  · simp only [Rows.rowRgba, freshImage]
    have hy' : y < rows.length := by omega
    rw [List.getElem?_eq_getElem hy']
    have hr : ∀ x < w, rows[y][x]? = some (f y x) := fun x hx => by
      have := hf y hy x hx
      rwa [List.getD_eq_getElem?_getD, List.getElem?_eq_getElem hy', Option.getD_some] at this
    have hlen : w ≤ rows[y].length := by
      by_contra hlt
      have := hr (w - 1) (by omega)
      rw [List.getElem?_eq_none (by omega)] at this
      cases this
    dsimp only
    rw [if_neg (by omega)]
    congr 1
    apply List.ext_getElem?
    intro x
    by_cases hx : x < w
    · rw [List.getElem?_take_of_lt hx, hr x hx, List.getElem?_map, List.getElem?_range hx]
      rfl
    · rw [List.getElem?_eq_none (by rw [List.length_take]; omega), List.getElem?_eq_none (by simp; omega)]

theorem Spec.MadeFrom.twin {w h : ℕ} {gamma : F} {f : ℕ → ℕ → RGBA} {img : Image F} (m : MadeFrom w h gamma f img) :
    Sized w h ∧ Image.Twin w h (freshImage w h gamma f) img := by
  induction m with
  | @buffer buf stride img e hf =>
    rw [newStride_eq] at e
    split at e
    · split at e
      · refine ⟨newInternal_sized e, newInternal_rows e (by simp) fun y hy x hx => ?_⟩
        rw [List.getD_eq_getElem?_getD, List.getElem?_map, List.getElem?_range hy]
        simp only [Option.map_some, Option.getD_some, List.getElem?_drop]
        exact hf y hy x hx
      · cases e
    · cases e
  | rows e hl hf => exact ⟨newInternal_sized e, newInternal_rows e hl hf⟩
  | @callback g img e hf =>
    unfold Image.newFn at e
    rw [toU32_eq, toU32_eq] at e
    split at e
    · split at e
      · simp only [bind, Except.bind] at e
        refine ⟨newInternal_sized e, ?_⟩
        obtain ⟨_, _, rfl⟩ := newInternal_ok e
        refine ⟨⟨rfl, rfl, rfl, rfl, rfl, rfl, rfl, fun y hy => ?_⟩, trivial, rfl, rfl, rfl, rfl⟩
        simp only [Rows.rowRgba, freshImage]
        congr 1
        exact List.map_congr_left fun x hx => hf y hy x (List.mem_range.mp hx)
      · cases e
    · cases e
  | clone _ e ih =>
    obtain ⟨hs, ht⟩ := ih
    obtain ⟨c, h1, h2⟩ := Image.clone_twin hs ht
    rw [h1] at e
    cases e
    exact ⟨hs, h2⟩

/-! ### Programs -/

/-- two places on two shelves -/
def Placed : Option (Image F) → Option (Image F) → Prop
  | none, none => True
  | some a, some b => ∃ w n, Sized w n ∧ Image.Twin w n a b
  | _, _ => False

structure ShelfTwin (s t : Shelf F) : Prop where
  images : List.Forall₂ Placed s.images t.images
  histograms : t.histograms = s.histograms
  results : t.results = s.results
  log : t.log = s.log

theorem ShelfTwin.image {s t : Shelf F} (h : ShelfTwin s t) (i : ℕ) : Placed (s.image i) (t.image i) := by
  unfold Shelf.image
  by_cases hi : i < s.images.length
  · have hi' : i < t.images.length := h.images.length_eq ▸ hi
    rw [List.getElem?_eq_getElem hi, List.getElem?_eq_getElem hi']
    exact (List.forall₂_iff_get.mp h.images).2 i hi hi'
  · rw [List.getElem?_eq_none (by omega), List.getElem?_eq_none (by rw [← h.images.length_eq]; omega)]
    trivial

theorem forall₂_set {α β : Type} {R : α → β → Prop} {l : List α} {l' : List β} (h : List.Forall₂ R l l') (i : ℕ) {x : α} {y : β}
    (hxy : R x y) : List.Forall₂ R (l.set i x) (l'.set i y) := by
  induction h generalizing i with
  | nil => exact .nil
  | cons h1 h2 ih =>
    cases i with
    | zero => exact .cons hxy h2
    | succ i => exact .cons h1 (ih i)

theorem ShelfTwin.set {s t : Shelf F} (h : ShelfTwin s t) (i : ℕ) {x y : Option (Image F)} (hxy : Placed x y) :
    ShelfTwin (s.setImage i x) (t.setImage i y) :=
  ⟨forall₂_set h.images i hxy, h.histograms, h.results, h.log⟩

theorem ShelfTwin.change {s t : Shelf F} (h : ShelfTwin s t) (i : ℕ) {w n : ℕ} (hs : Sized w n) {x y : Res (Image F)}
    (hxy : Both (Image.Twin w n) x y) :
    (t.change i y).1 = (s.change i x).1 ∧ ShelfTwin (s.change i x).2 (t.change i y).2 := by
  cases hxy with
  | error e => exact ⟨rfl, h⟩
  | ok k => exact ⟨rfl, h.set i ⟨w, n, hs, k⟩⟩

theorem ShelfTwin.act {s t : Shelf F} (h : ShelfTwin s t) (a : Act F) : (t.act a).1 = (s.act a).1 ∧ ShelfTwin (s.act a).2 (t.act a).2 := by
  cases a with
  | fixedColor i c =>
    have hi := h.image i
    simp only [Shelf.act]
    revert hi
    generalize s.image i = x
    generalize t.image i = y
    intro hi
    cases x <;> cases y <;> simp only [Placed] at hi
    · exact ⟨rfl, h⟩
    · obtain ⟨w, n, hs, k⟩ := hi
      refine h.change i hs ?_
      unfold Image.addFixedColor
      rw [k.fixedColors]
      split
      · exact .error _
      · exact .ok ⟨k.px, k.background, k.importanceMap, k.edges, k.ditherMap, rfl⟩
  | importanceMap i m =>
    have hi := h.image i
    simp only [Shelf.act]
    revert hi
    generalize s.image i = x
    generalize t.image i = y
    intro hi
    cases x <;> cases y <;> simp only [Placed] at hi
    · exact ⟨rfl, h⟩
    · obtain ⟨w, n, hs, k⟩ := hi
      refine h.change i hs ?_
      unfold Image.setImportanceMap
      rw [k.width, k.height]
      split
      · exact .error _
      · exact .ok ⟨k.px, k.background, rfl, k.edges, k.ditherMap, k.fixedColors⟩
  | background i j =>
    have hi : Placed (if i = j then none else s.image i) (if i = j then none else t.image i) := by
      split
      · trivial
      · exact h.image i
    have hj := h.image j
    simp only [Shelf.act]
    revert hi hj
    generalize (if i = j then none else s.image i) = x
    generalize (if i = j then none else t.image i) = y
    generalize s.image j = x'
    generalize t.image j = y'
    intro hi hj
    cases x <;> cases y <;> simp only [Placed] at hi
    · exact ⟨rfl, h⟩
    · cases x' <;> cases y' <;> simp only [Placed] at hj
      · exact ⟨rfl, h⟩
      · obtain ⟨w, n, hs, k⟩ := hi
        obtain ⟨w', n', hs', k'⟩ := hj
        refine ShelfTwin.change (h.set j (show Placed none none from trivial)) i hs ?_
        unfold Image.setBackground
        rw [k'.background.isSome, k.px.width, k.px.height, k'.px.width, k'.px.height]
        split
        · exact .error _
        · split
          · exact .error _
          next hne =>
            rw [k.px.widthLeft, k'.px.widthLeft, k.px.left, k'.px.left] at hne
            obtain ⟨rfl, rfl⟩ : w = w' ∧ n = n' := by
              constructor
              · by_contra hc; exact hne (.inl hc)
              · by_contra hc; exact hne (.inr hc)
            exact .ok ⟨k.px, k'.px, k.importanceMap, k.edges, k.ditherMap, k.fixedColors⟩
  | clone i =>
    have hi := h.image i
    simp only [Shelf.act]
    revert hi
    generalize s.image i = x
    generalize t.image i = y
    intro hi
    cases x <;> cases y <;> simp only [Placed] at hi
    · exact ⟨rfl, h⟩
    · rename_i a b
      obtain ⟨w, n, hs, k⟩ := hi
      obtain ⟨c, h1, h2⟩ := Image.clone_twin hs k
      obtain ⟨c', h1', h2'⟩ := Image.clone_twin hs (k.trans k.symm)
      dsimp only
      rw [h1, h1']
      refine ⟨rfl, List.rel_append h.images (.cons ⟨w, n, hs, ?_⟩ .nil), h.histograms, h.results, h.log⟩
      exact (h2'.symm).trans h2
  | drop i => exact ⟨rfl, h.set i (show Placed none none from trivial)⟩
  | histogram hh => exact ⟨rfl, h.images, by simp only [Shelf.act]; rw [h.histograms], h.results, h.log⟩
  | addImage ho attr k i =>
    have hi := h.image i
    simp only [Shelf.act]
    rw [h.histograms, h.log]
    revert hi
    generalize s.image i = x
    generalize t.image i = y
    intro hi
    cases s.histograms[k]? with
    | none => exact ⟨rfl, h⟩
    | some hh =>
      cases x <;> cases y <;> simp only [Placed] at hi
      · exact ⟨rfl, h⟩
      · obtain ⟨w, n, hs, hk⟩ := hi
        obtain ⟨h1, h2, h3, h4⟩ := addImage_twin ho hh attr hk s.log
        dsimp only
        rw [h1, h2, h3]
        exact ⟨rfl, (h.set i (show Placed (some _) (some _) from ⟨w, n, hs, h4⟩)).images, rfl, h.results, rfl⟩
  | quantizeHistogram env attr k =>
    simp only [Shelf.act]
    rw [h.histograms, h.log]
    cases s.histograms[k]? with
    | none => exact ⟨rfl, h⟩
    | some hh =>
      dsimp only
      generalize hh.quantize env attr s.log = z
      obtain ⟨z, l⟩ := z
      cases z with
      | error e => exact ⟨rfl, h.images, rfl, h.results, rfl⟩
      | ok q => exact ⟨rfl, h.images, rfl, by dsimp only; rw [h.results], rfl⟩
  | quantize env attr i =>
    have hi := h.image i
    simp only [Shelf.act]
    rw [h.log]
    revert hi
    generalize s.image i = x
    generalize t.image i = y
    intro hi
    cases x <;> cases y <;> simp only [Placed] at hi
    · exact ⟨rfl, h⟩
    · rename_i a b
      obtain ⟨w, n, hs, hk⟩ := hi
      obtain ⟨h1, h3, h4⟩ := quantizeImage_twin env attr hk s.log
      dsimp only
      rw [h1, h3]
      have hset := (h.set i (show Placed (some _) (some _) from ⟨w, n, hs, h4⟩)).images
      cases (quantizeImage env attr a s.log).1.1 with
      | error e => exact ⟨rfl, hset, h.histograms, h.results, rfl⟩
      | ok q => exact ⟨rfl, hset, h.histograms, by dsimp only [Shelf.setImage]; rw [h.results], rfl⟩
  | result k f => exact ⟨rfl, h.images, h.histograms, by simp only [Shelf.act]; rw [h.results], h.log⟩
  | remap env k i buf =>
    have hi := h.image i
    simp only [Shelf.act]
    rw [h.results, h.log]
    revert hi
    generalize s.image i = x
    generalize t.image i = y
    intro hi
    cases s.results[k]? with
    | none => exact ⟨rfl, h⟩
    | some q =>
      cases x <;> cases y <;> simp only [Placed] at hi
      · exact ⟨rfl, h⟩
      · rename_i a b
        obtain ⟨w, n, hs, hk⟩ := hi
        obtain ⟨h1, h2, h3, h4, -, h6⟩ := remapInto_twin env q hk (by rw [show a.width = w from hk.px.widthLeft]; exact hs.1) buf s.log
        dsimp only
        rw [h1, h2, h3, h4]
        exact ⟨rfl, (h.set i (show Placed (some _) (some _) from ⟨w, n, hs, h6⟩)).images, h.histograms, rfl, rfl⟩
  | remapped env k i =>
    have hi := h.image i
    simp only [Shelf.act]
    rw [h.results, h.log]
    revert hi
    generalize s.image i = x
    generalize t.image i = y
    intro hi
    cases s.results[k]? with
    | none => exact ⟨rfl, h⟩
    | some q =>
      cases x <;> cases y <;> simp only [Placed] at hi
      · exact ⟨rfl, h⟩
      · rename_i a b
        obtain ⟨w, n, hs, hk⟩ := hi
        obtain ⟨h1, h2, h3, h4, -, h6⟩ := remapInto_twin env q hk (by rw [show a.width = w from hk.px.widthLeft]; exact hs.1)
          (List.replicate (a.width * a.height) none) s.log
        have hset := (h.set i (show Placed (some _) (some _) from ⟨w, n, hs, h6⟩)).images
        dsimp only [remapped]
        rw [hk.width, hk.height]
        revert h1 h2 h3 h4 hset
        generalize remapInto env q a (List.replicate (a.width * a.height) none) s.log = u
        generalize remapInto env q b (List.replicate (a.width * a.height) none) s.log = v
        obtain ⟨ur, uq, ui, ub, ul, uu⟩ := u
        obtain ⟨vr, vq, vi, vb, vl, vu⟩ := v
        dsimp only
        rintro rfl rfl rfl rfl hset
        cases vr with
        | error e => exact ⟨rfl, hset, h.histograms, rfl, rfl⟩
        | ok r => exact ⟨rfl, hset, h.histograms, rfl, rfl⟩

theorem ShelfTwin.run (acts : List (Act F)) {s t : Shelf F} (h : ShelfTwin s t) :
    (t.run acts).1 = (s.run acts).1 ∧ ShelfTwin (s.run acts).2 (t.run acts).2 := by
  induction acts generalizing s t with
  | nil => exact ⟨rfl, h⟩
  | cons a acts ih =>
    obtain ⟨h1, h2⟩ := h.act a
    obtain ⟨h3, h4⟩ := ih h2
    exact ⟨by simp only [Shelf.run]; rw [h1, h3], h4⟩

/-- **C81** (any float arithmetic). A program gets the same answers, bytes, histograms, results and progress whether its images
were made from buffers with any stride, from row pointers, from callbacks or as clones of such images, as long as size, gamma
and pixels are the same. -/
theorem C81_same_pixels {as bs : List (Image F)} (h : List.Forall₂ (fun a b => ∃ w h gamma f, MadeFrom w h gamma f a ∧ MadeFrom w h gamma f b) as bs)
    (acts : List (Act F)) (histograms : List (Histogram F)) (results : List (QuantizationResult F)) (log : List F) :
    let s := Shelf.run ⟨as.map some, histograms, results, log⟩ acts
    let t := Shelf.run ⟨bs.map some, histograms, results, log⟩ acts
    t.1 = s.1 ∧ t.2.histograms = s.2.histograms ∧ t.2.results = s.2.results ∧ t.2.log = s.2.log := by
  have hs : ShelfTwin (F := F) ⟨as.map some, histograms, results, log⟩ ⟨bs.map some, histograms, results, log⟩ := by
    refine ⟨?_, rfl, rfl, rfl⟩
    rw [List.forall₂_map_left_iff, List.forall₂_map_right_iff]
    refine h.imp ?_
    rintro a b ⟨w, n, g, f, ha, hb⟩
    exact ⟨w, n, ha.twin.1, ha.twin.2.symm.trans hb.twin.2⟩
  obtain ⟨h1, h2⟩ := hs.run acts
  exact ⟨h1, h2.histograms, h2.results, h2.log⟩

/-- **C81**. Cloning succeeds. -/
theorem C81_clone {w h : ℕ} {gamma : F} {f : ℕ → ℕ → RGBA} {img : Image F} (m : MadeFrom w h gamma f img) :
    ∃ c, img.clone = .ok c ∧ MadeFrom w h gamma f c := by
  obtain ⟨hs, ht⟩ := m.twin
  obtain ⟨c, h1, -⟩ := Image.clone_twin hs ht
  exact ⟨c, h1, .clone m h1⟩

theorem newInternal_source {a : Source} (b : Source) {w h : ℕ} {gamma : F} {img : Image F}
    (e : Image.newInternal a w h gamma = .ok img) : ∃ img', Image.newInternal b w h gamma = .ok img' := by
  unfold Image.newInternal at e ⊢
  split at e
  · cases e
  next h1 =>
    split at e
    · cases e
    next h2 => exact ⟨_, by rw [if_neg h1, if_neg h2]⟩

/-- **C81** (any float arithmetic). A buffer that has all the pixels is accepted exactly if a callback is. -/
theorem C81_accepted {w h : ℕ} {gamma : F} (f : ℕ → ℕ → RGBA) {buf : List RGBA} {stride : ℕ} (h1 : w ≤ stride)
    (h2 : stride ≤ 2 ^ 32 - 1) (h3 : h * stride ≤ buf.length) :
    (∃ img, Image.newFn f w h gamma = .ok img) ↔ ∃ img, Image.newStride buf w h stride gamma = .ok img := by
  constructor
  · rintro ⟨img, e⟩
    unfold Image.newFn at e
    rw [toU32_eq, toU32_eq] at e
    split at e
    next h4 =>
      split at e
      next h5 =>
        simp only [bind, Except.bind] at e
        obtain ⟨hw, hh, -⟩ := newInternal_ok e
        rw [newStride_eq, if_pos ⟨h4, h5, h2, hw, hh, h1⟩, if_pos]
        · exact newInternal_source _ e
        · refine le_trans ?_ h3
          unfold Spec.neededPixels
          obtain ⟨k, rfl⟩ : ∃ k, h = k + 1 := ⟨h - 1, by omega⟩
          rw [Nat.add_sub_cancel, Nat.add_mul, Nat.mul_comm]
          omega
      · cases e
    · cases e
  · rintro ⟨img, e⟩
    rw [newStride_eq] at e
    split at e
    next hc =>
      split at e
      · unfold Image.newFn
        rw [toU32_eq, toU32_eq, if_pos hc.1, if_pos hc.2.1]
        exact newInternal_source _ e
      · cases e
    · cases e

/-- the hypotheses of `C81_accepted` are met -/
example : ∃ img, Image.newFn (F := ℝ) (fun _ _ => ⟨7, 7, 7, 7⟩) 3 2 0.5 = .ok img :=
  (C81_accepted _ (buf := List.replicate 8 ⟨1, 2, 3, 4⟩) (stride := 4) (by decide) (by decide) (by simp)).mpr
    ((C16_accepts _ _ _ _ _).mpr ⟨by decide, by decide, by decide, by unfold Representable; norm_num,
      by constructor <;> simp <;> norm_num, by simp [neededPixels]⟩)

/-- the same four pixels in a buffer with gaps and from a callback; the program adds a fixed colour, quantizes a clone and
remaps it -/
example (env : Env ℝ) (renv : RemapEnv ℝ) (attr : Attr ℝ) : ∃ a b : Image ℝ, a ≠ b ∧
    (Shelf.run ⟨[some a], [], [], []⟩ [.fixedColor 0 ⟨1, 2, 3, 4⟩, .clone 0, .quantize env attr 1, .remap renv 0 1 (List.replicate 4 none)]).1 =
    (Shelf.run ⟨[some b], [], [], []⟩ [.fixedColor 0 ⟨1, 2, 3, 4⟩, .clone 0, .quantize env attr 1, .remap renv 0 1 (List.replicate 4 none)]).1 := by
  obtain ⟨a, ha⟩ : ∃ img, Image.newStride (F := ℝ) [⟨0, 0, 0, 255⟩, ⟨0, 1, 0, 255⟩, ⟨9, 9, 9, 9⟩, ⟨1, 0, 0, 255⟩, ⟨1, 1, 0, 255⟩] 2 2 3 0.5 = .ok img :=
    (C16_accepts _ _ _ _ _).mpr ⟨by decide, by decide, by decide, by unfold Representable; norm_num,
      by constructor <;> simp <;> norm_num, by simp [neededPixels]⟩
  obtain ⟨b, hb⟩ : ∃ b, Image.newFn (F := ℝ) (fun y x => ⟨y.toUInt8, x.toUInt8, 0, 255⟩) 2 2 0.5 = .ok b := by
    unfold Image.newFn Image.newInternal Image.toU32
    simp [Image.checkImageSize, bind, Except.bind]
    norm_num
  refine ⟨a, b, ?_, (C81_same_pixels (as := [a]) (bs := [b]) (.cons ⟨2, 2, 0.5, fun y x => ⟨y.toUInt8, x.toUInt8, 0, 255⟩, .buffer ha ?_,
    .callback hb fun _ _ _ _ => rfl⟩ .nil) _ [] [] []).1.symm⟩
  · rintro rfl
    rw [newStride_eq] at ha
    unfold Image.newFn at hb
    rw [toU32_eq, if_pos (by norm_num)] at hb
    simp only [bind, Except.bind] at hb
    rw [if_pos (by norm_num), if_pos (by simp [neededPixels])] at ha
    have h1 := (newInternal_ok ha).2.2
    have h2 := (newInternal_ok hb).2.2
    rw [h1] at h2
    simp at h2
  · intro y hy x hx
    interval_cases y <;> interval_cases x <;> rfl

end Verif
