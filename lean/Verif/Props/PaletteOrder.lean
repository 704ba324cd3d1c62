import Verif.Lemmas.Reach
import Verif.Lemmas.Env

/-! # Property C10: order of the palette -/

set_option linter.unusedSectionVars false

namespace Verif
open Flt Spec

theorem isTransparent_real (c : FPixel ℝ) : isTransparentColor c = true ↔ c.a ≤ 255 / 256 * (5 / 8) := by
  simp only [isTransparentColor, maxTranspA, weightA, real_lit32, real_div32, real_mul32]
  rw [real_le]
  push_cast
  exact Iff.rfl

theorem paletteLe_trans (last : Bool) (x y z : PalEntry ℝ) (h1 : paletteLe last x y = true) (h2 : paletteLe last y z = true) :
    paletteLe last x z = true := by
  simp only [paletteLe, Bool.not_eq_true', Bool.or_eq_false_iff, Bool.and_eq_false_iff] at *
  cases hx : (isTransparentColor x.color == last) <;> cases hy : (isTransparentColor y.color == last) <;>
    cases hz : (isTransparentColor z.color == last) <;> simp [hx, hy, hz] at * <;> linarith

theorem paletteLe_total (last : Bool) (x y : PalEntry ℝ) : (paletteLe last x y || paletteLe last y x) = true := by
  simp only [paletteLe]
  cases hx : (isTransparentColor x.color == last) <;> cases hy : (isTransparentColor y.color == last) <;> simp
  · exact le_total _ _
  · exact le_total _ _

theorem sorted_paletteLe (last : Bool) (p : PalF ℝ) : (p.mergeSort (paletteLe last)).Pairwise (fun x y => paletteLe last x y = true) :=
  List.pairwise_mergeSort (fun a b c h1 h2 => paletteLe_trans last a b c h1 h2) (paletteLe_total last) p

/-- key of the smallest -/
theorem minByKey_le {α : Type} (key : α → ℝ) {l : List α} {x : α} (h : minByKey key l = some x) :
    ∀ y ∈ l, key x ≤ key y := by
  unfold minByKey at h
  split at h
  · cases h
  next a as =>
    injection h with h
    subst h
    have : ∀ (l : List α) (b : α), key (l.foldl (fun best y => if lt (key y) (key best) then y else best) b) ≤ key b ∧
        ∀ y ∈ l, key (l.foldl (fun best y => if lt (key y) (key best) then y else best) b) ≤ key y := by
      intro l
      induction l with
      | nil => intro b; exact ⟨le_rfl, by simp⟩
      | cons c cs ih =>
        intro b
        simp only [List.foldl_cons]
        obtain ⟨h1, h2⟩ := ih (if lt (key c) (key b) then c else b)
        have h3 : key (if lt (key c) (key b) then c else b) ≤ key b ∧ key (if lt (key c) (key b) then c else b) ≤ key c := by
          split
          next hlt => rw [real_lt] at hlt; exact ⟨hlt.le, le_rfl⟩
          next hlt => rw [real_lt, not_lt] at hlt; exact ⟨le_rfl, hlt⟩
        refine ⟨h1.trans h3.1, ?_⟩
        intro y hy
        rcases List.mem_cons.1 hy with rfl | hy
        · exact h1.trans h3.2
        · exact h2 y hy
    intro y hy
    rcases List.mem_cons.1 hy with rfl | hy
    · exact (this as y).1
    · exact (this as a).2 y hy

/-- **C10** (any float arithmetic). Sorting the palette only permutes the entries. -/
theorem C10_sort_permutes {F : Type} [Flt F] (last : Bool) (p : PalF F) : (sortPalette last p).Perm p :=
  sortPalette_perm last p

/-- **C10** (exact). Default order: of two entries, the later one is never non-opaque after an opaque one, and
within the same group popularity does not rise. -/
theorem C10_default_order (p : PalF ℝ) : (sortPalette false p).Pairwise fun x y =>
    (y.color.a ≤ 255 / 256 * (5 / 8) → x.color.a ≤ 255 / 256 * (5 / 8)) ∧
    ((x.color.a ≤ 255 / 256 * (5 / 8) ↔ y.color.a ≤ 255 / 256 * (5 / 8)) → |y.pop.val| ≤ |x.pop.val|) := by
  have : sortPalette false p = p.mergeSort (paletteLe false) := by simp [sortPalette]
  rw [this]
  refine (sorted_paletteLe false p).imp ?_
  intro x y h
  rw [← isTransparent_real, ← isTransparent_real]
  simp only [paletteLe, PalPop.popularity] at h
  cases hx : isTransparentColor x.color <;> cases hy : isTransparentColor y.color <;> simp [hx, hy] at h ⊢ <;> exact h

/-- **C10** (exact). With `set_last_index_transparent(true)`, if any entry is not opaque then the last entry is there and
has the lowest alpha of all entries. -/
theorem C10_last_transparent (p : PalF ℝ) (h : ∃ e ∈ p, e.color.a ≤ 255 / 256 * (5 / 8)) :
    ∃ e, (sortPalette true p).getLast? = some e ∧ e.color.a ≤ 255 / 256 * (5 / 8) ∧ ∀ x ∈ p, e.color.a ≤ x.color.a := by
  set q := p.mergeSort (paletteLe true) with hq
  have hperm : q.Perm p := List.mergeSort_perm _ _
  obtain ⟨e0, he0, ht0⟩ := h
  have he0q : e0 ∈ q := hperm.mem_iff.2 he0
  obtain ⟨k, hk⟩ := List.mem_iff_getElem?.1 he0q
  have hne : (q.zipIdx.filter fun x => isTransparentColor x.1.color) ≠ [] := by
    apply List.ne_nil_of_mem (a := (e0, k))
    rw [List.mem_filter]
    exact ⟨List.mem_zipIdx_iff_getElem?.2 hk, (isTransparent_real _).2 ht0⟩
  obtain ⟨⟨e, i⟩, hx⟩ := minByKey_isSome (fun x : PalEntry ℝ × ℕ => x.1.color.a) hne
  have hmem := minByKey_mem _ hx
  have hmin := minByKey_le _ hx
  rw [List.mem_filter] at hmem
  have hqi : q[i]? = some e := by simpa using List.mem_zipIdx_iff_getElem?.1 hmem.1
  have hil := (List.getElem?_eq_some_iff.1 hqi).1
  have hs : sortPalette true p = swapAt q (q.length - 1) i := by
    unfold sortPalette
    rw [← hq]
    simp only [if_true]
    rw [hx]
  have hte : e.color.a ≤ 255 / 256 * (5 / 8) := (isTransparent_real _).1 hmem.2
  refine ⟨e, ?_, hte, ?_⟩
  · rw [hs, List.getLast?_eq_getElem?, length_swapAt]
    have hlast : q[q.length - 1]? = some (q[q.length - 1]'(by omega)) := by simp
    unfold swapAt
    rw [hlast, hqi]
    dsimp only
    by_cases hil2 : i = q.length - 1
    · subst hil2
      rw [List.getElem?_set_self (by simp; omega)]
      have := (List.getElem?_eq_some_iff.1 hqi).2
      rw [this]
    · rw [List.getElem?_set_ne (by omega), List.getElem?_set_self (by omega)]
  · intro x hxp
    have hxq : x ∈ q := hperm.mem_iff.2 hxp
    by_cases htx : x.color.a ≤ 255 / 256 * (5 / 8)
    · obtain ⟨j, hj⟩ := List.mem_iff_getElem?.1 hxq
      exact hmin (x, j) (List.mem_filter.2 ⟨List.mem_zipIdx_iff_getElem?.2 hj, (isTransparent_real _).2 htx⟩)
    · linarith

/-- **C10** (any float arithmetic). The palette of a result is a sorted palette. -/
theorem C10_result_sorted {F : Type} [Flt F] [FltSign F] (env : Env F) (attr : Attr F) (h0 : HistogramInternal F) (freeze : Bool)
    (gamma : F) (log log' : List F) (r : QuantizationResult F)
    (hq : QuantizationResult.new env attr h0 freeze gamma log = (.ok r, log')) :
    ∃ p, r.palette = sortPalette attr.lastIndexTransparent p := by
  unfold QuantizationResult.new at hq
  rw [PM.bind_ok (progress_eq _ _ _)] at hq
  split at hq
  · cases hq
  · dsimp only at hq
    rw [PM.bind_apply] at hq
    split at hq
    next a l2 _ =>
      rw [PM.bind_ok (progress_eq _ _ _)] at hq
      split at hq
      · cases hq
      · split at hq
        · cases hq
        · cases hq; exact ⟨_, rfl⟩
    · cases hq

/-- a palette with an opaque and a non-opaque entry meets the hypothesis of `C10_last_transparent` -/
example : ∃ e ∈ ([⟨⟨5/8, 0, 0, 0⟩, ⟨3⟩⟩, ⟨⟨1/2, 0, 0, 0⟩, ⟨1⟩⟩] : PalF ℝ), e.color.a ≤ 255 / 256 * (5 / 8) :=
  ⟨⟨⟨1/2, 0, 0, 0⟩, ⟨1⟩⟩, by simp, by norm_num⟩

end Verif
