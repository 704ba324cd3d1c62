import Verif.Lemmas.MedianCutResult
import Verif.Lemmas.Env

/-! # Property C25: median cut partitions the histogram -/

set_option linter.unusedSectionVars false

namespace Verif
open Flt

/-- the histogram colours that record palette entry `i` as theirs -/
def groupOf {F : Type} (items : List (HistItem F)) (i : ℕ) : List (HistItem F) := items.filter fun x => decide (x.tmp = i)

section
variable {F : Type} [Flt F]

theorem marked_group (boxes : List (MBox F)) (k i : ℕ) (b : MBox F) (h : boxes[i]? = some b) :
    groupOf (((boxes.zipIdx k).map fun (b, i) => markItems b i).flatMap (·.colors)) (k + i) = (markItems b (k + i)).colors := by
  have hall : ∀ (b : MBox F) (j : ℕ), groupOf (markItems b j).colors j = (markItems b j).colors := by
    intro b j
    unfold groupOf
    rw [List.filter_eq_self]
    intro x hx
    simp only [markItems, List.mem_map] at hx
    obtain ⟨y, -, rfl⟩ := hx
    simp
  have hnone : ∀ (b : MBox F) (j l : ℕ), j ≠ l → groupOf (markItems b j).colors l = [] := by
    intro b j l hjl
    unfold groupOf
    rw [List.filter_eq_nil_iff]
    intro x hx
    simp only [markItems, List.mem_map] at hx
    obtain ⟨y, -, rfl⟩ := hx
    simpa using hjl
  have happ : ∀ (a b : List (HistItem F)) (j : ℕ), groupOf (a ++ b) j = groupOf a j ++ groupOf b j :=
    fun a b j => List.filter_append _ _
  have htail : ∀ (bs : List (MBox F)) (k j : ℕ), j < k →
      groupOf (((bs.zipIdx k).map fun (b, i) => markItems b i).flatMap (·.colors)) j = [] := by
    intro bs
    induction bs with
    | nil => intro k j _; rfl
    | cons b bs ih =>
      intro k j hjk
      simp only [List.zipIdx_cons, List.map_cons, List.flatMap_cons, happ]
      rw [hnone b k j (by omega), ih (k + 1) j (by omega)]; rfl
  induction boxes generalizing k i with
  | nil => simp at h
  | cons c cs ih =>
    simp only [List.zipIdx_cons, List.map_cons, List.flatMap_cons, happ]
    cases i with
    | zero =>
      simp only [List.getElem?_cons_zero, Option.some.injEq] at h
      subst h
      rw [Nat.add_zero, hall, htail cs (k + 1) k (by omega), List.append_nil]
    | succ i =>
      simp only [List.getElem?_cons_succ] at h
      rw [hnone c k (k + (i + 1)) (by omega), List.nil_append]
      have := ih (k + 1) i h
      rw [show k + 1 + i = k + (i + 1) by omega] at this
      exact this

/-- `CutInto` in terms of the recorded indices -/
theorem CutInto.group {o : SortOracle F} {hist hist' : HistogramInternal F} {target : ℕ} {pal : PalF F} {boxes : List (MBox F)}
    (c : CutInto o hist target pal hist' boxes) (i : ℕ) (b : MBox F) (h : boxes[i]? = some b) :
    (groupOf hist'.items i).Perm (markItems b i).colors := by
  have h1 := marked_group boxes 0 i b h
  rw [Nat.zero_add] at h1
  rw [← h1]
  exact c.items.filter _

/-- **C25** (any float arithmetic). For every histogram tiled by its clusters and every target up to 256, median cut
succeeds (so it terminates) with at most `max 1 target` entries; it keeps the multiset of colours with their weights,
records in every colour the index of an existing entry, and the popularity of entry `i` is the sum of the weights of the
colours recorded for `i`. -/
theorem C25_partition (o : SortOracle F) (hist : HistogramInternal F) (target : ℕ) (tm mm : F)
    (ht : hist.Tiled) (htar : target ≤ 256) :
    ∃ pal hist', mediancut o hist target tm mm = .ok (pal, hist') ∧ pal.length ≤ max 1 target ∧
      (hist'.items.map fun x => (x.color, x.adjustedWeight, x.perceptualWeight)).Perm
        (hist.items.map fun x => (x.color, x.adjustedWeight, x.perceptualWeight)) ∧
      (∀ x ∈ hist'.items, x.tmp < pal.length) ∧
      ∀ i e, pal[i]? = some e → ∃ l : List (HistItem F), l.Perm (groupOf hist'.items i) ∧
        e.pop = ⟨to32 (sum64 (l.map (·.perceptualWeight)))⟩ := by
  obtain ⟨pal, hist', boxes, e, c⟩ := mediancut_spec o hist target tm mm ht htar
  refine ⟨pal, hist', e, c.pal_len, c.items_core, c.tmp_lt, ?_⟩
  intro i e he
  rw [c.pal_eq, List.getElem?_map] at he
  obtain ⟨b, hb, rfl⟩ := Option.map_eq_some_iff.1 he
  refine ⟨(markItems b i).colors, (c.group i b hb).symm, ?_⟩
  simp [boxEntry, PalPop.new, markItems, Function.comp_def]
end

/-! ### Exact arithmetic -/

theorem cutLoop_nonempty (o : SortOracle ℝ) (target : ℕ) (hw tm mm : ℝ) (boxes : List (MBox ℝ))
    (h : ∀ b ∈ boxes, b.colors ≠ []) : ∀ b ∈ cutLoop o target hw tm mm boxes, b.colors ≠ [] := by
  apply cutLoop_induct o target (fun l => ∀ b ∈ l, b.colors ≠ [])
  · intro a b hab ha x hx
    have h1 : (x.start, x.colors, x.avgColor) ∈ b.map (fun b => (b.start, b.colors, b.avgColor)) := List.mem_map.2 ⟨x, hx, rfl⟩
    rw [← hab] at h1
    obtain ⟨y, hy, e⟩ := List.mem_map.1 h1
    have : y.colors = x.colors := congrArg (fun t => t.2.1) e
    rw [← this]; exact ha y hy
  · intro l b i _ hb hlen hl x hx
    simp only [splitStep, List.mem_append, List.mem_cons, List.not_mem_nil, or_false] at hx
    rcases hx with hx | rfl | rfl
    · exact hl x ((swapRemove_perm hb).mem_iff.1 (List.mem_cons_of_mem _ hx))
    · apply split_left_pos; apply List.ne_nil_of_length_pos; omega
    · exact split_right_pos o b _ hlen
  · exact h

/-- **C25** (exact). Every palette entry of median cut has at least one colour: the groups are disjoint, non-empty and
cover the histogram; popularities are the exact sums of the weights. -/
theorem C25_groups_nonempty (o : SortOracle ℝ) (hist : HistogramInternal ℝ) (target : ℕ) (tm mm : ℝ)
    (ht : hist.Tiled) (htar : target ≤ 256) (hne : hist.items ≠ []) :
    ∃ pal hist', mediancut o hist target tm mm = .ok (pal, hist') ∧ pal ≠ [] ∧
      ∀ i e, pal[i]? = some e → groupOf hist'.items i ≠ [] ∧
        e.pop.val = ((groupOf hist'.items i).map (·.perceptualWeight)).sum := by
  obtain ⟨b0, e0, hl0, hc0, hn0, hp0⟩ := initialBoxes_spec hist target ht
  obtain ⟨pal, hist', boxes, e, c⟩ := mediancut_spec o hist target tm mm ht htar
  refine ⟨pal, hist', e, c.pal_pos hne, ?_⟩
  have hcap : (cutLoop o target hist.totalPerceptualWeight tm (Flt.fmax mm (qualityToMse 20)) b0).length ≤ maxColorsCap := by
    have := cutLoop_length o target hist.totalPerceptualWeight tm (Flt.fmax mm (qualityToMse 20)) b0
    show _ ≤ 256; omega
  have hm : mediancut o hist target tm mm = .ok
      ((cutLoop o target hist.totalPerceptualWeight tm (Flt.fmax mm (qualityToMse 20)) b0).map boxEntry,
        { hist with items := boxesItems ((cutLoop o target hist.totalPerceptualWeight tm (Flt.fmax mm (qualityToMse 20)) b0).zipIdx.map
          fun (b, i) => markItems b i) }) := by
    unfold mediancut
    rw [e0]
    show (intoPalette _ >>= _) = _
    rw [intoPalette, if_pos hcap]; rfl
  rw [hm] at e
  injection e with e
  simp only [Prod.mk.injEq] at e
  obtain ⟨rfl, rfl⟩ := e
  have hne' := cutLoop_nonempty o target hist.totalPerceptualWeight tm (Flt.fmax mm (qualityToMse 20)) b0 (hn0 hne)
  generalize cutLoop o target hist.totalPerceptualWeight tm (Flt.fmax mm (qualityToMse 20)) b0 = bs at *
  intro i e he
  rw [List.getElem?_map] at he
  obtain ⟨b, hb, rfl⟩ := Option.map_eq_some_iff.1 he
  have hg : (groupOf (boxesItems (bs.zipIdx.map fun (b, i) => markItems b i)) i).Perm (markItems b i).colors := by
    have h1 := marked_group bs 0 i b hb
    rw [Nat.zero_add] at h1
    rw [← h1]
    exact (mergeSort_start_perm _).filter _
  constructor
  · intro h0
    rw [h0] at hg
    have := hg.symm.eq_nil
    simp only [markItems, List.map_eq_nil_iff] at this
    exact hne' b (List.mem_of_getElem? hb) this
  · show (boxEntry b).pop.val = ((groupOf (boxesItems (bs.zipIdx.map fun (b, i) => markItems b i)) i).map (·.perceptualWeight)).sum
    rw [(hg.map _).sum_eq]
    simp [boxEntry, PalPop.new, markItems, Function.comp_def, sum64_real]

/-- the hypotheses are met by a histogram of two colours in two clusters -/
example : (⟨[⟨⟨1, 0, 0, 0⟩, 1, 1, 0, 0⟩, ⟨⟨1, 1, 0, 0⟩, 1, 1, 0, 0⟩], 2, [(0, 1), (1, 2)], []⟩ : HistogramInternal ℝ).Tiled :=
  ⟨rfl, by decide, rfl, by decide, rfl⟩

end Verif
