import Verif.Lemmas.MedianCut

/-! What median cut returns. -/

set_option linter.unusedSectionVars false

namespace Verif
open Flt

variable {F : Type} [Flt F]

/-- The clusters are adjacent intervals from `s` to `n`. -/
def ClusterChain : ℕ → ℕ → List (ℕ × ℕ) → Prop
  | s, n, [] => s = n
  | s, n, (b, e) :: cs => b = s ∧ s ≤ e ∧ ClusterChain e n cs

/-- The clusters of a histogram tile its items. -/
def HistogramInternal.Tiled (h : HistogramInternal F) : Prop := ClusterChain 0 h.items.length h.clusters

theorem ClusterChain.filter {s n : ℕ} {cs : List (ℕ × ℕ)} (h : ClusterChain s n cs) :
    ClusterChain s n (cs.filter fun c => decide (c.1 ≠ c.2)) := by
  induction cs generalizing s with
  | nil => exact h
  | cons c cs ih =>
    obtain ⟨b, e⟩ := c
    obtain ⟨rfl, h2, h3⟩ := h
    by_cases hbe : b = e
    · subst hbe; simpa using ih h3
    · simp only [ne_eq, hbe, not_false_eq_true, decide_true, List.filter_cons_of_pos]
      exact ⟨rfl, h2, ih h3⟩

theorem ClusterChain.le {s n : ℕ} {cs : List (ℕ × ℕ)} (h : ClusterChain s n cs) : s ≤ n := by
  induction cs generalizing s with
  | nil => exact le_of_eq h
  | cons c cs ih => obtain ⟨b, e⟩ := c; obtain ⟨rfl, h2, h3⟩ := h; exact h2.trans (ih h3)

theorem clusterBoxes_spec (start s n : ℕ) (items : List (HistItem F)) (cs : List (ℕ × ℕ))
    (h : ClusterChain s n cs) (hl : items.length + s = n) (hne : ∀ c ∈ cs, c.1 ≠ c.2) :
    ∃ boxes, clusterBoxes start items cs = .ok boxes ∧ boxes.length = cs.length ∧
      boxes.flatMap (·.colors) = items ∧ (∀ b ∈ boxes, b.colors ≠ []) := by
  induction cs generalizing start s items with
  | nil =>
    refine ⟨[], rfl, rfl, ?_, by simp⟩
    have : s = n := h
    have : items.length = 0 := by omega
    simpa using (List.length_eq_zero_iff.1 this).symm
  | cons c cs ih =>
    obtain ⟨b, e⟩ := c
    obtain ⟨rfl, h2, h3⟩ := h
    have h4 := h3.le
    have hbe : b ≠ e := hne (b, e) (by simp)
    obtain ⟨boxes, e1, e2, e3, e4⟩ := ih (start + (e - b)) e (items.drop (e - b)) h3
      (by rw [List.length_drop]; omega) (fun c hc => hne c (by simp [hc]))
    refine ⟨MBox.new start (items.take (e - b)) :: boxes, ?_, by simp [e2], ?_, ?_⟩
    · rw [clusterBoxes, if_pos ⟨h2, by omega⟩, e1]; rfl
    · simp only [List.flatMap_cons, new_colors, e3, List.take_append_drop]
    · intro x hx
      rcases List.mem_cons.1 hx with rfl | hx
      · simp only [new_colors]
        apply List.ne_nil_of_length_pos
        rw [List.length_take]; omega
      · exact e4 x hx

theorem boxCores_eq (boxes : List (MBox F)) : boxCores boxes = (boxes.flatMap (·.colors)).map HistItem.core := by
  simp [boxCores, List.map_flatMap]

theorem initialBoxes_spec (h : HistogramInternal F) (target : ℕ) (ht : h.Tiled) :
    ∃ boxes, initialBoxes h target = .ok boxes ∧ boxes.length ≤ max 1 target ∧
      boxes.flatMap (·.colors) = h.items ∧ (h.items ≠ [] → ∀ b ∈ boxes, b.colors ≠ []) ∧
      (h.items ≠ [] → boxes ≠ []) := by
  unfold initialBoxes
  dsimp only
  split
  next hle =>
    obtain ⟨boxes, e1, e2, e3, e4⟩ := clusterBoxes_spec 0 0 h.items.length h.items _ ht.filter (by simp)
      (by intro c hc; simpa using (List.mem_filter.1 hc).2)
    refine ⟨boxes, e1, by rw [e2]; omega, e3, fun _ => e4, ?_⟩
    rintro hne rfl
    exact hne (by simpa using e3.symm)
  · exact ⟨_, rfl, by simp, by simp, by simp, by simp⟩

theorem mergeSort_start_perm (boxes : List (MBox F)) :
    (boxesItems boxes).Perm (boxes.flatMap (·.colors)) :=
  (List.mergeSort_perm _ _).flatMap_right _

theorem marked_core (boxes : List (MBox F)) (k : ℕ) :
    (((boxes.zipIdx k).map fun (b, i) => markItems b i).flatMap (·.colors)).map HistItem.core = boxCores boxes := by
  induction boxes generalizing k with
  | nil => rfl
  | cons b bs ih =>
    have h1 : boxCores (b :: bs) = b.colors.map HistItem.core ++ boxCores bs := by simp [boxCores]
    rw [h1, ← ih (k + 1)]
    simp only [List.zipIdx_cons, List.map_cons, List.flatMap_cons, List.map_append]
    congr 1
    simp only [markItems, List.map_map]
    rfl

/-- The final boxes of a median cut: palette entries and items of the result in terms of a list of groups. -/
structure CutInto (o : SortOracle F) (hist : HistogramInternal F) (target : ℕ) (pal : PalF F)
    (hist' : HistogramInternal F) (boxes : List (MBox F)) : Prop where
  pal_eq : pal = boxes.map boxEntry
  items : hist'.items.Perm ((boxes.zipIdx.map fun (b, i) => markItems b i).flatMap (·.colors))
  rest : hist' = { hist with items := hist'.items }
  cores : (boxCores boxes).Perm (hist.items.map HistItem.core)
  len : boxes.length ≤ max 1 target
  pos : hist.items ≠ [] → boxes ≠ []

theorem mediancut_spec (o : SortOracle F) (hist : HistogramInternal F) (target : ℕ) (tm mm : F)
    (ht : hist.Tiled) (htar : target ≤ 256) :
    ∃ pal hist' boxes, mediancut o hist target tm mm = .ok (pal, hist') ∧
      CutInto o hist target pal hist' boxes := by
  obtain ⟨b0, e0, hl0, hc0, hn0, hp0⟩ := initialBoxes_spec hist target ht
  set boxes := cutLoop o target hist.totalPerceptualWeight tm (Flt.fmax mm (qualityToMse 20)) b0 with hb
  have hlen := cutLoop_length o target hist.totalPerceptualWeight tm (Flt.fmax mm (qualityToMse 20)) b0
  have hcore := cutLoop_cores o target hist.totalPerceptualWeight tm (Flt.fmax mm (qualityToMse 20)) b0
  rw [← hb] at hlen hcore
  have hcap : boxes.length ≤ maxColorsCap := by show _ ≤ 256; omega
  refine ⟨boxes.map boxEntry, { hist with items := boxesItems (boxes.zipIdx.map fun (b, i) => markItems b i) },
    boxes, ?_, rfl, mergeSort_start_perm _, rfl, ?_, by omega, ?_⟩
  · have hi : intoPalette boxes = .ok (boxes.map boxEntry, boxesItems (boxes.zipIdx.map fun (b, i) => markItems b i)) := by
      rw [intoPalette, if_pos hcap]
    unfold mediancut
    rw [e0]
    show (intoPalette boxes >>= _) = _
    rw [hi]; rfl
  · rw [boxCores_eq b0, hc0] at hcore; exact hcore
  · intro hne hbn
    have := List.length_pos_iff.2 (hp0 hne)
    have h0 : boxes.length = 0 := by rw [hbn]; rfl
    omega

namespace CutInto
variable {o : SortOracle F} {hist hist' : HistogramInternal F} {target : ℕ} {pal : PalF F} {boxes : List (MBox F)}

theorem pal_len (c : CutInto o hist target pal hist' boxes) : pal.length ≤ max 1 target := by
  rw [c.pal_eq, List.length_map]; exact c.len

theorem pal_pos (c : CutInto o hist target pal hist' boxes) (h : hist.items ≠ []) : pal ≠ [] := by
  rw [c.pal_eq]; simpa using c.pos h

theorem items_core (c : CutInto o hist target pal hist' boxes) :
    (hist'.items.map HistItem.core).Perm (hist.items.map HistItem.core) := by
  have := c.items.map HistItem.core
  rw [marked_core] at this
  exact this.trans c.cores

theorem items_len (c : CutInto o hist target pal hist' boxes) : hist'.items.length = hist.items.length := by
  simpa using c.items_core.length_eq

theorem tiled (c : CutInto o hist target pal hist' boxes) (ht : hist.Tiled) : hist'.Tiled := by
  unfold HistogramInternal.Tiled at *
  rw [c.items_len, c.rest]; exact ht

theorem fixed (c : CutInto o hist target pal hist' boxes) : hist'.fixedColors = hist.fixedColors := by
  rw [c.rest]

theorem tmp_lt (c : CutInto o hist target pal hist' boxes) : ∀ x ∈ hist'.items, x.tmp < pal.length := by
  intro x hx
  have := c.items.mem_iff.1 hx
  simp only [List.mem_flatMap, List.mem_map] at this
  obtain ⟨b, ⟨⟨b0, i⟩, hi, rfl⟩, hx⟩ := this
  simp only [markItems, List.mem_map] at hx
  obtain ⟨y, -, rfl⟩ := hx
  have := List.mem_zipIdx_iff_getElem?.1 hi
  have := (List.getElem?_eq_some_iff.1 this).1
  rw [c.pal_eq, List.length_map]; exact this

end CutInto
end Verif
