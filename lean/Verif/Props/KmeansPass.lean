import Verif.Lemmas.KmeansPass
import Verif.Props.Kmeans

/-! # C61: a k-means pass is a step of Lloyd's algorithm -/

set_option linter.unusedSectionVars false

namespace Verif
open Flt Spec Kmeans

/-- **C61** (exact arithmetic). Every pass of k-means, however it is distributed over threads, is a pass as specified by
`Spec.Pass`: colours go to a nearest entry (and gain weight by feedback, if asked for), entries move to the weighted mean of
their colours, then unused entries get, one after another, the colour that fits worst. The error returned is the weighted sum of
the differences measured over the total weight. The palette keeps its size. -/
theorem C61_pass {sched : List (List ℕ)} {hist hist' : HistogramInternal ℝ} {p p' : PalF ℝ} {adjust : Bool} {err : ℝ}
    (hs : SchedValid (numChunks hist.items.length) sched) (hne : hist.items ≠ [])
    (hw : ∀ x ∈ hist.items, 0 ≤ x.adjustedWeight ∧ 0 ≤ x.perceptualWeight)
    (ht : ∀ x ∈ hist.items, x.tmp < p.length ∨ ∃ e ∈ p, x.color.diff e.color < 2 ^ 128)
    (h : iteration sched hist p adjust = .ok (hist', p', err)) :
    p'.length = p.length ∧ ∃ diffs : List ℝ,
      Pass adjust (hist.items.map counted) (slots p) (hist'.items.map fun x => (counted x, x.tmp)) (slots p') diffs ∧
      err = (List.zipWith (fun d x => d * x.perceptualWeight) diffs hist.items).sum / hist.totalPerceptualWeight := by
  cases hn : Nearest.new p with
  | error f =>
    unfold iteration at h
    rw [if_neg (by simpa using hne), hn] at h
    cases h
  | ok n =>
    rw [iteration_eq adjust hne hn hs] at h
    cases hr : replaceUnused (finalizePalette (total n adjust p.length hist.items).averages p) (matched n adjust hist).items with
    | error f => rw [hr] at h; cases h
    | ok q =>
      rw [hr] at h
      cases h
      have hlen : (finalizePalette (total n adjust p.length hist.items).averages p).length = p.length := (finalizePalette_keeps _ p).1
      have hw' : ∀ x ∈ (matched n adjust hist).items, 0 ≤ x.adjustedWeight := by
        intro x hx
        obtain ⟨y, hy, rfl⟩ := List.mem_map.1 hx
        exact (matchItem_weights hn adjust y (hw y hy)).1
      obtain ⟨stage, s0, s1, s2⟩ := replaceUnused_refilled (p := finalizePalette (total n adjust p.length hist.items).averages p)
        (items := (matched n adjust hist).items) (fun x hx => by
          obtain ⟨y, hy, rfl⟩ := List.mem_map.1 hx
          rw [hlen, matchItem_tmp]
          exact Nearest.search_lt hn _ _) hw' hr
      rw [hlen] at s1 s2
      refine ⟨(replaceUnused_replaced _ _ _ hr).1.trans hlen, hist.items.map fun x => (matchItem n adjust x).2, ⟨?_, ?_, stage, ?_, ?_, ?_, ?_⟩, ?_⟩
      · simp [matched]
      · intro k x x' d h1 h2 h3
        simp only [matched, List.map_map, List.getElem?_map] at h1 h2 h3
        cases hk : hist.items[k]? with
        | none => rw [hk] at h1; cases h1
        | some y =>
          rw [hk] at h1 h2 h3
          simp only [Option.map_some, Option.some.injEq, Function.comp] at h1 h2 h3
          subst h1 h2 h3
          exact matchItem_matched hn adjust y (ht y (List.mem_of_getElem? hk))
      · rw [s0]; simp [slots, hlen]
      · intro i s s' h1 h2
        rw [slots, List.getElem?_map] at h1
        rw [s0, slots, List.getElem?_map] at h2
        cases hk : p[i]? with
        | none => rw [hk] at h1; cases h1
        | some e =>
          have hip : i < p.length := (List.getElem?_eq_some_iff.1 hk).1
          have hfin := finalizePalette_get (total n adjust p.length hist.items).averages p (by simp [total]) i e hk
          have hav : (total n adjust p.length hist.items).averages.getD i 0 = contrib (matched n adjust hist).items i := by
            simp [total, List.getD_eq_getElem?_getD, List.getElem?_range hip, matched]
          rw [hk] at h1
          rw [hfin, hav] at h2
          simp only [Option.map_some, Option.some.injEq] at h1 h2
          subst h1 h2
          exact finalizeEntry_moved (matched n adjust hist).items hw' i e
      · intro i hi
        have := s1 i (by simpa [slots] using hi)
        rw [List.map_map]
        exact this
      · rw [show (slots p).length = p.length by simp [slots]]; exact s2
      · congr 1
        simp only [total, errorOf, List.map_map]
        congr 1
        generalize hist.items = l
        induction l with
        | nil => rfl
        | cons x l ih =>
          simp only [List.map_cons, List.zipWith_cons_cons, ih, Function.comp]
          rw [(matchItem_color n adjust x).2]

/-- hypotheses of `C61_pass`, with feedback -/
example : ∃ hist' p' err,
    iteration [[0]] exampleHist [⟨⟨0.625, 0, 0, 0⟩, ⟨1⟩⟩, ⟨⟨0.5, 0.1, 0.1, 0.1⟩, ⟨1⟩⟩] true = .ok (hist', p', err) ∧
    SchedValid (numChunks exampleHist.items.length) [[0]] ∧ exampleHist.items ≠ [] ∧
    (∀ x ∈ exampleHist.items, 0 ≤ x.adjustedWeight ∧ 0 ≤ x.perceptualWeight) ∧ ∀ x ∈ exampleHist.items, x.tmp < 2 := by
  obtain ⟨h1, p1, e1, i1, -⟩ := iteration_ok [[0]] exampleHist
    [⟨⟨0.625, 0, 0, 0⟩, ⟨1⟩⟩, ⟨⟨0.5, 0.1, 0.1, 0.1⟩, ⟨1⟩⟩] true (by simp) (by simp)
  refine ⟨h1, p1, e1, i1, ⟨by decide, by simp⟩, by simp [exampleHist], ?_, ?_⟩
  · intro x hx
    simp [exampleHist] at hx
    rcases hx with rfl | rfl | rfl <;> norm_num
  · intro x hx
    simp [exampleHist] at hx
    rcases hx with rfl | rfl | rfl <;> norm_num

end Verif
