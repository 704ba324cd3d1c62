import Verif.Lemmas.KmeansRange
import Verif.Lemmas.Env

/-! K-means: schedule independence (C21, second half) and position of the new colours (C26). -/

set_option linter.unusedSectionVars false

namespace Verif
open Flt

/-- **C21**, k-means half (exact). The new histogram, palette and error of a pass are the same for all
distributions of the chunks over any number of workers, in any order. -/
theorem C21_kmeans_schedule {s1 s2 : List (List ℕ)} (hist : HistogramInternal ℝ) (p : PalF ℝ) (adjust : Bool)
    (h1 : SchedValid (Kmeans.numChunks hist.items.length) s1)
    (h2 : SchedValid (Kmeans.numChunks hist.items.length) s2) :
    Kmeans.iteration s1 hist p adjust = Kmeans.iteration s2 hist p adjust := by
  by_cases hne : hist.items = []
  · unfold Kmeans.iteration; rw [hne]; rfl
  · cases hn : Nearest.new p with
    | error f =>
      unfold Kmeans.iteration
      rw [if_neg (by simpa using hne), if_neg (by simpa using hne), hn]; rfl
    | ok n => rw [Kmeans.iteration_eq adjust hne hn h1, Kmeans.iteration_eq adjust hne hn h2]

/-- two different valid schedules of three chunks -/
example : SchedValid 3 [[0, 1, 2]] ∧ SchedValid 3 [[2, 0], [1]] := by
  refine ⟨⟨by decide, by simp⟩, ⟨by decide, by simp⟩⟩

/-- Several passes; each one may use another schedule and adjust the weights or not. -/
noncomputable def Spec.passes (hist : HistogramInternal ℝ) (p : PalF ℝ) : List (List (List ℕ) × Bool) →
    Res (HistogramInternal ℝ × PalF ℝ)
  | [] => .ok (hist, p)
  | (sched, adjust) :: rest =>
    match Kmeans.iteration sched hist p adjust with
    | .ok (hist, p, _) => Spec.passes hist p rest
    | .error f => .error f

/-- **C26** (exact). After any number of passes every channel of every colour that is not fixed lies between the
smallest and the largest value of that channel among the histogram's colours and the colours (not fixed) of the
palette before the first pass. -/
theorem C26_range (steps : List (List (List ℕ) × Bool)) (hist hist' : HistogramInternal ℝ) (p p' : PalF ℝ)
    (hs : ∀ s ∈ steps, SchedValid (Kmeans.numChunks hist.items.length) s.1)
    (hw : ∀ x ∈ hist.items, 0 ≤ x.adjustedWeight ∧ 0 ≤ x.perceptualWeight)
    (h : Spec.passes hist p steps = .ok (hist', p')) :
    ∀ x ∈ p', x.pop.isFixed = false →
      Spec.Within (hist.items.map (·.color) ++ (p.filter fun x => !x.pop.isFixed).map (·.color)) x.color := by
  induction steps generalizing hist p with
  | nil =>
    cases h
    intro x hx hf
    apply Spec.Within.of_mem
    exact List.mem_append_right _ (List.mem_map_of_mem (List.mem_filter.2 ⟨hx, by simp [hf]⟩))
  | cons s steps ih =>
    obtain ⟨sched, adjust⟩ := s
    unfold Spec.passes at h
    cases hi : Kmeans.iteration sched hist p adjust with
    | error f => rw [hi] at h; cases h
    | ok r =>
      obtain ⟨h1, p1, e⟩ := r
      rw [hi] at h
      obtain ⟨a1, a2, a3⟩ := Kmeans.iteration_range (hs (sched, adjust) (by simp)) hw hi
      have hl : h1.items.length = hist.items.length := by simpa using congrArg List.length a2
      intro x hx hf
      have := ih h1 p1 (fun s hs' => by rw [hl]; exact hs s (by simp [hs'])) a1 h x hx hf
      apply this.trans
      intro c hc
      rcases List.mem_append.1 hc with hc | hc
      · rw [a2] at hc; exact Spec.Within.of_mem (List.mem_append_left _ hc)
      · obtain ⟨y, hy, rfl⟩ := List.mem_map.1 hc
        obtain ⟨hy1, hy2⟩ := List.mem_filter.1 hy
        exact a3 y hy1 (by simpa using hy2)

/-- three colours of positive weight -/
noncomputable def exampleHist : HistogramInternal ℝ :=
  { items := [⟨⟨0.625, 0.5, 0, 0⟩, 1, 1, 0, 0⟩, ⟨⟨0.625, 0, 1, 0⟩, 2, 2, 0, 0⟩, ⟨⟨0.3, 0, 0, 0.1⟩, 3, 1, 0, 0⟩]
    totalPerceptualWeight := 4, clusters := [(0, 3)], fixedColors := [] }

/-- hypotheses of `C26_range` and `C26_weighted_mean`: two passes over `exampleHist` with a two-entry palette -/
example : ∃ r, Spec.passes exampleHist [⟨⟨0.625, 0, 0, 0⟩, ⟨1⟩⟩, ⟨⟨0.5, 0.1, 0.1, 0.1⟩, ⟨1⟩⟩]
      [([[0]], false), ([[0]], true)] = .ok r ∧
    (∀ s ∈ [([[0]], false), ([[0]], true)], SchedValid (Kmeans.numChunks exampleHist.items.length) s.1) ∧
    ∀ x ∈ exampleHist.items, 0 ≤ x.adjustedWeight ∧ 0 ≤ x.perceptualWeight := by
  obtain ⟨h1, p1, e1, i1, k1, -, -⟩ := Kmeans.iteration_ok [[0]] exampleHist
    [⟨⟨0.625, 0, 0, 0⟩, ⟨1⟩⟩, ⟨⟨0.5, 0.1, 0.1, 0.1⟩, ⟨1⟩⟩] false (by simp) (by simp)
  have hl : p1.length = 2 := k1.1
  obtain ⟨h2, p2, e2, i2, -⟩ := Kmeans.iteration_ok [[0]] h1 p1 true (by intro h; simp [h] at hl) (by omega)
  refine ⟨(h2, p2), ?_, ?_, ?_⟩
  · simp only [Spec.passes, i1, i2]
  · intro s hs
    have : s.1 = [[0]] := by simp at hs; rcases hs with h | h <;> rw [h]
    rw [this]; exact ⟨by decide, by simp⟩
  · intro x hx
    simp [exampleHist] at hx
    rcases hx with rfl | rfl | rfl <;> norm_num

/-- weighted sum of one channel over the items assigned to entry `i` -/
noncomputable def Spec.weightedSum (items : List (HistItem ℝ)) (i : ℕ) (ch : FPixel ℝ → ℝ) : ℝ :=
  ((items.filter fun x => x.tmp = i).map fun x => ch x.color * x.adjustedWeight).sum

/-- total weight of the items assigned to entry `i` -/
noncomputable def Spec.weightOf (items : List (HistItem ℝ)) (i : ℕ) : ℝ :=
  ((items.filter fun x => x.tmp = i).map fun x => x.adjustedWeight).sum

/-- **C26** (exact), second half. Given that every item's search hint is an index of the palette or some entry is not
astronomically far from it: every item ends up assigned to an entry of the old palette that is nearest to it,
and the colour of a used entry that is neither fixed nor fully transparent becomes the weighted mean of the
items assigned to it. -/
theorem C26_weighted_mean {sched : List (List ℕ)} {hist hist' : HistogramInternal ℝ} {p p' : PalF ℝ} {adjust : Bool}
    {err : ℝ} (hs : SchedValid (Kmeans.numChunks hist.items.length) sched) (hne : hist.items ≠ [])
    (ht : ∀ x ∈ hist.items, x.tmp < p.length ∨ ∃ e ∈ p, x.color.diff e.color < 2 ^ 128)
    (h : Kmeans.iteration sched hist p adjust = .ok (hist', p', err)) :
    (∀ x ∈ hist'.items, ∃ hx : x.tmp < p.length, ∀ e ∈ p, x.color.diff p[x.tmp].color ≤ x.color.diff e.color) ∧
    ∀ (i : ℕ) (e : PalEntry ℝ), p[i]? = some e → e.pop.isFixed = false → e.color.a ≠ 0 →
      0 < Spec.weightOf hist'.items i →
      ∃ e', p'[i]? = some e' ∧
        e'.color.a = Spec.weightedSum hist'.items i FPixel.a / Spec.weightOf hist'.items i ∧
        e'.color.r = Spec.weightedSum hist'.items i FPixel.r / Spec.weightOf hist'.items i ∧
        e'.color.g = Spec.weightedSum hist'.items i FPixel.g / Spec.weightOf hist'.items i ∧
        e'.color.b = Spec.weightedSum hist'.items i FPixel.b / Spec.weightOf hist'.items i ∧
        e'.pop.val = Spec.weightOf hist'.items i := by
  cases hn : Nearest.new p with
  | error f =>
    unfold Kmeans.iteration at h
    rw [if_neg (by simpa using hne), hn] at h
    cases h
  | ok n =>
    rw [Kmeans.iteration_eq adjust hne hn hs] at h
    cases hr : Kmeans.replaceUnused (Kmeans.finalizePalette (Kmeans.total n adjust p.length hist.items).averages p)
      (Kmeans.matched n adjust hist).items with
    | error f => rw [hr] at h; cases h
    | ok q =>
      rw [hr] at h
      cases h
      constructor
      · intro x hx
        obtain ⟨y, hy, rfl⟩ := List.mem_map.1 hx
        rw [(Kmeans.matchItem_color n adjust y).1]
        have hm := Nearest.search_min hn y.color y.tmp (by
          rcases ht y hy with h | ⟨e, he, h⟩
          · exact .inl h
          · obtain ⟨j, hj, rfl⟩ := List.getElem_of_mem he
            exact .inr ⟨j, hj, by simpa [palColor, List.getElem?_eq_getElem hj] using h⟩)
        have htm := Kmeans.matchItem_tmp n adjust y
        refine ⟨by rw [htm]; exact hm.1, ?_⟩
        intro e he
        obtain ⟨j, hj, rfl⟩ := List.getElem_of_mem he
        have h3 := hm.2.2 j hj
        rw [hm.2.1] at h3
        simp only [palColor, List.getElem?_eq_getElem hj, List.getElem?_eq_getElem hm.1] at h3
        simp only [htm]
        exact h3
      · intro i e he hf ha hpos
        have hip : i < p.length := (List.getElem?_eq_some_iff.1 he).1
        have hfin := Kmeans.finalizePalette_get (Kmeans.total n adjust p.length hist.items).averages p
          (by simp [Kmeans.total]) i e he
        have hav : (Kmeans.total n adjust p.length hist.items).averages.getD i 0 =
            Kmeans.contrib (Kmeans.matched n adjust hist).items i := by
          simp [Kmeans.total, List.getD_eq_getElem?_getD, List.getElem?_range hip, Kmeans.matched]
        rw [hav, Kmeans.contrib_sums] at hfin
        unfold Kmeans.finalizeEntry at hfin
        rw [if_neg (by simp [hf])] at hfin
        dsimp only at hfin
        rw [if_pos (by
          rw [Bool.and_eq_true]
          refine ⟨(real_lt _ _).2 ?_, ?_⟩
          · rw [real_lit64, Rat.cast_zero]; exact hpos
          · simp [ha])] at hfin
        have hrep := (Kmeans.replaceUnused_replaced _ _ _ hr).2 i _ hfin
        rcases hrep with h' | ⟨hp, -⟩
        · exact ⟨_, h', rfl, rfl, rfl, rfl, rfl⟩
        · exfalso
          simp only [PalPop.new, PalPop.popularity, real_abs, real_to32, abs_eq_zero] at hp
          exact hpos.ne' hp

end Verif
