import Verif.Spec.Kmeans
import Verif.Lemmas.QuantError
import Verif.Lemmas.RemapExact

/-! Exact arithmetic: a k-means pass against `Spec.Pass`. -/

set_option linter.unusedSectionVars false

namespace Verif
open Flt Spec

namespace Kmeans

def counted (x : HistItem ℝ) : Counted := ⟨x.color.spec, x.perceptualWeight, x.adjustedWeight⟩

noncomputable def slotOf (e : PalEntry ℝ) : Slot := ⟨e.color.spec, e.pop.popularity, e.pop.isFixed⟩

noncomputable def slots (p : PalF ℝ) : List Slot := p.map slotOf

theorem colorsOf_slots (p : PalF ℝ) : colorsOf (slots p) = p.map fun e => e.color.spec := by
  simp [colorsOf, slots, slotOf, Function.comp_def]

/-- a search returns a nearest colour and the distance -/
theorem search_dist {p : PalF ℝ} {n : Nearest ℝ} (hn : Nearest.new p = .ok n) (px : FPixel ℝ) (hint : ℕ)
    (hb : hint < p.length ∨ ∃ e ∈ p, px.diff e.color < 2 ^ 128) :
    IsNearest (colorsOf (slots p)) px.spec (n.search px hint).1 ∧ (n.search px hint).2 = distTo (colorsOf (slots p)) px.spec := by
  obtain ⟨h1, h2, h3⟩ := Nearest.search_min hn px hint (by
    rcases hb with h | ⟨e, he, h⟩
    · exact .inl h
    · obtain ⟨j, hj, rfl⟩ := List.getElem_of_mem he
      exact .inr ⟨j, hj, by rw [(palColor_get hj).2]; exact h⟩)
  rw [colorsOf_slots]
  have hall : ∀ c' ∈ p.map (fun e => e.color.spec), diff px.spec p[(n.search px hint).1].color.spec ≤ diff px.spec c' := by
    intro c' hc'
    obtain ⟨e, he, rfl⟩ := List.mem_map.mp hc'
    obtain ⟨j, hj, rfl⟩ := List.getElem_of_mem he
    have := h3 j hj
    rw [h2, (palColor_get hj).2, (palColor_get h1).2, FPixel.diff_spec, FPixel.diff_spec] at this
    exact this
  refine ⟨⟨p[(n.search px hint).1].color.spec, ?_, hall⟩, ?_⟩
  · rw [List.getElem?_map, (palColor_get h1).1]; rfl
  · rw [distTo_eq (List.mem_map.mpr ⟨_, List.getElem_mem h1, rfl⟩) hall, h2, (palColor_get h1).2, FPixel.diff_spec]

theorem matchItem_matched {p : PalF ℝ} {n : Nearest ℝ} (hn : Nearest.new p = .ok n) (adjust : Bool) (x : HistItem ℝ)
    (hb : x.tmp < p.length ∨ ∃ e ∈ p, x.color.diff e.color < 2 ^ 128) :
    Matched adjust (colorsOf (slots p)) (counted x) (counted (matchItem n adjust x).1) (matchItem n adjust x).1.tmp
      (matchItem n adjust x).2 := by
  obtain ⟨h1, h2⟩ := search_dist hn x.color x.tmp hb
  have hpal : n.palette = p := (Nearest.new_ok hn).2.2.1
  have hlt := Nearest.search_lt hn x.color x.tmp
  cases adjust with
  | false =>
    refine ⟨by simp [counted, matchItem], by simp [counted, matchItem], ?_, fun _ => ⟨by simp [counted, matchItem], ?_⟩, fun h => by cases h⟩
    · simpa [counted, matchItem] using h1
    · simpa [counted, matchItem] using h2
  | true =>
    have h3 := (search_dist hn (FPixel.sub ⟨x.color.a +₃ x.color.a, x.color.r +₃ x.color.r, x.color.g +₃ x.color.g,
      x.color.b +₃ x.color.b⟩ (palColor n.palette (n.search x.color x.tmp).1)) (n.search x.color x.tmp).1 (.inl hlt)).2
    refine ⟨by simp [counted, matchItem], by simp [counted, matchItem], ?_, (fun h => by cases h), fun _ => ⟨?_, ?_⟩⟩
    · simpa [counted, matchItem] using h1
    · simp only [counted, matchItem, if_true, real_fma32, real_lit32, real_mul32, real_add32]
      push_cast
      ring
    · refine ⟨p[(n.search x.color x.tmp).1].color.spec, ?_, ?_⟩
      · rw [colorsOf_slots, List.getElem?_map]
        simp only [matchItem, if_true]
        rw [(palColor_get hlt).1]; rfl
      · simp only [matchItem, if_true]
        rw [h3, hpal, (palColor_get hlt).2]
        congr 1
        simp only [FPixel.spec, FPixel.sub, reflected, counted, real_sub32, real_add32]
        congr 1 <;> ring

theorem finalizeEntry_moved (items : List (HistItem ℝ)) (hw : ∀ x ∈ items, 0 ≤ x.adjustedWeight) (i : ℕ) (e : PalEntry ℝ) :
    Moved (((items.map fun x => (counted x, x.tmp)).filter fun x => x.2 = i).map fun x => (x.1.color, x.1.boosted))
      (slotOf e) (slotOf (finalizeEntry (contrib items i) e)) := by
  have hmine : (((items.map fun x => (counted x, x.tmp)).filter fun x => x.2 = i).map fun x => (x.1.color, x.1.boosted)) =
      (items.filter fun x => x.tmp = i).map fun x => (x.color.spec, x.adjustedWeight) := by
    rw [List.filter_map, List.map_map]
    rfl
  rw [hmine, contrib_sums]
  dsimp only
  have hw' : ∀ x ∈ items.filter (fun x => decide (x.tmp = i)), 0 ≤ x.adjustedWeight := fun x hx => hw x (List.mem_filter.1 hx).1
  generalize items.filter (fun x => decide (x.tmp = i)) = m at hw'
  have hsum : 0 ≤ (m.map fun x => x.adjustedWeight).sum := List.sum_nonneg (by
    intro v hv
    obtain ⟨x, hx, rfl⟩ := List.mem_map.mp hv
    exact hw' x hx)
  unfold finalizeEntry
  constructor
  · intro hf
    rw [if_pos (show e.pop.isFixed = true from hf)]
  · intro hf
    rw [if_neg (by rw [show e.pop.isFixed = false from hf]; simp)]
    simp only [List.map_map, Function.comp_def, real_to32, real_div64]
    have hc : (lt (lit64 0) (m.map fun x => x.adjustedWeight).sum && !eq e.color.a (lit32 0)) = true ↔
        0 < (m.map fun x => x.adjustedWeight).sum ∧ (slotOf e).color.a ≠ 0 := by
      simp [slotOf, FPixel.spec]
    have hpop : ∀ c : FPixel ℝ, (slotOf ⟨c, PalPop.new (m.map fun x => x.adjustedWeight).sum⟩).fixed = false ∧
        (slotOf ⟨c, PalPop.new (m.map fun x => x.adjustedWeight).sum⟩).popularity = (m.map fun x => x.adjustedWeight).sum := by
      intro c
      refine ⟨?_, ?_⟩
      · simp [slotOf, PalPop.isFixed, PalPop.new, hsum, Flt.zero]
      · simp [slotOf, PalPop.popularity, PalPop.new, abs_of_nonneg hsum]
    by_cases h : 0 < (m.map fun x => x.adjustedWeight).sum ∧ (slotOf e).color.a ≠ 0
    · rw [if_pos (hc.mpr h)]
      refine ⟨(hpop _).1, (hpop _).2, fun _ => ?_, fun h' => absurd h h'⟩
      simp [slotOf, FPixel.spec, meanColor, Function.comp_def]
    · rw [if_neg (fun h' => h (hc.mp h'))]
      exact ⟨(hpop _).1, (hpop _).2, fun h' => absurd h' h, fun _ => rfl⟩

/-- the loop finds the item whose colour fits worst -/
theorem worst_spec {p : PalF ℝ} {n : Nearest ℝ} (hn : Nearest.new p = .ok n) (l done : List (HistItem ℝ))
    (hl : ∀ x ∈ l, x.tmp < p.length) (st : Option (HistItem ℝ) × ℝ)
    (h0 : (st.1 = none ∧ st.2 = 0) ∨ ∃ w ∈ done, st.1 = some w ∧ st.2 = distTo (colorsOf (slots p)) w.color.spec ∧ 0 < st.2)
    (hd : ∀ x ∈ done, distTo (colorsOf (slots p)) x.color.spec ≤ st.2) :
    let r := l.foldl (worstStep n p) st
    ((r.1 = none ∧ r.2 = 0) ∨ ∃ w ∈ done ++ l, r.1 = some w ∧ r.2 = distTo (colorsOf (slots p)) w.color.spec ∧ 0 < r.2) ∧
    ∀ x ∈ done ++ l, distTo (colorsOf (slots p)) x.color.spec ≤ r.2 := by
  induction l generalizing done st with
  | nil => simpa using ⟨h0, hd⟩
  | cons x l ih =>
    have hx := hl x (by simp)
    obtain ⟨hnear, hdist⟩ := search_dist hn x.color x.tmp (.inl hx)
    have hle : distTo (colorsOf (slots p)) x.color.spec ≤ p[x.tmp].color.diff x.color := by
      obtain ⟨c, hc, hall⟩ := hnear
      rw [distTo_eq (List.mem_of_getElem? hc) hall, FPixel.diff_spec, diff_comm p[x.tmp].color.spec]
      refine hall _ ?_
      rw [colorsOf_slots]
      exact List.mem_map.mpr ⟨_, List.getElem_mem hx, rfl⟩
    have hst0 : 0 ≤ st.2 := by
      rcases h0 with ⟨-, h⟩ | ⟨w, -, -, -, h⟩
      · rw [h]
      · exact h.le
    have hstep : worstStep n p st x = if st.2 < distTo (colorsOf (slots p)) x.color.spec then
        (some x, distTo (colorsOf (slots p)) x.color.spec) else st := by
      unfold worstStep
      rw [List.getElem?_eq_getElem hx]
      simp only [real_lt, hdist]
      by_cases h : st.2 < distTo (colorsOf (slots p)) x.color.spec
      · rw [if_pos (lt_of_lt_of_le h hle)]
      · rw [if_neg h]
        split <;> rfl
    rw [List.foldl_cons, hstep]
    have := ih (done ++ [x]) (fun y hy => hl y (by simp [hy])) (if st.2 < distTo (colorsOf (slots p)) x.color.spec then
        (some x, distTo (colorsOf (slots p)) x.color.spec) else st) ?_ ?_
    · simpa using this
    · split
      next h => exact .inr ⟨x, by simp, rfl, rfl, lt_of_le_of_lt hst0 h⟩
      next h =>
        rcases h0 with h0 | ⟨w, hw, h0⟩
        · exact .inl h0
        · exact .inr ⟨w, by simp [hw], h0⟩
    · intro y hy
      rcases List.mem_append.mp hy with hy | hy
      · split
        next h => exact (hd y hy).trans h.le
        next h => exact hd y hy
      · have : y = x := by simpa using hy
        subst this
        split
        next h => exact le_rfl
        next h => exact not_lt.mp h

theorem replaceUnusedAt_refilled {p p' : PalF ℝ} {items : List (HistItem ℝ)} {i : ℕ}
    (hl : ∀ x ∈ items, x.tmp < p.length) (hw : ∀ x ∈ items, 0 ≤ x.adjustedWeight)
    (h : replaceUnusedAt p items i = .ok p') :
    Refilled (items.map counted) i (slots p) (slots p') ∧ p'.length = p.length := by
  unfold replaceUnusedAt at h
  cases hi : p[i]? with
  | none => rw [hi] at h; cases h
  | some e =>
    rw [hi] at h
    simp only at h
    have hget : ∀ s, (slots p)[i]? = some s → s = slotOf e := by
      intro s hs
      rw [slots, List.getElem?_map, hi] at hs
      simpa using hs.symm
    by_cases hc : (eq e.pop.popularity (lit32 0) && !e.pop.isFixed) = true
    · rw [if_pos hc] at h
      simp only [Bool.and_eq_true, real_eq, Bool.not_eq_true', real_lit32, Rat.cast_zero] at hc
      cases hn : Nearest.new p with
      | error => rw [hn] at h; cases h
      | ok n =>
        rw [hn] at h
        simp only [bind, Except.bind] at h
        obtain ⟨k1, k2⟩ := worst_spec hn items [] hl (none, lit32 0) (.inl (by simp)) (by simp)
        simp only [List.nil_append] at k1 k2
        rcases k1 with ⟨k1, k3⟩ | ⟨w, hw1, k1, k3, k4⟩
        · rw [k1] at h
          cases h
          refine ⟨fun s hs => ⟨fun _ => rfl, fun _ _ => .inl ⟨fun x hx => ?_, rfl⟩⟩, rfl⟩
          obtain ⟨y, hy, rfl⟩ := List.mem_map.mp hx
          have h1 := k2 y hy
          rw [k3] at h1
          obtain ⟨⟨c, hcc, hall⟩, -⟩ := search_dist hn y.color y.tmp (.inl (hl y hy))
          have h2 : distTo (colorsOf (slots p)) y.color.spec = diff y.color.spec c := distTo_eq (List.mem_of_getElem? hcc) hall
          have h3 : 0 ≤ diff y.color.spec c := diff_nonneg _ _
          show distTo (colorsOf (slots p)) y.color.spec = 0
          rw [h2] at h1 ⊢
          exact le_antisymm h1 h3
        · rw [k1] at h
          cases h
          refine ⟨fun s hs => ⟨fun hf => ?_, fun _ _ => .inr ⟨counted w, List.mem_map_of_mem hw1, ?_, ?_, ?_⟩⟩, by simp⟩
          · rw [hget s hs] at hf
            exfalso
            rcases hf with hf | hf
            · exact hf hc.1
            · rw [show (slotOf e).fixed = e.pop.isFixed from rfl, hc.2] at hf; cases hf
          · show 0 < distTo (colorsOf (slots p)) w.color.spec
            rw [← k3]; exact k4
          · intro y hy
            obtain ⟨z, hz, rfl⟩ := List.mem_map.mp hy
            show distTo (colorsOf (slots p)) z.color.spec ≤ distTo (colorsOf (slots p)) w.color.spec
            rw [← k3]; exact k2 z hz
          · rw [slots, List.map_set]
            congr 1
            have := hw w hw1
            simp [slotOf, counted, PalPop.popularity, PalPop.isFixed, PalPop.new, abs_of_nonneg this, this, Flt.zero]
    · rw [if_neg hc] at h
      cases h
      refine ⟨fun s hs => ⟨fun _ => rfl, fun h1 h2 => ?_⟩, rfl⟩
      rw [hget s hs] at h1 h2
      exfalso
      apply hc
      have h1' : e.pop.popularity = 0 := h1
      have h2' : e.pop.isFixed = false := h2
      simp [h1', h2']

theorem replaceUnused_refilled {p p' : PalF ℝ} {items : List (HistItem ℝ)}
    (hl : ∀ x ∈ items, x.tmp < p.length) (hw : ∀ x ∈ items, 0 ≤ x.adjustedWeight) (h : replaceUnused p items = .ok p') :
    ∃ stage : ℕ → List Slot, stage 0 = slots p ∧
      (∀ i < p.length, Refilled (items.map counted) i (stage i) (stage (i + 1))) ∧ stage p.length = slots p' := by
  unfold replaceUnused at h
  have key : ∀ (k : ℕ), k ≤ p.length → ∃ (stage : ℕ → PalF ℝ), stage 0 = p ∧ (∀ i < k, replaceUnusedAt (stage i) items i = .ok (stage (i + 1)) ∧
      (stage (i + 1)).length = p.length) ∧ (List.range k).foldlM (fun p i => replaceUnusedAt p items i) p = .ok (stage k) := by
    intro k
    induction k with
    | zero => intro _; exact ⟨fun _ => p, rfl, fun i hi => by omega, rfl⟩
    | succ k ih =>
      intro hk
      obtain ⟨stage, s0, s1, s2⟩ := ih (by omega)
      have hlen : (stage k).length = p.length := by
        cases k with
        | zero => rw [s0]
        | succ k => exact (s1 k (by omega)).2
      cases hr : replaceUnusedAt (stage k) items k with
      | error f =>
        exfalso
        have : (List.range p.length).foldlM (fun p i => replaceUnusedAt p items i) p = .error f := by
          have hsplit : List.range p.length = List.range k ++ (k :: (List.range' (k + 1) (p.length - k - 1))) := by
            rw [← List.range'_eq_cons_iff.mpr ⟨rfl, by omega, rfl⟩, List.range_eq_range', List.range_eq_range']
            have := List.range'_append (s := 0) (m := k) (n := p.length - k) (step := 1)
            simp at this
            rw [this]
            congr 1
            omega
          rw [hsplit, List.foldlM_append, s2]
          simp only [bind, Except.bind, List.foldlM_cons, hr]
        rw [this] at h
        cases h
      | ok q =>
        have hq := (replaceUnusedAt_refilled (fun x hx => by rw [hlen]; exact hl x hx) hw hr).2
        refine ⟨fun j => if j ≤ k then stage j else q, by simp [s0], fun i hi => ?_, ?_⟩
        · by_cases hik : i < k
          · dsimp only
            rw [if_pos (by omega), if_pos (by omega)]
            exact s1 i hik
          · have : i = k := by omega
            subst this
            simp only [le_refl, if_true, show ¬ i + 1 ≤ i by omega, if_false]
            exact ⟨hr, hq.trans hlen⟩
        · simp only [show ¬ k + 1 ≤ k by omega, if_false]
          rw [List.range_succ, List.foldlM_append, s2]
          simp only [bind, Except.bind, List.foldlM_cons, hr, List.foldlM_nil, pure, Except.pure]
  obtain ⟨stage, s0, s1, s2⟩ := key p.length le_rfl
  rw [h] at s2
  refine ⟨fun i => slots (stage i), congrArg slots s0, fun i hi => ?_, by cases s2; rfl⟩
  have hlen : (stage i).length = p.length := by
    cases i with
    | zero => rw [s0]
    | succ k => exact (s1 k (by omega)).2
  exact (replaceUnusedAt_refilled (fun x hx => by rw [hlen]; exact hl x hx) hw (s1 i hi).1).1

end Kmeans
end Verif
