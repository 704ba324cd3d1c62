import Verif.Lemmas.KmeansSum

/-! Exact arithmetic: where the colours of the next palette lie. -/

set_option linter.unusedSectionVars false

namespace Verif
open Flt

/-- Every channel of `c` lies between two values that this channel takes in `S`. -/
def Spec.Within (S : List (FPixel ℝ)) (c : FPixel ℝ) : Prop :=
  ∀ ch ∈ [FPixel.a, FPixel.r, FPixel.g, FPixel.b], (∃ x ∈ S, ch x ≤ ch c) ∧ ∃ y ∈ S, ch c ≤ ch y

theorem Spec.Within.of_mem {S : List (FPixel ℝ)} {c : FPixel ℝ} (h : c ∈ S) : Spec.Within S c :=
  fun _ _ => ⟨⟨c, h, le_rfl⟩, ⟨c, h, le_rfl⟩⟩

theorem Spec.Within.trans {S T : List (FPixel ℝ)} {c : FPixel ℝ} (h : Spec.Within S c)
    (hS : ∀ x ∈ S, Spec.Within T x) : Spec.Within T c := by
  intro ch hch
  obtain ⟨⟨x, hx, hxc⟩, ⟨y, hy, hcy⟩⟩ := h ch hch
  obtain ⟨⟨x', hx', h1⟩, -⟩ := hS x hx ch hch
  obtain ⟨-, ⟨y', hy', h2⟩⟩ := hS y hy ch hch
  exact ⟨⟨x', hx', h1.trans hxc⟩, ⟨y', hy', hcy.trans h2⟩⟩

/-- A weighted mean lies between two of the averaged values. -/
theorem mean_between {α : Type} (l : List α) (w v : α → ℝ) (hw : ∀ x ∈ l, 0 ≤ w x) (hpos : 0 < (l.map w).sum) :
    (∃ x ∈ l, v x ≤ (l.map fun x => v x * w x).sum / (l.map w).sum) ∧
    ∃ y ∈ l, (l.map fun x => v x * w x).sum / (l.map w).sum ≤ v y := by
  have key : ∀ (m : ℝ) (v : α → ℝ) (l : List α), (∀ x ∈ l, 0 ≤ w x) → (∀ x ∈ l, m < v x) →
      (m * (l.map w).sum ≤ (l.map fun x => v x * w x).sum) ∧ 0 ≤ (l.map w).sum ∧
      (0 < (l.map w).sum → m * (l.map w).sum < (l.map fun x => v x * w x).sum) := by
    intro m v l
    induction l with
    | nil => simp
    | cons x l ih =>
      intro h1 h2
      obtain ⟨i1, i2, i3⟩ := ih (fun y hy => h1 y (by simp [hy])) (fun y hy => h2 y (by simp [hy]))
      have hwx := h1 x (by simp)
      have hvx := h2 x (by simp)
      simp only [List.map_cons, List.sum_cons]
      refine ⟨by nlinarith, by linarith, ?_⟩
      intro hp
      rcases hwx.lt_or_eq with h | h
      · nlinarith
      · rw [← h] at hp ⊢
        have := i3 (by linarith)
        linarith
  set T := (l.map w).sum with hT
  set A := (l.map fun x => v x * w x).sum with hA
  constructor
  · by_contra hcon
    push Not at hcon
    have := (key (A / T) v l hw hcon).2.2 hpos
    rw [← hA, ← hT, div_mul_cancel₀ _ hpos.ne'] at this
    exact lt_irrefl _ this
  · by_contra hcon
    push Not at hcon
    have := (key (-(A / T)) (fun x => - v x) l hw (fun x hx => by have := hcon x hx; linarith)).2.2 hpos
    have e : (l.map fun x => -v x * w x).sum = -A := by
      rw [hA]
      clear * -
      induction l with
      | nil => simp
      | cons x l ih => simp only [List.map_cons, List.sum_cons, ih]; ring
    rw [e, ← hT, neg_mul, div_mul_cancel₀ _ hpos.ne'] at this
    exact lt_irrefl _ this

namespace Kmeans

theorem contrib_sums (l : List (HistItem ℝ)) (j : ℕ) : contrib l j =
    let m := l.filter (fun x => x.tmp = j)
    ⟨⟨(m.map fun x => x.color.a * x.adjustedWeight).sum, (m.map fun x => x.color.r * x.adjustedWeight).sum,
      (m.map fun x => x.color.g * x.adjustedWeight).sum, (m.map fun x => x.color.b * x.adjustedWeight).sum⟩,
      (m.map fun x => x.adjustedWeight).sum⟩ := by
  unfold contrib
  dsimp only
  generalize l.filter (fun x => decide (x.tmp = j)) = m
  induction m with
  | nil => rfl
  | cons x m ih => rw [List.map_cons, List.sum_cons, ih, ColorAvg.add_def]; simp [unitAvg]

theorem finalizePalette_get (as : List (ColorAvg ℝ)) (p : PalF ℝ) (h : as.length = p.length) (i : ℕ) (e : PalEntry ℝ)
    (he : p[i]? = some e) : (finalizePalette as p)[i]? = some (finalizeEntry (as.getD i 0) e) := by
  induction as generalizing p i with
  | nil =>
    cases p with
    | nil => simp at he
    | cons _ _ => simp at h
  | cons a as ih =>
    cases p with
    | nil => simp at he
    | cons x p =>
      cases i with
      | zero => simp at he; subst he; simp [finalizePalette]
      | succ i => simp at he h; simpa [finalizePalette] using ih p h i he

theorem worst_mem (n : Nearest ℝ) (p : PalF ℝ) (l items : List (HistItem ℝ)) (hl : ∀ x ∈ l, x ∈ items)
    (st : Option (HistItem ℝ) × ℝ) (hst : ∀ w, st.1 = some w → w ∈ items) (w : HistItem ℝ)
    (h : (l.foldl (worstStep n p) st).1 = some w) : w ∈ items := by
  induction l generalizing st with
  | nil => exact hst w h
  | cons x l ih =>
    rw [List.foldl_cons] at h
    refine ih (fun y hy => hl y (by simp [hy])) _ ?_ h
    intro v hv
    unfold worstStep at hv
    have : v ∈ items ∨ v = x := by
      revert hv
      dsimp only
      split <;> (try split) <;> (try split) <;> intro hv <;>
        first
          | exact Or.inl (hst v hv)
          | (right; simpa using hv.symm)
    rcases this with h | h
    · exact h
    · rw [h]; exact hl x (by simp)

/-- Entries with positive popularity and fixed entries stay; any other may be replaced by an item. -/
def Replaced (items : List (HistItem ℝ)) (p p' : PalF ℝ) : Prop :=
  p'.length = p.length ∧ ∀ (i : ℕ) (e : PalEntry ℝ), p[i]? = some e →
    p'[i]? = some e ∨ (e.pop.popularity = 0 ∧ e.pop.isFixed = false ∧
      ∃ w ∈ items, p'[i]? = some ⟨w.color, PalPop.new w.adjustedWeight⟩)

theorem Replaced.refl (items : List (HistItem ℝ)) (p : PalF ℝ) : Replaced items p p := ⟨rfl, fun _ _ h => Or.inl h⟩

theorem Replaced.trans {items : List (HistItem ℝ)} {p q r : PalF ℝ} (h1 : Replaced items p q) (h2 : Replaced items q r) :
    Replaced items p r := by
  refine ⟨h2.1.trans h1.1, ?_⟩
  intro i e he
  rcases h1.2 i e he with h | ⟨hp, hf, w, hw, h⟩
  · exact h2.2 i e h
  · right
    refine ⟨hp, hf, ?_⟩
    rcases h2.2 i _ h with h' | ⟨-, -, v, hv, h'⟩
    · exact ⟨w, hw, h'⟩
    · exact ⟨v, hv, h'⟩

theorem replaceUnusedAt_replaced (p p' : PalF ℝ) (items : List (HistItem ℝ)) (i : ℕ)
    (h : replaceUnusedAt p items i = .ok p') : Replaced items p p' := by
  unfold replaceUnusedAt at h
  cases hi : p[i]? with
  | none => rw [hi] at h; cases h
  | some e =>
    rw [hi] at h
    simp only at h
    split at h
    next hc =>
      cases hn : Nearest.new p with
      | error => rw [hn] at h; cases h
      | ok n =>
        rw [hn] at h
        simp only [bind, Except.bind] at h
        cases hw : (items.foldl (worstStep n p) (none, lit32 0)).1 with
        | none => rw [hw] at h; cases h; exact Replaced.refl _ _
        | some w =>
          rw [hw] at h
          cases h
          refine ⟨by simp, ?_⟩
          intro j e' he'
          by_cases hij : i = j
          · subst hij
            right
            rw [hi] at he'; cases he'
            simp only [Bool.and_eq_true, real_eq, Bool.not_eq_true', real_lit32, Rat.cast_zero] at hc
            refine ⟨hc.1, hc.2, w, worst_mem n p items items (fun _ h => h) _ (by simp) w hw, ?_⟩
            have hlt : i < p.length := (List.getElem?_eq_some_iff.1 hi).1
            rw [List.getElem?_set_self hlt]
          · left; rw [List.getElem?_set_ne hij]; exact he'
    · cases h; exact Replaced.refl _ _

theorem replaceUnused_replaced (p p' : PalF ℝ) (items : List (HistItem ℝ))
    (h : replaceUnused p items = .ok p') : Replaced items p p' := by
  unfold replaceUnused at h
  generalize List.range p.length = l at h
  induction l generalizing p with
  | nil => cases h; exact Replaced.refl _ _
  | cons i l ih =>
    rw [List.foldlM_cons] at h
    cases h1 : replaceUnusedAt p items i with
    | error => rw [h1] at h; cases h
    | ok q =>
      rw [h1] at h
      exact (replaceUnusedAt_replaced p q items i h1).trans (ih q h)

/-- all the weights are non-negative -/
def NonnegWeights (h : HistogramInternal ℝ) : Prop := ∀ x ∈ h.items, 0 ≤ x.adjustedWeight ∧ 0 ≤ x.perceptualWeight

/-- the histogram after a pass -/
noncomputable def matched (n : Nearest ℝ) (adjust : Bool) (hist : HistogramInternal ℝ) : HistogramInternal ℝ :=
  { hist with items := hist.items.map fun x => (matchItem n adjust x).1 }

theorem matchItem_weights {p : PalF ℝ} {n : Nearest ℝ} (hn : Nearest.new p = .ok n) (adjust : Bool) (x : HistItem ℝ)
    (h : 0 ≤ x.adjustedWeight ∧ 0 ≤ x.perceptualWeight) :
    0 ≤ (matchItem n adjust x).1.adjustedWeight ∧ 0 ≤ (matchItem n adjust x).1.perceptualWeight := by
  unfold matchItem
  dsimp only
  split
  · refine ⟨?_, h.2⟩
    simp only [real_fma32, real_lit32, real_mul32, real_add32]
    have hlt := Nearest.search_lt hn x.color x.tmp
    obtain ⟨-, h2, -⟩ := Nearest.search_min hn
      (FPixel.sub ⟨x.color.a + x.color.a, x.color.r + x.color.r, x.color.g + x.color.g, x.color.b + x.color.b⟩
        (palColor n.palette (n.search x.color x.tmp).1)) (n.search x.color x.tmp).1 (Or.inl hlt)
    rw [h2]
    have hd := FPixel.diff_nonneg (FPixel.sub ⟨x.color.a + x.color.a, x.color.r + x.color.r, x.color.g + x.color.g,
      x.color.b + x.color.b⟩ (palColor n.palette (n.search x.color x.tmp).1)) (palColor p (n.search (FPixel.sub
      ⟨x.color.a + x.color.a, x.color.r + x.color.r, x.color.g + x.color.g,
      x.color.b + x.color.b⟩ (palColor n.palette (n.search x.color x.tmp).1)) (n.search x.color x.tmp).1).1)
    apply mul_nonneg
    · have := h.1; have := h.2; push_cast; linarith
    · push_cast; linarith
  · exact h

/-- One pass in exact arithmetic, for any valid schedule. -/
theorem iteration_eq {sched : List (List ℕ)} {hist : HistogramInternal ℝ} {p : PalF ℝ} {n : Nearest ℝ} (adjust : Bool)
    (hne : hist.items ≠ []) (hn : Nearest.new p = .ok n) (hs : SchedValid (numChunks hist.items.length) sched) :
    iteration sched hist p adjust = (do
      let p' ← replaceUnused (finalizePalette (total n adjust p.length hist.items).averages p)
        (matched n adjust hist).items
      return (matched n adjust hist, p', (total n adjust p.length hist.items).weighedDiffSum /
        hist.totalPerceptualWeight)) := by
  unfold iteration
  rw [if_neg (by simpa using hne), hn]
  have ht : ∀ x, (matchItem n adjust x).1.tmp < p.length := fun x => by
    rw [matchItem_tmp]; exact Nearest.search_lt hn _ _
  have hr := reduce_eq sched n adjust p.length hist.items hs hne ht
  simp only [bind, Except.bind, hr]
  rfl

theorem iteration_range {sched : List (List ℕ)} {hist hist' : HistogramInternal ℝ} {p p' : PalF ℝ} {adjust : Bool} {e : ℝ}
    (hs : SchedValid (numChunks hist.items.length) sched) (hw : NonnegWeights hist)
    (h : iteration sched hist p adjust = .ok (hist', p', e)) :
    NonnegWeights hist' ∧ hist'.items.map (·.color) = hist.items.map (·.color) ∧
    ∀ x ∈ p', x.pop.isFixed = false → Spec.Within (hist.items.map (·.color) ++
      (p.filter fun x => !x.pop.isFixed).map (·.color)) x.color := by
  by_cases hne : hist.items = []
  · unfold iteration at h
    rw [hne] at h
    cases h
    refine ⟨hw, rfl, ?_⟩
    intro x hx hf
    apply Spec.Within.of_mem
    refine List.mem_append_right _ (List.mem_map_of_mem (List.mem_filter.2 ⟨hx, by simp [hf]⟩))
  · cases hn : Nearest.new p with
    | error f =>
      unfold iteration at h
      rw [if_neg (by simpa using hne), hn] at h
      cases h
    | ok n =>
      rw [iteration_eq adjust hne hn hs] at h
      cases hr : replaceUnused (finalizePalette (total n adjust p.length hist.items).averages p)
        (matched n adjust hist).items with
      | error f => rw [hr] at h; cases h
      | ok q =>
        rw [hr] at h
        cases h
        have hw' : NonnegWeights (matched n adjust hist) := by
          intro x hx
          obtain ⟨y, hy, rfl⟩ := List.mem_map.1 hx
          exact matchItem_weights hn adjust y (hw y hy)
        have hcol : (matched n adjust hist).items.map (·.color) = hist.items.map (·.color) := by
          simp only [matched, List.map_map]
          exact List.map_congr_left fun x _ => (matchItem_color n adjust x).1
        refine ⟨hw', hcol, ?_⟩
        intro x hx hf
        have hrep := replaceUnused_replaced _ _ _ hr
        obtain ⟨i, hi, rfl⟩ := List.getElem_of_mem hx
        have hip : i < p.length := by
          have := hrep.1; rw [(finalizePalette_keeps _ p).1] at this; omega
        have hfin := finalizePalette_get (total n adjust p.length hist.items).averages p (by simp [total]) i p[i]
          (List.getElem?_eq_getElem hip)
        rcases hrep.2 i _ hfin with h' | ⟨-, -, w, hwm, h'⟩
        · rw [List.getElem?_eq_getElem hi] at h'
          injection h' with h'
          rw [h'] at hf ⊢
          unfold finalizeEntry at hf ⊢
          split at hf
          next hfix => rw [hfix] at hf; cases hf
          next hfix =>
            rw [if_neg hfix]
            have hmem : p[i].color ∈ (p.filter fun x => !x.pop.isFixed).map (·.color) :=
              List.mem_map_of_mem (List.mem_filter.2 ⟨List.getElem_mem hip, by simp [hfix]⟩)
            dsimp only at hf ⊢
            split
            next hc =>
              have hc1 := ((Bool.and_eq_true _ _).mp hc).1
              have hav : (total n adjust p.length hist.items).averages.getD i 0 =
                  contrib (matched n adjust hist).items i := by
                simp [total, List.getD_eq_getElem?_getD, List.getElem?_range hip, matched]
              rw [hav, contrib_sums] at hc1 ⊢
              simp only [real_lt, real_lit64, Rat.cast_zero] at hc1
              intro ch hch
              have hsub : ∀ z ∈ (matched n adjust hist).items.filter (fun x => decide (x.tmp = i)),
                  z.color ∈ hist.items.map (·.color) := by
                intro z hz
                rw [← hcol]
                exact List.mem_map_of_mem (List.mem_filter.1 hz).1
              have hb := fun v : FPixel ℝ → ℝ => mean_between
                ((matched n adjust hist).items.filter (fun x => decide (x.tmp = i)))
                (fun x => x.adjustedWeight) (fun x => v x.color)
                (fun x hx => (hw' x (List.mem_filter.1 hx).1).1) hc1
              have fin : ∀ v : FPixel ℝ → ℝ, ∀ m : ℝ, m = (((matched n adjust hist).items.filter
                  (fun x => decide (x.tmp = i))).map fun x => v x.color * x.adjustedWeight).sum /
                  (((matched n adjust hist).items.filter (fun x => decide (x.tmp = i))).map
                    fun x => x.adjustedWeight).sum →
                  (∃ x ∈ hist.items.map (·.color) ++ (p.filter fun x => !x.pop.isFixed).map (·.color), v x ≤ m) ∧
                  ∃ y ∈ hist.items.map (·.color) ++ (p.filter fun x => !x.pop.isFixed).map (·.color), m ≤ v y := by
                rintro v m rfl
                obtain ⟨⟨x, hx, h1⟩, ⟨y, hy, h2⟩⟩ := hb v
                exact ⟨⟨x.color, List.mem_append_left _ (hsub x hx), h1⟩,
                  ⟨y.color, List.mem_append_left _ (hsub y hy), h2⟩⟩
              simp only [List.mem_cons, List.not_mem_nil, or_false] at hch
              rcases hch with rfl | rfl | rfl | rfl
              · exact fin FPixel.a _ (by simp)
              · exact fin FPixel.r _ (by simp)
              · exact fin FPixel.g _ (by simp)
              · exact fin FPixel.b _ (by simp)
            next => exact Spec.Within.of_mem (List.mem_append_right _ hmem)
        · rw [List.getElem?_eq_getElem hi] at h'
          injection h' with h'
          rw [h']
          apply Spec.Within.of_mem
          apply List.mem_append_left
          rw [← hcol]
          exact List.mem_map_of_mem hwm

end Kmeans
end Verif
