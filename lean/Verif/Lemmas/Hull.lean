import Verif.Lemmas.QuantTrace
import Verif.Lemmas.QuantRun
import Verif.Lemmas.KmeansRange
import Verif.Props.MedianCut

/-! Exact arithmetic: a property of colours that survives weighted averaging holds of every palette entry. -/

set_option linter.unusedSectionVars false

namespace Verif
open Flt

/-- `P` survives weighted averaging -/
def Mixes (P : FPixel ℝ → Prop) : Prop :=
  ∀ l : List (FPixel ℝ × ℝ), (∀ x ∈ l, P x.1 ∧ 0 ≤ x.2) → 0 < (l.map (·.2)).sum →
    P ⟨(l.map fun x => x.1.a * x.2).sum / (l.map (·.2)).sum, (l.map fun x => x.1.r * x.2).sum / (l.map (·.2)).sum,
      (l.map fun x => x.1.g * x.2).sum / (l.map (·.2)).sum, (l.map fun x => x.1.b * x.2).sum / (l.map (·.2)).sum⟩

/-! ### Median cut -/

theorem avgFold_real (l : List (HistItem ℝ)) (s : ℝ × FPixel ℝ) : l.foldl avgStep s =
    (s.1 + (l.map (·.adjustedWeight)).sum,
      ⟨s.2.a + (l.map fun x => x.color.a * x.adjustedWeight).sum, s.2.r + (l.map fun x => x.color.r * x.adjustedWeight).sum,
        s.2.g + (l.map fun x => x.color.g * x.adjustedWeight).sum,
        s.2.b + (l.map fun x => x.color.b * x.adjustedWeight).sum⟩) := by
  induction l generalizing s with
  | nil => simp
  | cons x l ih =>
    rw [List.foldl_cons, ih]
    simp only [avgStep, real_add32, real_mul32, List.map_cons, List.sum_cons, add_assoc]

theorem weighedAverage_mixes {P : FPixel ℝ → Prop} (hP : Mixes P) {l : List (HistItem ℝ)} (hne : l ≠ [])
    (h : ∀ x ∈ l, P x.color ∧ 0 < x.adjustedWeight) : P (weighedAverageColor l) := by
  have hpos : 0 < (l.map (·.adjustedWeight)).sum := by
    apply List.sum_pos
    · intro y hy
      obtain ⟨x, hx, rfl⟩ := List.mem_map.1 hy
      exact (h x hx).2
    · simpa using hne
  have := hP (l.map fun x => (x.color, x.adjustedWeight)) (by
    intro y hy
    obtain ⟨x, hx, rfl⟩ := List.mem_map.1 hy
    exact ⟨(h x hx).1, (h x hx).2.le⟩) (by simpa [List.map_map, Function.comp_def] using hpos)
  unfold weighedAverageColor
  rw [avgFold_real]
  have hz : (lit32 0 : ℝ) = 0 := by simp
  have hd : (FPixel.default : FPixel ℝ) = ⟨0, 0, 0, 0⟩ := by simp [FPixel.default]
  simp only [hz, hd, zero_add]
  have hc : (!Flt.eq ((l.map (·.adjustedWeight)).sum) (0 : ℝ)) = true := by
    simp [hpos.ne']
  rw [if_pos hc]
  simpa [List.map_map, Function.comp_def] using this

theorem newS_mixes {P : FPixel ℝ → Prop} (hP : Mixes P) (start : ℕ) {l : List (HistItem ℝ)} (w : ℝ) (others : List (MBox ℝ))
    (hne : l ≠ []) (h : ∀ x ∈ l, P x.color ∧ 0 < x.adjustedWeight) : P (MBox.newS start l w others).avgColor := by
  unfold MBox.newS MBox.newC
  dsimp only
  split
  · cases hm : minByKey (fun c : HistItem ℝ => (weighedAverageColor l).diff c.color) l with
    | some c => exact (h c (minByKey_mem _ hm)).1
    | none =>
      obtain ⟨x, hx⟩ := minByKey_isSome (fun c : HistItem ℝ => (weighedAverageColor l).diff c.color) hne
      rw [hm] at hx; cases hx
  · exact weighedAverage_mixes hP hne h

/-- a box that holds something, whose items and average have the property -/
def BoxOK (P : FPixel ℝ → Prop) (b : MBox ℝ) : Prop :=
  b.colors ≠ [] ∧ (∀ x ∈ b.colors, P x.color ∧ 0 < x.adjustedWeight) ∧ P b.avgColor

theorem new_boxOK {P : FPixel ℝ → Prop} (hP : Mixes P) (start : ℕ) {l : List (HistItem ℝ)}
    (hne : l ≠ []) (h : ∀ x ∈ l, P x.color ∧ 0 < x.adjustedWeight) : BoxOK P (MBox.new start l) :=
  ⟨hne, h, weighedAverage_mixes hP hne h⟩

theorem clusterBoxes_boxOK {P : FPixel ℝ → Prop} (hP : Mixes P) (start : ℕ) (items : List (HistItem ℝ)) (cs : List (ℕ × ℕ))
    (h : ∀ x ∈ items, P x.color ∧ 0 < x.adjustedWeight) {boxes : List (MBox ℝ)}
    (e : clusterBoxes start items cs = .ok boxes) (hne : ∀ b ∈ boxes, b.colors ≠ []) : ∀ b ∈ boxes, BoxOK P b := by
  induction cs generalizing start items boxes with
  | nil => cases e; simp
  | cons c cs ih =>
    obtain ⟨b, t⟩ := c
    unfold clusterBoxes at e
    split at e
    · cases hr : clusterBoxes (start + (t - b)) (items.drop (t - b)) cs with
      | error f => rw [hr] at e; cases e
      | ok rest =>
        rw [hr] at e
        cases e
        intro x hx
        rcases List.mem_cons.1 hx with rfl | hx
        · exact new_boxOK hP _ (hne _ (List.mem_cons_self ..)) (fun y hy => h y (List.mem_of_mem_take hy))
        · exact ih _ _ (fun y hy => h y (List.mem_of_mem_drop hy)) hr (fun b hb => hne b (by simp [hb])) x hx
    · cases e

theorem split_boxOK {P : FPixel ℝ → Prop} (hP : Mixes P) (o : SortOracle ℝ) (b : MBox ℝ) (others : List (MBox ℝ))
    (hl : 1 < b.colors.length) (h : BoxOK P b) : BoxOK P (b.split o others).1 ∧ BoxOK P (b.split o others).2 := by
  have hp := split_perm o b others
  have key : ∀ x ∈ (b.split o others).1.colors ++ (b.split o others).2.colors, P x.color ∧ 0 < x.adjustedWeight := by
    intro x hx
    have : x.core ∈ b.colors.map HistItem.core := hp.mem_iff.1 (List.mem_map_of_mem hx)
    obtain ⟨y, hy, he⟩ := List.mem_map.1 this
    simp only [HistItem.core, Prod.mk.injEq] at he
    rw [← he.1, ← he.2.1]; exact h.2.1 y hy
  have h1 := split_left_pos o b others h.1
  have h2 := split_right_pos o b others hl
  have k1 := fun x hx => key x (List.mem_append_left _ hx)
  have k2 := fun x hx => key x (List.mem_append_right _ hx)
  exact ⟨⟨h1, k1, newS_mixes hP _ _ _ h1 k1⟩, ⟨h2, k2, newS_mixes hP _ _ _ h2 k2⟩⟩

theorem cutLoop_boxOK {P : FPixel ℝ → Prop} (hP : Mixes P) (o : SortOracle ℝ) (target : ℕ) (hw tm mm : ℝ)
    (boxes : List (MBox ℝ)) (h : ∀ b ∈ boxes, BoxOK P b) : ∀ b ∈ cutLoop o target hw tm mm boxes, BoxOK P b := by
  apply cutLoop_induct o target (fun l => ∀ b ∈ l, BoxOK P b) _ _ hw tm mm boxes h
  · intro a b e ha x hx
    have : (x.start, x.colors, x.avgColor) ∈ a.map (fun b => (b.start, b.colors, b.avgColor)) := by
      rw [e]; exact List.mem_map_of_mem hx
    obtain ⟨y, hy, he⟩ := List.mem_map.1 this
    simp only [Prod.mk.injEq] at he
    have := ha y hy
    unfold BoxOK at this ⊢
    rw [← he.2.1, ← he.2.2]; exact this
  · intro l b i _ hb hlen hl x hx
    have hbm := List.mem_of_getElem? hb
    obtain ⟨s1, s2⟩ := split_boxOK hP o b (swapRemove l i) hlen (hl b hbm)
    simp only [splitStep, List.mem_append, List.mem_cons, List.not_mem_nil, or_false] at hx
    rcases hx with hx | rfl | rfl
    · exact hl x ((swapRemove_perm hb).mem_iff.1 (by simp [hx]))
    · exact s1
    · exact s2

/-- the palette of a median cut of a histogram without weightless items -/
theorem mediancut_mixes {P : FPixel ℝ → Prop} (hP : Mixes P) (o : SortOracle ℝ) {hist hist' : HistogramInternal ℝ}
    (target : ℕ) (tm mm : ℝ) {pal : PalF ℝ} (ht : hist.Tiled) (hne : hist.items ≠ [])
    (h : ∀ x ∈ hist.items, P x.color ∧ 0 < x.adjustedWeight)
    (e : mediancut o hist target tm mm = .ok (pal, hist')) : ∀ x ∈ pal, P x.color := by
  obtain ⟨b0, e0, -, -, hn0, -⟩ := initialBoxes_spec hist target ht
  have h0 : ∀ b ∈ b0, BoxOK P b := by
    have e0' := e0
    unfold initialBoxes at e0'
    dsimp only at e0'
    split at e0'
    · exact clusterBoxes_boxOK hP _ _ _ h e0' (hn0 hne)
    · cases e0'
      intro b hb
      rw [List.mem_singleton.1 hb]
      exact new_boxOK hP _ hne h
  have h1 := cutLoop_boxOK hP o target hist.totalPerceptualWeight tm (Flt.fmax mm (qualityToMse 20)) b0 h0
  unfold mediancut at e
  rw [e0] at e
  simp only [bind, Except.bind] at e
  unfold intoPalette at e
  split at e
  · cases e
  next r heq =>
    split at heq
    · cases heq
      cases e
      intro x hx
      obtain ⟨b, hb, rfl⟩ := List.mem_map.1 hx
      exact (h1 b hb).2.2
    · cases heq

theorem pal_le_items (o : SortOracle ℝ) {hist hist' : HistogramInternal ℝ} (target : ℕ) (tm mm : ℝ) {pal : PalF ℝ}
    (ht : hist.Tiled) (hne : hist.items ≠ []) (e : mediancut o hist target tm mm = .ok (pal, hist')) :
    pal.length ≤ hist.items.length := by
  obtain ⟨b0, e0, -, hc0, hn0, -⟩ := initialBoxes_spec hist target ht
  have h1 := cutLoop_nonempty o target hist.totalPerceptualWeight tm (Flt.fmax mm (qualityToMse 20)) b0 (hn0 hne)
  have hcore := (cutLoop_cores o target hist.totalPerceptualWeight tm (Flt.fmax mm (qualityToMse 20)) b0).length_eq
  rw [boxCores_eq, boxCores_eq, List.length_map, List.length_map, hc0] at hcore
  have hle : ∀ l : List (MBox ℝ), (∀ b ∈ l, b.colors ≠ []) → l.length ≤ (l.flatMap (·.colors)).length := by
    intro l
    induction l with
    | nil => simp
    | cons b l ih =>
      intro h
      have := ih (fun c hc => h c (by simp [hc]))
      have := List.length_pos_iff.2 (h b (by simp))
      simp only [List.length_cons, List.flatMap_cons, List.length_append]; omega
  have := hle _ h1
  unfold mediancut at e
  rw [e0] at e
  simp only [bind, Except.bind] at e
  unfold intoPalette at e
  split at e
  · cases e
  next r heq =>
    split at heq
    · cases heq
      cases e
      rw [List.length_map]; omega
    · cases heq

/-! ### Fixed colours -/

section AnyFloat
variable {F : Type} [Flt F]

theorem swapAt_mem {α : Type} (l : List α) (i j : ℕ) : ∀ x ∈ swapAt l i j, x ∈ l :=
  fun _ hx => (swapAt_perm l i j).mem_iff.1 hx

theorem fixStep_mem {P : FPixel F → Prop} {p p' : PalF F} {i : ℕ} {c : FPixel F} (hc : P c) (h : ∀ e ∈ p, P e.color)
    (e : PalF.fixStep p i c = .ok p') : ∀ e ∈ p', P e.color := by
  unfold PalF.fixStep at e
  split at e
  · cases e
  · dsimp only at e
    split at e
    · cases e
    · cases e
      intro x hx
      rcases List.mem_or_eq_of_mem_set hx with hx | rfl
      · exact h x (swapAt_mem _ _ _ x hx)
      · exact hc

theorem fixLoop_mem {P : FPixel F → Prop} {p p' : PalF F} {i : ℕ} {cs : List (FPixel F)} (hc : ∀ c ∈ cs, P c)
    (h : ∀ e ∈ p, P e.color) (e : PalF.fixLoop p i cs = .ok p') : ∀ e ∈ p', P e.color := by
  induction cs generalizing p i with
  | nil => cases e; exact h
  | cons c cs ih =>
    unfold PalF.fixLoop at e
    cases hs : PalF.fixStep p i c with
    | error f => rw [hs] at e; cases e
    | ok q =>
      rw [hs] at e
      exact ih (fun d hd => hc d (by simp [hd])) (fixStep_mem (hc c (by simp)) h hs) e

theorem withFixedColors_mem {P : FPixel F → Prop} {p p' : PalF F} {m : ℕ} {cs : List (FPixel F)} (hc : ∀ c ∈ cs, P c)
    (h : ∀ e ∈ p, P e.color) (e : p.withFixedColors m cs = .ok p') : ∀ e ∈ p', P e.color := by
  unfold PalF.withFixedColors at e
  split at e
  · cases e; exact h
  · dsimp only at e
    have key : ∀ q : PalF F, (if p.length < min cs.length m then p.extendZero (cs.take (min cs.length m - p.length))
        else Except.ok p) = .ok q → ∀ e ∈ q, P e.color := by
      intro q hq
      split at hq
      · unfold PalF.extendZero at hq
        split at hq
        · cases hq
          intro x hx
          rcases List.mem_append.1 hx with hx | hx
          · exact h x hx
          · obtain ⟨c, hcm, rfl⟩ := List.mem_map.1 hx
            exact hc c (List.mem_of_mem_take hcm)
        · cases hq
      · cases hq; exact h
    cases hq : (if p.length < min cs.length m then p.extendZero (cs.take (min cs.length m - p.length))
        else Except.ok p) with
    | error f =>
      split at hq
      next hlt => rw [if_pos hlt] at e; rw [hq] at e; cases e
      · cases hq
    | ok q =>
      have e' : q.fixLoop 0 (cs.take q.length) = .ok p' := by
        split at hq
        next hlt => rw [if_pos hlt, hq] at e; exact e
        next hlt => rw [if_neg hlt] at e; cases hq; exact e
      exact fixLoop_mem (fun c hcm => hc c (List.mem_of_mem_take hcm)) (key q hq) e'

end AnyFloat

/-! ### K-means -/

namespace Kmeans

theorem matchItem_pos {p : PalF ℝ} {n : Nearest ℝ} (hn : Nearest.new p = .ok n) (adjust : Bool) (x : HistItem ℝ)
    (h : 0 < x.adjustedWeight ∧ 0 ≤ x.perceptualWeight) : 0 < (matchItem n adjust x).1.adjustedWeight := by
  unfold matchItem
  dsimp only
  split
  · simp only [real_fma32, real_lit32, real_mul32, real_add32]
    have hlt := Nearest.search_lt hn x.color x.tmp
    obtain ⟨-, h2, -⟩ := Nearest.search_min hn
      (FPixel.sub ⟨x.color.a + x.color.a, x.color.r + x.color.r, x.color.g + x.color.g, x.color.b + x.color.b⟩
        (palColor n.palette (n.search x.color x.tmp).1)) (n.search x.color x.tmp).1 (Or.inl hlt)
    rw [h2]
    have hd := FPixel.diff_nonneg (FPixel.sub ⟨x.color.a + x.color.a, x.color.r + x.color.r, x.color.g + x.color.g,
      x.color.b + x.color.b⟩ (palColor n.palette (n.search x.color x.tmp).1)) (palColor p (n.search (FPixel.sub
      ⟨x.color.a + x.color.a, x.color.r + x.color.r, x.color.g + x.color.g,
      x.color.b + x.color.b⟩ (palColor n.palette (n.search x.color x.tmp).1)) (n.search x.color x.tmp).1).1)
    apply mul_pos
    · have := h.1; have := h.2; push_cast; linarith
    · push_cast; linarith
  · exact h.1

theorem finalizeEntry_mixes {P : FPixel ℝ → Prop} (hP : Mixes P) {items : List (HistItem ℝ)} {i : ℕ} {e : PalEntry ℝ}
    (he : P e.color) (h : ∀ x ∈ items, P x.color ∧ 0 ≤ x.adjustedWeight) :
    P (finalizeEntry (contrib items i) e).color := by
  unfold finalizeEntry
  split
  · exact he
  · dsimp only
    split
    next hc =>
      have hc1 := ((Bool.and_eq_true _ _).mp hc).1
      rw [contrib_sums] at hc1 ⊢
      simp only [real_lt, real_lit64, Rat.cast_zero] at hc1
      have := hP ((items.filter fun x => decide (x.tmp = i)).map fun x => (x.color, x.adjustedWeight)) (by
        intro y hy
        obtain ⟨x, hx, rfl⟩ := List.mem_map.1 hy
        exact h x (List.mem_filter.1 hx).1) (by simpa [List.map_map, Function.comp_def] using hc1)
      simpa [List.map_map, Function.comp_def] using this
    · exact he

theorem iteration_mixes {P : FPixel ℝ → Prop} (hP : Mixes P) {sched : List (List ℕ)} {hist hist' : HistogramInternal ℝ}
    {p p' : PalF ℝ} {adjust : Bool} {e : ℝ} (hs : SchedValid (numChunks hist.items.length) sched)
    (hw : NonnegWeights hist) (hi : ∀ x ∈ hist.items, P x.color) (hp : ∀ x ∈ p, P x.color)
    (h : iteration sched hist p adjust = .ok (hist', p', e)) :
    NonnegWeights hist' ∧ ((∀ x ∈ hist.items, 0 < x.adjustedWeight) → ∀ x ∈ hist'.items, 0 < x.adjustedWeight) ∧
    (∀ x ∈ hist'.items, P x.color) ∧ (∀ x ∈ p', P x.color) ∧
    hist'.fixedColors = hist.fixedColors ∧ hist'.clusters = hist.clusters ∧ hist'.items.length = hist.items.length := by
  by_cases hne : hist.items = []
  · unfold iteration at h
    rw [hne] at h
    cases h
    exact ⟨hw, id, hi, hp, rfl, rfl, rfl⟩
  · cases hn : Nearest.new p with
    | error f =>
      unfold iteration at h
      rw [if_neg (by simpa using hne), hn] at h
      cases h
    | ok n =>
      rw [iteration_eq adjust hne hn hs] at h
      cases hr : replaceUnused (finalizePalette (total n adjust p.length hist.items).averages p)
        (matched n adjust hist).items with
      | error f => rw [hr] at h; cases h
      | ok q =>
        rw [hr] at h
        cases h
        have hw' : NonnegWeights (matched n adjust hist) := by
          intro x hx
          obtain ⟨y, hy, rfl⟩ := List.mem_map.1 hx
          exact matchItem_weights hn adjust y (hw y hy)
        have hi' : ∀ x ∈ (matched n adjust hist).items, P x.color := by
          intro x hx
          obtain ⟨y, hy, rfl⟩ := List.mem_map.1 hx
          rw [(matchItem_color n adjust y).1]; exact hi y hy
        refine ⟨hw', ?_, hi', ?_, rfl, rfl, by simp [matched]⟩
        · intro hpos x hx
          obtain ⟨y, hy, rfl⟩ := List.mem_map.1 hx
          exact matchItem_pos hn adjust y ⟨hpos y hy, (hw y hy).2⟩
        intro x hx
        have hrep := replaceUnused_replaced _ _ _ hr
        obtain ⟨i, hil, rfl⟩ := List.getElem_of_mem hx
        have hip : i < p.length := by
          have := hrep.1; rw [(finalizePalette_keeps _ p).1] at this; omega
        have hfin := finalizePalette_get (total n adjust p.length hist.items).averages p (by simp [total]) i p[i]
          (List.getElem?_eq_getElem hip)
        rcases hrep.2 i _ hfin with h' | ⟨-, -, w, hwm, h'⟩
        · rw [List.getElem?_eq_getElem hil] at h'
          injection h' with h'
          rw [h']
          have hav : (total n adjust p.length hist.items).averages.getD i 0 =
              contrib (matched n adjust hist).items i := by
            simp [total, List.getD_eq_getElem?_getD, List.getElem?_range hip, matched]
          rw [hav]
          exact finalizeEntry_mixes hP (hp _ (List.getElem_mem hip)) (fun x hx => ⟨hi' x hx, (hw' x hx).1⟩)
        · rw [List.getElem?_eq_getElem hil] at h'
          injection h' with h'
          rw [h']
          exact hi' w hwm

end Kmeans

/-! ### The whole search -/

/-- Invariant of the working histogram: weightless items only if every item is a fixed colour. -/
structure MixHist (P : FPixel ℝ → Prop) (h : HistogramInternal ℝ) : Prop where
  tiled : h.Tiled
  pos : h.items ≠ []
  items : ∀ x ∈ h.items, P x.color
  fixed : ∀ c ∈ h.fixedColors, P c
  nonneg : Kmeans.NonnegWeights h
  weights : (∀ x ∈ h.items, 0 < x.adjustedWeight) ∨ h.items.length ≤ h.fixedColors.length

theorem mixHist_kept {P : FPixel ℝ → Prop} (hP : Mixes P) (env : Env ℝ) {m : ℕ} (hm : m ≤ 256) :
    Kept env m (MixHist P) (fun p => ∀ e ∈ p, P e.color) where
  cut := by
    intro h k a b pal h' pal2 hh hk hkm e1 e2
    obtain ⟨pal', h'', boxes, e1', c⟩ := mediancut_spec env.so h k a b hh.tiled (hkm.trans hm)
    rw [e1] at e1'
    simp only [Except.ok.injEq, Prod.mk.injEq] at e1'
    obtain ⟨rfl, rfl⟩ := e1'
    have hcore : ∀ x ∈ h'.items, ∃ y ∈ h.items, y.color = x.color ∧ y.adjustedWeight = x.adjustedWeight ∧
        y.perceptualWeight = x.perceptualWeight := by
      intro x hx
      have : x.core ∈ h.items.map HistItem.core := c.items_core.mem_iff.1 (List.mem_map_of_mem hx)
      obtain ⟨y, hy, he⟩ := List.mem_map.1 this
      simp only [HistItem.core, Prod.mk.injEq] at he
      exact ⟨y, hy, he⟩
    have hh' : MixHist P h' := by
      refine ⟨c.tiled hh.tiled, ?_, ?_, ?_, ?_, ?_⟩
      · apply List.ne_nil_of_length_pos; rw [c.items_len]; exact List.length_pos_iff.2 hh.pos
      · intro x hx
        obtain ⟨y, hy, h1, -⟩ := hcore x hx
        rw [← h1]; exact hh.items y hy
      · rw [c.fixed]; exact hh.fixed
      · intro x hx
        obtain ⟨y, hy, -, h1, h2⟩ := hcore x hx
        rw [← h1, ← h2]; exact hh.nonneg y hy
      · rw [c.items_len, c.fixed]
        refine hh.weights.imp_left ?_
        intro hw x hx
        obtain ⟨y, hy, -, h1, -⟩ := hcore x hx
        rw [← h1]; exact hw y hy
    refine ⟨hh', ?_⟩
    rcases hh.weights with hw | hw
    · have := mediancut_mixes hP env.so k a b hh.tiled hh.pos (fun x hx => ⟨hh.items x hx, hw x hx⟩) e1
      exact withFixedColors_mem hh'.fixed this e2
    · -- only fixed colours: every entry of the palette is one of them
      have hl := c.pal_len
      obtain ⟨pal2', e2', l2, f2⟩ := withFixedColors_spec pal m h'.fixedColors (by omega) hm
      rw [e2] at e2'
      cases e2'
      have hpl : pal.length ≤ h'.fixedColors.length := by
        rw [c.fixed]
        refine le_trans ?_ hw
        exact pal_le_items env.so k a b hh.tiled hh.pos e1
      intro x hx
      obtain ⟨i, hi, rfl⟩ := List.getElem_of_mem hx
      have hif : i < h'.fixedColors.length ∧ i < m := by omega
      obtain ⟨y, hy, hc, -⟩ := f2 i h'.fixedColors[i] (by
        rw [List.getElem?_take_of_lt hif.2]; exact List.getElem?_eq_getElem hif.1)
      rw [List.getElem?_eq_getElem hi] at hy
      cases hy
      rw [hc]; exact hh'.fixed _ (List.getElem_mem _)
  pass := by
    intro t h p adj h' p' e hh hp he
    obtain ⟨i1, i2, i3, i4, i5, i6, i7⟩ := Kmeans.iteration_mixes hP (env.sched_valid _ _) hh.nonneg hh.items hp he
    refine ⟨⟨?_, ?_, i3, by rw [i5]; exact hh.fixed, i1, ?_⟩, i4⟩
    · unfold HistogramInternal.Tiled; rw [i6, i7]; exact hh.tiled
    · apply List.ne_nil_of_length_pos; rw [i7]; exact List.length_pos_iff.2 hh.pos
    · rw [i5, i7]; exact hh.weights.imp_left i2

end Verif
