import Verif.Model.Kmeans
import Verif.Lemmas.NearestSearch
import Verif.Lemmas.Fixed
import Verif.Lemmas.MedianCutResult

/-! Structure of one k-means pass, for any float arithmetic. -/

set_option linter.unusedSectionVars false

namespace Verif
open Flt

variable {F : Type} [Flt F]

/-- Same length, and the entries marked as fixed are unchanged. -/
def KeepsFixed (p p' : PalF F) : Prop :=
  p'.length = p.length ∧ ∀ (i : ℕ) (e : PalEntry F), p[i]? = some e → e.pop.isFixed = true → p'[i]? = some e

theorem KeepsFixed.refl (p : PalF F) : KeepsFixed p p := ⟨rfl, fun _ _ h _ => h⟩

theorem KeepsFixed.trans {p q r : PalF F} (h1 : KeepsFixed p q) (h2 : KeepsFixed q r) : KeepsFixed p r :=
  ⟨h2.1.trans h1.1, fun i e h hf => h2.2 i e (h1.2 i e h hf) hf⟩

theorem FixedPrefix.keep {fs : List (FPixel F)} {p p' : PalF F} (h : FixedPrefix fs p) (k : KeepsFixed p p') :
    FixedPrefix fs p' := by
  intro i c hi
  obtain ⟨e, he, hc, hf⟩ := h i c hi
  exact ⟨e, k.2 i e he hf, hc, hf⟩

namespace Kmeans

theorem finalizePalette_keeps (as : List (ColorAvg F)) (p : PalF F) : KeepsFixed p (finalizePalette as p) := by
  induction as generalizing p with
  | nil => cases p <;> exact KeepsFixed.refl _
  | cons a as ih =>
    cases p with
    | nil => exact KeepsFixed.refl _
    | cons e es =>
      have := ih es
      refine ⟨by simp [finalizePalette, this.1], ?_⟩
      intro i x hx hf
      cases i with
      | zero =>
        simp at hx
        subst hx
        simp [finalizePalette, finalizeEntry, hf]
      | succ i =>
        simp at hx
        simpa [finalizePalette] using this.2 i x hx hf

theorem replaceUnusedAt_ok (p : PalF F) (items : List (HistItem F)) (i : ℕ) (hi : i < p.length) (hp : p.length ≤ 256) :
    ∃ p', replaceUnusedAt p items i = .ok p' ∧ KeepsFixed p p' := by
  unfold replaceUnusedAt
  rw [List.getElem?_eq_getElem hi]
  simp only
  split
  next hc =>
    obtain ⟨n, hn⟩ := Nearest.new_of_len (p := p) (by omega) hp
    rw [hn]
    show ∃ p', (match (items.foldl (worstStep n p) (none, lit32 0)).1 with
      | some w => .ok (p.set i ⟨w.color, PalPop.new w.adjustedWeight⟩)
      | none => .ok p) = Except.ok p' ∧ _
    cases (items.foldl (worstStep n p) (none, lit32 0)).1 with
    | none => exact ⟨p, rfl, KeepsFixed.refl _⟩
    | some w =>
      refine ⟨_, rfl, by simp, ?_⟩
      intro j e he hf
      by_cases hij : i = j
      · subst hij
        rw [List.getElem?_eq_getElem hi] at he
        cases he
        simp [hf] at hc
      · rw [List.getElem?_set_ne hij]; exact he
  · exact ⟨p, rfl, KeepsFixed.refl _⟩

theorem replaceUnused_ok (p : PalF F) (items : List (HistItem F)) (hp : p.length ≤ 256) :
    ∃ p', replaceUnused p items = .ok p' ∧ KeepsFixed p p' := by
  unfold replaceUnused
  have : ∀ (l : List ℕ) (q : PalF F), (∀ i ∈ l, i < p.length) → KeepsFixed p q →
      ∃ p', l.foldlM (fun p i => replaceUnusedAt p items i) q = .ok p' ∧ KeepsFixed p p' := by
    intro l
    induction l with
    | nil => intro q _ hq; exact ⟨q, rfl, hq⟩
    | cons i l ih =>
      intro q hl hq
      obtain ⟨q', e1, k1⟩ := replaceUnusedAt_ok q items i (by rw [hq.1]; exact hl i (by simp)) (by rw [hq.1]; exact hp)
      rw [List.foldlM_cons, e1]
      exact ih q' (fun j hj => hl j (by simp [hj])) (hq.trans k1)
  exact this _ _ (by simp) (KeepsFixed.refl p)

theorem matchItem_color (n : Nearest F) (adjust : Bool) (x : HistItem F) :
    (matchItem n adjust x).1.color = x.color ∧ (matchItem n adjust x).1.perceptualWeight = x.perceptualWeight := by
  unfold matchItem
  dsimp only
  split <;> exact ⟨rfl, rfl⟩

theorem matchItem_tmp (n : Nearest F) (adjust : Bool) (x : HistItem F) :
    (matchItem n adjust x).1.tmp = (n.search x.color x.tmp).1 := by
  unfold matchItem
  dsimp only
  split <;> rfl

/-- Effect of a k-means pass on the histogram: colours and perceptual weights stay, in place. -/
structure SameColors (h h' : HistogramInternal F) : Prop where
  items : h'.items.map (fun x => (x.color, x.perceptualWeight)) = h.items.map (fun x => (x.color, x.perceptualWeight))
  rest : h' = { h with items := h'.items }

theorem SameColors.refl (h : HistogramInternal F) : SameColors h h := ⟨rfl, rfl⟩

theorem SameColors.len {h h' : HistogramInternal F} (s : SameColors h h') : h'.items.length = h.items.length := by
  simpa using congrArg List.length s.items

theorem SameColors.tiled {h h' : HistogramInternal F} (s : SameColors h h') (ht : h.Tiled) : h'.Tiled := by
  unfold HistogramInternal.Tiled at *
  rw [s.len, s.rest]; exact ht

theorem SameColors.fixed {h h' : HistogramInternal F} (s : SameColors h h') : h'.fixedColors = h.fixedColors := by
  rw [s.rest]

theorem iteration_ok (sched : List (List ℕ)) (hist : HistogramInternal F) (p : PalF F) (adjust : Bool)
    (h0 : p ≠ []) (hp : p.length ≤ 256) :
    ∃ hist' p' e, iteration sched hist p adjust = .ok (hist', p', e) ∧ KeepsFixed p p' ∧ SameColors hist hist' ∧
      ∀ x ∈ hist'.items, x.tmp < p.length := by
  unfold iteration
  split
  next he =>
    refine ⟨_, _, _, rfl, KeepsFixed.refl _, SameColors.refl _, ?_⟩
    rw [List.isEmpty_iff.1 he]; simp
  · obtain ⟨n, hn⟩ := Nearest.new_of_len (p := p) (List.length_pos_iff.2 h0) hp
    rw [hn]
    have hs : SameColors hist { hist with items := hist.items.map fun x => (matchItem n adjust x).1 } := by
      refine ⟨?_, rfl⟩
      simp only [List.map_map]
      apply List.map_congr_left
      intro x _
      exact Prod.ext (matchItem_color n adjust x).1 (matchItem_color n adjust x).2
    have ht : ∀ x ∈ hist.items.map (fun x => (matchItem n adjust x).1), x.tmp < p.length := by
      intro x hx
      obtain ⟨y, -, rfl⟩ := List.mem_map.1 hx
      rw [matchItem_tmp]
      exact Nearest.search_lt hn _ _
    show ∃ hist' p' e, (do
      let (p', diff) := match reduceWorkers (sched.map (worker n adjust p.length hist.items)) with
        | some k => (finalizePalette k.averages p, k.weighedDiffSum /₆ hist.totalPerceptualWeight)
        | none => (p, lit64 0)
      let p'' ← replaceUnused p' (hist.items.map fun x => (matchItem n adjust x).1)
      return (({ hist with items := hist.items.map fun x => (matchItem n adjust x).1 } : HistogramInternal F), p'', diff))
        = Except.ok (hist', p', e) ∧ _
    cases reduceWorkers (sched.map (worker n adjust p.length hist.items)) with
    | none =>
      obtain ⟨q, hq, kq⟩ := replaceUnused_ok p (hist.items.map fun x => (matchItem n adjust x).1) hp
      refine ⟨_, q, lit64 0, ?_, kq, hs, ht⟩
      simp only [hq]; rfl
    | some k =>
      have kf := finalizePalette_keeps k.averages p
      obtain ⟨q, hq, kq⟩ := replaceUnused_ok (finalizePalette k.averages p)
        (hist.items.map fun x => (matchItem n adjust x).1) (by rw [kf.1]; exact hp)
      refine ⟨_, q, k.weighedDiffSum /₆ hist.totalPerceptualWeight, ?_, kf.trans kq, hs, ht⟩
      simp only [hq]; rfl

end Kmeans
end Verif
