import Verif.Model.MedianCut
import Verif.Lemmas.Basic
import Mathlib.Tactic.Linarith

/-! Median cut keeps the colours, and splits make progress. -/

set_option linter.unusedSectionVars false

namespace Verif
open Flt

section AnyFloat
variable {F : Type} [Flt F]

/-- the part of a histogram item that median cut does not overwrite -/
def HistItem.core (x : HistItem F) : FPixel F × F × F := (x.color, x.adjustedWeight, x.perceptualWeight)

theorem partLoop_perm (base : List (HistItem F)) (pivot l r : ℕ) (h : r ≤ base.length) :
    (partLoop base pivot l r h).1.Perm base := by
  fun_induction partLoop with
  | case1 base l r h hlt hp ih => exact ih
  | case2 base l r h hlt hp _ ih => exact ih.trans (swapAt_perm _ _ _)
  | case3 base l r h hlt => exact List.Perm.refl _

theorem qsortPartition_perm (o : SortOracle F) (base : List (HistItem F)) :
    (qsortPartition o base).1.Perm base := by
  simp only [qsortPartition]
  exact (swapAt_perm _ _ _).trans ((partLoop_perm _ _ _ _ _).trans (swapAt_perm _ _ _))

theorem sortHalf_perm (o : SortOracle F) (base : List (HistItem F)) (half : F) :
    (sortHalf o base half).1.Perm base := by
  fun_induction sortHalf with
  | case1 half => exact List.Perm.refl _
  | case2 base half hne parted p left leftSum hle hp => exact qsortPartition_perm o base
  | case3 base half hne parted p left leftSum hle hp r ih =>
    refine List.Perm.trans (List.Perm.append_right _ ih) ?_
    rw [List.take_append_drop]
    exact qsortPartition_perm o base
  | case4 base half hne parted p left right leftSum hle hr => exact qsortPartition_perm o base
  | case5 base half hne parted p left right leftSum hle hr r ih =>
    refine List.Perm.trans (List.Perm.append_left _ ih) ?_
    rw [List.take_append_drop]
    exact qsortPartition_perm o base

theorem sortHalf_le (o : SortOracle F) (base : List (HistItem F)) (half : F) :
    (sortHalf o base half).2 ≤ base.length := by
  fun_induction sortHalf with
  | case1 half => simp
  | case2 base half hne parted p left leftSum hle hp => simp
  | case3 base half hne parted p left leftSum hle hp r ih =>
    refine le_trans ih ?_
    rw [List.length_take]
    have := qsortPartition_length o base
    exact le_trans (min_le_right _ _) (le_of_eq this)
  | case4 base half hne parted p left right leftSum hle hr =>
    have := qsortPartition_length o base
    simp only [left, List.length_take]
    exact le_trans (min_le_right _ _) (le_of_eq this)
  | case5 base half hne parted p left right leftSum hle hr r ih =>
    have h1 := qsortPartition_length o base
    have h2 : left.length + right.length = base.length := by
      rw [← h1, ← List.length_append, List.take_append_drop]
    have h3 : r.2 ≤ right.length := ih
    show left.length + r.2 ≤ _
    omega

theorem colorWeights_core (o : SortOracle F) (l : List (HistItem F)) :
    ((MBox.colorWeights o l).map HistItem.core).Perm (l.map HistItem.core) := by
  simp only [MBox.colorWeights, List.map_map]
  have : (HistItem.core ∘ fun c : HistItem F => { c with
      mcColorWeight := sqrt32 ((match (o.selectNth l (l.length / 2))[(o.selectNth l (l.length / 2)).length / 2]? with
        | some c => c.color | none => FPixel.default).diff c.color) *₃ sqrt32 (lit32 1 +₃ c.adjustedWeight) })
      = HistItem.core := rfl
  exact (o.selectNth_perm l _).map _

theorem length_colorWeights (o : SortOracle F) (l : List (HistItem F)) :
    (MBox.colorWeights o l).length = l.length := by
  simp only [MBox.colorWeights, List.length_map]
  exact (o.selectNth_perm l _).length_eq

theorem prepareSort_core (b : MBox F) : b.prepareSort.map HistItem.core = b.colors.map HistItem.core := by
  simp only [MBox.prepareSort, List.map_map]; rfl

theorem length_prepareSort (b : MBox F) : b.prepareSort.length = b.colors.length := by
  simp [MBox.prepareSort]

@[simp] theorem newC_colors (s : ℕ) (h : List (HistItem F)) (w : F) (a : FPixel F) : (MBox.newC s h w a).colors = h := rfl
@[simp] theorem newC_start (s : ℕ) (h : List (HistItem F)) (w : F) (a : FPixel F) : (MBox.newC s h w a).start = s := rfl
@[simp] theorem newS_colors (s : ℕ) (h : List (HistItem F)) (w : F) (o : List (MBox F)) : (MBox.newS s h w o).colors = h := rfl
@[simp] theorem newS_start (s : ℕ) (h : List (HistItem F)) (w : F) (o : List (MBox F)) : (MBox.newS s h w o).start = s := rfl
@[simp] theorem new_colors (s : ℕ) (h : List (HistItem F)) : (MBox.new s h).colors = h := rfl
@[simp] theorem new_start (s : ℕ) (h : List (HistItem F)) : (MBox.new s h).start = s := rfl

/-- a split distributes the colours over the two halves -/
theorem split_perm (o : SortOracle F) (b : MBox F) (others : List (MBox F)) :
    (((b.split o others).1.colors ++ (b.split o others).2.colors).map HistItem.core).Perm
      (b.colors.map HistItem.core) := by
  simp only [MBox.split, newS_colors, List.take_append_drop]
  refine ((sortHalf_perm o _ _).map _).trans ?_
  refine (colorWeights_core o _).trans ?_
  rw [prepareSort_core]

theorem split_length (o : SortOracle F) (b : MBox F) (others : List (MBox F)) :
    (b.split o others).1.colors.length + (b.split o others).2.colors.length = b.colors.length := by
  have := (split_perm o b others).length_eq
  simpa using this

theorem split_left_pos (o : SortOracle F) (b : MBox F) (others : List (MBox F)) (h : b.colors ≠ []) :
    (b.split o others).1.colors ≠ [] := by
  have hl : (sortHalf o (MBox.colorWeights o b.prepareSort)
    (sum64 ((MBox.colorWeights o b.prepareSort).map (·.mcColorWeight)) /₆ lit64 2)).1.length = b.colors.length := by
    rw [(sortHalf_perm o _ _).length_eq, length_colorWeights, length_prepareSort]
  have hpos := List.length_pos_iff.2 h
  apply List.ne_nil_of_length_pos
  simp only [MBox.split, newS_colors, List.length_take]
  omega

theorem errorsFrom_colors (target total : F) (l : List (MBox F)) :
    (errorsFrom target total l).2.map (fun b => (b.start, b.colors, b.avgColor)) =
      l.map (fun b => (b.start, b.colors, b.avgColor)) := by
  induction l generalizing total with
  | nil => rfl
  | cons b bs ih =>
    unfold errorsFrom
    split
    · simp [ih]
    · dsimp only; split <;> simp [ih]

theorem belowTarget_colors (boxes : List (MBox F)) (w t : F) :
    (totalBoxErrorBelowTarget boxes w t).2.map (fun b => (b.start, b.colors, b.avgColor)) =
      boxes.map (fun b => (b.start, b.colors, b.avgColor)) := by
  unfold totalBoxErrorBelowTarget
  dsimp only
  split
  · rfl
  · exact errorsFrom_colors ..

theorem swapRemove_perm {α : Type} {l : List α} {i : ℕ} {b : α} (h : l[i]? = some b) :
    (b :: swapRemove l i).Perm l := by
  obtain ⟨hi, hb⟩ := List.getElem?_eq_some_iff.1 h
  have hne : l ≠ [] := by intro e; subst e; simp at hi
  unfold swapRemove
  rw [List.getLast?_eq_some_getLast hne]
  simp only
  rcases Nat.lt_or_ge i (l.length - 1) with hlt | hge
  · -- split l = a ++ b :: m ++ [x]
    have hd : l = l.dropLast ++ [l.getLast hne] := (List.dropLast_append_getLast hne).symm
    set x := l.getLast hne
    set d := l.dropLast with hdd
    have hil : i < d.length := by simp [hdd]; omega
    have hbd : d[i] = b := by
      rw [← hb]; simp [hdd]
    have : (l.set i x).dropLast = d.set i x := by
      conv_lhs => rw [hd]
      rw [List.set_append_left _ _ hil, List.dropLast_concat]
    rw [this]
    conv_rhs => rw [hd]
    have h2 : d = d.take i ++ b :: d.drop (i + 1) := by
      rw [← hbd, List.getElem_cons_drop, List.take_append_drop]
    have h3 : d.set i x = d.take i ++ x :: d.drop (i + 1) := List.set_eq_take_append_cons_drop .. ▸ by simp [hil]
    rw [h3]
    conv_rhs => rw [h2]
    have e1 : (b :: (d.take i ++ x :: d.drop (i + 1))).Perm (b :: x :: (d.take i ++ d.drop (i + 1))) :=
      List.Perm.cons _ List.perm_middle
    refine e1.trans ?_
    have e2 : (d.take i ++ b :: d.drop (i + 1) ++ [x]).Perm (x :: b :: (d.take i ++ d.drop (i + 1))) := by
      refine (List.perm_append_singleton x _).trans (List.Perm.cons _ List.perm_middle)
    exact (List.Perm.swap _ _ _).trans e2.symm
  · have hi2 : i = l.length - 1 := by omega
    subst hi2
    have hx : l.getLast hne = b := by rw [List.getLast_eq_getElem]; exact hb
    have : l.set (l.length - 1) (l.getLast hne) = l := by
      rw [hx, ← hb]; exact List.set_getElem_self hi
    rw [this]
    conv_rhs => rw [← List.dropLast_append_getLast hne, hx]
    exact (List.perm_append_singleton b _).symm

/-- all the colours of a list of boxes -/
def boxCores (boxes : List (MBox F)) : List (FPixel F × F × F) :=
  boxes.flatMap fun b => b.colors.map HistItem.core

theorem boxCores_congr {a b : List (MBox F)}
    (h : a.map (fun b => (b.start, b.colors, b.avgColor)) = b.map (fun b => (b.start, b.colors, b.avgColor))) :
    boxCores a = boxCores b := by
  have e : ∀ l : List (MBox F), boxCores l =
      (l.map (fun b => (b.start, b.colors, b.avgColor))).flatMap (fun x => x.2.1.map HistItem.core) := by
    intro l; simp [boxCores, List.flatMap_map]
  rw [e, e, h]

theorem boxCores_perm {a b : List (MBox F)} (h : a.Perm b) : (boxCores a).Perm (boxCores b) :=
  h.flatMap_right _

/-- the boxes after one split -/
def splitStep (o : SortOracle F) (boxes : List (MBox F)) (b : MBox F) (i : ℕ) : List (MBox F) :=
  swapRemove boxes i ++ [(b.split o (swapRemove boxes i)).1, (b.split o (swapRemove boxes i)).2]

/-- Induction principle for the loop: a property of box lists that ignores the cached errors and survives a
split holds at the end. -/
theorem cutLoop_induct (o : SortOracle F) (target : ℕ) (P : List (MBox F) → Prop)
    (hcongr : ∀ a b : List (MBox F), a.map (fun b => (b.start, b.colors, b.avgColor)) =
      b.map (fun b => (b.start, b.colors, b.avgColor)) → P a → P b)
    (hsplit : ∀ (boxes : List (MBox F)) b i, boxes.length < target → boxes[i]? = some b → 1 < b.colors.length →
      P boxes → P (splitStep o boxes b i))
    (hw tm mm : F) (boxes : List (MBox F)) (h : P boxes) : P (cutLoop o target hw tm mm boxes) := by
  fun_induction cutLoop with
  | case1 boxes hlt _ _ hnone => exact h
  | case2 boxes hlt _ _ b i hsome rest r boxes' e he =>
    obtain ⟨h1, h2⟩ := bestSplittable_some hsome
    exact hcongr _ _ (belowTarget_colors _ _ _).symm (hsplit boxes b i hlt h1 h2 h)
  | case3 boxes hlt _ _ b i hsome rest r boxes' e he ih =>
    obtain ⟨h1, h2⟩ := bestSplittable_some hsome
    exact ih (hcongr _ _ (belowTarget_colors _ _ _).symm (hsplit boxes b i hlt h1 h2 h))
  | case4 boxes hlt => exact h

theorem splitStep_cores (o : SortOracle F) (boxes : List (MBox F)) (b : MBox F) (i : ℕ) (h : boxes[i]? = some b) :
    (boxCores (splitStep o boxes b i)).Perm (boxCores boxes) := by
  have h1 := boxCores_perm (swapRemove_perm h)
  refine List.Perm.trans ?_ h1
  simp only [splitStep, boxCores, List.flatMap_append, List.flatMap_cons, List.flatMap_nil, List.append_nil]
  refine List.perm_append_comm.trans ?_
  apply List.Perm.append_right
  have := split_perm o b (swapRemove boxes i)
  rwa [List.map_append] at this

theorem length_splitStep (o : SortOracle F) (boxes : List (MBox F)) (b : MBox F) (i : ℕ) (h : boxes[i]? = some b) :
    (splitStep o boxes b i).length = boxes.length + 1 := by
  have h1 := (swapRemove_perm h).length_eq
  simp [splitStep] at h1 ⊢; omega

theorem cutLoop_cores (o : SortOracle F) (target : ℕ) (hw tm mm : F) (boxes : List (MBox F)) :
    (boxCores (cutLoop o target hw tm mm boxes)).Perm (boxCores boxes) := by
  apply cutLoop_induct o target (fun l => (boxCores l).Perm (boxCores boxes))
  · intro a b h hp; rwa [← boxCores_congr h]
  · intro l b i _ hb _ hp; exact (splitStep_cores o l b i hb).trans hp
  · exact List.Perm.refl _

theorem cutLoop_length (o : SortOracle F) (target : ℕ) (hw tm mm : F) (boxes : List (MBox F)) :
    boxes.length ≤ (cutLoop o target hw tm mm boxes).length ∧
    (cutLoop o target hw tm mm boxes).length ≤ max boxes.length target := by
  apply cutLoop_induct o target (fun l => boxes.length ≤ l.length ∧ l.length ≤ max boxes.length target)
  · intro a b h hp
    have : a.length = b.length := by simpa using congrArg List.length h
    rwa [← this]
  · intro l b i hlt hb _ hp; rw [length_splitStep o l b i hb]; omega
  · exact ⟨le_rfl, le_max_left _ _⟩

end AnyFloat

/-! ### Exact arithmetic: no empty halves -/

theorem sum64_real (l : List ℝ) : sum64 l = l.sum := by
  unfold sum64
  rw [List.sum_eq_foldl]
  simp only [real_lit64]
  congr 1
  simp

theorem sortHalf_lt_real (o : SortOracle ℝ) (base : List (HistItem ℝ)) (half : ℝ) (hne : base ≠ [])
    (hw : half ≤ (base.map (·.mcColorWeight)).sum) :
    (sortHalf o base half).2 < base.length := by
  fun_induction sortHalf with
  | case1 half => exact absurd rfl hne
  | case2 base half hne' parted p left leftSum hle hp => exact List.length_pos_iff.2 hne
  | case3 base half hne' parted p left leftSum hle hp r ih =>
    have h1 := qsortPartition_lt o base hne
    have h2 := qsortPartition_length o base
    have h3 : r.2 ≤ (parted.take p).length := sortHalf_le o (parted.take p) half
    have h4 : (parted.take p).length ≤ p := List.length_take_le _ _
    have h5 : p < base.length := h1
    show r.2 < _
    omega
  | case4 base half hne' parted p left right leftSum hle hr =>
    exfalso
    apply hle
    have hperm := (qsortPartition_perm o base)
    have hl : left = parted := by
      have := List.take_append_drop (p + 1) parted
      rw [show List.drop (p + 1) parted = [] from hr, List.append_nil] at this
      exact this
    show le half (sum64 (left.map (·.mcColorWeight))) = true
    rw [real_le, sum64_real, hl, (hperm.map _).sum_eq]
    exact hw
  | case5 base half hne' parted p left right leftSum hle hr r ih =>
    have h1 := qsortPartition_length o base
    have h2 : left.length + right.length = base.length := by
      rw [← h1, ← List.length_append, List.take_append_drop]
    have hsum : (left.map (·.mcColorWeight)).sum + (right.map (·.mcColorWeight)).sum =
        (base.map (·.mcColorWeight)).sum := by
      rw [← List.sum_append, ← List.map_append, List.take_append_drop]
      exact ((qsortPartition_perm o base).map _).sum_eq
    have : r.2 < right.length := by
      apply ih hr
      have e : leftSum = (left.map (·.mcColorWeight)).sum := sum64_real _
      rw [real_sub64, e]
      linarith
    show left.length + r.2 < _
    omega

theorem colorWeights_nonneg (o : SortOracle ℝ) (l : List (HistItem ℝ)) :
    ∀ x ∈ MBox.colorWeights o l, 0 ≤ x.mcColorWeight := by
  intro x hx
  simp only [MBox.colorWeights, List.mem_map] at hx
  obtain ⟨c, -, rfl⟩ := hx
  simp only [real_sqrt32, real_mul32]
  exact mul_nonneg (Real.sqrt_nonneg _) (Real.sqrt_nonneg _)

/-- exact: both halves of a split of a box with at least two colours are non-empty -/
theorem split_right_pos (o : SortOracle ℝ) (b : MBox ℝ) (others : List (MBox ℝ)) (h : 1 < b.colors.length) :
    (b.split o others).2.colors ≠ [] := by
  set cw := MBox.colorWeights o b.prepareSort with hcw
  have hlen : cw.length = b.colors.length := by rw [hcw, length_colorWeights, length_prepareSort]
  have hne : cw ≠ [] := List.ne_nil_of_length_pos (by omega)
  have hnn : 0 ≤ (cw.map (·.mcColorWeight)).sum := by
    apply List.sum_nonneg
    intro x hx
    obtain ⟨c, hc, rfl⟩ := List.mem_map.1 hx
    exact colorWeights_nonneg o _ c hc
  have hlt := sortHalf_lt_real o cw (sum64 (cw.map (·.mcColorWeight)) /₆ lit64 2) hne (by
    rw [sum64_real, real_div64, real_lit64]; push_cast; linarith)
  have hl : (sortHalf o cw (sum64 (cw.map (·.mcColorWeight)) /₆ lit64 2)).1.length = b.colors.length := by
    rw [(sortHalf_perm o _ _).length_eq, hlen]
  apply List.ne_nil_of_length_pos
  simp only [MBox.split, newS_colors, List.length_drop, ← hcw]
  omega

end Verif
