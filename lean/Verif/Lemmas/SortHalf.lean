import Verif.Lemmas.MedianCut

/-! # The weighted partial sort of median cut (`mediancut.rs:150-208`) -/

set_option linter.unusedSectionVars false
set_option linter.unusedVariables false

namespace Verif
open Flt

section
variable {F : Type} [Flt F]

theorem getElem?_swapAt_of_ne {α : Type} (l : List α) (i j k : ℕ) (hi : k ≠ i) (hj : k ≠ j) :
    (swapAt l i j)[k]? = l[k]? := by
  unfold swapAt
  split
  · rw [List.getElem?_set_ne (Ne.symm hj), List.getElem?_set_ne (Ne.symm hi)]
  · rfl

theorem getElem?_swapAt_right {α : Type} (l : List α) (i j : ℕ) (hi : i < l.length) (hj : j < l.length) :
    (swapAt l i j)[j]? = l[i]? := by
  unfold swapAt
  rw [List.getElem?_eq_getElem hi, List.getElem?_eq_getElem hj]
  simp [hj]

theorem getElem?_swapAt_left {α : Type} (l : List α) (i j : ℕ) (hi : i < l.length) (hj : j < l.length) :
    (swapAt l i j)[i]? = l[j]? := by
  by_cases e : i = j
  · subst e; exact getElem?_swapAt_right l i i hi hi
  · unfold swapAt
    rw [List.getElem?_eq_getElem hi, List.getElem?_eq_getElem hj]
    simp only
    rw [List.getElem?_set_ne (Ne.symm e)]
    simp [hi]

theorem scanDown_above (base : List (HistItem F)) (pivot l r : ℕ) (h : r < base.length) (i : ℕ) (x : HistItem F)
    (hx : base[i]? = some x) (h1 : scanDown base pivot l r h < i) (h2 : i ≤ r) : x.tmp ≤ pivot := by
  induction r with
  | zero =>
    have := scanDown_le base pivot l 0 h
    omega
  | succ n ih =>
    unfold scanDown at h1
    split at h1
    next hc =>
      by_cases e : i = n + 1
      · subst e
        rw [List.getElem?_eq_getElem h] at hx
        injection hx with hx
        rw [← hx]; exact hc.2
      · exact ih (by omega) h1 (by omega)
    next => omega

/-- invariant of the partition loop -/
structure Parts (base : List (HistItem F)) (pivot l r : ℕ) : Prop where
  low : ∀ i x, base[i]? = some x → 1 ≤ i → i < l → pivot ≤ x.tmp
  high : ∀ i x, base[i]? = some x → r ≤ i → x.tmp ≤ pivot

theorem partLoop_parts (base : List (HistItem F)) (pivot l r : ℕ) (h : r ≤ base.length) (h1 : 1 ≤ l) (hlr : l ≤ r)
    (hp : Parts base pivot l r) :
    Parts (partLoop base pivot l r h).1 pivot (partLoop base pivot l r h).2 (partLoop base pivot l r h).2 ∧
      (partLoop base pivot l r h).1[0]? = base[0]? := by
  fun_induction partLoop with
  | case1 base l r h hlt hge ih =>
    refine ih (by omega) (by omega) ⟨?_, hp.high⟩
    intro i x hx hi hil
    by_cases e : i = l
    · subst e
      rw [List.getElem?_eq_getElem (by omega)] at hx
      injection hx with hx; rw [← hx]; exact hge
    · exact hp.low i x hx hi (by omega)
  | case2 base l r h hlt hge hs ih =>
    set s := scanDown base pivot l (r - 1) (by omega) with hsdef
    have hls : l ≤ s := le_scanDown base pivot l (r - 1) (by omega) (by omega)
    have hsr : s ≤ r - 1 := hs
    have h2 := ih h1 hls ⟨?_, ?_⟩
    · refine ⟨h2.1, h2.2.trans ?_⟩
      exact getElem?_swapAt_of_ne _ _ _ _ (by omega) (by omega)
    · intro i x hx hi hil
      rw [getElem?_swapAt_of_ne _ _ _ _ (by omega) (by omega)] at hx
      exact hp.low i x hx hi hil
    · intro i x hx hi
      by_cases e : i = s
      · subst e
        rw [getElem?_swapAt_right _ _ _ (by omega) (by omega), List.getElem?_eq_getElem (by omega)] at hx
        injection hx with hx
        rw [← hx]; omega
      · rw [getElem?_swapAt_of_ne _ _ _ _ (by omega) e] at hx
        by_cases e2 : i ≤ r - 1
        · exact scanDown_above base pivot l (r - 1) (by omega) i x hx (by omega) e2
        · exact hp.high i x hx (by omega)
  | case3 base l r h hlt =>
    have : l = r := by omega
    subst this
    exact ⟨hp, rfl⟩

/-- A list cut around position `p`: nothing before `p` is below it, nothing after `p` above. -/
def Pivoted (l : List (HistItem F)) (p : ℕ) : Prop :=
  ∃ c, l[p]? = some c ∧ (∀ x ∈ l.take p, c.tmp ≤ x.tmp) ∧ ∀ x ∈ l.drop (p + 1), x.tmp ≤ c.tmp

theorem qsortPartition_pivoted (o : SortOracle F) (base : List (HistItem F)) (hne : base ≠ []) :
    Pivoted (qsortPartition o base).1 (qsortPartition o base).2 := by
  have hpos : 0 < base.length := List.length_pos_iff.2 hne
  have hlen := length_swapAt base (qsortPivot o base) 0
  set b := swapAt base (qsortPivot o base) 0 with hb
  obtain ⟨c, cs, hcs⟩ : ∃ c cs, b = c :: cs := by
    cases e : b with
    | nil => rw [e] at hlen; simp at hlen; omega
    | cons c cs => exact ⟨c, cs, rfl⟩
  have hq : qsortPartition o base =
      (swapAt (partLoop b c.tmp 1 b.length le_rfl).1 ((partLoop b c.tmp 1 b.length le_rfl).2 - 1) 0,
        (partLoop b c.tmp 1 b.length le_rfl).2 - 1) := by
    unfold qsortPartition
    simp only [← hb]
    clear_value b
    subst hcs
    rfl
  have hle := partLoop_le b c.tmp 1 b.length le_rfl (by omega)
  have hparts := partLoop_parts b c.tmp 1 b.length le_rfl le_rfl (by omega)
    ⟨fun i x _ h1 h2 => by omega, fun i x hx hi => by rw [List.getElem?_eq_none hi] at hx; cases hx⟩
  have hplen := partLoop_length b c.tmp 1 b.length le_rfl
  set q := partLoop b c.tmp 1 b.length le_rfl with hqd
  rw [hq]
  have h0 : q.1[0]? = some c := by rw [hparts.2, hcs]; rfl
  refine ⟨c, ?_, ?_, ?_⟩
  · show (swapAt q.1 (q.2 - 1) 0)[q.2 - 1]? = _
    rw [getElem?_swapAt_left _ _ _ (by omega) (by omega), h0]
  · intro x hx
    obtain ⟨i, hi⟩ := List.mem_iff_getElem?.1 hx
    have hip : i < q.2 - 1 := by
      by_contra hge
      rw [List.getElem?_take, if_neg hge] at hi; cases hi
    rw [List.getElem?_take, if_pos hip] at hi
    by_cases e : i = 0
    · subst e
      rw [getElem?_swapAt_right _ _ _ (by omega) (by omega)] at hi
      exact hparts.1.low _ x hi (by omega) (by omega)
    · rw [getElem?_swapAt_of_ne _ _ _ _ (by omega) e] at hi
      exact hparts.1.low _ x hi (by omega) (by omega)
  · intro x hx
    obtain ⟨i, hi⟩ := List.mem_iff_getElem?.1 hx
    rw [List.getElem?_drop] at hi
    rw [getElem?_swapAt_of_ne _ _ _ _ (by omega) (by omega)] at hi
    exact hparts.1.high _ x hi (by omega)

/-- the order of the halves: nothing in the first half sorts below anything in the second -/
theorem sortHalf_order (o : SortOracle F) (base : List (HistItem F)) (half : F) :
    ∀ x ∈ (sortHalf o base half).1.take (sortHalf o base half).2,
      ∀ y ∈ (sortHalf o base half).1.drop (sortHalf o base half).2, y.tmp ≤ x.tmp := by
  fun_induction sortHalf with
  | case1 half => simp
  | case2 base half hne parted p left leftSum hle hp => simp
  | case3 base half hne parted p left leftSum hle hp r ih =>
    obtain ⟨c, hc, h1, h2⟩ := qsortPartition_pivoted o base hne
    have hperm : r.1.Perm (parted.take p) := sortHalf_perm o _ _
    have hr : r.2 ≤ r.1.length := by rw [hperm.length_eq]; exact sortHalf_le o _ _
    intro x hx y hy
    simp only [List.take_append_of_le_length hr] at hx
    simp only [List.drop_append_of_le_length hr, List.mem_append] at hy
    have hxc : c.tmp ≤ x.tmp := h1 x (hperm.mem_iff.1 (List.mem_of_mem_take hx))
    rcases hy with hy | hy
    · exact ih x hx y hy
    · have hplt := qsortPartition_lt o base hne
      rw [← qsortPartition_length o base] at hplt
      rw [List.drop_eq_getElem_cons hplt, List.mem_cons] at hy
      rcases hy with rfl | hy
      · rw [List.getElem?_eq_getElem hplt] at hc
        injection hc with hc
        rw [← hc] at hxc; exact hxc
      · exact (h2 y hy).trans hxc
  | case4 base half hne parted p left right leftSum hle hr =>
    intro x hx y hy
    have : parted.drop (left.length) = [] := by
      rw [List.drop_eq_nil_iff] at hr ⊢
      show parted.length ≤ (parted.take (p + 1)).length
      rw [List.length_take]; omega
    change y ∈ parted.drop left.length at hy
    rw [this] at hy; cases hy
  | case5 base half hne parted p left right leftSum hle hr r ih =>
    obtain ⟨c, hc, h1, h2⟩ := qsortPartition_pivoted o base hne
    have hperm : r.1.Perm right := sortHalf_perm o _ _
    intro x hx y hy
    rw [List.take_length_add_append, List.mem_append] at hx
    rw [List.drop_length_add_append] at hy
    have hyc : y.tmp ≤ c.tmp := h2 y (hperm.mem_iff.1 (List.mem_of_mem_drop hy))
    rcases hx with hx | hx
    · have hx' : x ∈ parted.take (p + 1) := hx
      rw [List.take_add_one, List.mem_append] at hx'
      rcases hx' with hx' | hx'
      · exact hyc.trans (h1 x hx')
      · rw [hc] at hx'
        simp only [Option.toList_some, List.mem_singleton] at hx'
        rw [hx']; exact hyc
    · exact ih x hx y hy

end

/-- total of the splitting weights -/
noncomputable def mcSum (l : List (HistItem ℝ)) : ℝ := (l.map (·.mcColorWeight)).sum

theorem mcSum_append (a b : List (HistItem ℝ)) : mcSum (a ++ b) = mcSum a + mcSum b := by simp [mcSum]

theorem mcSum_perm {a b : List (HistItem ℝ)} (h : a.Perm b) : mcSum a = mcSum b := (h.map _).sum_eq

/-- exact: the first half is lighter than `half`, unless it is empty -/
theorem sortHalf_low (o : SortOracle ℝ) (base : List (HistItem ℝ)) (half : ℝ) (hk : (sortHalf o base half).2 ≠ 0) :
    mcSum ((sortHalf o base half).1.take (sortHalf o base half).2) < half := by
  fun_induction sortHalf with
  | case1 half => exact absurd rfl hk
  | case2 base half hne parted p left leftSum hle hp => exact absurd rfl hk
  | case3 base half hne parted p left leftSum hle hp r ih =>
    have hperm : r.1.Perm (parted.take p) := sortHalf_perm o _ _
    have hr : r.2 ≤ r.1.length := by rw [hperm.length_eq]; exact sortHalf_le o _ _
    rw [List.take_append_of_le_length hr]
    exact ih hk
  | case4 base half hne parted p left right leftSum hle hr =>
    have e : parted.take left.length = left := by
      show parted.take (parted.take (p + 1)).length = parted.take (p + 1)
      rw [List.length_take]
      by_cases h : p + 1 ≤ parted.length
      · rw [min_eq_left h]
      · rw [min_eq_right (by omega), List.take_of_length_le le_rfl, List.take_of_length_le (by omega)]
    rw [e]
    have hs : leftSum = mcSum left := sum64_real _
    have := hle
    rw [real_le, hs] at this
    exact lt_of_not_ge this
  | case5 base half hne parted p left right leftSum hle hr r ih =>
    rw [List.take_length_add_append, mcSum_append]
    have hs : leftSum = mcSum left := sum64_real _
    have h1 : mcSum left < half := by
      have := hle
      rw [real_le, hs] at this
      exact lt_of_not_ge this
    by_cases h0 : r.2 = 0
    · rw [h0, List.take_zero]; simpa [mcSum] using h1
    · have h3 : mcSum (r.1.take r.2) < half - leftSum := ih h0
      rw [hs] at h3
      linarith

/-- exact: with the next item the first half is at least as heavy as `half`; that item sorts highest in the rest -/
theorem sortHalf_high (o : SortOracle ℝ) (base : List (HistItem ℝ)) (half : ℝ)
    (hk : (sortHalf o base half).2 < base.length) :
    ∃ x, (sortHalf o base half).1[(sortHalf o base half).2]? = some x ∧
      half ≤ mcSum ((sortHalf o base half).1.take (sortHalf o base half).2) + x.mcColorWeight ∧
      ∀ y ∈ (sortHalf o base half).1.drop (sortHalf o base half).2, y.tmp ≤ x.tmp := by
  have hpiv := fun (base : List (HistItem ℝ)) (hne : base ≠ []) (c : HistItem ℝ)
      (hc : (qsortPartition o base).1[(qsortPartition o base).2]? = some c) =>
    show (qsortPartition o base).1.drop (qsortPartition o base).2 =
        c :: (qsortPartition o base).1.drop ((qsortPartition o base).2 + 1) by
      obtain ⟨h, e⟩ := List.getElem?_eq_some_iff.1 hc
      rw [List.drop_eq_getElem_cons h, e]
  fun_induction sortHalf with
  | case1 half => simp at hk
  | case2 base half hne parted p left leftSum hle hp =>
    obtain ⟨c, hc, h1, h2⟩ := qsortPartition_pivoted o base hne
    have hd := hpiv base hne c hc
    change parted[p]? = some c at hc
    change parted.drop p = _ at hd
    rw [hp] at hc hd
    refine ⟨c, hc, ?_, ?_⟩
    · have hs : leftSum = mcSum left := sum64_real _
      have hl : left = [c] := by
        show parted.take (p + 1) = [c]
        rw [hp, List.take_add_one, hc]; rfl
      have := hle
      rw [real_le, hs, hl] at this
      simpa [mcSum] using this
    · intro y hy
      rw [hd, List.mem_cons] at hy
      rcases hy with rfl | hy
      · exact le_rfl
      · exact h2 y hy
  | case3 base half hne parted p left leftSum hle hp r ih =>
    obtain ⟨c, hc, h1, h2⟩ := qsortPartition_pivoted o base hne
    have hd := hpiv base hne c hc
    change parted[p]? = some c at hc
    change parted.drop p = _ at hd
    have hperm : r.1.Perm (parted.take p) := sortHalf_perm o _ _
    have hplen : (parted.take p).length = p := by
      rw [List.length_take]
      have := (List.getElem?_eq_some_iff.1 hc).1
      omega
    have hr1 : r.1.length = p := by rw [hperm.length_eq, hplen]
    have hr : r.2 ≤ p := by rw [← hplen]; exact sortHalf_le o _ _
    by_cases hlt : r.2 < p
    · obtain ⟨x, hx, hw, hmax⟩ := ih (by rw [hplen]; exact hlt)
      have hx' : r.1[r.2]? = some x := hx
      refine ⟨x, ?_, ?_, ?_⟩
      · show (r.1 ++ parted.drop p)[r.2]? = some x
        rw [List.getElem?_append_left (by omega)]; exact hx
      · rw [List.take_append_of_le_length (by omega)]; exact hw
      · intro y hy
        rw [List.drop_append_of_le_length (by omega), List.mem_append] at hy
        rcases hy with hy | hy
        · exact hmax y hy
        · have hxc : c.tmp ≤ x.tmp := h1 x (hperm.mem_iff.1 (List.mem_of_getElem? hx'))
          rw [hd, List.mem_cons] at hy
          rcases hy with rfl | hy
          · exact hxc
          · exact (h2 y hy).trans hxc
    · have e : r.2 = p := by omega
      refine ⟨c, ?_, ?_, ?_⟩
      · show (r.1 ++ parted.drop p)[r.2]? = some c
        rw [List.getElem?_append_right (by omega), hr1, e, Nat.sub_self, hd]; rfl
      · rw [List.take_append_of_le_length (by omega), e, ← hr1, List.take_length, mcSum_perm hperm]
        have hs : leftSum = mcSum left := sum64_real _
        have hl : left = parted.take p ++ [c] := by
          show parted.take (p + 1) = _
          rw [List.take_add_one, hc]; rfl
        have := hle
        rw [real_le, hs, hl, mcSum_append] at this
        simpa [mcSum] using this
      · intro y hy
        rw [List.drop_append_of_le_length (by omega), e, ← hr1, List.drop_length, hr1, List.nil_append, hd,
          List.mem_cons] at hy
        rcases hy with rfl | hy
        · exact le_rfl
        · exact h2 y hy
  | case4 base half hne parted p left right leftSum hle hr =>
    exfalso
    have h1 := qsortPartition_length o base
    have h2 : left.length + right.length = base.length := by
      rw [← h1, ← List.length_append, List.take_append_drop]
    rw [hr] at h2
    simp only [List.length_nil, Nat.add_zero] at h2
    change left.length < _ at hk
    omega
  | case5 base half hne parted p left right leftSum hle hr r ih =>
    have h1 := qsortPartition_length o base
    have h2 : left.length + right.length = base.length := by
      rw [← h1, ← List.length_append, List.take_append_drop]
    change left.length + r.2 < _ at hk
    obtain ⟨x, hx, hw, hmax⟩ := ih (by show r.2 < right.length; omega)
    refine ⟨x, ?_, ?_, ?_⟩
    · show (left ++ r.1)[left.length + r.2]? = some x
      rw [List.getElem?_append_right (by omega), Nat.add_sub_cancel_left]; exact hx
    · rw [List.take_length_add_append, mcSum_append]
      have hs : leftSum = mcSum left := sum64_real _
      have h3 : half - leftSum ≤ mcSum (r.1.take r.2) + x.mcColorWeight := hw
      rw [hs] at h3
      linarith
    · rw [List.drop_length_add_append]; exact hmax

end Verif
