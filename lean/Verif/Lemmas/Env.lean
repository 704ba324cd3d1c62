import Verif.Model.Kmeans

/-! A concrete environment: hash collections iterate in insertion order, selection is a full sort, one worker thread
does all the chunks. It shows that the contracts of `HashOrder`, `SortOracle` and `Env` can be met. -/

set_option linter.unusedSectionVars false

namespace Verif

variable {F : Type} [Flt F]

def HashOrder.insertion : HashOrder := ⟨id, fun _ => List.Perm.refl _, id, fun _ => List.Perm.refl _⟩

theorem tmp_sorted (l : List (HistItem F)) :
    (l.mergeSort fun x y => decide (x.tmp ≤ y.tmp)).Pairwise fun x y => x.tmp ≤ y.tmp := by
  have := List.pairwise_mergeSort (le := fun x y : HistItem F => decide (x.tmp ≤ y.tmp))
    (by intro a b c h1 h2; simp at *; omega) (by intro a b; simp; omega) l
  exact this.imp (by intro a b h; simpa using h)

def SortOracle.fullSort : SortOracle F where
  selectNth l _ := l.mergeSort fun x y => decide (x.tmp ≤ y.tmp)
  selectNth_perm l _ := List.mergeSort_perm _ _
  selectNth_le := by
    intro l k i j x y hi hj hik hkj _
    obtain ⟨hi', rfl⟩ := List.getElem?_eq_some_iff.1 hi
    obtain ⟨hj', rfl⟩ := List.getElem?_eq_some_iff.1 hj
    rcases Nat.eq_or_lt_of_le (hik.trans hkj) with h | h
    · subst h; exact le_rfl
    · exact List.pairwise_iff_getElem.1 (tmp_sorted l) i j hi' hj' h
  sort3 key l := l.mergeSort fun x y => decide (key x ≤ key y)
  sort3_perm _ _ := List.mergeSort_perm _ _
  sort3_sorted key l := by
    have := List.pairwise_mergeSort (le := fun x y : ℕ => decide (key x ≤ key y))
      (by intro a b c h1 h2; simp at *; omega) (by intro a b; simp; omega) l
    exact this.imp (by intro a b h; simpa using h)

def Env.simple : Env F where
  ho := HashOrder.insertion
  so := SortOracle.fullSort
  sched _ n := if n = 0 then [] else [List.range n]
  sched_valid := by
    intro t n
    split
    next h => subst h; exact ⟨List.Perm.refl _, by simp⟩
    next h => exact ⟨by simp, by simp; omega⟩

instance : Inhabited (Env F) := ⟨Env.simple⟩

end Verif
