import Verif.Model.Pal
import Mathlib.Data.List.Perm.Basic
import Mathlib.Data.List.Sort

/-! Generic list lemmas: swaps, stable sort, min/max by key. -/

namespace Verif
open Flt

section swap
variable {α : Type}

theorem swapAt_perm (l : List α) (i j : ℕ) : (swapAt l i j).Perm l := by
  unfold swapAt
  split
  next x y hx hy =>
    rw [List.getElem?_eq_some_iff] at hx hy
    obtain ⟨hi, rfl⟩ := hx
    obtain ⟨hj, rfl⟩ := hy
    classical
    rw [List.perm_iff_count]
    intro a
    by_cases hij : i = j
    · subst hij; simp
    · rw [List.count_set (by simpa using hj), List.count_set hi, List.getElem_set_ne hij]
      have h1 : 0 < l.count l[i] := List.count_pos_iff.2 (List.getElem_mem hi)
      by_cases e1 : l[i] = a
      · by_cases e2 : l[j] = a
        · have := h1; rw [e1] at this; simp [e1, e2]; omega
        · have := h1; rw [e1] at this; simp [e1, e2]; omega
      · by_cases e2 : l[j] = a
        · simp [e1, e2]
        · simp [e1, e2]
  next => exact List.Perm.refl _

end swap

variable {F : Type} [Flt F]

theorem sortByKey_perm {α : Type} (key : α → F) (l : List α) : (sortByKey key l).Perm l :=
  List.mergeSort_perm _ _

theorem length_sortByKey {α : Type} (key : α → F) (l : List α) :
    (sortByKey key l).length = l.length := (sortByKey_perm key l).length_eq

theorem sortByKey_pairwise_real {α : Type} (key : α → ℝ) (l : List α) :
    (sortByKey key l).Pairwise (fun x y => key x ≤ key y) := by
  have h := List.pairwise_mergeSort (le := fun x y => !Flt.lt (key y) (key x))
    (by intro a b c h1 h2; simp at *; linarith)
    (by intro a b; simp; exact le_total _ _) l
  refine h.imp ?_
  intro a b hab
  simpa using hab

private theorem foldl_pick_mem {α : Type} (f : α → α → Bool) (l : List α) (x : α) :
    (l.foldl (fun best y => if f best y then y else best) x) ∈ x :: l := by
  induction l generalizing x with
  | nil => simp
  | cons y ys ih =>
    simp only [List.foldl_cons]
    have := ih (if f x y = true then y else x)
    rcases List.mem_cons.1 this with h | h
    · rw [h]; split <;> simp
    · simp [h]

theorem minByKey_mem {α : Type} (key : α → F) {l : List α} {x : α} (h : minByKey key l = some x) :
    x ∈ l := by
  cases l with
  | nil => simp [minByKey] at h
  | cons y ys =>
    simp only [minByKey, Option.some.injEq] at h
    rw [← h]
    exact foldl_pick_mem (fun best y => lt (key y) (key best)) ys y

theorem minByKey_isSome {α : Type} (key : α → F) {l : List α} (h : l ≠ []) :
    ∃ x, minByKey key l = some x := by
  cases l with
  | nil => simp at h
  | cons y ys => exact ⟨_, rfl⟩

theorem maxByKey_mem {α : Type} (key : α → F) {l : List α} {x : α} (h : maxByKey key l = some x) :
    x ∈ l := by
  cases l with
  | nil => simp [maxByKey] at h
  | cons y ys =>
    simp only [maxByKey, Option.some.injEq] at h
    rw [← h]
    have e : (fun best y => if lt (key y) (key best) = true then best else y) =
        fun best y => if (!lt (key y) (key best)) = true then y else best := by
      funext a b; cases lt (key b) (key a) <;> simp
    rw [e]
    exact foldl_pick_mem (fun best y => !lt (key y) (key best)) ys y

end Verif
