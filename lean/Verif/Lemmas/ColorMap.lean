import Verif.Model.Hist
import Mathlib.Algebra.BigOperators.Group.List.Basic
import Mathlib.Algebra.Order.BigOperators.Group.List

/-! The hash map of colours as an association list. -/

set_option linter.unusedSectionVars false

namespace Verif
open Flt

namespace ColorMap

/-- the value stored under a key -/
def get (m : ColorMap) (k : RGBA) : Option (ℕ × RGBA) := (m.find? fun e => decide (e.1 = k)).map (·.2)

/-- the keys are distinct, as in a hash map -/
def Distinct (m : ColorMap) : Prop := (m.map (·.1)).Nodup

theorem get_nil (k : RGBA) : get [] k = none := rfl

theorem get_cons (k' : RGBA) (v : ℕ × RGBA) (m : ColorMap) (k : RGBA) :
    get ((k', v) :: m) k = if k' = k then some v else get m k := by
  unfold get
  by_cases h : k' = k <;> simp [h]

theorem get_upsert (m : ColorMap) (k : RGBA) (f : Option (ℕ × RGBA) → ℕ × RGBA) (j : RGBA) :
    get (upsert m k f) j = if k = j then some (f (get m k)) else get m j := by
  induction m with
  | nil => simp only [upsert, get_cons, get_nil]
  | cons x m ih =>
    obtain ⟨k', v⟩ := x
    simp only [upsert]
    by_cases h1 : k' = k
    · subst h1
      rw [if_pos rfl]
      simp only [get_cons]
      split <;> simp_all
    · rw [if_neg h1]
      simp only [get_cons]
      by_cases h2 : k = j
      · subst h2; rw [if_neg h1, if_neg h1, ih]
      · rw [ih, if_neg h2, if_neg h2]

theorem upsert_keys (m : ColorMap) (k : RGBA) (f : Option (ℕ × RGBA) → ℕ × RGBA) :
    (upsert m k f).map (·.1) = if k ∈ m.map (·.1) then m.map (·.1) else m.map (·.1) ++ [k] := by
  induction m with
  | nil => simp [upsert]
  | cons x m ih =>
    obtain ⟨k', v⟩ := x
    simp only [upsert]
    by_cases h1 : k' = k
    · subst h1; simp
    · rw [if_neg h1, List.map_cons, ih]
      have : k ≠ k' := fun h => h1 h.symm
      simp only [List.map_cons, List.mem_cons, this, false_or]
      split <;> simp

theorem Distinct.upsert {m : ColorMap} (h : Distinct m) (k : RGBA) (f : Option (ℕ × RGBA) → ℕ × RGBA) :
    Distinct (upsert m k f) := by
  unfold Distinct
  rw [upsert_keys]
  split
  · exact h
  next hk => exact List.nodup_append.2 ⟨h, by simp, by
      intro a ha b hb; simp at hb; subst hb; rintro rfl; exact hk ha⟩

theorem mem_of_get {m : ColorMap} {k : RGBA} {v : ℕ × RGBA} (h : get m k = some v) : (k, v) ∈ m := by
  induction m with
  | nil => simp [get_nil] at h
  | cons x m ih =>
    obtain ⟨k', v'⟩ := x
    rw [get_cons] at h
    split at h
    next e => cases h; subst e; simp
    · exact List.mem_cons_of_mem _ (ih h)

theorem get_of_mem {m : ColorMap} (hd : Distinct m) {k : RGBA} {v : ℕ × RGBA} (h : (k, v) ∈ m) : get m k = some v := by
  induction m with
  | nil => simp at h
  | cons x m ih =>
    obtain ⟨k', v'⟩ := x
    rw [get_cons]
    simp only [Distinct, List.map_cons, List.nodup_cons] at hd
    rcases List.mem_cons.1 h with h | h
    · cases h; simp
    · rw [if_neg]
      · exact ih hd.2 h
      · rintro rfl; exact hd.1 (List.mem_map.2 ⟨_, h, rfl⟩)

theorem get_isSome {m : ColorMap} {k : RGBA} : (get m k).isSome = true ↔ k ∈ m.map (·.1) := by
  induction m with
  | nil => simp [get_nil]
  | cons x m ih =>
    obtain ⟨k', v'⟩ := x
    rw [get_cons]
    by_cases h : k' = k
    · simp [h]
    · rw [if_neg h, ih]
      have : k ≠ k' := fun e => h e.symm
      simp [this]

/-- two maps with the same contents are permutations of each other -/
theorem perm_of_get {m m' : ColorMap} (hd : Distinct m) (hd' : Distinct m') (h : ∀ k, get m k = get m' k) : m.Perm m' := by
  have n1 : m.Nodup := List.Nodup.of_map _ hd
  have n2 : m'.Nodup := List.Nodup.of_map _ hd'
  rw [List.perm_ext_iff_of_nodup n1 n2]
  rintro ⟨k, v⟩
  exact ⟨fun hm => mem_of_get (by rw [← h]; exact get_of_mem hd hm), fun hm => mem_of_get (by rw [h]; exact get_of_mem hd' hm)⟩

/-- sum of all counts -/
def total (m : ColorMap) : ℕ := (m.map (·.2.1)).sum

theorem total_upsert (m : ColorMap) (k : RGBA) (f : Option (ℕ × RGBA) → ℕ × RGBA) :
    total (upsert m k f) + (match get m k with | some v => v.1 | none => 0) = total m + (f (get m k)).1 := by
  induction m with
  | nil => simp [upsert, total, get_nil]
  | cons x m ih =>
    obtain ⟨k', v'⟩ := x
    simp only [upsert, get_cons]
    by_cases h : k' = k
    · simp only [if_pos h, total, List.map_cons, List.sum_cons]; omega
    · simp only [if_neg h]
      have : total ((k', v') :: upsert m k f) = v'.1 + total (upsert m k f) := by simp [total]
      have h2 : total ((k', v') :: m) = v'.1 + total m := by simp [total]
      omega

end ColorMap
end Verif
