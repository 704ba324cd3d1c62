import Verif.Lemmas.Basic
import Verif.Model.Pal
import Mathlib.Tactic.Linarith

/-! `with_fixed_colors` puts the fixed colours at the front of the palette. -/

set_option linter.unusedSectionVars false

namespace Verif
open Flt

variable {F : Type} [Flt F]

theorem PalPop.toFixed_isFixed [FltSign F] (p : PalPop F) : p.toFixed.isFixed = true := by
  unfold PalPop.toFixed
  split
  next h => exact h
  · split
    next h => exact FltSign.neg_lt _ h
    · exact FltSign.neg_one_lt

/-- The first entries of the palette are the given colours, marked as fixed. -/
def FixedPrefix (fs : List (FPixel F)) (p : PalF F) : Prop :=
  ∀ (i : ℕ) (c : FPixel F), fs[i]? = some c → ∃ e : PalEntry F, p[i]? = some e ∧ e.color = c ∧ e.pop.isFixed = true

theorem FixedPrefix.nil (p : PalF F) : FixedPrefix [] p := by intro i c h; simp at h

theorem FixedPrefix.length_le {fs : List (FPixel F)} {p : PalF F} (h : FixedPrefix fs p) : fs.length ≤ p.length := by
  by_contra hlt
  obtain ⟨e, he, -⟩ := h p.length (fs[p.length]'(by omega)) (by simp)
  simp at he

theorem swapAt_get_lt {α : Type} (l : List α) (i j k : ℕ) (hi : k < i) (hj : k < j) : (swapAt l i j)[k]? = l[k]? := by
  unfold swapAt
  split
  · rw [List.getElem?_set_ne (by omega), List.getElem?_set_ne (by omega)]
  · rfl

theorem fixStep_spec [FltSign F] (p : PalF F) (i : ℕ) (c : FPixel F) (hi : i < p.length) :
    ∃ p', PalF.fixStep p i c = .ok p' ∧ p'.length = p.length ∧ (∀ k < i, p'[k]? = p[k]?) ∧
      ∃ e, p'[i]? = some e ∧ e.color = c ∧ e.pop.isFixed = true := by
  have hne : (p.zipIdx).drop i ≠ [] := by
    apply List.ne_nil_of_length_pos; simp; exact hi
  have hs := minByKey_isSome (fun (x : PalEntry F × ℕ) => x.1.color.diff c) hne
  obtain ⟨x, hx⟩ := hs
  have hm := minByKey_mem _ hx
  have hbi : i ≤ x.2 := by
    obtain ⟨k, hk⟩ := List.mem_iff_getElem?.1 hm
    rw [List.getElem?_drop, List.getElem?_zipIdx] at hk
    cases hp : p[i + k]? with
    | none => rw [hp] at hk; simp at hk
    | some e => rw [hp] at hk; simp at hk; rw [← hk]; simp
  obtain ⟨x1, x2⟩ := x
  simp only at hbi
  have hl : (swapAt p i x2).length = p.length := (swapAt_perm _ _ _).length_eq
  have hget : (swapAt p i x2)[i]? = some ((swapAt p i x2)[i]'(by omega)) := by simp
  refine ⟨(swapAt p i x2).set i ⟨c, ((swapAt p i x2)[i]'(by omega)).pop.toFixed⟩, ?_, ?_, ?_, ?_⟩
  · unfold PalF.fixStep
    rw [hx]
    simp only
    rw [hget]
  · rw [List.length_set, hl]
  · intro k hk
    rw [List.getElem?_set_ne (by omega)]
    rcases Nat.eq_or_lt_of_le hbi with h | h
    · subst h; exact swapAt_get_lt _ _ _ _ hk hk
    · exact swapAt_get_lt _ _ _ _ hk (by omega)
  · refine ⟨_, List.getElem?_set_self (by omega), rfl, PalPop.toFixed_isFixed _⟩

theorem fixLoop_spec [FltSign F] (fs done : List (FPixel F)) (p : PalF F)
    (hl : done.length + fs.length ≤ p.length) (hd : FixedPrefix done p) :
    ∃ p', PalF.fixLoop p done.length fs = .ok p' ∧ p'.length = p.length ∧ FixedPrefix (done ++ fs) p' := by
  induction fs generalizing done p with
  | nil => exact ⟨p, rfl, rfl, by simpa using hd⟩
  | cons c cs ih =>
    simp only [List.length_cons] at hl
    obtain ⟨p1, e1, l1, k1, e, he, hc, hf⟩ := fixStep_spec p done.length c (by omega)
    have hd1 : FixedPrefix (done ++ [c]) p1 := by
      intro i d hi
      rcases Nat.lt_trichotomy i done.length with h | h | h
      · rw [List.getElem?_append_left h] at hi
        rw [k1 i h]; exact hd i d hi
      · subst h
        simp at hi
        exact ⟨e, he, hc.trans hi, hf⟩
      · rw [List.getElem?_eq_none (by simp; omega)] at hi; cases hi
    obtain ⟨p2, e2, l2, h2⟩ := ih (done ++ [c]) p1 (by simp; omega) hd1
    refine ⟨p2, ?_, l2.trans l1, by simpa using h2⟩
    rw [PalF.fixLoop, e1]
    rw [List.length_append] at e2
    exact e2

/-- `with_fixed_colors` succeeds, keeps the limit, and puts the fixed colours that fit first -/
theorem withFixedColors_spec [FltSign F] (p : PalF F) (m : ℕ) (fs : List (FPixel F)) (hp : p.length ≤ m) (hm : m ≤ 256) :
    ∃ p', p.withFixedColors m fs = .ok p' ∧ p'.length = max p.length (min fs.length m) ∧
      FixedPrefix (fs.take m) p' := by
  unfold PalF.withFixedColors
  cases hfs : fs with
  | nil => exact ⟨p, rfl, by simp, by simpa using FixedPrefix.nil p⟩
  | cons c cs =>
    rw [← hfs]
    have hne : fs.isEmpty = false := by rw [hfs]; rfl
    rw [hne]
    simp only [Bool.false_eq_true, if_false]
    have : ∃ q : PalF F, (if p.length < min fs.length m
        then p.extendZero (fs.take (min fs.length m - p.length)) else Except.ok p) = Except.ok q ∧
        q.length = max p.length (min fs.length m) := by
      split
      next h =>
        have hlen : (fs.take (min fs.length m - p.length)).length = min fs.length m - p.length := by
          rw [List.length_take]; omega
        refine ⟨p ++ (fs.take (min fs.length m - p.length)).map fun c => ⟨c, PalPop.new (lit32 0)⟩, ?_, ?_⟩
        · rw [PalF.extendZero, if_pos (by rw [hlen]; show _ ≤ 256; omega)]
        · rw [List.length_append, List.length_map, hlen]; omega
      · exact ⟨p, rfl, by omega⟩
    obtain ⟨q, hq, hql⟩ := this
    have hgoal : (if p.length < min fs.length m then do
          let p ← p.extendZero (fs.take (min fs.length m - p.length))
          p.fixLoop 0 (fs.take p.length)
        else do
          let p ← Except.ok p
          p.fixLoop 0 (fs.take p.length)) = q.fixLoop 0 (fs.take q.length) := by
      split
      next h => rw [if_pos h] at hq; rw [hq]; rfl
      next h => rw [if_neg h] at hq; cases hq; rfl
    rw [hgoal]
    obtain ⟨p', e1, e2, e3⟩ := fixLoop_spec (fs.take q.length) [] q (by simp) (FixedPrefix.nil q)
    refine ⟨p', e1, by omega, ?_⟩
    have : fs.take m = fs.take q.length := by
      rw [List.take_eq_take_iff]; omega
    rw [this]; simpa using e3

end Verif
