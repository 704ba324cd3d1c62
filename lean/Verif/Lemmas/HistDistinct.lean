import Verif.Lemmas.UserHist
import Verif.Props.Histogram

/-! Histograms of callers have one entry per colour; which colours are left with a count after the fixed colours are
inserted. -/

set_option linter.unusedSectionVars false

namespace Verif
open Flt Spec

variable {F : Type} [Flt F]

/-- the key under which a fixed colour is stored: fully transparent colours are all alike -/
def Spec.fixedKey (c : RGBA) : RGBA := if c.a ≠ 0 then c else ⟨0, 0, 0, 0⟩

theorem insertFixed_distinct (l : List HashColor) (m : ColorMap) (h : ColorMap.Distinct m) :
    ColorMap.Distinct (l.foldl (fun m (x : HashColor) =>
      ColorMap.upsert m (fixedKey x.1) (fun _ => (0, x.1))) m) := by
  induction l generalizing m with
  | nil => exact h
  | cons x l ih => rw [List.foldl_cons]; exact ih _ (h.upsert _ _)

theorem Histogram.insertFixedColors_fold (ho : HashOrder) (h : Histogram F) : h.insertFixedColors ho =
    (ho.set h.fixedColors).foldl (fun m (x : HashColor) => ColorMap.upsert m (fixedKey x.1) (fun _ => (0, x.1))) h.hashmap := rfl

theorem Histogram.addRow_distinct {h : Histogram F} (hd : ColorMap.Distinct h.hashmap) (row : List RGBA) (imp : List ℕ) :
    ColorMap.Distinct (h.addRow row imp).hashmap := by
  induction row generalizing h imp with
  | nil => exact hd
  | cons c cs ih =>
    cases imp with
    | nil => simp only [Histogram.addRow]; exact ih (addColor_distinct hd _ _) _
    | cons b bs => simp only [Histogram.addRow]; exact ih (addColor_distinct hd _ _) _

theorem Histogram.addRows_distinct {h : Histogram F} (hd : ColorMap.Distinct h.hashmap) (w : ℕ) (rows : List (List RGBA))
    (imp : List ℕ) : ColorMap.Distinct (h.addRows w rows imp).hashmap := by
  induction rows generalizing h imp with
  | nil => exact hd
  | cons r rs ih =>
    simp only [Histogram.addRows]
    split <;> exact ih (addRow_distinct hd _ _) _

theorem Histogram.initPosterizeBits_distinct {h : Histogram F} (hd : ColorMap.Distinct h.hashmap) (ho : HashOrder) (bits : ℕ) :
    ColorMap.Distinct (h.initPosterizeBits ho bits).hashmap := by
  unfold Histogram.initPosterizeBits
  split
  · exact hd
  · exact rekey_distinct bits _ [] (by simp [ColorMap.Distinct])

theorem Histogram.finishRows_distinct {h : Histogram F} (hd : ColorMap.Distinct h.hashmap) (ho : HashOrder) (bits : ℕ) :
    ColorMap.Distinct (h.finishRows ho bits).hashmap := by
  unfold Histogram.finishRows
  dsimp only
  split
  · exact initPosterizeBits_distinct (initPosterizeBits_distinct hd ho bits) ho _
  · exact initPosterizeBits_distinct hd ho bits

theorem UserHistogram.distinct {h : Histogram F} (hu : UserHistogram h) : ColorMap.Distinct h.hashmap := by
  induction hu with
  | new cs cb => simp [Histogram.new, ColorMap.Distinct]
  | @image h img ho cs cb log _ _ ih =>
    unfold Histogram.addImage
    split
    · exact ih
    next i _ =>
      dsimp only
      have hx : ColorMap.Distinct (if i.fixedColors.isEmpty then { h with gamma := i.gamma }
          else Histogram.extendFixed { h with gamma := i.gamma } i.fixedColors).hashmap := by
        split <;> exact ih
      split
      · exact hx
      · exact hx
      · split
        · exact hx
        · dsimp only
          unfold Histogram.addPixelRows
          exact Histogram.finishRows_distinct (Histogram.addRows_distinct hx _ _ _) _ _
  | @colors h h' entries gamma _ e ih =>
    unfold Histogram.addColors at e
    split at e
    · cases e
    · split at e
      · cases e
      · dsimp only at e
        cases e
        apply Histogram.addAll_distinct
        split <;> exact ih
  | @fixed h h' c gamma _ e ih =>
    unfold Histogram.addFixedColor at e
    split at e
    · cases e
    · dsimp only at e
      cases e
      show ColorMap.Distinct (if _ then _ else _ : Histogram F).hashmap
      split <;> exact ih
  | @quantized h ho _ ih =>
    show ColorMap.Distinct (h.insertFixedColors ho)
    rw [Histogram.insertFixedColors_fold]
    exact insertFixed_distinct _ _ ih

/-- what is found under a key after the fixed colours are inserted -/
theorem insertFixed_get (l : List HashColor) (m : ColorMap) (k : RGBA) :
    (∀ f ∈ l, fixedKey f.1 ≠ k) → ColorMap.get (l.foldl (fun m (x : HashColor) =>
      ColorMap.upsert m (fixedKey x.1) (fun _ => (0, x.1))) m) k = ColorMap.get m k := by
  induction l generalizing m with
  | nil => intro _; rfl
  | cons x l ih =>
    intro h
    rw [List.foldl_cons, ih _ (fun f hf => h f (by simp [hf])), ColorMap.get_upsert, if_neg (h x (by simp))]

theorem insertFixed_get_fixed (l : List HashColor) (m : ColorMap) (k : RGBA)
    (h : (∃ f ∈ l, fixedKey f.1 = k) ∨ ∃ v, ColorMap.get m k = some v ∧ v.1 = 0) :
    ∃ v, ColorMap.get (l.foldl (fun m (x : HashColor) =>
      ColorMap.upsert m (fixedKey x.1) (fun _ => (0, x.1))) m) k = some v ∧ v.1 = 0 := by
  induction l generalizing m with
  | nil =>
    rcases h with ⟨f, hf, -⟩ | h
    · simp at hf
    · exact h
  | cons x l ih =>
    rw [List.foldl_cons]
    apply ih
    by_cases hx : fixedKey x.1 = k
    · right
      exact ⟨_, by rw [ColorMap.get_upsert, if_pos hx], rfl⟩
    · rcases h with ⟨f, hf, he⟩ | ⟨v, hv, h0⟩
      · rcases List.mem_cons.1 hf with rfl | hf
        · exact absurd he hx
        · exact .inl ⟨f, hf, he⟩
      · right
        exact ⟨v, by rw [ColorMap.get_upsert, if_neg hx]; exact hv, h0⟩

theorem counted_iff {h : Histogram F} (hd : ColorMap.Distinct h.hashmap) (ho : HashOrder) :
    (∃ e ∈ h.insertFixedColors ho, 0 < e.2.1) ↔
      ∃ e ∈ h.hashmap, 0 < e.2.1 ∧ ∀ f ∈ h.fixedColors, fixedKey f.1 ≠ e.1 := by
  rw [Histogram.insertFixedColors_fold]
  have hd' := insertFixed_distinct (ho.set h.fixedColors) h.hashmap hd
  constructor
  · rintro ⟨⟨k, v⟩, he, h0⟩
    have hg := ColorMap.get_of_mem hd' he
    have hn : ∀ f ∈ ho.set h.fixedColors, fixedKey f.1 ≠ k := by
      intro f hf hk
      obtain ⟨v', hv', hv0⟩ := insertFixed_get_fixed (ho.set h.fixedColors) h.hashmap k (.inl ⟨f, hf, hk⟩)
      rw [hg] at hv'
      cases hv'
      simp [hv0] at h0
    rw [insertFixed_get _ _ _ hn] at hg
    exact ⟨(k, v), ColorMap.mem_of_get hg, h0, fun f hf => hn f ((ho.set_perm _).mem_iff.2 hf)⟩
  · rintro ⟨⟨k, v⟩, he, h0, hn⟩
    refine ⟨(k, v), ColorMap.mem_of_get ?_, h0⟩
    rw [insertFixed_get _ _ _ (fun f hf => hn f ((ho.set_perm _).mem_iff.1 hf))]
    exact ColorMap.get_of_mem hd he

theorem insertFixed_keys (l : List HashColor) (m : ColorMap) (k : RGBA) :
    k ∈ (l.foldl (fun m (x : HashColor) => ColorMap.upsert m (fixedKey x.1) (fun _ => (0, x.1))) m).map (·.1) ↔
      k ∈ m.map (·.1) ∨ ∃ f ∈ l, fixedKey f.1 = k := by
  induction l generalizing m with
  | nil => simp
  | cons x l ih =>
    rw [List.foldl_cons, ih, ColorMap.upsert_keys]
    split
    next hk =>
      simp only [List.mem_cons, exists_eq_or_imp]
      constructor
      · rintro (h | h)
        · exact .inl h
        · exact .inr (.inr h)
      · rintro (h | rfl | h)
        · exact .inl h
        · exact .inl hk
        · exact .inr h
    · rw [List.mem_append, List.mem_singleton]
      simp only [List.mem_cons, exists_eq_or_imp]
      constructor
      · rintro ((h | h) | h)
        · exact .inl h
        · exact .inr (.inl h.symm)
        · exact .inr (.inr h)
      · rintro (h | h | h)
        · exact .inl (.inl h)
        · exact .inl (.inr h.symm)
        · exact .inr h

/-- the different colours of a histogram, fixed ones included -/
def Spec.coloursOf (h : Histogram F) : Finset RGBA := (h.hashmap.map (·.1) ++ h.fixedColors.map fun f => fixedKey f.1).toFinset

theorem colours_card {h : Histogram F} (hd : ColorMap.Distinct h.hashmap) (ho : HashOrder) :
    (h.insertFixedColors ho).length = (coloursOf h).card := by
  have hd' : ((h.insertFixedColors ho).map (·.1)).Nodup := by
    rw [Histogram.insertFixedColors_fold]; exact insertFixed_distinct _ _ hd
  rw [← List.length_map (f := (·.1)), ← List.toFinset_card_of_nodup hd']
  congr 1
  ext k
  rw [Histogram.insertFixedColors_fold]
  unfold coloursOf
  rw [List.mem_toFinset, insertFixed_keys, List.mem_toFinset, List.mem_append, List.mem_map (l := h.fixedColors)]
  simp only [(ho.set_perm _).mem_iff]

end Verif
