import Verif.Lemmas.Nearest

/-! `Nearest::search` returns a true minimum (exact arithmetic). -/

namespace Verif
open Flt

theorem Nearest.new_ok {F : Type} [Flt F] {p : PalF F} {n : Nearest F} (hn : Nearest.new p = .ok n) :
    0 < p.length ∧ p.length ≤ 256 ∧ n.palette = p ∧ n.root = vpCreate p (List.range p.length) ∧
    n.nearestOther = (List.range p.length).map
      (nearestOtherDist (vpCreate p (List.range p.length)) p) := by
  unfold Nearest.new at hn
  split at hn
  · cases hn
  · split at hn
    · cases hn
    next h1 h0 =>
      cases hn
      exact ⟨Nat.pos_of_ne_zero h0, Nat.le_of_not_gt h1, rfl, rfl, rfl⟩

theorem Nearest.new_of_len {F : Type} [Flt F] {p : PalF F} (h0 : 0 < p.length) (h1 : p.length ≤ 256) :
    ∃ n, Nearest.new p = .ok n := by
  unfold Nearest.new
  rw [if_neg (by omega), if_neg (by omega)]
  exact ⟨_, rfl⟩

theorem root_improves (p : PalF ℝ) (hp : 0 < p.length) (needle : FPixel ℝ) (v : Visitor ℝ)
    (hv : 0 ≤ v.distance ∧ v.distanceSq ≤ v.distance ^ 2) :
    Improves p needle (List.range p.length) v
      (vpSearch needle (vpCreate p (List.range p.length)) v) := by
  have hmem : ∀ i ∈ List.range p.length, i < p.length := by simp
  have hne : List.range p.length ≠ [] := by
    rw [ne_eq, List.range_eq_nil]; omega
  have h := vpSearch_improves p needle _ (vpCreate_colored p _ hmem) (vpCreate_ball p _ hmem) v hv
  have hperm := vpCreate_idxs_perm p _ hne hmem
  refine ⟨h.excl, h.le, h.inv, fun i hi => h.min i (hperm.symm.subset hi), ?_⟩
  rcases h.from' with h' | ⟨a, b⟩
  · exact Or.inl h'
  · exact Or.inr ⟨hperm.subset a, b⟩

/-- the early-exit table never exceeds a quarter of the distance to any other palette colour -/
theorem nearestOther_le (p : PalF ℝ) (i j : ℕ) (hj : j < p.length) (hij : j ≠ i) :
    nearestOtherDist (vpCreate p (List.range p.length)) p i ≤
      (palColor p j).diff (palColor p i) / 4 := by
  unfold nearestOtherDist
  have hM : (0 : ℝ) ≤ f32Max ∧ (f32Max : ℝ) ≤ f32Max ^ 2 := by
    show (0 : ℝ) ≤ (2 - 1 / 2 ^ 23) * 2 ^ 127 ∧ ((2 : ℝ) - 1 / 2 ^ 23) * 2 ^ 127 ≤ ((2 - 1 / 2 ^ 23) * 2 ^ 127) ^ 2
    constructor <;> norm_num
  have h := root_improves p (by omega) (palColor p i)
    { idx := 0, distance := f32Max, distanceSq := f32Max, exclude := some i } hM
  have := h.min j (by simpa using hj) (by simp only [ne_eq, Option.some.injEq]; exact fun e => hij e.symm)
  simp only [real_div32, real_lit32]
  push_cast
  linarith

/-- exact: the search result is an index of the palette, the returned difference is the difference to
that colour, and it is the least over the whole palette -/
theorem Nearest.search_min {p : PalF ℝ} {n : Nearest ℝ} (hn : Nearest.new p = .ok n)
    (px : FPixel ℝ) (likely : ℕ)
    (hb : likely < p.length ∨ ∃ j < p.length, px.diff (palColor p j) < 2 ^ 128) :
    (n.search px likely).1 < p.length ∧
    (n.search px likely).2 = px.diff (palColor p (n.search px likely).1) ∧
    ∀ j < p.length, (n.search px likely).2 ≤ px.diff (palColor p j) := by
  refine ⟨Nearest.search_lt hn px likely, ?_⟩
  obtain ⟨hpos, -, hpal, hroot, hoth⟩ := Nearest.new_ok hn
  unfold Nearest.search
  rw [hpal]
  split
  next e he =>
    obtain ⟨hlt, hel⟩ := List.getElem?_eq_some_iff.1 he
    have hcol : palColor p likely = e.color := by simp [palColor, he]
    dsimp only
    by_cases hearly : lt (px.diff e.color) (n.nearestOther.getD likely zero) = true
    · simp only [if_pos hearly]
      rw [← hcol] at hearly ⊢
      refine ⟨rfl, ?_⟩
      intro j hj
      by_cases hjl : j = likely
      · subst hjl; exact le_refl _
      · have hoth' : n.nearestOther.getD likely zero =
            nearestOtherDist (vpCreate p (List.range p.length)) p likely := by
          rw [hoth, List.getD_eq_getElem?_getD, List.getElem?_map, List.getElem?_range hlt]
          rfl
        rw [hoth', real_lt] at hearly
        have hle := nearestOther_le p likely j hj hjl
        have t := FPixel.sqrt_diff_triangle (palColor p j) px (palColor p likely)
        set A := px.diff (palColor p likely) with hA
        set B := px.diff (palColor p j) with hB
        set C := (palColor p j).diff (palColor p likely) with hC
        rw [FPixel.diff_comm (palColor p j) px, ← hB] at t
        have hA0 : 0 ≤ A := FPixel.diff_nonneg _ _
        have hB0 : 0 ≤ B := FPixel.diff_nonneg _ _
        have hC0 : 0 ≤ C := FPixel.diff_nonneg _ _
        by_contra hcon
        have hBA : Real.sqrt B ≤ Real.sqrt A := Real.sqrt_le_sqrt (not_le.1 hcon).le
        have h1 : Real.sqrt C ≤ 2 * Real.sqrt A := by linarith
        have h2 : C ≤ 4 * A := by
          have := pow_le_pow_left₀ (Real.sqrt_nonneg C) h1 2
          rw [mul_pow, Real.sq_sqrt hC0, Real.sq_sqrt hA0] at this
          linarith
        linarith
    · simp only [if_neg hearly]
      rw [hroot, ← hcol]
      have h := root_improves p hpos px
        { distance := Real.sqrt (px.diff (palColor p likely)), distanceSq := px.diff (palColor p likely),
          idx := likely, exclude := none }
        ⟨Real.sqrt_nonneg _, by simp only; rw [Real.sq_sqrt (FPixel.diff_nonneg _ _)]⟩
      simp only [real_sqrt32]
      constructor
      · rcases h.from' with h' | ⟨a, b, c, d⟩
        · rw [h']
        · rw [c, FPixel.diff_comm]
      · intro j hj
        have := h.min j (by simpa using hj) (by simp)
        rw [FPixel.diff_comm px (palColor p j)]; exact this
  next he =>
    simp only
    rw [hroot]
    have hinf : (0 : ℝ) ≤ inf ∧ (inf : ℝ) ≤ inf ^ 2 := by
      show (0 : ℝ) ≤ 2 ^ 128 ∧ (2 : ℝ) ^ 128 ≤ (2 ^ 128) ^ 2
      constructor <;> norm_num
    have h := root_improves p hpos px
      { distance := inf, distanceSq := inf, idx := 0, exclude := none } hinf
    have hmin : ∀ j < p.length, (vpSearch px (vpCreate p (List.range p.length))
        { distance := inf, distanceSq := inf, idx := 0, exclude := none }).distanceSq ≤
        px.diff (palColor p j) := by
      intro j hj
      have := h.min j (by simpa using hj) (by simp)
      rw [FPixel.diff_comm px]; exact this
    refine ⟨?_, hmin⟩
    rcases h.from' with h' | ⟨a, b, c, d⟩
    · exfalso
      have hnl : ¬ likely < p.length := by
        intro hlt; rw [List.getElem?_eq_getElem hlt] at he; cases he
      obtain ⟨j, hj, hjb⟩ := hb.resolve_left hnl
      have h2 := hmin j hj
      rw [h'] at h2
      have : (2 : ℝ) ^ 128 ≤ px.diff (palColor p j) := h2
      linarith
    · rw [c, FPixel.diff_comm]

/-- exact: a colour that is in the palette is found exactly -/
theorem Nearest.search_exact {p : PalF ℝ} {n : Nearest ℝ} (hn : Nearest.new p = .ok n)
    (px : FPixel ℝ) (likely : ℕ) (hmem : ∃ e ∈ p, e.color = px) :
    (n.search px likely).1 < p.length ∧ palColor p (n.search px likely).1 = px ∧
    (n.search px likely).2 = 0 := by
  obtain ⟨e, he, hpx⟩ := hmem
  obtain ⟨j, hj, hje⟩ := List.getElem_of_mem he
  have hcj : palColor p j = px := by simp [palColor, List.getElem?_eq_getElem hj, hje, hpx]
  have h := Nearest.search_min hn px likely
    (Or.inr ⟨j, hj, by rw [hcj, FPixel.diff_self]; norm_num⟩)
  have h0 : (n.search px likely).2 = 0 := by
    apply le_antisymm
    · have := h.2.2 j hj; rwa [hcj, FPixel.diff_self] at this
    · rw [h.2.1]; exact FPixel.diff_nonneg _ _
  refine ⟨h.1, ?_, h0⟩
  have := h.2.1
  rw [h0] at this
  exact (FPixel.eq_of_diff_eq_zero this.symm).symm

end Verif
