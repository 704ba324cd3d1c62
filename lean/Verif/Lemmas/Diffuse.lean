import Verif.Lemmas.DitherTrace
import Verif.Spec.Dither
import Mathlib.Algebra.BigOperators.Intervals

/-! # Error diffusion in exact arithmetic -/

set_option linter.unusedSectionVars false
set_option linter.unnecessarySeqFocus false

namespace Verif
open Flt Spec

theorem chan_add (x y : FPixel ℝ) (i : Fin 4) : (x.add y).chan i = x.chan i + y.chan i := by
  fin_cases i <;> simp [FPixel.chan, FPixel.add]
theorem chan_scale (x : FPixel ℝ) (k : ℝ) (i : Fin 4) : (x.scale k).chan i = x.chan i * k := by
  fin_cases i <;> simp [FPixel.chan, FPixel.scale]
theorem chan_sub (x y : FPixel ℝ) (i : Fin 4) : (x.sub y).chan i = x.chan i - y.chan i := by
  fin_cases i <;> simp [FPixel.chan, FPixel.sub]
theorem chan_default (i : Fin 4) : (FPixel.default : FPixel ℝ).chan i = 0 := by
  fin_cases i <;> simp [FPixel.chan, FPixel.default]

/-! ### The range of the colours that are searched for -/

theorem limitRatio_spec {ratio px s : ℝ} (h0 : 0 ≤ ratio) (h1 : ratio ≤ 1) (hl : -0.1 ≤ px) (hu : px ≤ 1.1) :
    0 ≤ limitRatio ratio px s ∧ limitRatio ratio px s ≤ ratio ∧
    ∀ t, 0 ≤ t → t ≤ limitRatio ratio px s → -0.1 ≤ px + s * t ∧ px + s * t ≤ 1.1 := by
  unfold limitRatio
  simp only [real_lt, real_add32, real_sub32, real_div32, real_lit32, real_min]
  push_cast
  norm_num at hl hu ⊢
  split
  next h =>
    have hs : 0 < s := by linarith
    refine ⟨le_min h0 (div_nonneg (by linarith) hs.le), min_le_left _ _, fun t ht htr => ?_⟩
    have := (le_div_iff₀ hs).mp (htr.trans (min_le_right _ _))
    refine ⟨by nlinarith, by linarith⟩
  next h =>
    split
    next h2 =>
      have hs : s < 0 := by linarith
      refine ⟨le_min h0 (div_nonneg_of_nonpos (by linarith) hs.le), min_le_left _ _, fun t ht htr => ?_⟩
      have := (le_div_iff_of_neg hs).mp (htr.trans (min_le_right _ _))
      refine ⟨by linarith, by nlinarith⟩
    next h2 =>
      push Not at h h2
      refine ⟨h0, le_refl _, fun t ht htr => ?_⟩
      have htl : t ≤ 1 := htr.trans h1
      rcases le_or_gt 0 s with hs | hs
      · exact ⟨by nlinarith, by nlinarith⟩
      · exact ⟨by nlinarith, by nlinarith⟩

theorem ditheredPixel_box (level maxErr : ℝ) (e : FPixel ℝ) {px : FPixel ℝ} (h : px.InBox) :
    (ditheredPixel level maxErr e px).InBox := by
  obtain ⟨hr, hg, hb, ha⟩ := h
  unfold ditheredPixel
  simp only
  split
  · exact ⟨hr, hg, hb, ha⟩
  · generalize e.scale level = s
    obtain ⟨a1, a2, a3⟩ := limitRatio_spec (ratio := 1) (s := s.r) (by norm_num) (le_refl _) hr.1 hr.2
    obtain ⟨b1, b2, b3⟩ := limitRatio_spec (s := s.g) a1 a2 hg.1 hg.2
    obtain ⟨c1, c2, c3⟩ := limitRatio_spec (s := s.b) b1 (b2.trans a2) hb.1 hb.2
    have h1 : (lit32 1 : ℝ) = 1 := by simp
    rw [h1]
    generalize limitRatio (limitRatio (limitRatio 1 px.r s.r) px.g s.g) px.b s.b = ratio at *
    generalize hR : (if lt maxErr s.normSq = true then ratio *₃ lit32 (8/10) else ratio) = R
    have hRb : 0 ≤ R ∧ R ≤ ratio := by
      rw [← hR]
      split
      · simp only [real_mul32, real_lit32]; push_cast; constructor <;> linarith
      · exact ⟨c1, le_refl _⟩
    obtain ⟨r1, r2⟩ := hRb
    have fr := a3 R r1 (r2.trans (c2.trans b2))
    have fg := b3 R r1 (r2.trans c2)
    have fb := c3 R r1 r2
    have ft : ∀ x y z : ℝ, fma32 x y z = z + x * y := fun x y z => by rw [real_fma32]; ring
    unfold FPixel.InBox
    simp only [ft]
    refine ⟨fr, fg, fb, ?_⟩
    unfold clamp
    simp only [real_lt, real_lit32, real_add32]
    push_cast
    split
    · norm_num
    · split
      · norm_num
      · constructor <;> linarith

/-! ### One step of the diffusion -/

/-- index of a cell, counted in the direction of the scan -/
def mirror (w : ℕ) (even : Bool) (j : ℕ) : ℕ := if even then j else w + 1 - j

section
variable {F : Type} [Flt F]

/-- the cell `j` in the direction of the scan -/
def cellAt (w : ℕ) (even : Bool) (l : List (FPixel F)) (j : ℕ) : FPixel F := l.getD (mirror w even j) FPixel.default

theorem getD_modify (l : List (FPixel F)) (i j : ℕ) (g : FPixel F → FPixel F) (hi : i < l.length) :
    (l.modify i g).getD j FPixel.default = if j = i then g (l.getD j FPixel.default) else l.getD j FPixel.default := by
  simp only [List.getD_eq_getElem?_getD, List.getElem?_modify]
  by_cases h : j = i
  · subst h
    simp [List.getElem?_eq_getElem hi]
  · rw [if_neg h]
    simp [Ne.symm h]

theorem getD_set (l : List (FPixel F)) (i j : ℕ) (v : FPixel F) (hi : i < l.length) :
    (l.set i v).getD j FPixel.default = if j = i then v else l.getD j FPixel.default := by
  simp only [List.getD_eq_getElem?_getD, List.getElem?_set]
  by_cases h : j = i
  · subst h
    simp [hi]
  · rw [if_neg h]
    simp [Ne.symm h]

/-- What a step does to the cells, counted in the direction of the scan: the error goes with 7/16 to the next pixel, and
with 3/16, 5/16 and 1/16 to the three pixels below. -/
theorem diffuse_cells_any {w x : ℕ} (even : Bool) (hx : x < w) (err : FPixel F) {a b : List (FPixel F)} (ha : a.length = w + 2)
    (hb : b.length = w + 2) (j : ℕ) (hj : j ≤ w + 1) :
    let r := diffuse even (ditherCol w even x) err a b
    cellAt w even r.1 j = (if j = x + 2 then (cellAt w even a j).add (err.scale (lit32 (7/16))) else cellAt w even a j) ∧
    cellAt w even r.2 j = if j = x then (cellAt w even b j).add (err.scale (lit32 (3/16)))
      else if j = x + 1 then (cellAt w even b j).add (err.scale (lit32 (5/16)))
      else if j = x + 2 then err.scale (lit32 (1/16))
      else cellAt w even b j := by
  unfold diffuse cellAt mirror ditherCol
  cases even
  · simp only [Bool.false_eq_true, if_false]
    constructor
    · rw [getD_modify _ _ _ _ (by omega)]
      by_cases h : j = x + 2
      · rw [if_pos h, if_pos (by omega)]
      · rw [if_neg h, if_neg (by omega)]
    · rw [getD_modify _ _ _ _ (by simp only [List.length_modify, List.length_set]; omega),
        getD_modify _ _ _ _ (by simp only [List.length_set]; omega), getD_set _ _ _ _ (by omega)]
      by_cases h : j = x
      · rw [if_pos h, if_pos (by omega), if_neg (by omega), if_neg (by omega)]
      · rw [if_neg h, if_neg (by omega)]
        by_cases h' : j = x + 1
        · rw [if_pos h', if_pos (by omega), if_neg (by omega)]
        · rw [if_neg h', if_neg (by omega)]
          by_cases h'' : j = x + 2
          · rw [if_pos h'', if_pos (by omega)]
          · rw [if_neg h'', if_neg (by omega)]
  · simp only [if_true]
    constructor
    · rw [getD_modify _ _ _ _ (by omega)]
    · rw [getD_set _ _ _ _ (by simp only [List.length_modify]; omega),
        getD_modify _ _ _ _ (by simp only [List.length_modify]; omega), getD_modify _ _ _ _ (by omega)]
      by_cases h : j = x
      · rw [if_pos h, if_neg (by omega), if_neg (by omega), if_pos h]
      · rw [if_neg h]
        by_cases h' : j = x + 1
        · rw [if_pos h', if_neg (by omega), if_pos h', if_neg h]
        · rw [if_neg h']
          by_cases h'' : j = x + 2
          · rw [if_pos h'', if_neg h, if_neg h']
          · rw [if_neg h'', if_neg h, if_neg h']

/-- changes of the list come from the cells -/
theorem mem_cellAt {w : ℕ} (even : Bool) {l : List (FPixel F)} (hl : l.length = w + 2) {p : FPixel F} (h : p ∈ l) :
    ∃ j ≤ w + 1, p = cellAt w even l j := by
  obtain ⟨i, hi, rfl⟩ := List.getElem_of_mem h
  refine ⟨mirror w even i, by unfold mirror; split <;> omega, ?_⟩
  have hm : mirror w even (mirror w even i) = i := by unfold mirror; cases even <;> simp <;> omega
  unfold cellAt
  rw [hm, List.getD_eq_getElem?_getD, List.getElem?_eq_getElem hi]
  rfl

theorem cellAt_mem {w : ℕ} (even : Bool) {l : List (FPixel F)} (hl : l.length = w + 2) {j : ℕ} (hj : j ≤ w + 1) :
    cellAt w even l j ∈ l := by
  unfold cellAt
  have : mirror w even j < l.length := by unfold mirror; split <;> omega
  rw [List.getD_eq_getElem?_getD, List.getElem?_eq_getElem this]
  simp

end

theorem diffuse_cells {w x : ℕ} (even : Bool) (hx : x < w) (err : FPixel ℝ) {a b : List (FPixel ℝ)} (ha : a.length = w + 2)
    (hb : b.length = w + 2) (j : ℕ) (hj : j ≤ w + 1) :
    let r := diffuse even (ditherCol w even x) err a b
    cellAt w even r.1 j = (if j = x + 2 then (cellAt w even a j).add (err.scale (7/16)) else cellAt w even a j) ∧
    cellAt w even r.2 j = if j = x then (cellAt w even b j).add (err.scale (3/16))
      else if j = x + 1 then (cellAt w even b j).add (err.scale (5/16))
      else if j = x + 2 then err.scale (1/16)
      else cellAt w even b j := by
  have l7 : (lit32 (7/16) : ℝ) = 7/16 := by simp
  have l3 : (lit32 (3/16) : ℝ) = 3/16 := by simp
  have l5 : (lit32 (5/16) : ℝ) = 5/16 := by simp
  have l1 : (lit32 (1/16) : ℝ) = 1/16 := by simp
  have := diffuse_cells_any even hx err ha hb j hj
  rwa [l7, l3, l5, l1] at this

/-! ### A row -/

/-- state after `k` pixels whose errors were `E` -/
structure RowInv (w : ℕ) (even : Bool) (this0 : List (FPixel ℝ)) (E : ℕ → FPixel ℝ) (k : ℕ) (a b : List (FPixel ℝ)) : Prop where
  lenA : a.length = w + 2
  lenB : b.length = w + 2
  this : ∀ j ≤ w + 1, ∀ i, (cellAt w even a j).chan i = (cellAt w even this0 j).chan i +
    if 2 ≤ j ∧ j < k + 2 then 7/16 * (E (j - 2)).chan i else 0
  next : ∀ j ≤ w + 1, ∀ i, (cellAt w even b j).chan i =
    (if j < k then 3/16 * (E j).chan i else 0) + (if 1 ≤ j ∧ j < k + 1 then 5/16 * (E (j - 1)).chan i else 0) +
    (if 2 ≤ j ∧ j < k + 2 then 1/16 * (E (j - 2)).chan i else 0)

theorem RowInv.zero {w : ℕ} {even : Bool} {this0 : List (FPixel ℝ)} (E : ℕ → FPixel ℝ) (h : this0.length = w + 2) :
    RowInv w even this0 E 0 this0 (List.replicate (w + 2) FPixel.default) := by
  refine ⟨h, by simp, fun j hj i => ?_, fun j hj i => ?_⟩
  · rw [if_neg (by omega)]; simp
  · rw [if_neg (by omega), if_neg (by omega), if_neg (by omega)]
    unfold cellAt
    rw [List.getD_eq_getElem?_getD, List.getElem?_replicate]
    split <;> simp [chan_default]

theorem RowInv.step {w : ℕ} {even : Bool} {this0 : List (FPixel ℝ)} {E : ℕ → FPixel ℝ} {k : ℕ} {a b : List (FPixel ℝ)}
    (h : RowInv w even this0 E k a b) (hk : k < w) :
    RowInv w even this0 E (k + 1) (diffuse even (ditherCol w even k) (E k) a b).1
      (diffuse even (ditherCol w even k) (E k) a b).2 := by
  have hd := diffuse_length even (ditherCol w even k) (E k) a b
  refine ⟨hd.1.trans h.lenA, hd.2.trans h.lenB, fun j hj i => ?_, fun j hj i => ?_⟩
  · rw [(diffuse_cells even hk (E k) h.lenA h.lenB j hj).1]
    by_cases hjk : j = k + 2
    · subst hjk
      rw [if_pos rfl, chan_add, chan_scale, h.this _ hj, if_neg (by omega), if_pos (by omega)]
      simp only [Nat.add_sub_cancel]
      ring
    · rw [if_neg hjk, h.this _ hj]
      by_cases hc : 2 ≤ j ∧ j < k + 2
      · rw [if_pos hc, if_pos (by omega)]
      · rw [if_neg hc, if_neg (by omega)]
  · rw [(diffuse_cells even hk (E k) h.lenA h.lenB j hj).2]
    by_cases h0 : j = k
    · subst h0
      rw [if_pos rfl, chan_add, chan_scale, h.next _ hj, if_neg (by omega), if_pos (show j < j + 1 by omega)]
      by_cases c1 : 1 ≤ j
      · rw [if_pos (⟨c1, by omega⟩ : 1 ≤ j ∧ j < j + 1), if_pos (⟨c1, by omega⟩ : 1 ≤ j ∧ j < j + 1 + 1)]
        by_cases c2 : 2 ≤ j
        · rw [if_pos (by omega), if_pos (by omega)]; ring
        · rw [if_neg (by omega), if_neg (by omega)]; ring
      · rw [if_neg (by omega), if_neg (by omega), if_neg (by omega), if_neg (by omega)]; ring
    · rw [if_neg h0]
      by_cases h1 : j = k + 1
      · subst h1
        rw [if_pos rfl, chan_add, chan_scale, h.next _ hj]
        simp only [Nat.add_sub_cancel]
        split_ifs <;> first | omega | ring
      · rw [if_neg h1]
        by_cases h2 : j = k + 2
        · subst h2
          rw [if_pos rfl, chan_scale, if_neg (by omega), if_neg (by omega), if_pos (by omega)]
          simp only [Nat.add_sub_cancel]
          ring
        · rw [if_neg h2, h.next _ hj]
          congr 1
          · congr 1
            · by_cases c : j < k
              · rw [if_pos c, if_pos (by omega)]
              · rw [if_neg c, if_neg (by omega)]
            · by_cases c : 1 ≤ j ∧ j < k + 1
              · rw [if_pos c, if_pos (by omega)]
              · rw [if_neg c, if_neg (by omega)]
          · by_cases c : 2 ≤ j ∧ j < k + 2
            · rw [if_pos c, if_pos (by omega)]
            · rw [if_neg c, if_neg (by omega)]

/-- no accumulation -/
theorem RowInv.bounds {w : ℕ} {even : Bool} {this0 : List (FPixel ℝ)} {E : ℕ → FPixel ℝ} {k : ℕ} {a b : List (FPixel ℝ)}
    (h : RowInv w even this0 E k a b) (hthis : this0.length = w + 2) {M : ℝ} (hM : 0 ≤ M)
    (h0 : ∀ c ∈ this0, c.Within (9/16 * M)) (hE : ∀ x < k, (E x).Within M) :
    (∀ c ∈ a, c.Within M) ∧ ∀ c ∈ b, c.Within (9/16 * M) := by
  constructor
  · intro c hc i
    obtain ⟨j, hj, rfl⟩ := mem_cellAt even h.lenA hc
    rw [h.this j hj i]
    have h1 := abs_le.mp (h0 _ (cellAt_mem even hthis hj) i)
    split
    next hcond =>
      have h2 := abs_le.mp (hE (j - 2) (by omega) i)
      exact abs_le.mpr ⟨by linarith, by linarith⟩
    next => exact abs_le.mpr ⟨by linarith, by linarith⟩
  · intro c hc i
    obtain ⟨j, hj, rfl⟩ := mem_cellAt even h.lenB hc
    rw [h.next j hj i]
    have e1 : |if j < k then 3/16 * (E j).chan i else 0| ≤ 3/16 * M := by
      split
      next hcond => rw [abs_mul, abs_of_nonneg (by norm_num : (0:ℝ) ≤ 3/16)]; exact mul_le_mul_of_nonneg_left (hE _ hcond i) (by norm_num)
      next => rw [abs_zero]; linarith
    have e2 : |if 1 ≤ j ∧ j < k + 1 then 5/16 * (E (j - 1)).chan i else 0| ≤ 5/16 * M := by
      split
      next hcond => rw [abs_mul, abs_of_nonneg (by norm_num : (0:ℝ) ≤ 5/16)]; exact mul_le_mul_of_nonneg_left (hE _ (by omega) i) (by norm_num)
      next => rw [abs_zero]; linarith
    have e3 : |if 2 ≤ j ∧ j < k + 2 then 1/16 * (E (j - 2)).chan i else 0| ≤ 1/16 * M := by
      split
      next hcond => rw [abs_mul, abs_of_nonneg (by norm_num : (0:ℝ) ≤ 1/16)]; exact mul_le_mul_of_nonneg_left (hE _ (by omega) i) (by norm_num)
      next => rw [abs_zero]; linarith
    refine (abs_add_three _ _ _).trans ?_
    linarith

/-! ### A row that was dithered -/

theorem cellChan_getD (l : List (FPixel ℝ)) (i : Fin 4) (j : ℕ) : cellChan l i j = (l.getD j FPixel.default).chan i := by
  unfold cellChan
  rw [List.getD_eq_getElem?_getD]
  cases l[j]? with
  | none => simp [chan_default]
  | some p => simp

/-- the errors of the pixels of a row -/
noncomputable def rowError (ctx : DitherCtx ℝ) (target shown : ℕ → FPixel ℝ) (x : ℕ) : FPixel ℝ :=
  pixelError ctx.maxErr (target x) (shown x)

theorem RowDone.inv {ctx : DitherCtx ℝ} {row bg : List (FPixel ℝ)} {dmap : List UInt8} {d : Diffusion ℝ} {even : Bool}
    {out : List (Option UInt8)} {r : DitherOut ℝ (List (Option UInt8))} {S : ℕ → DitherState ℝ}
    {target shown : ℕ → FPixel ℝ} {byte : ℕ → UInt8} (h : RowDone ctx row bg dmap d even out r S target shown byte)
    (hd : Diffusion.Len ctx.width d) {k : ℕ} (hk : k ≤ ctx.width) :
    RowInv ctx.width even (S 0).thiserr (rowError ctx target shown) k (S k).thiserr (S k).nexterr := by
  induction k with
  | zero =>
    rw [h.next0]
    refine RowInv.zero _ ?_
    rw [h.this0]
    cases even
    · exact hd.2
    · exact hd.1
  | succ k ih =>
    have := (ih (by omega)).step (show k < ctx.width by omega)
    rw [(h.step k (by omega)).thiserr, (h.step k (by omega)).nexterr]
    exact this

theorem mirror_mirror {w j : ℕ} (even : Bool) (hj : j ≤ w + 1) : mirror w even (mirror w even j) = j := by
  unfold mirror; cases even <;> simp; omega

theorem mirror_le {w j : ℕ} (even : Bool) (hj : j ≤ w + 1) : mirror w even j ≤ w + 1 := by
  unfold mirror; split <;> omega

theorem cellChan_mirror {w j : ℕ} (even : Bool) (l : List (FPixel ℝ)) (i : Fin 4) (hj : j ≤ w + 1) :
    cellChan l i j = (cellAt w even l (mirror w even j)).chan i := by
  unfold cellAt
  rw [cellChan_getD, mirror_mirror even hj]

theorem RowInv.spreads {w : ℕ} {even : Bool} {this0 : List (FPixel ℝ)} {E : ℕ → FPixel ℝ} {k : ℕ} {a b : List (FPixel ℝ)}
    (h : RowInv w even this0 E k a b) (hk : k < w) :
    Spreads w even (ditherCol w even k) (E k) a b (diffuse even (ditherCol w even k) (E k) a b).1
      (diffuse even (ditherCol w even k) (E k) a b).2 := by
  have hs := h.step hk
  intro j hj i
  generalize hah : (if even = true then ditherCol w even k + 2 else ditherCol w even k) = ahead
  generalize hbe : (if even = true then ditherCol w even k else ditherCol w even k + 2) = behind
  rw [cellChan_mirror even _ i hj, cellChan_mirror even _ i hj, cellChan_mirror even _ i hj, cellChan_mirror even _ i hj]
  have hm := mirror_le (w := w) even hj
  have hd := diffuse_cells even hk (E k) h.lenA h.lenB (mirror w even j) hm
  have e1 : j = ahead ↔ mirror w even j = k + 2 := by
    simp only [← hah, mirror, ditherCol]; cases even <;> simp <;> omega
  have e2 : j = behind ↔ mirror w even j = k := by
    simp only [← hbe, mirror, ditherCol]; cases even <;> simp <;> omega
  have e3 : j = ditherCol w even k + 1 ↔ mirror w even j = k + 1 := by
    simp only [mirror, ditherCol]; cases even <;> simp <;> omega
  constructor
  · rw [hd.1]
    by_cases c : j = ahead
    · rw [if_pos c, if_pos (e1.mp c), chan_add, chan_scale]; ring
    · rw [if_neg c, if_neg (fun x => c (e1.mpr x))]; ring
  · rw [hd.2]
    by_cases c1 : mirror w even j = k
    · rw [if_pos c1, if_pos (e2.mpr c1), if_neg (fun x => by have := e3.mp x; omega), if_neg (fun x => by have := e1.mp x; omega),
        chan_add, chan_scale]; ring
    · rw [if_neg c1, if_neg (fun x => c1 (e2.mp x))]
      by_cases c2 : mirror w even j = k + 1
      · rw [if_pos c2, if_pos (e3.mpr c2), if_neg (fun x => by have := e1.mp x; omega), chan_add, chan_scale]; ring
      · rw [if_neg c2, if_neg (fun x => c2 (e3.mp x))]
        by_cases c3 : mirror w even j = k + 2
        · rw [if_pos c3, if_pos (e1.mpr c3), chan_scale, h.next _ hm i, if_neg (by omega), if_neg (by omega), if_neg (by omega)]
          ring
        · rw [if_neg c3, if_neg (fun x => c3 (e1.mp x))]; ring

/-- nothing of the error is lost or added -/
theorem Spreads.total {w : ℕ} {even : Bool} {col : ℕ} {err : FPixel ℝ} {a b a' b' : List (FPixel ℝ)}
    (h : Spreads w even col err a b a' b') (hc : col < w) (i : Fin 4) :
    totalChan w a' i + totalChan w b' i = totalChan w a i + totalChan w b i + err.chan i := by
  unfold totalChan
  have ha : ∀ j ∈ Finset.range (w + 2), cellChan a' i j = _ := fun j hj =>
    (h j (by have := Finset.mem_range.mp hj; omega) i).1
  have hb : ∀ j ∈ Finset.range (w + 2), cellChan b' i j = _ := fun j hj =>
    (h j (by have := Finset.mem_range.mp hj; omega) i).2
  rw [Finset.sum_congr rfl ha, Finset.sum_congr rfl hb]
  simp only [Finset.sum_add_distrib, Finset.sum_ite_eq', Finset.mem_range]
  have h1 : (if even then col + 2 else col) < w + 2 := by split <;> omega
  have h2 : (if even then col else col + 2) < w + 2 := by split <;> omega
  rw [if_pos h1, if_pos h2, if_pos (show col + 1 < w + 2 by omega), if_pos h1]
  ring

/-! ### Ranges -/

theorem fromRgba_unit {γ : ℝ} (hγ : 0 < γ) (c : RGBA) : (FPixel.fromRgba (gammaLut γ) c).InUnit := by
  have ha : 0 ≤ (c.a.toNat : ℝ) / 255 ∧ (c.a.toNat : ℝ) / 255 ≤ 1 := by
    have : (c.a.toNat : ℝ) ≤ 255 := by have := c.a.toNat_lt; exact_mod_cast (by omega : c.a.toNat ≤ 255)
    constructor
    · positivity
    · linarith
  have hm : ∀ x : ℝ, 0 ≤ x → x ≤ 1 → ∀ k : ℝ, 0 ≤ k → k ≤ 1 → 0 ≤ x * k ∧ x * k ≤ 1 :=
    fun x h1 h2 k h3 h4 => ⟨mul_nonneg h1 h3, mul_le_one₀ h2 h3 h4⟩
  have hl : ∀ x : UInt8, 0 ≤ gammaLut γ x ∧ gammaLut γ x ≤ 1 := fun x => ⟨gammaLut_nonneg γ x, gammaLut_le_one hγ x⟩
  intro i
  have h1 : ∀ x : UInt8, ∀ k : ℝ, 0 ≤ k → k ≤ 1 → 0 ≤ gammaLut γ x * k * ((c.a.toNat : ℝ) / 255) ∧
      gammaLut γ x * k * ((c.a.toNat : ℝ) / 255) ≤ 1 := by
    intro x k h3 h4
    obtain ⟨u1, u2⟩ := hm _ (hl x).1 (hl x).2 _ h3 h4
    exact hm _ u1 u2 _ ha.1 ha.2
  fin_cases i
  · have := hm _ ha.1 ha.2 (0.625 : ℝ) (by norm_num) (by norm_num)
    simpa [FPixel.chan, FPixel.fromRgba, weightA] using (by norm_num at this ⊢; exact this)
  · have := h1 c.r (2⁻¹) (by norm_num) (by norm_num)
    simp only [FPixel.chan, FPixel.fromRgba, weightR, real_mul32, real_div32, real_lit32]
    norm_num at this ⊢; exact this
  · have := h1 c.g 1 (by norm_num) (by norm_num)
    simpa [FPixel.chan, FPixel.fromRgba, weightG] using this
  · have := h1 c.b (45/100) (by norm_num) (by norm_num)
    simp only [FPixel.chan, FPixel.fromRgba, weightB, real_mul32, real_div32, real_lit32]
    norm_num at this ⊢; exact this

theorem FPixel.InUnit.box {p : FPixel ℝ} (h : p.InUnit) : p.InBox := by
  have h0 := h 0; have h1 := h 1; have h2 := h 2; have h3 := h 3
  simp [FPixel.chan] at h0 h1 h2 h3
  refine ⟨⟨by linarith, by linarith⟩, ⟨by linarith, by linarith⟩, ⟨by linarith, by linarith⟩, h0⟩

theorem FPixel.InBox.chan {p : FPixel ℝ} (h : p.InBox) (i : Fin 4) : -0.1 ≤ p.chan i ∧ p.chan i ≤ 1.1 := by
  obtain ⟨hr, hg, hb, ha⟩ := h
  fin_cases i
  · exact ⟨by simp [FPixel.chan]; linarith, by simp [FPixel.chan]; linarith⟩
  · exact hr
  · exact hg
  · exact hb

/-- the largest possible error of a pixel -/
theorem pixelError_within (maxErr : ℝ) {target shown : FPixel ℝ} (ht : target.InBox) (hs : shown.InUnit) :
    (pixelError maxErr target shown).Within 1.1 := by
  intro i
  have h1 := ht.chan i
  have h2 := hs i
  unfold pixelError
  dsimp only
  split
  · rw [chan_scale, chan_sub]
    have : (lit32 (3/4) : ℝ) = 3/4 := by simp
    rw [this, abs_le]
    constructor <;> linarith
  · rw [chan_sub, abs_le]
    constructor <;> linarith

end Verif
