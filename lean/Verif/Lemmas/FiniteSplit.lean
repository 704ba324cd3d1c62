import Verif.Lemmas.Finite

/-! Sums of weights are accurate enough that both halves of a split have colours. -/

set_option linter.unusedSectionVars false

namespace Verif
open Flt FltRound FltCorrect
open FltFull (r32_idem r64 r64_mono r64_nat lit64_eq add64_eq div64_eq to32_eq pow32_unit)

variable {F : Type} [Flt F] [FltMin F]

/-- a weight: 0, or at least the smallest `f32` number -/
structure Term (x : F) : Prop where
  nn : NN termMax x
  min : val x = 0 ∨ 2⁻¹ ^ 149 ≤ val x

/-- sum of the values -/
def valSum (l : List F) : ℝ := (l.map val).sum

theorem valSum_cases {l : List F} (h : ∀ x ∈ l, Term x) : valSum l = 0 ∨ 2⁻¹ ^ 149 ≤ valSum l := by
  unfold valSum
  induction l with
  | nil => simp
  | cons x l ih =>
    rw [List.map_cons, List.sum_cons]
    have h0 : 0 ≤ (l.map (val : F → ℝ)).sum := List.sum_nonneg (by
      intro y hy
      obtain ⟨z, hz, rfl⟩ := List.mem_map.1 hy
      exact (h z (by simp [hz])).nn.lo)
    have hx := h x (by simp)
    rcases hx.min with e | e
    · rw [e, zero_add]; exact ih (fun y hy => h y (by simp [hy]))
    · right; linarith

theorem valSum_nonneg {l : List F} (h : ∀ x ∈ l, Term x) : 0 ≤ valSum l := by
  rcases valSum_cases h with e | e
  · rw [e]
  · exact le_trans (by positivity) e

theorem u64_val : u64 = 1 / 2 ^ 53 := by unfold u64; norm_num

/-- what `f64` loses is far below the smallest `f32` number -/
theorem tiny64_share : tiny64 ≤ 2⁻¹ ^ 60 * 2⁻¹ ^ 149 := by
  unfold tiny64
  rw [← pow_add]
  exact pow_le_pow_of_le_one (by norm_num) (by norm_num) (by norm_num)

/-- one more term: the relative error grows by 2⁻⁵⁰ -/
theorem sum_step {m s x R v : ℝ} (hm : 0 ≤ m) (hm1 : m ≤ 2 ^ 23) (hx : 0 ≤ x) (hR : 0 ≤ R) (hs : 0 ≤ s)
    (h1 : (1 - m * 2⁻¹ ^ 50) * R ≤ s) (h2 : s ≤ (1 + m * 2⁻¹ ^ 50) * R) (hc : R + x = 0 ∨ 2⁻¹ ^ 149 ≤ R + x)
    (hv : RoundsTo u64 tiny64 (s + x) v) :
    (1 - (m + 1) * 2⁻¹ ^ 50) * (R + x) ≤ v ∧ v ≤ (1 + (m + 1) * 2⁻¹ ^ 50) * (R + x) := by
  rcases hc with hc | hc
  · have e1 : R = 0 := by linarith
    have e2 : x = 0 := by linarith
    subst e1 e2
    have e3 : s = 0 := by
      have : s ≤ 0 := by simpa using h2
      linarith
    have := hv.2 (by rw [e3]; ring)
    rw [this]; simp
  · have ht : tiny64 ≤ 2⁻¹ ^ 60 * (R + x) :=
      tiny64_share.trans (by have : (0:ℝ) ≤ 2⁻¹ ^ 60 := by positivity
                             exact mul_le_mul_of_nonneg_left hc this)
    obtain ⟨a, b⟩ := abs_le.1 hv.1
    rw [abs_of_nonneg (by linarith), u64_val] at a b
    have k0 : 0 ≤ m * 2⁻¹ ^ 50 := by positivity
    have k1 : m * 2⁻¹ ^ 50 ≤ 1 := by
      calc m * 2⁻¹ ^ 50 ≤ 2 ^ 23 * 2⁻¹ ^ 50 := by gcongr
        _ ≤ 1 := by norm_num
    have e : (m + 1) * 2⁻¹ ^ 50 = m * 2⁻¹ ^ 50 + 2⁻¹ ^ 50 := by ring
    rw [e]
    generalize m * 2⁻¹ ^ 50 = k at *
    have l1 : (1 - k) * (R + x) ≤ s + x := by nlinarith
    have l2 : s + x ≤ (1 + k) * (R + x) := by nlinarith
    have l3 : s + x ≤ 2 * (R + x) := by nlinarith
    generalize R + x = Q at *
    generalize s + x = y at *
    norm_num at a b ht ⊢
    constructor
    · nlinarith
    · nlinarith

theorem sum64_near {l : List F} (h : ∀ x ∈ l, Term x) (hl : l.length ≤ 2 ^ 22) :
    SumOf l.length (sum64 l) ∧ (1 - l.length * 2⁻¹ ^ 50) * valSum l ≤ val (sum64 l) ∧
      val (sum64 l) ≤ (1 + l.length * 2⁻¹ ^ 50) * valSum l := by
  refine ⟨sum64_sumOf (fun x hx => (h x hx).nn) hl, ?_⟩
  have key : ∀ (l done : List F) (s : F), (∀ x ∈ l, Term x) → (∀ x ∈ done, Term x) → done.length + l.length ≤ 2 ^ 22 → SumOf done.length s →
      (1 - done.length * 2⁻¹ ^ 50) * valSum done ≤ val s → val s ≤ (1 + done.length * 2⁻¹ ^ 50) * valSum done →
      (1 - (done.length + l.length : ℕ) * 2⁻¹ ^ 50) * valSum (done ++ l) ≤ val (l.foldl (· +₆ ·) s) ∧
        val (l.foldl (· +₆ ·) s) ≤ (1 + (done.length + l.length : ℕ) * 2⁻¹ ^ 50) * valSum (done ++ l) := by
    intro l
    induction l with
    | nil => intro done s _ _ _ _ h1 h2; rw [List.append_nil]; exact ⟨h1, h2⟩
    | cons x l ih =>
      intro done s hx hd hm hs h1 h2
      simp only [List.length_cons] at hm
      have hxx := hx x (by simp)
      have hd' : ∀ y ∈ done ++ [x], Term y := by
        intro y hy
        rcases List.mem_append.1 hy with hy | hy
        · exact hd y hy
        · rw [List.mem_singleton.1 hy]; exact hxx
      have hf := fits64_nn (add_nonneg hs.lo hxx.nn.lo) (add_le_add hs.hi hxx.nn.hi) (sumOf_room (by omega))
      have e : valSum (done ++ [x]) = valSum done + val x := by simp [valSum]
      have hc := valSum_cases hd'
      rw [e] at hc
      have hmr : (done.length : ℝ) ≤ 2 ^ 23 := by
        have : (done.length : ℝ) ≤ 2 ^ 22 := by exact_mod_cast (by omega : done.length ≤ 2 ^ 22)
        linarith
      obtain ⟨a, b⟩ := sum_step (Nat.cast_nonneg _) hmr hxx.nn.lo (valSum_nonneg hd) hs.lo h1 h2 hc
        (FltRound.add64 _ _ hs.fin hxx.nn.fin hf).2
      have := ih (done ++ [x]) (s +₆ x) (fun y hy => hx y (by simp [hy])) hd' (by simp; omega)
        (by rw [List.length_append]; exact hs.add64 hxx.nn (by omega))
        (by rw [e, List.length_append, List.length_singleton]; push_cast; exact a)
        (by rw [e, List.length_append, List.length_singleton]; push_cast; exact b)
      rw [List.length_append, List.append_assoc] at this
      rw [List.foldl_cons, List.length_cons, show done.length + (l.length + 1) = done.length + [x].length + l.length by simp; omega]
      exact this
  have z := nn_zero64 (F := F)
  have := key l [] (lit64 0) h (by simp) (by simpa using hl) sumOf_zero64 (by simp [valSum, z.lo]) (by simp [valSum, z.hi])
  rw [List.length_nil, Nat.zero_add, List.nil_append] at this
  exact this

/-- weights used for a split -/
def mcVals (l : List (HistItem F)) : List F := l.map (·.mcColorWeight)

theorem valSum_append (a b : List F) : valSum (a ++ b) = valSum a + valSum b := by simp [valSum]

theorem valSum_perm {a b : List F} (h : a.Perm b) : valSum a = valSum b := (h.map _).sum_eq

theorem valSum_le {l : List F} (h : ∀ x ∈ l, Term x) : valSum l ≤ l.length * termMax := by
  unfold valSum
  induction l with
  | nil => simp
  | cons x l ih =>
    rw [List.map_cons, List.sum_cons, List.length_cons]
    have := ih (fun y hy => h y (by simp [hy]))
    have := (h x (by simp)).nn.hi
    push_cast; linarith

theorem split_gap {h s κ l L R : ℝ} (hw : h ≤ (3 / 4 + κ) * (L + R)) (hs : (1 - l) * L ≤ s) (hL : 0 ≤ L) (hk : κ + l ≤ 1 / 4) :
    h - s ≤ (3 / 4 + κ) * R := by
  nlinarith

theorem split_next {d v κ R t : ℝ} (hd : d ≤ (3 / 4 + κ) * R) (hv : v - d ≤ 1 / 2 ^ 53 * d + t) (ht : t ≤ 2⁻¹ ^ 60 * R) (hR : 0 ≤ R)
    (hk : κ ≤ 1 / 4) : v ≤ (3 / 4 + (κ + 2⁻¹ ^ 50)) * R := by
  have h1 : (3 / 4 + κ) * R ≤ R := by nlinarith
  have h2 : 1 / 2 ^ 53 * d ≤ 1 / 2 ^ 53 * R := mul_le_mul_of_nonneg_left (hd.trans h1) (by norm_num)
  have h3 : (3 / 4 + (κ + 2⁻¹ ^ 50)) * R = (3 / 4 + κ) * R + 2⁻¹ ^ 50 * R := by ring
  rw [h3]
  norm_num at h2 ht hv ⊢
  linarith

/-- The break is before the end if the weight to be reached is clearly below the sum. -/
theorem sortHalf_lt (o : SortOracle F) (base : List (HistItem F)) (half : F) (hne : base ≠ []) (ht : ∀ x ∈ base, Term x.mcColorWeight)
    (hl : base.length ≤ 2 ^ 22) (hf : fin half) : ∀ j : ℕ, j + base.length ≤ 2 ^ 22 →
    val half ≤ (3 / 4 + j * 2⁻¹ ^ 50) * valSum (mcVals base) → (sortHalf o base half).2 < base.length := by
  fun_induction sortHalf with
  | case1 half => exact absurd rfl hne
  | case2 base half hne' parted p left leftSum hle hp => intro _ _ _; exact List.length_pos_iff.2 hne
  | case3 base half hne' parted p left leftSum hle hp r ih =>
    intro _ _ _
    have h1 := qsortPartition_lt o base hne
    have h3 : r.2 ≤ (parted.take p).length := sortHalf_le o (parted.take p) half
    have h4 : (parted.take p).length ≤ p := List.length_take_le _ _
    have h5 : p < base.length := h1
    show r.2 < _
    omega
  | case4 base half hne' parted p left right leftSum hle hr =>
    intro j hj hw
    exfalso
    have hl' : left = parted := by
      have := List.take_append_drop (p + 1) parted
      rw [show List.drop (p + 1) parted = [] from hr, List.append_nil] at this
      exact this
    have hperm : left.Perm base := hl' ▸ qsortPartition_perm o base
    have hlt : ∀ x ∈ mcVals left, Term x := by
      intro x hx
      obtain ⟨y, hy, rfl⟩ := List.mem_map.1 hx
      exact ht y (hperm.mem_iff.1 hy)
    have hlen : (mcVals left).length = base.length := by rw [mcVals, List.length_map, hperm.length_eq]
    obtain ⟨s1, s2, -⟩ := sum64_near hlt (by rw [hlen]; exact hl)
    have hnot : ¬ val half ≤ val leftSum := fun hc => hle ((FltRound.le _ _ hf s1.fin).2 hc)
    have e : valSum (mcVals left) = valSum (mcVals base) := valSum_perm (hperm.map _)
    have s2' : (1 - base.length * 2⁻¹ ^ 50) * valSum (mcVals base) ≤ val leftSum := by rw [← e, ← hlen]; exact s2
    have h0 : 0 ≤ valSum (mcVals base) := e ▸ valSum_nonneg hlt
    apply hnot
    refine hw.trans (le_trans ?_ s2')
    apply mul_le_mul_of_nonneg_right _ h0
    have : (j : ℝ) + base.length ≤ 2 ^ 22 := by exact_mod_cast hj
    have e3 : ((j : ℝ) + base.length) * 2⁻¹ ^ 50 ≤ 2 ^ 22 * 2⁻¹ ^ 50 := by gcongr
    norm_num at e3 ⊢
    linarith
  | case5 base half hne' parted p left right leftSum hle hr r ih =>
    intro j hj hw
    have hperm : parted.Perm base := qsortPartition_perm o base
    have h2 : left.length + right.length = base.length := by
      rw [← hperm.length_eq, ← List.length_append, List.take_append_drop]
    have hpos : 1 ≤ left.length := by
      have := qsortPartition_lt o base hne
      have h3 := hperm.length_eq
      simp only [left, List.length_take]
      have := List.length_pos_iff.2 hne
      omega
    have hmem : ∀ x ∈ left ++ right, Term x.mcColorWeight := by
      intro x hx
      rw [List.take_append_drop] at hx
      exact ht x (hperm.mem_iff.1 hx)
    have hlt : ∀ x ∈ mcVals left, Term x := by
      intro x hx
      obtain ⟨y, hy, rfl⟩ := List.mem_map.1 hx
      exact hmem y (List.mem_append_left _ hy)
    have hrt : ∀ x ∈ mcVals right, Term x := by
      intro x hx
      obtain ⟨y, hy, rfl⟩ := List.mem_map.1 hx
      exact hmem y (List.mem_append_right _ hy)
    have hsum : valSum (mcVals base) = valSum (mcVals left) + valSum (mcVals right) := by
      rw [← valSum_append, mcVals, mcVals, mcVals, ← List.map_append, List.take_append_drop]
      exact (valSum_perm (hperm.map _)).symm
    have hlen : (mcVals left).length = left.length := by rw [mcVals, List.length_map]
    obtain ⟨s1, s2, -⟩ := sum64_near hlt (by rw [hlen]; omega)
    have s2' : (1 - left.length * 2⁻¹ ^ 50) * valSum (mcVals left) ≤ val leftSum := by rw [← hlen]; exact s2
    have s1' : SumOf (mcVals left).length leftSum := s1
    have hnot : ¬ val half ≤ val leftSum := fun hc => hle ((FltRound.le _ _ hf s1.fin).2 hc)
    have hL := valSum_nonneg hlt
    have hR := valSum_nonneg hrt
    rw [hsum] at hw
    have hjl : ((j : ℝ) + left.length) * 2⁻¹ ^ 50 ≤ 2 ^ 22 * 2⁻¹ ^ 50 := by
      have : (j : ℝ) + left.length ≤ 2 ^ 22 := by exact_mod_cast (by omega : j + left.length ≤ 2 ^ 22)
      gcongr
    have hj0 : 0 ≤ (j : ℝ) * 2⁻¹ ^ 50 := by positivity
    have hl0 : 0 ≤ (left.length : ℝ) * 2⁻¹ ^ 50 := by positivity
    have hjs : ((j + 1 : ℕ) : ℝ) * 2⁻¹ ^ 50 = j * 2⁻¹ ^ 50 + 2⁻¹ ^ 50 := by push_cast; ring
    have hhi : val half ≤ 2 ^ 125 := by
      have hb := valSum_le hlt
      have hb' := valSum_le hrt
      rw [hlen] at hb
      rw [show (mcVals right).length = right.length by rw [mcVals, List.length_map]] at hb'
      have hc : (left.length : ℝ) + right.length ≤ 2 ^ 22 := by exact_mod_cast (by omega : left.length + right.length ≤ 2 ^ 22)
      have hT : 0 ≤ termMax := by unfold termMax; positivity
      have h4 : valSum (mcVals left) + valSum (mcVals right) ≤ 2 ^ 22 * termMax := by
        calc _ ≤ (left.length : ℝ) * termMax + right.length * termMax := add_le_add hb hb'
          _ = ((left.length : ℝ) + right.length) * termMax := by ring
          _ ≤ _ := mul_le_mul_of_nonneg_right hc hT
      have h5 : 3 / 4 + (j : ℝ) * 2⁻¹ ^ 50 ≤ 1 := by
        rw [add_mul] at hjl; norm_num at hjl hl0 ⊢; linarith
      calc val half ≤ _ := hw
        _ ≤ 1 * (2 ^ 22 * termMax) := mul_le_mul h5 h4 (by linarith) (by norm_num)
        _ ≤ 2 ^ 125 := by unfold termMax; norm_num
    have hfs : Fits64 (val half - val leftSum) := by
      unfold Fits64
      rw [abs_of_nonneg (by linarith)]
      have h6 : 0 ≤ val leftSum := s1'.lo
      exact le_trans (by linarith : _ ≤ (2:ℝ) ^ 125) (pow_le_pow_right₀ (by norm_num) (by norm_num))
    obtain ⟨fd, rd⟩ := FltRound.sub64 _ _ hf s1'.fin hfs
    have hd := (abs_le.1 rd.1).2
    rw [abs_of_nonneg (by linarith), u64_val] at hd
    have hgap : val half - val leftSum ≤ (3 / 4 + j * 2⁻¹ ^ 50) * valSum (mcVals right) := by
      rw [add_mul] at hjl
      exact split_gap hw s2' hL (by norm_num at hjl ⊢; linarith)
    have hRpos : 2⁻¹ ^ 149 ≤ valSum (mcVals right) := by
      rcases valSum_cases hrt with h0 | h0
      · rw [h0, mul_zero] at hgap; linarith
      · exact h0
    have htiny := tiny64_share.trans (mul_le_mul_of_nonneg_left hRpos (by positivity : (0:ℝ) ≤ 2⁻¹ ^ 60))
    have : r.2 < right.length := by
      apply ih hr (fun x hx => hmem x (List.mem_append_right _ hx)) (by omega) fd (j + 1) (by omega)
      rw [hjs]
      refine split_next hgap hd htiny hR ?_
      rw [add_mul] at hjl
      norm_num at hjl hl0 ⊢
      linarith
    show left.length + r.2 < _
    omega

/-! ### The two halves of a split -/

theorem nn_sqrt {b B : ℝ} {x : F} (h : NN b x) (hB0 : 0 ≤ B) (hB : b ≤ B ^ 2) (hb : B ≤ 2 ^ 127) :
    NN (B + B / 16777216 + 1 / 10 ^ 40) (sqrt32 x) := by
  have hs : Real.sqrt (val x) ≤ B := by
    rw [Real.sqrt_le_left hB0]; exact h.hi.trans hB
  have hf := fits32_nn (Real.sqrt_nonneg _) hs hb
  obtain ⟨f, r⟩ := FltRound.sqrt32 x h.fin h.lo hf
  refine ⟨f, ?_, rounds32_le r (Real.sqrt_nonneg _) hs⟩
  have z := nn_zero (F := F)
  have hz : val (lit32 0 : F) = 0 := le_antisymm z.hi z.lo
  have h0 : Fits32 (Real.sqrt (val (lit32 0 : F))) := by rw [hz, Real.sqrt_zero]; unfold Fits32; norm_num
  have e : val (sqrt32 (lit32 0 : F)) = 0 := (FltRound.sqrt32 (lit32 0 : F) z.fin z.lo h0).2.2 (by rw [hz, Real.sqrt_zero])
  rw [← e]
  exact FltOrd.sqrt_mono _ _ z.fin h.fin z.lo (by rw [hz]; exact h.lo)

theorem mcWeight_term {m c : FPixel F} (hm : m.UnitFin) (hc : c.UnitFin) {w : F} (hw : NN termMax w) :
    Term (sqrt32 (m.diff c) *₃ sqrt32 (lit32 1 +₃ w)) := by
  have h1 := nn_sqrt (diff_wide_unit hm.wide hc) (B := 7) (by norm_num) (by unfold diffMax; norm_num) (by norm_num)
  have h1' := h1.mono (b := 8) (by norm_num)
  have ho : NN 1 (lit32 1 : F) := lit32_unit (by norm_num) (by norm_num)
  have h2 := (add32_le ho hw (by unfold termMax; norm_num)).mono (b := 2 ^ 104) (by unfold termMax; norm_num)
  have h3 := (nn_sqrt h2 (B := 2 ^ 52) (by norm_num) (by norm_num) (by norm_num)).mono (b := 2 ^ 53) (by norm_num)
  have p0 := mul_nonneg h1'.lo h3.lo
  have p1 : val (sqrt32 (m.diff c)) * val (sqrt32 (lit32 1 +₃ w)) ≤ 2 ^ 56 :=
    (mul_le_mul h1'.hi h3.hi h3.lo (by norm_num)).trans (by norm_num)
  have hf := fits32_nn p0 p1 (by norm_num)
  obtain ⟨f, r⟩ := FltRound.mul32 _ _ h1'.fin h3.fin hf
  have e := mul32_eq _ _ h1'.fin h3.fin hf
  have hn : 0 ≤ val (sqrt32 (m.diff c) *₃ sqrt32 (lit32 1 +₃ w)) := by rw [e]; exact r32_nonneg p0
  refine ⟨⟨f, hn, (rounds32_le r p0 p1).trans (by unfold termMax; norm_num)⟩, ?_⟩
  rcases hn.eq_or_lt with h | h
  · exact .inl h.symm
  · right
    rw [e] at h ⊢
    exact FltMin.pos32 _ h

theorem colorWeights_term (o : SortOracle F) {l : List (HistItem F)} (h : ∀ x ∈ l, x.color.UnitFin ∧ NN termMax x.adjustedWeight) :
    ∀ x ∈ MBox.colorWeights o l, Term x.mcColorWeight := by
  intro x hx
  simp only [MBox.colorWeights, List.mem_map] at hx
  obtain ⟨c, hc, rfl⟩ := hx
  have hcl := h c ((o.selectNth_perm _ _).mem_iff.1 hc)
  refine mcWeight_term ?_ hcl.1 hcl.2
  split
  next d hd => exact (h d ((o.selectNth_perm _ _).mem_iff.1 (List.mem_of_getElem? hd))).1
  · exact FPixel.unitFin_default

/-- both halves of a split of a box with at least two colours have colours -/
theorem split_right_fin (o : SortOracle F) (b : MBox F) (others : List (MBox F)) (h : 1 < b.colors.length) (hl : b.colors.length ≤ 2 ^ 22)
    (hb : ∀ x ∈ b.colors, x.color.UnitFin ∧ NN termMax x.adjustedWeight) : (b.split o others).2.colors ≠ [] := by
  set cw := MBox.colorWeights o b.prepareSort with hcw
  have hlen : cw.length = b.colors.length := by rw [hcw, length_colorWeights, length_prepareSort]
  have hne : cw ≠ [] := List.ne_nil_of_length_pos (by omega)
  have hterm : ∀ x ∈ cw, Term x.mcColorWeight := by
    apply colorWeights_term
    intro x hx
    obtain ⟨y, hy, rfl⟩ := List.mem_map.1 hx
    exact hb y hy
  have hterm' : ∀ x ∈ mcVals cw, Term x := by
    intro x hx
    obtain ⟨y, hy, rfl⟩ := List.mem_map.1 hx
    exact hterm y hy
  have hlen' : (mcVals cw).length = b.colors.length := by rw [mcVals, List.length_map, hlen]
  obtain ⟨s1, -, s3⟩ := sum64_near hterm' (by rw [hlen']; exact hl)
  have hR := valSum_nonneg hterm'
  have hf2 : Fits64 ((2 : ℚ) : ℝ) := fits64_nn (b := 2) (by norm_num) (by norm_num) (by norm_num)
  have f2 := (FltRound.lit64 (F := F) 2 hf2).1
  have e2 : val (lit64 2 : F) = 2 := by
    rw [lit64_eq _ hf2]
    have := r64_nat (F := F) 2 (by norm_num)
    push_cast at this ⊢; exact this
  have hne2 : val (lit64 2 : F) ≠ 0 := by rw [e2]; norm_num
  have hd0 : 0 ≤ val (sum64 (mcVals cw)) / val (lit64 2 : F) := by rw [e2]; exact div_nonneg s1.lo (by norm_num)
  have hd1 : val (sum64 (mcVals cw)) / val (lit64 2 : F) ≤ 2 ^ 126 := by
    rw [e2]
    have := s1.lo
    have := s1.hi.trans (sumOf_fits (by rw [hlen']; exact hl))
    linarith
  obtain ⟨fd, rd⟩ := FltRound.div64 _ _ s1.fin f2 hne2 (fits64_nn hd0 hd1 (by norm_num))
  have hlt : (sortHalf o cw (sum64 (cw.map (·.mcColorWeight)) /₆ lit64 2)).2 < cw.length := by
    refine sortHalf_lt o cw (sum64 (mcVals cw) /₆ lit64 2) hne hterm (by rw [hlen]; exact hl) fd 0 (by rw [hlen]; omega) ?_
    rw [e2] at rd
    have hk : ((mcVals cw).length : ℝ) * 2⁻¹ ^ 50 ≤ 1 / 4 := by
      have : ((mcVals cw).length : ℝ) ≤ 2 ^ 22 := by rw [hlen']; exact_mod_cast hl
      calc ((mcVals cw).length : ℝ) * 2⁻¹ ^ 50 ≤ 2 ^ 22 * 2⁻¹ ^ 50 := by gcongr
        _ ≤ 1 / 4 := by norm_num
    have hs : val (sum64 (mcVals cw)) ≤ 5 / 4 * valSum (mcVals cw) := s3.trans (mul_le_mul_of_nonneg_right (by linarith) hR)
    rcases valSum_cases hterm' with h0 | h0
    · have : val (sum64 (mcVals cw)) = 0 := le_antisymm (by rw [h0, mul_zero] at hs; exact hs) s1.lo
      rw [rd.2 (by rw [this, zero_div]), h0]; simp
    · have htiny := tiny64_share.trans (mul_le_mul_of_nonneg_left h0 (by positivity : (0:ℝ) ≤ 2⁻¹ ^ 60))
      have hd := (abs_le.1 rd.1).2
      rw [abs_of_nonneg (div_nonneg s1.lo (by norm_num)), u64_val] at hd
      have h5 : val (sum64 (mcVals cw)) / 2 ≤ 5 / 8 * valSum (mcVals cw) := by linarith
      norm_num at hd htiny ⊢
      linarith
  have hl2 : (sortHalf o cw (sum64 (cw.map (·.mcColorWeight)) /₆ lit64 2)).1.length = b.colors.length := by
    rw [(sortHalf_perm o _ _).length_eq, hlen]
  apply List.ne_nil_of_length_pos
  simp only [MBox.split, newS_colors, List.length_drop, ← hcw]
  omega

end Verif
