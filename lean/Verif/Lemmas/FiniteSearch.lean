import Verif.Lemmas.FiniteThin
import Verif.Lemmas.Nearest

/-! Median cut and k-means keep numbers finite. -/

set_option linter.unusedSectionVars false

namespace Verif
open Flt FltRound FltCorrect
open FltFull (r32_idem r64 r64_mono r64_idem r64_nat lit64_eq add64_eq div64_eq to32_eq pow32_unit)

variable {F : Type} [Flt F] [FltMin F] {op sm : Prop}

/-- bound of perceptual weights -/
noncomputable def percMax : ℝ := 2 ^ 28 * 1.01

open Classical in
/-- bound of perceptual weights, lower for pictures that are not too large (`sm`) -/
noncomputable def percTop (sm : Prop) : ℝ := if sm then 2 ^ 21 * 1.01 else percMax

open Classical in
/-- how much weights can grow in a round -/
noncomputable def growth (sm : Prop) : ℝ := if sm then 15.71 else 98

open Classical in
/-- how many rounds the proof allows -/
noncomputable def maxRounds (sm : Prop) : ℕ := if sm then 20 else 11

theorem maxRounds_true (ho : sm) : maxRounds sm = 20 := if_pos ho

theorem maxRounds_false (ho : ¬ sm) : maxRounds sm = 11 := if_neg ho

theorem eleven_le : 11 ≤ maxRounds sm := by
  unfold maxRounds; split <;> omega

theorem percTop_range : 1 ≤ percTop sm ∧ percTop sm ≤ percMax := by
  unfold percTop percMax; split <;> norm_num

/-- bound of adjusted weights after `k` adjustments -/
noncomputable def adjMax (sm : Prop) (k : ℕ) : ℝ := (1.55 * growth sm ^ k - 0.55) * percTop sm

theorem growth_range : 12.7 ≤ growth sm ∧ growth sm ≤ 98 := by
  unfold growth; split <;> norm_num

theorem one_le_growth : 1 ≤ growth sm := le_trans (by norm_num) growth_range.1

theorem adjMax_zero : adjMax sm 0 = percTop sm := by unfold adjMax; ring

theorem adjMax_mono {j k : ℕ} (h : j ≤ k) : adjMax sm j ≤ adjMax sm k := by
  unfold adjMax
  have : growth sm ^ j ≤ growth sm ^ k := pow_le_pow_right₀ one_le_growth h
  have : 0 ≤ percTop sm := le_trans (by norm_num) percTop_range.1
  gcongr

theorem adjMax_le {k : ℕ} (h : k ≤ maxRounds sm) : adjMax sm k ≤ termMax := by
  refine (adjMax_mono h).trans ?_
  by_cases ho : sm
  · rw [maxRounds_true ho]
    unfold adjMax growth percTop termMax
    rw [if_pos ho, if_pos ho]
    norm_num
  · rw [maxRounds_false ho]
    unfold adjMax growth percTop percMax termMax
    rw [if_neg ho, if_neg ho]
    norm_num

/-- alpha of opaque colours in the histogram, from below (it is 0.625 up to rounding) -/
noncomputable def solidLo : ℝ := 0.62499

/-- alpha of the averages of opaque colours, from below -/
noncomputable def palLo : ℝ := 0.6234

/-- an item with numbers in range; `op`: the picture is opaque and some colour was counted; `sm`: some colour was counted, and
not too many of them -/
structure ItemFin (op sm : Prop) (b : ℝ) (x : HistItem F) : Prop where
  color : x.color.UnitFin
  top : NN (percTop sm) x.perceptualWeight
  adj : NN b x.adjustedWeight
  rep : r32 F (val x.adjustedWeight) = val x.adjustedWeight
  solid : op → solidLo ≤ val x.color.a ∧ 1 / 3000 ≤ val x.perceptualWeight ∧ val x.perceptualWeight ≤ 2 * val x.adjustedWeight
  slim : sm → x.color.Slim ∧ 1 / 3000 ≤ val x.perceptualWeight ∧ val x.perceptualWeight ≤ 2 * val x.adjustedWeight

theorem ItemFin.perc {b : ℝ} {x : HistItem F} (h : ItemFin op sm b x) : NN percMax x.perceptualWeight := h.top.mono percTop_range.2

theorem ItemFin.adj_pos {b : ℝ} {x : HistItem F} (h : ItemFin op sm b x) (ho : op ∨ sm) : 1 / 6000 ≤ val x.adjustedWeight := by
  rcases ho with ho | ho
  · obtain ⟨-, h1, h2⟩ := h.solid ho
    linarith
  · obtain ⟨-, h1, h2⟩ := h.slim ho
    linarith

theorem ItemFin.mono {a b : ℝ} {x : HistItem F} (h : ItemFin op sm a x) (hab : a ≤ b) : ItemFin op sm b x :=
  ⟨h.color, h.top, h.adj.mono hab, h.rep, h.solid, h.slim⟩

theorem percMax_le : percMax ≤ termMax := by unfold percMax termMax; norm_num

/-! ### Averages -/

/-- One step of the sums of weights `X` and of weighted values `B`: their ratio falls by at most `δ`. -/
theorem dense_step {l κ δ u t X B S A : ℝ} (hB : l * (1 - κ) * X ≤ B) (hS : |S - X| ≤ u * X + t) (hA : |A - B| ≤ u * B + t)
    (hX : 1 / 7000 ≤ X) (hl : 1 / 2 ≤ l) (hl1 : l ≤ 1) (hκ : 0 ≤ κ) (hκδ : κ + δ ≤ 1) (hu : 0 ≤ u) (hu1 : u ≤ 1) (ht0 : 0 ≤ t)
    (ht : t ≤ 1 / 10 ^ 40) (hδ : 1 / 10 ^ 17 ≤ δ - 2 * u) : l * (1 - (κ + δ)) * S ≤ A := by
  have hS' := (abs_le.1 hS).2
  have hA' := (abs_le.1 hA).1
  have c0 : 0 ≤ l * (1 - (κ + δ)) := mul_nonneg (by linarith) (by linarith)
  have h1 : l * (1 - (κ + δ)) * S ≤ l * (1 - (κ + δ)) * (X + (u * X + t)) := mul_le_mul_of_nonneg_left (by linarith) c0
  have c1 : l * (1 - (κ + δ)) ≤ l := by nlinarith [mul_nonneg (by linarith : (0:ℝ) ≤ l) (by linarith : 0 ≤ κ + δ)]
  have hX0 : 0 ≤ X := le_trans (by norm_num) hX
  have uX : 0 ≤ u * X + t := add_nonneg (mul_nonneg hu hX0) ht0
  have h2 : l * (1 - (κ + δ)) * (u * X + t) ≤ l * (u * X + t) := mul_le_mul_of_nonneg_right c1 uX
  have h3 : (1 - u) * (l * (1 - κ) * X) ≤ (1 - u) * B := mul_le_mul_of_nonneg_left hB (by linarith)
  have h4 : u * (l * (1 - κ) * X) ≤ u * (l * X) := by
    apply mul_le_mul_of_nonneg_left _ hu
    apply mul_le_mul_of_nonneg_right _ hX0
    nlinarith
  have h5 : l * t ≤ t := by nlinarith
  have h6 : 2 * t ≤ l * X * (δ - 2 * u) := by
    calc 2 * t ≤ 1 / 2 * (1 / 7000) * (1 / 10 ^ 17) := by norm_num at ht ⊢; linarith
      _ ≤ l * X * (δ - 2 * u) := by
        apply mul_le_mul _ hδ (by norm_num) (by positivity)
        exact mul_le_mul hl hX (by norm_num) (by linarith)
  nlinarith

theorem rounds_abs_nn {u t r v : ℝ} (h : RoundsTo u t r v) (h0 : 0 ≤ r) : |v - r| ≤ u * r + t := by
  have := h.1
  rwa [abs_of_nonneg h0] at this

/-- the alpha of an opaque colour times a weight -/
theorem solid_mul {c w : F} (hc : NN 1 c) (hlo : solidLo ≤ val c) (hw : NN termMax w) (hw0 : 1 / 6000 ≤ val w) :
    solidLo * (1 - 5 / 2 ^ 25) * val w ≤ val (c *₃ w) := by
  have h0 : 0 ≤ val c * val w := mul_nonneg hc.lo hw.lo
  have h1 : val c * val w ≤ val w := mul_le_of_le_one_left hw.lo hc.hi
  have hf := fits32_nn h0 (h1.trans hw.hi) (by unfold termMax; norm_num)
  have hr := (abs_le.1 (rounds_abs_nn (FltRound.mul32 _ _ hc.fin hw.fin hf).2 h0)).1
  have ht := tiny32_le
  rw [u32_val] at hr
  have h2 : solidLo * val w ≤ val c * val w := mul_le_mul_of_nonneg_right hlo hw.lo
  unfold solidLo at *
  norm_num at ht hr ⊢
  linarith

/-- the sums of `weighed_average_color` for opaque colours -/
theorem avg_solid {l : List (HistItem F)} {m : ℕ} {s : F × FPixel F} (h : ∀ x ∈ l, ItemFin op sm termMax x) (ho : op)
    (hl : m + l.length ≤ 2 ^ 14) (hs : SumOf m s.1) (ha : NN (val s.1) s.2.a)
    (hd : solidLo * (1 - (m + 1) * (5 / 2 ^ 25)) * val s.1 ≤ val s.2.a) :
    solidLo * (1 - ((m + l.length : ℕ) + 1) * (5 / 2 ^ 25)) * val (l.foldl avgStep s).1 ≤ val (l.foldl avgStep s).2.a := by
  induction l generalizing m s with
  | nil => simpa using hd
  | cons x l ih =>
    simp only [List.length_cons] at hl
    have hx := h x (by simp)
    have hm : m ≤ 2 ^ 22 := by omega
    have hmr : (m : ℝ) + 1 ≤ 2 ^ 14 := by exact_mod_cast (by omega : m + 1 ≤ 2 ^ 14)
    have room := sumOf_room hm
    have ht : termMax ≤ 2 ^ 127 := by unfold termMax; norm_num
    have hp := mul_unit hx.color.a hx.adj ht hx.rep
    have hw0 := hx.adj_pos (.inl ho)
    have hps := solid_mul hx.color.a (hx.solid ho).1 hx.adj hw0
    have hfS := fits32_nn (add_nonneg hs.lo hx.adj.lo) (add_le_add hs.hi hx.adj.hi) room
    have hfA := fits32_nn (add_nonneg ha.lo hp.lo) (add_le_add (ha.hi.trans hs.hi) (hp.hi.trans hx.adj.hi)) room
    have rS := rounds_abs_nn (FltRound.add32 _ _ hs.fin hx.adj.fin hfS).2 (add_nonneg hs.lo hx.adj.lo)
    have rA := rounds_abs_nn (FltRound.add32 _ _ ha.fin hp.fin hfA).2 (add_nonneg ha.lo hp.lo)
    have hm0 : (0:ℝ) ≤ m := Nat.cast_nonneg _
    have hB : solidLo * (1 - (m + 1) * (5 / 2 ^ 25)) * (val s.1 + val x.adjustedWeight) ≤ val s.2.a + val (x.color.a *₃ x.adjustedWeight) := by
      have : solidLo * (1 - (m + 1) * (5 / 2 ^ 25)) * val x.adjustedWeight ≤ solidLo * (1 - 5 / 2 ^ 25) * val x.adjustedWeight := by
        apply mul_le_mul_of_nonneg_right _ hx.adj.lo
        apply mul_le_mul_of_nonneg_left _ (by unfold solidLo; norm_num)
        linarith
      rw [mul_add]
      linarith
    have hu : u32 = 1 / 2 ^ 24 := by rw [u32_val]; norm_num
    have key := dense_step (δ := 5 / 2 ^ 25) hB rS rA (by have := hs.lo; linarith) (by unfold solidLo; norm_num) (by unfold solidLo; norm_num)
      (by positivity) (by linarith) (by rw [hu]; positivity) (by rw [hu]; norm_num) tiny32_nonneg tiny32_le (by rw [hu]; norm_num)
    have := ih (m := m + 1) (s := avgStep s x) (fun y hy => h y (by simp [hy])) (by omega) (hs.add32 hx.adj hm)
      (add32_mono hs hx.adj room ha hp) (by
        refine le_trans (le_of_eq ?_) key
        show solidLo * (1 - ((m + 1 : ℕ) + 1) * (5 / 2 ^ 25)) * val (s.1 +₃ x.adjustedWeight) = _
        push_cast; ring)
    rw [List.foldl_cons, List.length_cons, show m + (l.length + 1) = m + 1 + l.length by omega]
    exact this

/-- A sum made by `weighed_average_color` is near the exact sum. -/
theorem avg_track (f : F × FPixel F → F) (g : HistItem F → F) (q : HistItem F → ℝ) (hstep : ∀ s x, f (avgStep s x) = f s +₃ g x)
    {l : List (HistItem F)} {m : ℕ} {s : F × FPixel F} (h : ∀ x ∈ l, ItemFin op sm termMax x)
    (hg : ∀ x ∈ l, NN (val x.adjustedWeight) (g x) ∧ 0 ≤ q x ∧ |val (g x) - q x| ≤ u32 * q x + tiny32)
    (hl : m + l.length ≤ 50000) (hs : SumOf m s.1) (hf : NN (val s.1) (f s)) {T : ℝ} (hT : 0 ≤ T)
    (hd : |val (f s) - T| ≤ m * (5 / 2 ^ 25) * T + m * (3 * tiny32)) :
    |val (f (l.foldl avgStep s)) - (T + (l.map q).sum)| ≤
      (m + l.length : ℕ) * (5 / 2 ^ 25) * (T + (l.map q).sum) + (m + l.length : ℕ) * (3 * tiny32) := by
  induction l generalizing m s T with
  | nil => simpa using hd
  | cons x l ih =>
    simp only [List.length_cons] at hl
    have hx := h x (by simp)
    obtain ⟨hg1, hg2, hg3⟩ := hg x (by simp)
    have hm : m ≤ 2 ^ 22 := by omega
    have hmr : (m : ℝ) ≤ 50000 := by exact_mod_cast (by omega : m ≤ 50000)
    have room := sumOf_room hm
    have hfA := fits32_nn (add_nonneg hf.lo hg1.lo) (add_le_add (hf.hi.trans hs.hi) (hg1.hi.trans hx.adj.hi)) room
    have rA := rounds_abs_nn (FltRound.add32 _ _ hf.fin hg1.fin hfA).2 (add_nonneg hf.lo hg1.lo)
    have hu : u32 = 1 / 2 ^ 24 := by rw [u32_val]; norm_num
    have ht0 := tiny32_nonneg
    have hκ : (m : ℝ) * (5 / 2 ^ 25) ≤ 1 / 100 := (mul_le_mul_of_nonneg_right hmr (by norm_num)).trans (by norm_num)
    have key := track_step hT hg2 hd hg3 rA (by positivity) hκ (by rw [hu]; norm_num) (by rw [hu]; norm_num)
      ht0 (by
        rw [hu]
        have : (m : ℝ) * (3 * tiny32) ≤ 50000 * (3 * tiny32) := mul_le_mul_of_nonneg_right hmr (by linarith)
        norm_num at this ⊢
        linarith)
    have := ih (m := m + 1) (s := avgStep s x) (T := T + q x) (fun y hy => h y (by simp [hy])) (fun y hy => hg y (by simp [hy])) (by omega)
      (hs.add32 hx.adj hm) (by rw [hstep]; exact add32_mono hs hx.adj room hf hg1) (add_nonneg hT hg2) (by
        rw [hstep]
        refine key.trans (le_of_eq ?_)
        rw [hu]
        push_cast; ring)
    rw [List.foldl_cons, List.length_cons, show m + (l.length + 1) = m + 1 + l.length by omega, List.map_cons, List.sum_cons, ← add_assoc]
    exact this

theorem avg_fold {l : List (HistItem F)} {m : ℕ} {s : F × FPixel F} (h : ∀ x ∈ l, ItemFin op sm termMax x) (hl : m + l.length ≤ 2 ^ 22)
    (hs : SumOf m s.1) (ha : NN (val s.1) s.2.a) (hr : NN (val s.1) s.2.r) (hg : NN (val s.1) s.2.g) (hb : NN (val s.1) s.2.b) :
    let t := l.foldl avgStep s
    SumOf (m + l.length) t.1 ∧ NN (val t.1) t.2.a ∧ NN (val t.1) t.2.r ∧ NN (val t.1) t.2.g ∧ NN (val t.1) t.2.b := by
  induction l generalizing m s with
  | nil => exact ⟨by simpa using hs, ha, hr, hg, hb⟩
  | cons x l ih =>
    simp only [List.length_cons] at hl
    have hx := h x (by simp)
    have hm : m ≤ 2 ^ 22 := by omega
    have room := sumOf_room hm
    have ht : termMax ≤ 2 ^ 127 := by unfold termMax; norm_num
    have step : ∀ c d : F, NN 1 c → NN (val s.1) d → NN (val (s.1 +₃ x.adjustedWeight)) (d +₃ c *₃ x.adjustedWeight) :=
      fun c d hc hd => add32_mono hs hx.adj room hd (mul_unit hc hx.adj ht hx.rep)
    have := ih (m := m + 1) (s := avgStep s x) (fun y hy => h y (by simp [hy])) (by omega) (hs.add32 hx.adj hm)
      (step _ _ hx.color.a ha) (step _ _ hx.color.r hr) (step _ _ hx.color.g hg) (step _ _ hx.color.b hb)
    simpa [Nat.add_assoc, Nat.add_comm 1] using this

theorem weighedAverage_unit {l : List (HistItem F)} (h : ∀ x ∈ l, ItemFin op sm termMax x) (hl : l.length ≤ 2 ^ 22) :
    (weighedAverageColor l).UnitFin := by
  have hz := nn_zero (F := F)
  have hz0 : val (lit32 0 : F) = 0 := le_antisymm hz.hi hz.lo
  have hz' : NN (val (lit32 0 : F)) (zero : F) := hz0 ▸ hz
  obtain ⟨h1, ha, hr, hg, hb⟩ := avg_fold (m := 0) (s := (lit32 0, FPixel.default)) h (by omega) sumOf_zero hz' hz' hz' hz'
  unfold weighedAverageColor
  dsimp only
  split
  next hne =>
    have hpos : 0 < val (l.foldl avgStep (lit32 0, FPixel.default)).1 := by
      rcases h1.lo.eq_or_lt with e | e
      · exfalso
        have : Flt.eq (l.foldl avgStep (lit32 0, FPixel.default)).1 (lit32 0) = true :=
          (FltRound.eq _ _ h1.fin hz.fin).2 (by rw [hz0, ← e])
        rw [this] at hne; cases hne
      · exact e
    exact ⟨unit_div ha h1 hpos, unit_div hr h1 hpos, unit_div hg h1 hpos, unit_div hb h1 hpos⟩
  next hne =>
    have he : val (l.foldl avgStep (lit32 0, FPixel.default)).1 = 0 := by
      have : Flt.eq (l.foldl avgStep (lit32 0, FPixel.default)).1 (lit32 0) = true := by simpa using hne
      rw [← hz0]; exact (FltRound.eq _ _ h1.fin hz.fin).1 this
    rw [he] at ha hr hg hb
    exact ⟨ha.mono zero_le_one, hr.mono zero_le_one, hg.mono zero_le_one, hb.mono zero_le_one⟩

/-- colours have weight -/
theorem total_pos {l : List (HistItem F)} (h : ∀ x ∈ l, ItemFin op sm termMax x) (ho : op ∨ sm) (hl : l.length ≤ 50000) (hne : l ≠ []) :
    0 < val (l.foldl avgStep (lit32 0, FPixel.default)).1 := by
  have key : ∀ (l : List (HistItem F)) (m : ℕ) (s : F × FPixel F), (∀ x ∈ l, ItemFin op sm termMax x) → m + l.length ≤ 50000 →
      SumOf m s.1 → (0 < val s.1 ∨ l ≠ []) → 0 < val (l.foldl avgStep s).1 := by
    intro l
    induction l with
    | nil => intro m s _ _ _ h; rcases h with h | h; exacts [h, absurd rfl h]
    | cons x l ih =>
      intro m s hx hm hs _
      simp only [List.length_cons] at hm
      have hx0 := hx x (by simp)
      have hw0 := hx0.adj_pos ho
      have hm' : m ≤ 2 ^ 22 := by omega
      have hf := fits32_nn (add_nonneg hs.lo hx0.adj.lo) (add_le_add hs.hi hx0.adj.hi) (sumOf_room hm')
      refine ih (m + 1) (avgStep s x) (fun y hy => hx y (by simp [hy])) (by omega) (hs.add32 hx0.adj hm') (.inl ?_)
      have r := rounds_abs_nn (FltRound.add32 _ _ hs.fin hx0.adj.fin hf).2 (add_nonneg hs.lo hx0.adj.lo)
      have r1 := (abs_le.1 r).1
      have ht := tiny32_le
      have := hs.lo
      rw [u32_val] at r1
      show 0 < val (s.1 +₃ x.adjustedWeight)
      norm_num at ht
      linarith
  exact key l 0 _ h (by omega) sumOf_zero (.inr hne)

/-- the average of opaque colours is opaque enough -/
theorem weighedAverage_solid {l : List (HistItem F)} (h : ∀ x ∈ l, ItemFin op sm termMax x) (ho : op) (hl : l.length ≤ 2 ^ 14)
    (hne : l ≠ []) : palLo ≤ val (weighedAverageColor l).a := by
  have hz := nn_zero (F := F)
  have hz0 : val (lit32 0 : F) = 0 := le_antisymm hz.hi hz.lo
  have hz' : NN (val (lit32 0 : F)) (zero : F) := hz0 ▸ hz
  obtain ⟨h1, ha, -, -, -⟩ := avg_fold (m := 0) (s := (lit32 0, FPixel.default)) h (by omega) sumOf_zero hz' hz' hz' hz'
  have hd := avg_solid (m := 0) (s := (lit32 0, FPixel.default)) h ho (by omega) sumOf_zero hz' (by
    show solidLo * _ * val (lit32 0 : F) ≤ val (lit32 0 : F)
    rw [hz0, mul_zero])
  have hpos : 0 < val (l.foldl avgStep (lit32 0, FPixel.default)).1 := total_pos h (.inl ho) (by omega) hne
  have hlr : (l.length : ℝ) ≤ 2 ^ 14 := by exact_mod_cast hl
  unfold weighedAverageColor
  dsimp only
  have hne0 : (!Flt.eq (l.foldl avgStep (lit32 0, FPixel.default)).1 (lit32 0)) = true := by
    cases hc : Flt.eq (l.foldl avgStep (lit32 0, FPixel.default)).1 (lit32 0) with
    | false => rfl
    | true => have := (FltRound.eq _ _ h1.fin hz.fin).1 hc; rw [hz0] at this; linarith
  rw [if_pos hne0]
  have q0 := div_nonneg ha.lo h1.lo
  have q1 := (div_le_one hpos).2 ha.hi
  have hq : 0.62345 ≤ val (l.foldl avgStep (lit32 0, FPixel.default)).2.a / val (l.foldl avgStep (lit32 0, FPixel.default)).1 := by
    rw [le_div_iff₀ hpos]
    refine le_trans ?_ hd
    apply mul_le_mul_of_nonneg_right _ h1.lo
    unfold solidLo
    have : (((0 + l.length : ℕ) : ℝ) + 1) * (5 / 2 ^ 25) ≤ (2 ^ 14 + 1) * (5 / 2 ^ 25) := by
      rw [Nat.zero_add]; gcongr
    norm_num at this ⊢
    linarith
  have hr := (abs_le.1 (rounds_abs_nn (FltRound.div32 _ _ ha.fin h1.fin hpos.ne' (fits32_nn q0 q1 (by norm_num))).2 q0)).1
  have ht := tiny32_le
  rw [u32_val] at hr
  unfold palLo
  norm_num at ht hq ⊢
  linarith

/-- the average of colours is near their exact average -/
theorem weighedAverage_thin {l : List (HistItem F)} (h : ∀ x ∈ l, ItemFin op sm termMax x) (ho : sm) (hl : l.length ≤ 50000)
    (hne : l ≠ []) : (weighedAverageColor l).Thin := by
  have hz := nn_zero (F := F)
  have hz0 : val (lit32 0 : F) = 0 := le_antisymm hz.hi hz.lo
  have hz' : NN (val (lit32 0 : F)) (zero : F) := hz0 ▸ hz
  obtain ⟨h1, ha, hr, hg, hb⟩ := avg_fold (m := 0) (s := (lit32 0, FPixel.default)) h (by omega) sumOf_zero hz' hz' hz' hz'
  have ht : termMax ≤ 2 ^ 127 := by unfold termMax; norm_num
  have start : |val (lit32 0 : F) - 0| ≤ (0 : ℕ) * (5 / 2 ^ 25) * 0 + (0 : ℕ) * (3 * tiny32) := by rw [hz0]; simp
  have htn := tiny32_nonneg
  have chan : ∀ (ch : FPixel F → F), (∀ (s : F × FPixel F) (x : HistItem F), ch (avgStep s x).2 = ch s.2 +₃ ch x.color *₃ x.adjustedWeight) →
      (∀ x ∈ l, NN 1 (ch x.color)) → ch FPixel.default = Flt.lit32 0 →
      |val (ch (l.foldl avgStep (lit32 0, FPixel.default)).2) - (0 + (l.map fun x => val (ch x.color) * val x.adjustedWeight).sum)| ≤
      (0 + l.length : ℕ) * (5 / 2 ^ 25) * (0 + (l.map fun x => val (ch x.color) * val x.adjustedWeight).sum) + (0 + l.length : ℕ) * (3 * tiny32) := by
    intro ch hstep hc h0
    refine avg_track (fun s => ch s.2) (fun x => ch x.color *₃ x.adjustedWeight) (fun x => val (ch x.color) * val x.adjustedWeight) hstep h
      (fun x hx => ⟨mul_unit (hc x hx) (h x hx).adj ht (h x hx).rep, mul_nonneg (hc x hx).lo (h x hx).adj.lo, ?_⟩) (by omega) sumOf_zero
      (by show NN _ (ch FPixel.default); rw [h0]; exact hz') le_rfl (by show |val (ch FPixel.default) - 0| ≤ _; rw [h0]; exact start)
    have p0 := mul_nonneg (hc x hx).lo (h x hx).adj.lo
    have p1 : val (ch x.color) * val x.adjustedWeight ≤ val x.adjustedWeight := mul_le_of_le_one_left (h x hx).adj.lo (hc x hx).hi
    exact rounds_abs_nn (FltRound.mul32 _ _ (hc x hx).fin (h x hx).adj.fin (fits32_nn p0 (p1.trans (h x hx).adj.hi) ht)).2 p0
  have kw := avg_track (fun s => s.1) (fun x => x.adjustedWeight) (fun x => val x.adjustedWeight) (fun _ _ => rfl) h
    (s := (lit32 0, FPixel.default)) (m := 0) (T := 0)
    (fun x hx => ⟨⟨(h x hx).adj.fin, (h x hx).adj.lo, le_rfl⟩, (h x hx).adj.lo, by
      rw [sub_self, abs_zero]
      exact add_nonneg (mul_nonneg (by rw [u32_val]; norm_num) (h x hx).adj.lo) htn⟩) (by omega) sumOf_zero hz' le_rfl start
  have ka := chan FPixel.a (fun _ _ => rfl) (fun x hx => (h x hx).color.a) rfl
  have kr := chan FPixel.r (fun _ _ => rfl) (fun x hx => (h x hx).color.r) rfl
  have kg := chan FPixel.g (fun _ _ => rfl) (fun x hx => (h x hx).color.g) rfl
  have kb := chan FPixel.b (fun _ _ => rfl) (fun x hx => (h x hx).color.b) rfl
  have hpos := total_pos h (.inr ho) hl hne
  -- the exact sums
  have sums : ∀ l : List (HistItem F), (∀ x ∈ l, ItemFin op sm termMax x) →
      0 ≤ (l.map fun x => val x.color.a * val x.adjustedWeight).sum ∧
      0 ≤ (l.map fun x => val x.adjustedWeight).sum ∧
      (l ≠ [] → 1 / 6000 ≤ (l.map fun x => val x.adjustedWeight).sum) ∧
      (l.map fun x => val x.color.a * val x.adjustedWeight).sum ≤ 0.62501 * (l.map fun x => val x.adjustedWeight).sum ∧
      (l.map fun x => val x.color.r * val x.adjustedWeight).sum ≤ 0.8 * (l.map fun x => val x.color.a * val x.adjustedWeight).sum +
        1 / 10 ^ 6 * (l.map fun x => val x.adjustedWeight).sum ∧
      (l.map fun x => val x.color.g * val x.adjustedWeight).sum ≤ 1.6 * (l.map fun x => val x.color.a * val x.adjustedWeight).sum +
        1 / 10 ^ 6 * (l.map fun x => val x.adjustedWeight).sum ∧
      (l.map fun x => val x.color.b * val x.adjustedWeight).sum ≤ 0.8 * (l.map fun x => val x.color.a * val x.adjustedWeight).sum +
        1 / 10 ^ 6 * (l.map fun x => val x.adjustedWeight).sum := by
    intro l
    induction l with
    | nil => intro _; simp
    | cons x l ih =>
      intro hx
      obtain ⟨i1, i2, -, i4, i5, i6, i7⟩ := ih fun y hy => hx y (by simp [hy])
      have hx0 := hx x (by simp)
      have hw := hx0.adj_pos (.inr ho)
      have hw0 := hx0.adj.lo
      obtain ⟨⟨sa, sr, sg, sb⟩, -⟩ := hx0.slim ho
      have ma := mul_le_mul_of_nonneg_right sa hw0
      have mr := mul_le_mul_of_nonneg_right sr hw0
      have mg := mul_le_mul_of_nonneg_right sg hw0
      have mb := mul_le_mul_of_nonneg_right sb hw0
      have m0 := mul_nonneg hx0.color.a.lo hw0
      simp only [List.map_cons, List.sum_cons]
      refine ⟨by linarith, by linarith, fun _ => by linarith, by linarith, by linarith, by linarith, by linarith⟩
  obtain ⟨t1, t2, t3, t4, t5, t6, t7⟩ := sums l h
  have t3 := t3 hne
  have hlr : (((0 + l.length : ℕ) : ℕ) : ℝ) ≤ 50000 := by rw [Nat.zero_add]; exact_mod_cast hl
  have hlr0 : (0:ℝ) ≤ ((0 + l.length : ℕ) : ℝ) := Nat.cast_nonneg _
  have sr0 : 0 ≤ (l.map fun x => val x.color.r * val x.adjustedWeight).sum := List.sum_nonneg (by
    intro y hy; obtain ⟨x, hx, rfl⟩ := List.mem_map.1 hy; exact mul_nonneg (h x hx).color.r.lo (h x hx).adj.lo)
  have sg0 : 0 ≤ (l.map fun x => val x.color.g * val x.adjustedWeight).sum := List.sum_nonneg (by
    intro y hy; obtain ⟨x, hx, rfl⟩ := List.mem_map.1 hy; exact mul_nonneg (h x hx).color.g.lo (h x hx).adj.lo)
  have sb0 : 0 ≤ (l.map fun x => val x.color.b * val x.adjustedWeight).sum := List.sum_nonneg (by
    intro y hy; obtain ⟨x, hx, rfl⟩ := List.mem_map.1 hy; exact mul_nonneg (h x hx).color.b.lo (h x hx).adj.lo)
  have htt := tiny32_le
  have near : ∀ S T : ℝ, 0 ≤ T → |S - (0 + T)| ≤ (0 + l.length : ℕ) * (5 / 2 ^ 25) * (0 + T) + (0 + l.length : ℕ) * (3 * tiny32) →
      S ≤ 1.00746 * T + 1 / 10 ^ 30 ∧ 0.99254 * T - 1 / 10 ^ 30 ≤ S := by
    intro S T hT hS
    obtain ⟨p1, p2⟩ := abs_le.1 hS
    have c1 : ((0 + l.length : ℕ) : ℝ) * (5 / 2 ^ 25) * (0 + T) ≤ 50000 * (5 / 2 ^ 25) * T := by rw [zero_add T]; gcongr
    have c2 : ((0 + l.length : ℕ) : ℝ) * (3 * tiny32) ≤ 50000 * (3 * (1 / 10 ^ 40)) :=
      mul_le_mul hlr (mul_le_mul_of_nonneg_left htt (by norm_num)) (by linarith) (by norm_num)
    norm_num at c1 c2 p1 p2 ⊢
    constructor <;> linarith
  obtain ⟨w1, w2⟩ := near _ _ t2 kw
  obtain ⟨a1, a2⟩ := near _ _ t1 ka
  obtain ⟨r1, -⟩ := near _ _ sr0 kr
  obtain ⟨g1, -⟩ := near _ _ sg0 kg
  obtain ⟨b1, -⟩ := near _ _ sb0 kb
  unfold weighedAverageColor
  dsimp only
  have hne0 : (!Flt.eq (l.foldl avgStep (lit32 0, FPixel.default)).1 (lit32 0)) = true := by
    cases hc : Flt.eq (l.foldl avgStep (lit32 0, FPixel.default)).1 (lit32 0) with
    | false => rfl
    | true => have := (FltRound.eq _ _ h1.fin hz.fin).1 hc; rw [hz0] at this; linarith
  rw [if_pos hne0]
  clear kw ka kr kg kb near sums chan start
  generalize (l.map fun x => val x.adjustedWeight).sum = W at *
  generalize (l.map fun x => val x.color.a * val x.adjustedWeight).sum = A at *
  generalize (l.map fun x => val x.color.r * val x.adjustedWeight).sum = P at *
  generalize (l.map fun x => val x.color.g * val x.adjustedWeight).sum = Q at *
  generalize (l.map fun x => val x.color.b * val x.adjustedWeight).sum = B at *
  generalize (l.foldl avgStep (lit32 0, FPixel.default)) = s at *
  have quo : ∀ c : F, NN (val s.1) c → |val (c /₃ s.1) - val c / val s.1| ≤ 1 / 10 ^ 7 := by
    intro c hc
    have q0 := div_nonneg hc.lo h1.lo
    have q1 := (div_le_one hpos).2 hc.hi
    have hr := rounds_abs_nn (FltRound.div32 _ _ hc.fin h1.fin hpos.ne' (fits32_nn q0 q1 (by norm_num))).2 q0
    rw [u32_val] at hr
    refine hr.trans ?_
    norm_num at htt ⊢
    linarith
  obtain ⟨qa1, qa2⟩ := abs_le.1 (quo _ ha)
  obtain ⟨-, qr⟩ := abs_le.1 (quo _ hr)
  obtain ⟨-, qg⟩ := abs_le.1 (quo _ hg)
  obtain ⟨-, qb⟩ := abs_le.1 (quo _ hb)
  have da : val s.2.a / val s.1 ≤ 0.6344422 := by
    rw [div_le_iff₀ hpos]; norm_num at *; linarith
  have dr : val s.2.r / val s.1 - val s.2.a / val s.1 ≤ 1.1 / 10 ^ 6 := by
    rw [← sub_div, div_le_iff₀ hpos]; norm_num at *; linarith
  have dg : val s.2.g / val s.1 - val s.2.a / val s.1 ≤ 0.3902 := by
    rw [← sub_div, div_le_iff₀ hpos]; norm_num at *; linarith
  have db : val s.2.b / val s.1 - val s.2.a / val s.1 ≤ 1.1 / 10 ^ 6 := by
    rw [← sub_div, div_le_iff₀ hpos]; norm_num at *; linarith
  refine ⟨?_, ?_, ?_, ?_⟩ <;> dsimp only <;> norm_num at qa1 qa2 qr qg qb da dr dg db ⊢ <;> linarith

/-! ### Median cut -/

/-- sizes for which averages are accurate enough -/
def Few (op : Prop) (n : ℕ) : Prop := n ≤ 50000 ∧ (op → n ≤ 2 ^ 14)

theorem Few.mono {m n : ℕ} (h : Few op n) (hm : m ≤ n) : Few op m := ⟨hm.trans h.1, fun o => hm.trans (h.2 o)⟩

/-- a box whose items and average are in range -/
def BoxFin (op sm : Prop) (b : MBox F) : Prop :=
  b.colors.length ≤ 2 ^ 22 ∧ (∀ x ∈ b.colors, ItemFin op sm termMax x) ∧ b.avgColor.UnitFin ∧
    (op ∨ sm → b.colors ≠ [] ∧ Few op b.colors.length) ∧ (op → palLo ≤ val b.avgColor.a) ∧ (sm → b.avgColor.Thin)

theorem palLo_le : palLo ≤ solidLo := by unfold palLo solidLo; norm_num

theorem newS_unit (start : ℕ) {l : List (HistItem F)} (w : F) (others : List (MBox F)) (h : ∀ x ∈ l, ItemFin op sm termMax x)
    (hl : l.length ≤ 2 ^ 22) (hne : op ∨ sm → l ≠ [] ∧ Few op l.length) : BoxFin op sm (MBox.newS start l w others) := by
  have h2 : (MBox.newS start l w others).avgColor.UnitFin := by
    unfold MBox.newS
    dsimp only [MBox.newC]
    split
    · split
      next c hm => exact (h c (minByKey_mem _ hm)).color
      · exact FPixel.unitFin_default
    · exact weighedAverage_unit h hl
  refine ⟨hl, h, h2, hne, fun ho => ?_, fun ho => ?_⟩
  · unfold MBox.newS
    dsimp only [MBox.newC]
    split
    · split
      next c hm => exact palLo_le.trans ((h c (minByKey_mem _ hm)).solid ho).1
      next hm =>
        exfalso
        apply (hne (.inl ho)).1
        cases l with
        | nil => rfl
        | cons x l => simp [minByKey] at hm
    · exact weighedAverage_solid h ho ((hne (.inl ho)).2.2 ho) (hne (.inl ho)).1
  · unfold MBox.newS
    dsimp only [MBox.newC]
    split
    · split
      next c hm => exact ((h c (minByKey_mem _ hm)).slim ho).1.thin (h c (minByKey_mem _ hm)).color
      next hm =>
        exfalso
        apply (hne (.inr ho)).1
        cases l with
        | nil => rfl
        | cons x l => simp [minByKey] at hm
    · exact weighedAverage_thin h ho (hne (.inr ho)).2.1 (hne (.inr ho)).1

theorem new_boxFin (start : ℕ) {l : List (HistItem F)} (h : ∀ x ∈ l, ItemFin op sm termMax x) (hl : l.length ≤ 2 ^ 22)
    (hne : op ∨ sm → l ≠ [] ∧ Few op l.length) : BoxFin op sm (MBox.new start l) :=
  ⟨hl, h, weighedAverage_unit h hl, hne, fun ho => weighedAverage_solid h ho ((hne (.inl ho)).2.2 ho) (hne (.inl ho)).1,
    fun ho => weighedAverage_thin h ho (hne (.inr ho)).2.1 (hne (.inr ho)).1⟩

theorem clusterBoxes_boxFin (start : ℕ) (items : List (HistItem F)) (cs : List (ℕ × ℕ)) (h : ∀ x ∈ items, ItemFin op sm termMax x)
    (hl : items.length ≤ 2 ^ 22) (hl' : op ∨ sm → Few op items.length) {boxes : List (MBox F)} (e : clusterBoxes start items cs = .ok boxes)
    (hne : op ∨ sm → ∀ b ∈ boxes, b.colors ≠ []) : ∀ b ∈ boxes, BoxFin op sm b := by
  induction cs generalizing start items boxes with
  | nil => cases e; simp
  | cons c cs ih =>
    obtain ⟨b, t⟩ := c
    unfold clusterBoxes at e
    split at e
    · cases hr : clusterBoxes (start + (t - b)) (items.drop (t - b)) cs with
      | error f => rw [hr] at e; cases e
      | ok rest =>
        rw [hr] at e
        cases e
        intro x hx
        rcases List.mem_cons.1 hx with rfl | hx
        · refine new_boxFin _ (fun y hy => h y (List.mem_of_mem_take hy)) (by rw [List.length_take]; omega) fun ho => ⟨?_, ?_⟩
          · exact hne ho _ (List.mem_cons_self ..)
          · exact (hl' ho).mono (by rw [List.length_take]; omega)
        · exact ih _ _ (fun y hy => h y (List.mem_of_mem_drop hy)) (by rw [List.length_drop]; omega)
            (fun ho => (hl' ho).mono (by rw [List.length_drop]; omega)) hr (fun ho b hb => hne ho b (List.mem_cons_of_mem _ hb)) x hx
    · cases e

theorem ItemFin.of_core {b : ℝ} {x y : HistItem F} (h : ItemFin op sm b y) (e : y.core = x.core) : ItemFin op sm b x := by
  simp only [HistItem.core, Prod.mk.injEq] at e
  obtain ⟨e1, e2, e3⟩ := e
  exact ⟨e1 ▸ h.color, e3 ▸ h.top, e2 ▸ h.adj, by rw [← e2]; exact h.rep, by rw [← e1, ← e2, ← e3]; exact h.solid,
    by rw [← e1, ← e2, ← e3]; exact h.slim⟩

theorem items_of_perm {b : ℝ} {l l' : List (HistItem F)} (hp : (l'.map HistItem.core).Perm (l.map HistItem.core))
    (h : ∀ x ∈ l, ItemFin op sm b x) : ∀ x ∈ l', ItemFin op sm b x := by
  intro x hx
  have : x.core ∈ l.map HistItem.core := hp.mem_iff.1 (List.mem_map_of_mem hx)
  obtain ⟨y, hy, he⟩ := List.mem_map.1 this
  exact (h y hy).of_core he

theorem split_boxFin (o : SortOracle F) {b : MBox F} (others : List (MBox F)) (h : BoxFin op sm b) (h1 : 1 < b.colors.length) :
    BoxFin op sm (b.split o others).1 ∧ BoxFin op sm (b.split o others).2 := by
  have hp := split_perm o b others
  have key := items_of_perm hp h.2.1
  have hlen : (b.split o others).1.colors.length + (b.split o others).2.colors.length = b.colors.length := by
    have := hp.length_eq
    simpa using this
  have := h.1
  have k1 := fun x hx => key x (List.mem_append_left _ hx)
  have k2 := fun x hx => key x (List.mem_append_right _ hx)
  have l1 : (b.split o others).1.colors.length ≤ 2 ^ 22 := by omega
  have l2 : (b.split o others).2.colors.length ≤ 2 ^ 22 := by omega
  have n1 := split_left_pos o b others (List.ne_nil_of_length_pos (by omega))
  have n2 := split_right_fin o b others h1 h.1 (fun x hx => ⟨(h.2.1 x hx).color, (h.2.1 x hx).adj⟩)
  refine ⟨newS_unit _ _ _ k1 l1 fun ho => ⟨n1, ?_⟩, newS_unit _ _ _ k2 l2 fun ho => ⟨n2, ?_⟩⟩
  · refine (h.2.2.2.1 ho).2.mono ?_
    show (b.split o others).1.colors.length ≤ _
    omega
  · refine (h.2.2.2.1 ho).2.mono ?_
    show (b.split o others).2.colors.length ≤ _
    omega

theorem cutLoop_boxFin (o : SortOracle F) (target : ℕ) (hw tm mm : F) {boxes : List (MBox F)} (h : ∀ b ∈ boxes, BoxFin op sm b) :
    ∀ b ∈ cutLoop o target hw tm mm boxes, BoxFin op sm b := by
  apply cutLoop_induct o target (fun l => ∀ b ∈ l, BoxFin op sm b) _ _ hw tm mm boxes h
  · intro a b e ha x hx
    have : (x.start, x.colors, x.avgColor) ∈ a.map (fun b => (b.start, b.colors, b.avgColor)) := by
      rw [e]; exact List.mem_map_of_mem hx
    obtain ⟨y, hy, he⟩ := List.mem_map.1 this
    simp only [Prod.mk.injEq] at he
    have := ha y hy
    unfold BoxFin at this ⊢
    rw [← he.2.1, ← he.2.2]; exact this
  · intro l b i _ hb hlen hl x hx
    have hbm := List.mem_of_getElem? hb
    obtain ⟨s1, s2⟩ := split_boxFin o (swapRemove l i) (hl b hbm) hlen
    simp only [splitStep, List.mem_append, List.mem_cons, List.not_mem_nil, or_false] at hx
    rcases hx with hx | rfl | rfl
    · exact hl x ((swapRemove_perm hb).mem_iff.1 (by simp [hx]))
    · exact s1
    · exact s2

/-- palettes with numbers in range -/
def PalFin (op : Prop) (p : PalF F) : Prop := ∀ e ∈ p, (e.color.UnitFin ∧ fin e.pop.val) ∧ (op → palLo ≤ val e.color.a)

/-- palettes of averages of colours -/
def ThinPal (sm : Prop) (p : PalF F) : Prop := ∀ e ∈ p, sm → e.color.Thin

theorem mediancut_fin (o : SortOracle F) {hist hist' : HistogramInternal F} (target : ℕ) (tm mm : F) {pal : PalF F}
    (ht : hist.Tiled) (hl : hist.items.length ≤ 2 ^ 22) (h : ∀ x ∈ hist.items, ItemFin op sm termMax x)
    (hne : op ∨ sm → hist.items ≠ [] ∧ Few op hist.items.length)
    (e : mediancut o hist target tm mm = .ok (pal, hist')) : PalFin op pal ∧ ThinPal sm pal := by
  obtain ⟨b0, e0, -, -, hn0, -⟩ := initialBoxes_spec hist target ht
  have h0 : ∀ b ∈ b0, BoxFin op sm b := by
    have e0' := e0
    unfold initialBoxes at e0'
    dsimp only at e0'
    split at e0'
    · exact clusterBoxes_boxFin _ _ _ h hl (fun ho => (hne ho).2) e0' (fun ho => hn0 (hne ho).1)
    · cases e0'
      intro b hb
      rw [List.mem_singleton.1 hb]
      exact new_boxFin _ h hl hne
  have h1 := cutLoop_boxFin o target hist.totalPerceptualWeight tm (Flt.fmax mm (qualityToMse 20)) h0
  unfold mediancut at e
  rw [e0] at e
  simp only [bind, Except.bind] at e
  unfold intoPalette at e
  split at e
  · cases e
  next r heq =>
    split at heq
    · cases heq
      cases e
      refine ⟨?_, fun x hx ho => ?_⟩
      rotate_left
      · obtain ⟨b, hb, rfl⟩ := List.mem_map.1 hx
        exact (h1 b hb).2.2.2.2.2 ho
      intro x hx
      obtain ⟨b, hb, rfl⟩ := List.mem_map.1 hx
      obtain ⟨i1, i2, i3, -, i4, -⟩ := h1 b hb
      refine ⟨⟨i3, ?_⟩, i4⟩
      have hs : SumOf b.colors.length (sum64 (b.colors.map (·.perceptualWeight))) := by
        have := sum64_sumOf (l := b.colors.map (·.perceptualWeight)) (by
          intro w hw
          obtain ⟨y, hy, rfl⟩ := List.mem_map.1 hw
          exact (i2 y hy).perc.mono percMax_le) (by rwa [List.length_map])
        rwa [List.length_map] at this
      exact (nn_to32 hs ((sumOf_fits i1).trans (by norm_num))).fin
    · cases heq

theorem fixStep_all {Q : PalEntry F → Prop} {p p' : PalF F} {i : ℕ} {c : FPixel F} (hc : ∀ e, Q e → Q ⟨c, e.pop.toFixed⟩)
    (h : ∀ e ∈ p, Q e) (e : PalF.fixStep p i c = .ok p') : ∀ e ∈ p', Q e := by
  unfold PalF.fixStep at e
  split at e
  · cases e
  · dsimp only at e
    split at e
    · cases e
    next x hx =>
      cases e
      intro y hy
      rcases List.mem_or_eq_of_mem_set hy with hy | rfl
      · exact h y (swapAt_mem _ _ _ y hy)
      · exact hc x (h x (swapAt_mem _ _ _ x (List.mem_of_getElem? hx)))

theorem fixLoop_all {Q : PalEntry F → Prop} {p p' : PalF F} {i : ℕ} {cs : List (FPixel F)}
    (hc : ∀ c ∈ cs, ∀ e, Q e → Q ⟨c, e.pop.toFixed⟩) (h : ∀ e ∈ p, Q e) (e : PalF.fixLoop p i cs = .ok p') : ∀ e ∈ p', Q e := by
  induction cs generalizing p i with
  | nil => cases e; exact h
  | cons c cs ih =>
    unfold PalF.fixLoop at e
    cases hs : PalF.fixStep p i c with
    | error f => rw [hs] at e; cases e
    | ok q =>
      rw [hs] at e
      exact ih (fun d hd => hc d (by simp [hd])) (fixStep_all (hc c (by simp)) h hs) e

theorem withFixedColors_all {Q : PalEntry F → Prop} {p p' : PalF F} {m : ℕ} {cs : List (FPixel F)}
    (hc : ∀ c ∈ cs, ∀ e, Q e → Q ⟨c, e.pop.toFixed⟩) (h0 : ∀ c ∈ cs, Q ⟨c, PalPop.new (lit32 0)⟩)
    (h : ∀ e ∈ p, Q e) (e : p.withFixedColors m cs = .ok p') : ∀ e ∈ p', Q e := by
  unfold PalF.withFixedColors at e
  split at e
  · cases e; exact h
  · dsimp only at e
    have key : ∀ q : PalF F, (if p.length < min cs.length m then p.extendZero (cs.take (min cs.length m - p.length))
        else Except.ok p) = .ok q → ∀ e ∈ q, Q e := by
      intro q hq
      split at hq
      · unfold PalF.extendZero at hq
        split at hq
        · cases hq
          intro x hx
          rcases List.mem_append.1 hx with hx | hx
          · exact h x hx
          · obtain ⟨c, hcm, rfl⟩ := List.mem_map.1 hx
            exact h0 c (List.mem_of_mem_take hcm)
        · cases hq
      · cases hq; exact h
    cases hq : (if p.length < min cs.length m then p.extendZero (cs.take (min cs.length m - p.length))
        else Except.ok p) with
    | error f =>
      split at hq
      next hlt => rw [if_pos hlt] at e; rw [hq] at e; cases e
      · cases hq
    | ok q =>
      have e' : q.fixLoop 0 (cs.take q.length) = .ok p' := by
        split at hq
        next hlt => rw [if_pos hlt, hq] at e; exact e
        next hlt => rw [if_neg hlt] at e; cases hq; exact e
      exact fixLoop_all (fun c hcm => hc c (List.mem_of_mem_take hcm)) (key q hq) e'

theorem toFixed_fin {p : PalPop F} (h : fin p.val) : fin p.toFixed.val := by
  unfold PalPop.toFixed
  split
  · exact h
  · dsimp only
    split
    · exact (FltRound.neg _ h).1
    · exact (FltRound.lit32 (F := F) (-1) (fits32_small (by norm_num))).1

theorem withFixedColors_fin {p p' : PalF F} {m : ℕ} {cs : List (FPixel F)} (hc : ∀ c ∈ cs, c.UnitFin ∧ (op → palLo ≤ val c.a)) (h : PalFin op p)
    (e : p.withFixedColors m cs = .ok p') : PalFin op p' :=
  withFixedColors_all (Q := fun e => (e.color.UnitFin ∧ fin e.pop.val) ∧ (op → palLo ≤ val e.color.a))
    (fun c hcm _ he => ⟨⟨(hc c hcm).1, toFixed_fin he.1.2⟩, (hc c hcm).2⟩) (fun c hcm => ⟨⟨(hc c hcm).1, nn_zero.fin⟩, (hc c hcm).2⟩) h e

theorem withFixedColors_thin {p p' : PalF F} {m : ℕ} {cs : List (FPixel F)} (hc : ∀ c ∈ cs, sm → c.Thin) (h : ThinPal sm p)
    (e : p.withFixedColors m cs = .ok p') : ThinPal sm p' :=
  withFixedColors_all (Q := fun e => sm → e.color.Thin) (fun c hcm _ _ => hc c hcm) (fun c hcm => hc c hcm) h e

/-! ### K-means -/

namespace Kmeans

/-- an item is matched, and its weight adjusted -/
theorem matchItem_ok {p : PalF F} {n : Nearest F} (hn : Nearest.new p = .ok n) (hp : PalFin op p) (adjust : Bool) {k : ℕ}
    (hk : adjust = true → k < maxRounds sm ∧ ThinPal sm p) {x : HistItem F} (h : ItemFin op sm (adjMax sm k) x) :
    ItemFin op sm (adjMax sm (if adjust then k + 1 else k)) (matchItem n adjust x).1 ∧ NN diffMax (matchItem n adjust x).2 := by
  have hpu : ∀ e ∈ p, e.color.UnitFin := fun e he => (hp e he).1.1
  have hpal : n.palette = p := by
    unfold Nearest.new at hn
    split at hn
    · cases hn
    · split at hn
      · cases hn
      · cases hn; rfl
  unfold matchItem
  dsimp only
  cases adjust with
  | false => exact ⟨⟨h.color, h.top, h.adj, h.rep, h.solid, h.slim⟩, search_num hn hpu h.color.wide _⟩
  | true =>
    obtain ⟨hk', hthin⟩ := hk rfl
    simp only [if_true]
    have hrem : (palColor n.palette (n.search x.color x.tmp).1).UnitFin := by
      rw [hpal]; exact palColor_of hpu FPixel.unitFin_default _
    have hw : (FPixel.sub ⟨x.color.a +₃ x.color.a, x.color.r +₃ x.color.r, x.color.g +₃ x.color.g, x.color.b +₃ x.color.b⟩
        (palColor n.palette (n.search x.color x.tmp).1)).Wide :=
      ⟨mirror_wide h.color.a hrem.a, mirror_wide h.color.r hrem.r, mirror_wide h.color.g hrem.g, mirror_wide h.color.b hrem.b⟩
    have hd := search_num hn hpu hw (n.search x.color x.tmp).1
    refine ⟨?_, hd⟩
    have hd' : NN (growth sm / 2 - 0.504) (n.search (FPixel.sub ⟨x.color.a +₃ x.color.a, x.color.r +₃ x.color.r, x.color.g +₃ x.color.g,
        x.color.b +₃ x.color.b⟩ (palColor n.palette (n.search x.color x.tmp).1)) (n.search x.color x.tmp).1).2 := by
      by_cases ho : sm
      · have hlt := Nearest.search_lt hn x.color x.tmp
        refine NN.mono (a := 7.35) ?_ (by unfold growth; rw [if_pos ho]; norm_num)
        rw [hpal] at hw hrem ⊢
        have hcol : palColor p (n.search x.color x.tmp).1 = p[(n.search x.color x.tmp).1].color := by
          unfold palColor; rw [List.getElem?_eq_getElem hlt]
        refine search_le hn hpu hw hlt (mirror_diff h.color hrem (h.slim ho).1 ?_)
        rw [hcol]; exact hthin _ (List.getElem_mem hlt) ho
      · exact hd.mono (by unfold growth diffMax; rw [if_neg ho]; norm_num)
    generalize (n.search (FPixel.sub ⟨x.color.a +₃ x.color.a, x.color.r +₃ x.color.r, x.color.g +₃ x.color.g,
      x.color.b +₃ x.color.b⟩ (palColor n.palette (n.search x.color x.tmp).1)) (n.search x.color x.tmp).1).2 = d at hd hd'
    -- the numbers
    obtain ⟨hpm, hpt⟩ := percTop_range (sm := sm)
    have htop := h.top.hi
    have hpmax' : percMax ≤ 2 ^ 29 := by unfold percMax; norm_num
    obtain ⟨hG1, hG2⟩ := growth_range (sm := sm)
    have hX1 : (1:ℝ) ≤ growth sm ^ k := one_le_pow₀ one_le_growth
    have hnext := adjMax_le (sm := sm) (k := k + 1) hk'
    have hXp : percTop sm ≤ growth sm ^ k * percTop sm := le_mul_of_one_le_left (by linarith) hX1
    have hadj : adjMax sm k = 1.55 * (growth sm ^ k * percTop sm) - 0.55 * percTop sm := by unfold adjMax; ring
    have hadj' : adjMax sm (k + 1) = 1.55 * (growth sm * (growth sm ^ k * percTop sm)) - 0.55 * percTop sm := by
      unfold adjMax; rw [pow_succ]; ring
    rw [hadj'] at hnext
    have hha := h.adj.hi
    rw [hadj] at hha
    generalize growth sm ^ k * percTop sm = X at hXp hha hadj' hnext
    generalize growth sm = G at hG1 hG2 hadj' hnext hd'
    generalize percTop sm = P at *
    have hpmax : P ≤ 2 ^ 29 := hpt.trans hpmax'
    -- `Z` bounds twice the weight plus the perceptual weight
    have hGP : 12.7 * P ≤ G * P := mul_le_mul_of_nonneg_right hG1 (by linarith)
    obtain ⟨Z, hZ⟩ : ∃ Z, Z = 3.1 * X - 0.1 * P := ⟨_, rfl⟩
    have hZ1 : 1 ≤ Z := by rw [hZ]; linarith
    have hZG : Z * (G / 2) = 1.55 * (G * X) - 0.05 * (G * P) := by rw [hZ]; ring
    have hZle : Z * (G / 2) ≤ 2 ^ 104 := by
      rw [hZG]
      unfold termMax at hnext
      have : (2:ℝ) ^ 102 + 2 ^ 30 ≤ 2 ^ 104 := by norm_num
      linarith
    have hZG' : Z * (G / 2) ≤ 1.55 * (G * X) - 0.55 * P := by rw [hZG]; linarith
    have hZ104 : Z ≤ 2 ^ 104 := le_trans (le_mul_of_one_le_right (by linarith) (by linarith)) hZle
    have e40 : (1:ℝ) / 10 ^ 40 ≤ 1 / 1000000 := by norm_num
    -- 2 · adjusted + perceptual
    obtain ⟨f2, e2⟩ : fin (lit32 2 : F) ∧ val (lit32 2 : F) = 2 := by
      have hf : Fits32 ((2 : ℚ) : ℝ) := fits32_small (by norm_num)
      refine ⟨(FltRound.lit32 _ hf).1, ?_⟩
      rw [lit32_eq _ hf]
      have := r32_nat (F := F) 2 (by norm_num)
      push_cast at this ⊢
      exact this
    have s0 : 0 ≤ val (lit32 2 : F) * val x.adjustedWeight + val x.perceptualWeight := by
      rw [e2]; have := h.adj.lo; have := h.perc.lo; linarith
    have s1 : val (lit32 2 : F) * val x.adjustedWeight + val x.perceptualWeight ≤ Z := by
      rw [e2, hZ]; linarith
    have big : (2:ℝ) ^ 104 * 256 ≤ 2 ^ 127 := by norm_num
    have sf := fits32_nn s0 s1 (by linarith)
    obtain ⟨f3, r3⟩ := FltRound.fma32 _ _ _ f2 h.adj.fin h.perc.fin sf
    have v3 := rounds32_le r3 s0 s1
    have n3 : 0 ≤ val (fma32 (lit32 2 : F) x.adjustedWeight x.perceptualWeight) := by
      rw [fma32_eq _ _ _ f2 h.adj.fin h.perc.fin sf]; exact r32_nonneg s0
    -- 1/2 + difference
    have hh : NN (0.500001) (lit32 (1/2) : F) := by
      have h0 : (0:ℝ) ≤ ((1/2 : ℚ) : ℝ) := by norm_num
      have h1 : ((1/2 : ℚ) : ℝ) ≤ 1 / 2 := by norm_num
      have hf := fits32_nn h0 h1 (by norm_num)
      obtain ⟨f, r⟩ := FltRound.lit32 (F := F) (1/2) hf
      refine ⟨f, ?_, (rounds32_le r h0 h1).trans (by norm_num)⟩
      rw [lit32_eq _ hf]; exact r32_nonneg h0
    have hs := (add32_le hh hd' (by norm_num at hG2 ⊢; linarith)).mono (b := G / 2 - 0.0039) (by norm_num at hG2 e40 ⊢; linarith)
    -- product
    have p0 := mul_nonneg n3 hs.lo
    have p1 : val (fma32 (lit32 2 : F) x.adjustedWeight x.perceptualWeight) * val (lit32 (1/2) +₃ d : F) ≤ Z * (G / 2 - 0.0038) := by
      have v3' : val (fma32 (lit32 2 : F) x.adjustedWeight x.perceptualWeight) ≤ Z * (1 + 1 / 10 ^ 6) := by
        refine v3.trans ?_
        norm_num at e40 ⊢
        linarith
      have := mul_le_mul v3' hs.hi hs.lo (by positivity)
      refine this.trans ?_
      rw [mul_assoc]
      apply mul_le_mul_of_nonneg_left _ (by linarith)
      norm_num at hG2 ⊢
      linarith
    have p2 : Z * (G / 2 - 0.0038) = Z * (G / 2) - 0.0038 * Z := by ring
    rw [p2] at p1
    have pf := fits32_nn p0 p1 (by linarith)
    obtain ⟨f5, r5⟩ := FltRound.mul32 _ _ f3 hs.fin pf
    have v5 := rounds32_le r5 p0 p1
    have hZb : Z * (G / 2) ≤ 49 * Z := by nlinarith
    have e5 := mul32_eq _ _ f3 hs.fin pf
    have heavy : 1 / 3000 ≤ val x.perceptualWeight → val x.perceptualWeight ≤ 2 * val x.adjustedWeight →
        val x.perceptualWeight ≤ 2 * val (fma32 (lit32 2 : F) x.adjustedWeight x.perceptualWeight *₃ (lit32 (1/2) +₃ d)) := by
      intro g2 g3
      have a1 := (abs_le.1 (rounds_abs_nn r3 s0)).1
      have a2 := (abs_le.1 (rounds_abs_nn r5 p0)).1
      have t1 := tiny32_le
      rw [u32_val] at a1 a2
      have a3 : 0.499 ≤ val (lit32 (1/2) +₃ d : F) := by
        have hf0 : Fits32 (((1/2 : ℚ)) : ℝ) := fits32_small (by norm_num)
        have b1 := (abs_le.1 (rounds_abs_nn (FltRound.lit32 (F := F) (1/2) hf0).2 (by norm_num))).1
        have hsum := add_nonneg hh.lo hd'.lo
        have b2 := (abs_le.1 (rounds_abs_nn (FltRound.add32 _ _ hh.fin hd'.fin
          (fits32_nn hsum (add_le_add hh.hi hd'.hi) (by norm_num at hG2 ⊢; linarith))).2 hsum)).1
        rw [u32_val] at b1 b2
        have := hd'.lo
        norm_num at b1 b2 t1 ⊢
        linarith
      have a4 : 1.99 * val x.perceptualWeight ≤ val (fma32 (lit32 2 : F) x.adjustedWeight x.perceptualWeight) := by
        rw [e2] at a1
        norm_num at a1 t1 ⊢
        linarith
      have a5 : 1.99 * val x.perceptualWeight * 0.499 ≤
          val (fma32 (lit32 2 : F) x.adjustedWeight x.perceptualWeight) * val (lit32 (1/2) +₃ d : F) :=
        mul_le_mul a4 a3 (by norm_num) n3
      norm_num at a2 a5 t1 ⊢
      linarith
    refine ⟨h.color, h.top, ⟨f5, ?_, ?_⟩, ?_, fun ho => ⟨(h.solid ho).1, (h.solid ho).2.1, heavy (h.solid ho).2.1 (h.solid ho).2.2⟩,
      fun ho => ⟨(h.slim ho).1, (h.slim ho).2.1, heavy (h.slim ho).2.1 (h.slim ho).2.2⟩⟩
    · rw [e5]; exact r32_nonneg p0
    · rw [hadj']; norm_num at e40 v5 ⊢; linarith
    · show r32 F (val (_ *₃ _)) = val (_ *₃ _)
      rw [e5]; exact r32_idem _

/-- the sum of alpha of opaque colours after `m` additions -/
def Dense (m : ℕ) (a : ColorAvg F) : Prop :=
  0.62498 * (1 - m * 2⁻¹ ^ 50) * val a.total ≤ val a.sum.a ∧ (val a.total = 0 ∨ r64 F (1 / 6000) ≤ val a.total)

theorem r64_lo : 1 / 7000 ≤ r64 F (1 / 6000) := by
  have hf : Fits64 ((1 / 6000 : ℚ) : ℝ) := fits64_nn (b := 1) (by norm_num) (by norm_num) (by norm_num)
  obtain ⟨-, rl⟩ := FltRound.lit64 (F := F) _ hf
  rw [lit64_eq _ hf] at rl
  have g := (abs_le.1 (rounds_abs_nn rl (by norm_num))).1
  have h : tiny64 ≤ 1 / 10 ^ 40 := by
    refine tiny64_share.trans ?_; norm_num
  rw [u64_val] at g
  norm_num at g h ⊢
  linarith

theorem Dense.mono {m k : ℕ} {a : ColorAvg F} (h : Dense m a) (ht : 0 ≤ val a.total) (hmk : m ≤ k) : Dense k a := by
  refine ⟨le_trans ?_ h.1, h.2⟩
  apply mul_le_mul_of_nonneg_right _ ht
  have : (m : ℝ) ≤ k := by exact_mod_cast hmk
  have : (m : ℝ) * 2⁻¹ ^ 50 ≤ k * 2⁻¹ ^ 50 := by gcongr
  linarith

/-- two sums are added -/
theorem dense_add {m : ℕ} (hm : m ≤ 2 ^ 22) {X B : ℝ} {S A : F} (hX0 : 0 ≤ X) (hB0 : 0 ≤ B) (hB : 0.62498 * (1 - m * 2⁻¹ ^ 50) * X ≤ B)
    (hX : X = 0 ∨ 1 / 7000 ≤ X) (rS : RoundsTo u64 tiny64 X (val S)) (rA : RoundsTo u64 tiny64 B (val A)) (hA : 0 ≤ val A) :
    0.62498 * (1 - (m + 1 : ℕ) * 2⁻¹ ^ 50) * val S ≤ val A := by
  rcases hX with h | h
  · rw [rS.2 h, mul_zero]; exact hA
  · have hmr : (m : ℝ) ≤ 2 ^ 22 := by exact_mod_cast hm
    have hk : (m : ℝ) * 2⁻¹ ^ 50 ≤ 2 ^ 22 * 2⁻¹ ^ 50 := by gcongr
    have ht : tiny64 ≤ 1 / 10 ^ 40 := by
      refine tiny64_share.trans ?_; norm_num
    have := dense_step (δ := 2⁻¹ ^ 50) hB (rounds_abs_nn rS hX0) (rounds_abs_nn rA hB0) h (by norm_num) (by norm_num) (by positivity)
      (by norm_num at hk ⊢; linarith) (by rw [u64_val]; positivity) (by rw [u64_val]; norm_num) tiny64_nonneg ht (by rw [u64_val]; norm_num)
    refine le_trans (le_of_eq ?_) this
    push_cast; ring

/-- running sums of a pass -/
structure Sums (op : Prop) (m : ℕ) (k : Kmeans F) : Prop where
  avg : ∀ a ∈ k.averages, SumOf m a.total ∧ NN (val a.total) a.sum.a ∧ NN (val a.total) a.sum.r ∧ NN (val a.total) a.sum.g ∧
    NN (val a.total) a.sum.b
  diff : SumOf m k.weighedDiffSum
  dense : op → ∀ a ∈ k.averages, Dense m a

theorem sums_new (len : ℕ) : Sums op 0 (new len : Kmeans F) := by
  have hz := nn_zero64 (F := F)
  have hz0 : val (lit64 0 : F) = 0 := le_antisymm hz.hi hz.lo
  have hz' : NN (val (lit64 0 : F)) (lit64 0 : F) := hz0.symm ▸ hz
  refine ⟨?_, sumOf_zero64, ?_⟩
  · intro a ha
    rw [(List.mem_replicate.1 ha).2]
    exact ⟨sumOf_zero64, hz', hz', hz', hz'⟩
  · intro _ a ha
    rw [(List.mem_replicate.1 ha).2]
    refine ⟨?_, .inl hz0⟩
    show _ * val (lit64 0 : F) ≤ val (lit64 0 : F)
    rw [hz0, mul_zero]

theorem Sums.mono {m j : ℕ} {k : Kmeans F} (h : Sums op m k) (hmj : m ≤ j) : Sums op j k :=
  ⟨fun a ha => ⟨(h.avg a ha).1.mono hmj, (h.avg a ha).2⟩, h.diff.mono hmj,
    fun ho a ha => (h.dense ho a ha).mono (h.avg a ha).1.lo hmj⟩

theorem mem_modify_cases {α : Type} {l : List α} {i : ℕ} {f : α → α} {x : α} (h : x ∈ l.modify i f) : x ∈ l ∨ ∃ y ∈ l, x = f y := by
  obtain ⟨j, hj, rfl⟩ := List.getElem_of_mem h
  rw [List.length_modify] at hj
  rw [List.getElem_modify]
  split
  · exact Or.inr ⟨_, List.getElem_mem hj, rfl⟩
  · exact Or.inl (List.getElem_mem hj)

theorem Sums.update {m : ℕ} {k : Kmeans F} (h : Sums op m k) (hm : m ≤ 2 ^ 22) {x : HistItem F} (hx : ItemFin op sm termMax x) (i : ℕ) :
    Sums op (m + 1) (k.updateColor x.color x.adjustedWeight i) := by
  refine ⟨?_, h.diff.mono (Nat.le_succ _), ?_⟩
  rotate_left
  · intro ho a ha
    rcases mem_modify_cases ha with ha | ⟨c, hc, rfl⟩
    · exact (h.mono (Nat.le_succ m)).dense ho a ha
    · obtain ⟨h1, ca, -⟩ := h.avg c hc
      obtain ⟨d1, d2⟩ := h.dense ho c hc
      have room := sumOf_room hm
      have ht : termMax ≤ 2 ^ 127 := by unfold termMax; norm_num
      have hp := mul_unit hx.color.a hx.adj ht hx.rep
      have hw0 := hx.adj_pos (.inl ho)
      have hps := solid_mul hx.color.a (hx.solid ho).1 hx.adj hw0
      have hS0 := add_nonneg h1.lo hx.adj.lo
      have hA0 := add_nonneg ca.lo hp.lo
      have hfS := fits64_nn hS0 (add_le_add h1.hi hx.adj.hi) room
      have hfA := fits64_nn hA0 (add_le_add (ca.hi.trans h1.hi) (hp.hi.trans hx.adj.hi)) room
      have eS := add64_eq _ _ h1.fin hx.adj.fin hfS
      have eA := add64_eq _ _ ca.fin hp.fin hfA
      have hm0 : 0 ≤ (m : ℝ) * 2⁻¹ ^ 50 := by positivity
      refine ⟨?_, .inr ?_⟩
      · show _ * val (c.total +₆ x.adjustedWeight) ≤ val (c.sum.a +₆ x.color.a *₃ x.adjustedWeight)
        refine dense_add hm hS0 hA0 ?_ (.inr ?_) (FltRound.add64 _ _ h1.fin hx.adj.fin hfS).2 (FltRound.add64 _ _ ca.fin hp.fin hfA).2 ?_
        · have : 0.62498 * (1 - (m : ℝ) * 2⁻¹ ^ 50) * val x.adjustedWeight ≤ solidLo * (1 - 5 / 2 ^ 25) * val x.adjustedWeight := by
            apply mul_le_mul_of_nonneg_right _ hx.adj.lo
            unfold solidLo
            norm_num at hm0 ⊢
            linarith
          rw [mul_add]
          linarith
        · have := h1.lo; linarith
        · rw [eA]; exact r64_nonneg hA0
      · show r64 F (1 / 6000) ≤ val (c.total +₆ x.adjustedWeight)
        rw [eS]
        apply r64_mono
        have := h1.lo; linarith
  intro a ha
  rcases mem_modify_cases ha with ha | ⟨c, hc, rfl⟩
  · exact ((h.mono (Nat.le_succ m)).avg a ha)
  · obtain ⟨h1, ca, cr, cg, cb⟩ := h.avg c hc
    have room := sumOf_room hm
    have ht : termMax ≤ 2 ^ 127 := by unfold termMax; norm_num
    have step : ∀ c' d : F, NN 1 c' → NN (val c.total) d → NN (val (c.total +₆ x.adjustedWeight)) (d +₆ c' *₃ x.adjustedWeight) :=
      fun c' d hc' hd => add64_mono h1 hx.adj room hd (mul_unit hc' hx.adj ht hx.rep)
    exact ⟨h1.add64 hx.adj hm, step _ _ hx.color.a ca, step _ _ hx.color.r cr, step _ _ hx.color.g cg, step _ _ hx.color.b cb⟩

theorem Sums.updates {l : List (HistItem F × F)} {m : ℕ} {k : Kmeans F} (h : Sums op m k) (hm : m + l.length ≤ 2 ^ 22)
    (hx : ∀ x ∈ l, ItemFin op sm termMax x.1) :
    Sums op (m + l.length) (l.foldl (fun k x => k.updateColor x.1.color x.1.adjustedWeight x.1.tmp) k) := by
  induction l generalizing m k with
  | nil => simpa using h
  | cons x l ih =>
    simp only [List.length_cons] at hm
    have := ih (h.update (by omega) (hx x (by simp)) x.1.tmp) (by omega) (fun y hy => hx y (by simp [hy]))
    simpa [Nat.add_assoc, Nat.add_comm 1] using this

/-- differences times weights are not too large to be added -/
theorem term_ok {d : F} (hd : NN diffMax d) {x : HistItem F} {b : ℝ} (hx : ItemFin op sm b x) : NN termMax (d *₃ x.perceptualWeight) := by
  have p0 := mul_nonneg hd.lo hx.perc.lo
  have p1 : val d * val x.perceptualWeight ≤ diffMax * percMax := mul_le_mul hd.hi hx.perc.hi hx.perc.lo (by unfold diffMax; norm_num)
  have hb : diffMax * percMax ≤ 2 ^ 40 := by unfold diffMax percMax; norm_num
  have pf := fits32_nn p0 (p1.trans hb) (by norm_num)
  obtain ⟨f, r⟩ := FltRound.mul32 _ _ hd.fin hx.perc.fin pf
  refine ⟨f, ?_, (rounds32_le r p0 (p1.trans hb)).trans (by unfold termMax; norm_num)⟩
  rw [mul32_eq _ _ hd.fin hx.perc.fin pf]; exact r32_nonneg p0

theorem Sums.batch {n : Nearest F} {adjust : Bool} {m : ℕ} {k : Kmeans F} (h : Sums op m k) {batch : List (HistItem F)}
    (hl : batch.length ≤ 256) (hm : m + 257 ≤ 2 ^ 22)
    (hx : ∀ x ∈ batch, ItemFin op sm termMax (matchItem n adjust x).1 ∧ NN diffMax (matchItem n adjust x).2) :
    Sums op (m + 257) (iterateBatch n adjust k batch) := by
  have h1 := h.updates (l := batch.map (matchItem n adjust)) (by rw [List.length_map]; omega) (by
    intro y hy
    obtain ⟨x, hxm, rfl⟩ := List.mem_map.1 hy
    exact (hx x hxm).1)
  rw [List.length_map] at h1
  have h2 := sum64_sumOf (l := (batch.map (matchItem n adjust)).map fun x => x.2 *₃ x.1.perceptualWeight) (by
    intro y hy
    obtain ⟨z, hz, rfl⟩ := List.mem_map.1 hy
    obtain ⟨x, hxm, rfl⟩ := List.mem_map.1 hz
    exact term_ok (hx x hxm).2 (hx x hxm).1) (by simp only [List.length_map]; omega)
  simp only [List.length_map] at h2
  have hd : ∀ (l : List (HistItem F × F)) (k : Kmeans F),
      (l.foldl (fun k x => k.updateColor x.1.color x.1.adjustedWeight x.1.tmp) k).weighedDiffSum = k.weighedDiffSum := by
    intro l
    induction l with
    | nil => intro k; rfl
    | cons x l ih => intro k; exact ih _
  refine ⟨fun a ha => ⟨((h1.avg a ha).1).mono (by omega), (h1.avg a ha).2⟩, ?_,
    fun ho a ha => (h1.dense ho a ha).mono (h1.avg a ha).1.lo (by omega)⟩
  have := SumOf.join h.diff h2 (by omega)
  unfold iterateBatch
  dsimp only
  rw [hd]
  exact this.mono (by omega)

theorem chunk_length {α : Type} (l : List α) (i : ℕ) : (chunk l i).length ≤ 256 := by
  unfold chunk chunkSize; rw [List.length_take]; omega

theorem sums_worker {n : Nearest F} {adjust : Bool} {len : ℕ} {items : List (HistItem F)}
    (hx : ∀ x ∈ items, ItemFin op sm termMax (matchItem n adjust x).1 ∧ NN diffMax (matchItem n adjust x).2)
    (chunks : List ℕ) (hm : 257 * chunks.length ≤ 2 ^ 22) : Sums op (257 * chunks.length) (worker n adjust len items chunks) := by
  have key : ∀ (cs : List ℕ) (m : ℕ) (k : Kmeans F), Sums op m k → m + 257 * cs.length ≤ 2 ^ 22 →
      Sums op (m + 257 * cs.length) (cs.foldl (fun k i => iterateBatch n adjust k (chunk items i)) k) := by
    intro cs
    induction cs with
    | nil => intro m k h _; rw [List.length_nil, Nat.mul_zero, Nat.add_zero]; exact h
    | cons c cs ih =>
      intro m k h hm
      rw [List.length_cons] at hm ⊢
      have h257 : m + 257 ≤ 2 ^ 22 := le_trans (by linarith) hm
      have hb := Sums.batch (n := n) (adjust := adjust) h (chunk_length items c) h257
        (fun x hxm => hx x (List.mem_of_mem_drop (List.mem_of_mem_take hxm)))
      have := ih (m + 257) _ hb (by omega)
      rw [show m + 257 * (cs.length + 1) = m + 257 + 257 * cs.length by ring]
      exact this
  have := key chunks 0 _ (sums_new len) (by omega)
  rw [Nat.zero_add] at this
  exact this

theorem Sums.merge {m j : ℕ} {a b : Kmeans F} (ha : Sums op m a) (hb : Sums op j b) (hm : m + j ≤ 2 ^ 22) : Sums op (m + j + 1) (a.merge b) := by
  refine ⟨?_, ha.diff.join hb.diff hm, ?_⟩
  rotate_left
  · intro ho c hc
    obtain ⟨i, hi, rfl⟩ := List.getElem_of_mem hc
    unfold Kmeans.merge at hi
    simp only [List.length_zipWith] at hi
    have m1 := List.getElem_mem (l := a.averages) (n := i) (by omega)
    have m2 := List.getElem_mem (l := b.averages) (n := i) (by omega)
    have g1 := ha.avg _ m1
    have g2 := hb.avg _ m2
    have d1 := (ha.dense ho _ m1).mono g1.1.lo (Nat.le_add_right m j)
    have d2 := (hb.dense ho _ m2).mono g2.1.lo (Nat.le_add_left j m)
    unfold Kmeans.merge
    simp only [List.getElem_zipWith]
    generalize a.averages[i]'(by omega) = x at *
    generalize b.averages[i]'(by omega) = y at *
    have room : (m : ℝ) * termStep + j * termStep ≤ 2 ^ 127 := by
      have e : (m : ℝ) * termStep + j * termStep = ((m + j : ℕ) : ℝ) * termStep := by push_cast; ring
      rw [e]; exact (sumOf_fits hm).trans (by norm_num)
    have hS0 := add_nonneg g1.1.lo g2.1.lo
    have hA0 := add_nonneg g1.2.1.lo g2.2.1.lo
    have hfS := fits64_nn hS0 (add_le_add g1.1.hi g2.1.hi) room
    have hfA := fits64_nn hA0 (add_le_add (g1.2.1.hi.trans g1.1.hi) (g2.2.1.hi.trans g2.1.hi)) room
    have eA := add64_eq _ _ g1.2.1.fin g2.2.1.fin hfA
    have rS := (FltRound.add64 _ _ g1.1.fin g2.1.fin hfS).2
    have hlo := r64_lo (F := F)
    have hcase : (val x.total + val y.total = 0) ∨ r64 F (1 / 6000) ≤ val x.total + val y.total := by
      rcases d1.2 with h1 | h1
      · rcases d2.2 with h2 | h2
        · left; rw [h1, h2, add_zero]
        · right; rw [h1, zero_add]; exact h2
      · right; have := g2.1.lo; linarith
    refine ⟨?_, ?_⟩
    · show _ * val (x.total +₆ y.total) ≤ val (x.sum.a +₆ y.sum.a)
      refine dense_add hm hS0 hA0 ?_ ?_ rS (FltRound.add64 _ _ g1.2.1.fin g2.2.1.fin hfA).2 (by rw [eA]; exact r64_nonneg hA0)
      · have := d1.1; have := d2.1; rw [mul_add]; linarith
      · rcases hcase with h | h
        · exact .inl h
        · exact .inr (hlo.trans h)
    · show val (x.total +₆ y.total) = 0 ∨ _ ≤ val (x.total +₆ y.total)
      rcases hcase with h | h
      · exact .inl (rS.2 h)
      · right
        rw [add64_eq _ _ g1.1.fin g2.1.fin hfS, ← r64_idem (F := F) (1 / 6000)]
        exact r64_mono h
  intro c hc
  obtain ⟨i, hi, rfl⟩ := List.getElem_of_mem hc
  unfold Kmeans.merge at hi
  simp only [List.length_zipWith] at hi
  have g1 := ha.avg a.averages[i] (List.getElem_mem (by omega))
  have g2 := hb.avg b.averages[i] (List.getElem_mem (by omega))
  unfold Kmeans.merge
  simp only [List.getElem_zipWith]
  have room : (m : ℝ) * termStep + j * termStep ≤ 2 ^ 127 := by
    have e : (m : ℝ) * termStep + j * termStep = ((m + j : ℕ) : ℝ) * termStep := by push_cast; ring
    rw [e]; exact (sumOf_fits hm).trans (by norm_num)
  exact ⟨g1.1.join g2.1 hm, add64_mono g1.1 g2.1 room g1.2.1 g2.2.1, add64_mono g1.1 g2.1 room g1.2.2.1 g2.2.2.1,
    add64_mono g1.1 g2.1 room g1.2.2.2.1 g2.2.2.2.1, add64_mono g1.1 g2.1 room g1.2.2.2.2 g2.2.2.2.2⟩

theorem sums_merged {n : Nearest F} {adjust : Bool} {len : ℕ} {items : List (HistItem F)}
    (hx : ∀ x ∈ items, ItemFin op sm termMax (matchItem n adjust x).1 ∧ NN diffMax (matchItem n adjust x).2)
    (ws : List (List ℕ)) {m : ℕ} {k : Kmeans F} (h : Sums op m k) (hm : m + (257 * ws.flatten.length + ws.length) ≤ 2 ^ 22) :
    Sums op (m + (257 * ws.flatten.length + ws.length)) ((ws.map (worker n adjust len items)).foldl Kmeans.merge k) := by
  induction ws generalizing m k with
  | nil => simpa using h
  | cons w ws ih =>
    simp only [List.flatten_cons, List.length_append, List.length_cons] at hm ⊢
    have := ih (h.merge (sums_worker (len := len) hx w (by omega)) (by omega)) (by omega)
    rw [show m + (257 * (w.length + ws.flatten.length) + (ws.length + 1)) =
      m + 257 * w.length + 1 + (257 * ws.flatten.length + ws.length) by ring]
    exact this

theorem finalizeEntry_fin {m : ℕ} (hm : m ≤ 2 ^ 22) {avg : ColorAvg F} (h : SumOf m avg.total) (ha : NN (val avg.total) avg.sum.a)
    (hr : NN (val avg.total) avg.sum.r) (hg : NN (val avg.total) avg.sum.g) (hb : NN (val avg.total) avg.sum.b) {e : PalEntry F}
    (hd : op → Dense m avg) (he : (e.color.UnitFin ∧ fin e.pop.val) ∧ (op → palLo ≤ val e.color.a)) :
    ((finalizeEntry avg e).color.UnitFin ∧ fin (finalizeEntry avg e).pop.val) ∧ (op → palLo ≤ val (finalizeEntry avg e).color.a) := by
  have hpop := (nn_to32 h ((sumOf_fits hm).trans (by norm_num))).fin
  unfold finalizeEntry
  split
  · exact he
  · dsimp only
    split
    next hc =>
      have hz := nn_zero64 (F := F)
      have hpos : 0 < val avg.total := by
        have := (FltRound.lt _ _ hz.fin h.fin).1 ((Bool.and_eq_true _ _).mp hc).1
        exact lt_of_le_of_lt hz.lo this
      refine ⟨⟨⟨unit_to32 (unit_div64 ha h hpos), unit_to32 (unit_div64 hr h hpos), unit_to32 (unit_div64 hg h hpos),
        unit_to32 (unit_div64 hb h hpos)⟩, hpop⟩, fun ho => ?_⟩
      have hq := unit_div64 ha h hpos
      have q0 := div_nonneg ha.lo h.lo
      have q1 := (div_le_one hpos).2 ha.hi
      have hmr : (m : ℝ) ≤ 2 ^ 22 := by exact_mod_cast hm
      have hk : (m : ℝ) * 2⁻¹ ^ 50 ≤ 2 ^ 22 * 2⁻¹ ^ 50 := by gcongr
      have hlo : 0.6249 ≤ val avg.sum.a / val avg.total := by
        rw [le_div_iff₀ hpos]
        refine le_trans ?_ (hd ho).1
        apply mul_le_mul_of_nonneg_right _ h.lo
        norm_num at hk ⊢
        linarith
      have r1 := (abs_le.1 (rounds_abs_nn (FltRound.div64 _ _ ha.fin h.fin hpos.ne' (fits64_nn q0 q1 (by norm_num))).2 q0)).1
      have r2 := (abs_le.1 (rounds_abs_nn (FltRound.to32 _ hq.fin (fits32_nn hq.lo hq.hi (by norm_num))).2 hq.lo)).1
      have t1 := tiny32_le
      have t2 : tiny64 ≤ 1 / 10 ^ 40 := by
        refine tiny64_share.trans ?_; norm_num
      rw [u32_val] at r2
      rw [u64_val] at r1
      show palLo ≤ val (to32 (avg.sum.a /₆ avg.total))
      unfold palLo
      norm_num at r1 r2 t1 t2 hlo ⊢
      linarith
    · exact ⟨⟨he.1.1, hpop⟩, he.2⟩

theorem finalizePalette_fin {m : ℕ} (hm : m ≤ 2 ^ 22) {k : Kmeans F} (hk : Sums op m k) {p : PalF F} (hp : PalFin op p) :
    PalFin op (finalizePalette k.averages p) := by
  have key : ∀ (as : List (ColorAvg F)), (∀ a ∈ as, a ∈ k.averages) → ∀ p : PalF F, PalFin op p → PalFin op (finalizePalette as p) := by
    intro as
    induction as with
    | nil => intro _ p hp; cases p <;> exact hp
    | cons a as ih =>
      intro has p hp
      cases p with
      | nil => exact hp
      | cons e es =>
        intro x hx
        have hx' : x ∈ finalizeEntry a e :: finalizePalette as es := hx
        rcases List.mem_cons.1 hx' with rfl | hx'
        · obtain ⟨h1, h2, h3, h4, h5⟩ := hk.avg a (has a (by simp))
          exact finalizeEntry_fin hm h1 h2 h3 h4 h5 (fun ho => hk.dense ho a (has a (by simp))) (hp e (by simp))
        · exact ih (fun b hb => has b (by simp [hb])) es (fun y hy => hp y (by simp [hy])) x hx'
  exact key _ (fun _ h => h) p hp

theorem replaceUnusedAt_fin {items : List (HistItem F)} {b : ℝ} (hi : ∀ x ∈ items, ItemFin op sm b x) (p : PalF F) (i : ℕ) (q : PalF F)
    (hp : PalFin op p) (e : replaceUnusedAt p items i = .ok q) : PalFin op q := by
  have hw : ∀ (n : Nearest F) (p : PalF F) (l : List (HistItem F)) (st : Option (HistItem F) × F) (w : HistItem F),
      (∀ x ∈ l, x ∈ items) → (∀ w, st.1 = some w → w ∈ items) → (l.foldl (worstStep n p) st).1 = some w → w ∈ items := by
    intro n p l
    induction l with
    | nil => intro st w _ h e; exact h w e
    | cons x l ih =>
      intro st w hl h e
      refine ih (worstStep n p st x) w (fun y hy => hl y (by simp [hy])) ?_ e
      intro w' hw'
      have hc : (worstStep n p st x).1 = some x ∨ (worstStep n p st x).1 = st.1 := by
        unfold worstStep; dsimp only; split_ifs <;> simp
      rcases hc with hc | hc
      · rw [hc] at hw'; cases hw'; exact hl x (by simp)
      · rw [hc] at hw'; exact h w' hw'
  unfold replaceUnusedAt at e
  split at e
  · cases e
  · split at e
    · cases hn : Nearest.new p with
      | error f => rw [hn] at e; cases e
      | ok n =>
        rw [hn] at e
        simp only [bind, Except.bind] at e
        split at e
        next w hw' =>
          cases e
          have hm := hw n p items _ w (fun _ h => h) (by intro w h; cases h) hw'
          intro y hy
          rcases List.mem_or_eq_of_mem_set hy with hy | rfl
          · exact hp y hy
          · exact ⟨⟨(hi w hm).color, (hi w hm).adj.fin⟩, fun ho => palLo_le.trans ((hi w hm).solid ho).1⟩
        · cases e; exact hp
    · cases e; exact hp

theorem replaceUnused_fin {p q : PalF F} {items : List (HistItem F)} {b : ℝ} (hp : PalFin op p) (hi : ∀ x ∈ items, ItemFin op sm b x)
    (e : replaceUnused p items = .ok q) : PalFin op q := by
  unfold replaceUnused at e
  generalize List.range p.length = l at e
  induction l generalizing p with
  | nil => cases e; exact hp
  | cons i l ih =>
    rw [List.foldlM_cons] at e
    cases hs : replaceUnusedAt p items i with
    | error f => rw [hs] at e; cases e
    | ok r =>
      rw [hs] at e
      exact ih (replaceUnusedAt_fin hi p i r hp hs) e

theorem sched_size {n : ℕ} {sched : List (List ℕ)} (h : SchedValid n sched) : sched.flatten.length = n ∧ sched.length ≤ n := by
  have h1 : sched.flatten.length = n := by rw [h.1.length_eq, List.length_range]
  refine ⟨h1, ?_⟩
  rw [← h1]
  have h2 := h.2
  clear h h1
  induction sched with
  | nil => simp
  | cons w ws ih =>
    have := ih (fun v hv => h2 v (by simp [hv]))
    have := List.length_pos_iff.2 (h2 w (by simp))
    simp only [List.length_cons, List.flatten_cons, List.length_append]; omega

/-- a pass of k-means -/
theorem reduce_sums {sched : List (List ℕ)} {items : List (HistItem F)} {n : Nearest F} {adjust : Bool} {len : ℕ}
    (hs : SchedValid (numChunks items.length) sched) (hl : items.length ≤ 2 ^ 21)
    (hm' : ∀ x ∈ items, ItemFin op sm termMax (matchItem n adjust x).1 ∧ NN diffMax (matchItem n adjust x).2) :
    ∀ K, reduceWorkers (sched.map (worker n adjust len items)) = some K → Sums op (2 ^ 22) K := by
  obtain ⟨s1, s2⟩ := sched_size hs
  have hc : numChunks items.length ≤ 8193 := by
    unfold numChunks chunkSize; omega
  intro K hK
  cases hsched : sched with
  | nil => rw [hsched] at hK; cases hK
  | cons w ws =>
    rw [hsched] at hK s1 s2
    cases hK
    simp only [List.flatten_cons, List.length_append, List.length_cons] at s1 s2
    have hw := sums_worker (len := len) hm' w (by omega)
    exact (sums_merged (len := len) hm' ws hw (by omega)).mono (by omega)

theorem iteration_fin {sched : List (List ℕ)} {hist hist' : HistogramInternal F} {p p' : PalF F} {adjust : Bool} {e : F} {k : ℕ}
    (hs : SchedValid (numChunks hist.items.length) sched) (hk : adjust = true → k < maxRounds sm ∧ ThinPal sm p) (hk' : k ≤ maxRounds sm)
    (hl : hist.items.length ≤ 2 ^ 21) (hi : ∀ x ∈ hist.items, ItemFin op sm (adjMax sm k) x) (hp : PalFin op p)
    (h : iteration sched hist p adjust = .ok (hist', p', e)) :
    (∀ x ∈ hist'.items, ItemFin op sm (adjMax sm (if adjust then k + 1 else k)) x) ∧ PalFin op p' ∧
    hist'.fixedColors = hist.fixedColors ∧ hist'.clusters = hist.clusters ∧ hist'.items.length = hist.items.length ∧
    hist'.totalPerceptualWeight = hist.totalPerceptualWeight ∧
    (e = Flt.lit64 0 ∨ ∃ d : F, NN (2 ^ 127) d ∧ e = d /₆ hist.totalPerceptualWeight) := by
  unfold iteration at h
  split at h
  next hne =>
    cases h
    have hnil : hist.items = [] := by simpa using hne
    refine ⟨?_, hp, rfl, rfl, rfl, rfl, Or.inl rfl⟩
    intro x hx; rw [hnil] at hx; cases hx
  · cases hn : Nearest.new p with
    | error f => rw [hn] at h; cases h
    | ok n =>
      rw [hn] at h
      simp only [bind, Except.bind] at h
      have hm : ∀ x ∈ hist.items, ItemFin op sm (adjMax sm (if adjust then k + 1 else k)) (matchItem n adjust x).1 ∧
          NN diffMax (matchItem n adjust x).2 := fun x hx => matchItem_ok hn hp adjust hk (hi x hx)
      have hb : adjMax sm (if adjust then k + 1 else k) ≤ termMax := by
        apply adjMax_le
        split
        next ha => have := (hk ha).1; omega
        · exact hk'
      have hm' : ∀ x ∈ hist.items, ItemFin op sm termMax (matchItem n adjust x).1 ∧ NN diffMax (matchItem n adjust x).2 :=
        fun x hx => ⟨(hm x hx).1.mono hb, (hm x hx).2⟩
      have hitems : ∀ x ∈ hist.items.map (fun x => (matchItem n adjust x).1), ItemFin op sm (adjMax sm (if adjust then k + 1 else k)) x := by
        intro x hx
        obtain ⟨y, hy, rfl⟩ := List.mem_map.1 hx
        exact (hm y hy).1
      have hred := reduce_sums (len := p.length) hs hl hm'
      cases hK : reduceWorkers (sched.map (worker n adjust p.length hist.items)) with
      | none =>
        rw [hK] at h
        dsimp only at h
        cases hr : replaceUnused p (hist.items.map fun x => (matchItem n adjust x).1) with
        | error f => rw [hr] at h; cases h
        | ok q =>
          rw [hr] at h
          cases h
          exact ⟨hitems, replaceUnused_fin hp hitems hr, rfl, rfl, by simp, rfl, Or.inl rfl⟩
      | some K =>
        rw [hK] at h
        dsimp only at h
        have hS := hred K hK
        cases hr : replaceUnused (finalizePalette K.averages p) (hist.items.map fun x => (matchItem n adjust x).1) with
        | error f => rw [hr] at h; cases h
        | ok q =>
          rw [hr] at h
          cases h
          exact ⟨hitems, replaceUnused_fin (finalizePalette_fin le_rfl hS hp) hitems hr, rfl, rfl, by simp, rfl,
            Or.inr ⟨_, NN.mono hS.diff ((sumOf_fits le_rfl).trans (by norm_num)), rfl⟩⟩

end Kmeans

end Verif
