import Verif.Lemmas.FiniteTrace
import Verif.Lemmas.HistDistinct

/-! The finished histogram has finite weights. -/

set_option linter.unusedSectionVars false

namespace Verif
open Flt FltRound FltCorrect Spec
open FltFull (r32_idem r64 r64_mono r64_nat r64_idem lit64_eq add64_eq div64_eq to32_eq pow32_unit)

section counts

theorem ColorMap.total_upsert_zero (m : ColorMap) (k c : RGBA) : (ColorMap.upsert m k (fun _ => (0, c))).total ≤ m.total := by
  unfold ColorMap.total
  induction m with
  | nil => simp [ColorMap.upsert]
  | cons x t ih =>
    obtain ⟨j, v⟩ := x
    simp only [ColorMap.upsert]
    split
    · simp
    · simp only [List.map_cons, List.sum_cons]; omega

theorem Histogram.insertFixed_total {F : Type} [Flt F] (ho : HashOrder) (h : Histogram F) :
    ColorMap.total (h.insertFixedColors ho) ≤ ColorMap.total h.hashmap := by
  rw [Histogram.insertFixedColors_fold]
  have key : ∀ (l : List HashColor) (m : ColorMap), ColorMap.total (l.foldl (fun m (x : HashColor) =>
      ColorMap.upsert m (fixedKey x.1) (fun _ => (0, x.1))) m) ≤ m.total := by
    intro l
    induction l with
    | nil => intro m; exact le_rfl
    | cons x l ih => intro m; rw [List.foldl_cons]; exact (ih _).trans (m.total_upsert_zero _ _)
  exact key _ _

end counts

variable {F : Type} [Flt F] [FltMin F] {op sm : Prop}

/-- a count as a number -/
theorem count_nn {n : ℕ} (hn : n ≤ 2 ^ 35) : NN (2 * n) (lit32 (n : ℚ) : F) ∧ (1 ≤ n → 1 ≤ val (lit32 (n : ℚ) : F)) := by
  have hn' : (n : ℝ) ≤ 2 ^ 35 := by exact_mod_cast hn
  have hf : Fits32 ((n : ℚ) : ℝ) := by
    rw [Rat.cast_natCast]
    exact fits32_nn (by positivity) hn' (by norm_num)
  obtain ⟨f, r⟩ := FltRound.lit32 (F := F) _ hf
  have e := FltCorrect.lit32_eq (F := F) _ hf
  rw [Rat.cast_natCast] at e r
  refine ⟨⟨f, ?_, ?_⟩, ?_⟩
  · rw [e]; exact r32_nonneg (by positivity)
  · rcases Nat.eq_zero_or_pos n with rfl | hp
    · rw [e, Nat.cast_zero, r32_zero]; norm_num
    · have h1 : (1:ℝ) ≤ n := by exact_mod_cast hp
      have := rounds32_le r (by positivity) le_rfl
      nlinarith
  · intro h1
    rw [e]
    have := le_r32 (F := F) (n := 1) (by norm_num) (e := (n:ℝ)) (by exact_mod_cast h1)
    simpa using this

theorem sum_counts (l : List ℕ) (m : ℕ) (s : F) (hs : NN (2 * m) s) (hl : m + l.sum ≤ 2 ^ 35) :
    NN (2 * (m + l.sum : ℕ)) (l.foldl (fun (s : F) (n : ℕ) => s +₆ lit32 (n : ℚ)) s) ∧
      ((1 ≤ val s ∨ ∃ n ∈ l, 1 ≤ n) → 1 ≤ val (l.foldl (fun (s : F) (n : ℕ) => s +₆ lit32 (n : ℚ)) s)) := by
  induction l generalizing m s with
  | nil => exact ⟨by simpa using hs, by simp⟩
  | cons n l ih =>
    rw [List.sum_cons] at hl
    obtain ⟨hn, hn1⟩ := count_nn (F := F) (n := n) (by omega)
    have h0 := add_nonneg hs.lo hn.lo
    have h1 : val s + val (lit32 (n : ℚ) : F) ≤ ((2 * (m + n) : ℕ) : ℝ) := by
      have := add_le_add hs.hi hn.hi
      push_cast; linarith
    have hb : ((2 * (m + n) : ℕ) : ℝ) ≤ 2 ^ 127 := by
      have : 2 * (m + n) ≤ 2 ^ 36 := by omega
      have : ((2 * (m + n) : ℕ) : ℝ) ≤ 2 ^ 36 := by exact_mod_cast this
      exact this.trans (by norm_num)
    have hf := fits64_nn h0 h1 hb
    have e := add64_eq s (lit32 (n : ℚ)) hs.fin hn.fin hf
    have hs' : NN (2 * (m + n : ℕ)) (s +₆ lit32 (n : ℚ)) := by
      refine ⟨(FltRound.add64 _ _ hs.fin hn.fin hf).1, ?_, ?_⟩
      · rw [e]; exact r64_nonneg h0
      · rw [e]
        have := r64_le (F := F) (n := 2 * (m + n)) (by omega) h1
        push_cast at this ⊢; exact this
    obtain ⟨i1, i2⟩ := ih (m + n) _ hs' (by omega)
    rw [List.foldl_cons]
    refine ⟨?_, ?_⟩
    · rw [List.sum_cons, ← add_assoc]; exact i1
    · intro h
      have hge : 1 ≤ val s ∨ 1 ≤ n → 1 ≤ val (s +₆ lit32 (n : ℚ)) := by
        intro h
        rw [e]
        have e1 := r64_nat (F := F) 1 (by norm_num)
        rw [Nat.cast_one] at e1
        rw [← e1]
        apply r64_mono
        rcases h with h | h
        · have := hn.lo; linarith
        · have := hn1 h; have := hs.lo; linarith
      rcases h with h | ⟨n', hn', h'⟩
      · exact i2 (.inl (hge (.inl h)))
      · rcases List.mem_cons.1 hn' with rfl | hm
        · exact i2 (.inl (hge (.inr h')))
        · exact i2 (.inr ⟨n', hm, h'⟩)

theorem lit64_256 : fin (lit64 256 : F) ∧ val (lit64 256 : F) = 256 := by
  have hf : Fits64 ((256 : ℚ) : ℝ) := fits64_nn (b := 256) (by norm_num) (by norm_num) (by norm_num)
  refine ⟨(FltRound.lit64 _ hf).1, ?_⟩
  rw [lit64_eq _ hf]
  have := r64_nat (F := F) 256 (by norm_num)
  push_cast at this ⊢; exact this

theorem tiny64_le : tiny64 ≤ 1 / 10 ^ 40 := by
  unfold tiny64
  calc (2⁻¹ : ℝ) ^ 1074 ≤ 2⁻¹ ^ 149 := pow_le_pow_of_le_one (by norm_num) (by norm_num) (by norm_num)
    _ ≤ 1 / 10 ^ 40 := by norm_num

theorem rounds_ge {u t r v : ℝ} (h : RoundsTo u t r v) (h0 : 0 ≤ r) : r - (u * r + t) ≤ v := by
  have := (abs_le.1 h.1).1
  rw [abs_of_nonneg h0] at this
  linarith

/-- bound of the largest weight, and the bound from below when something was counted -/
theorem maxWeight_nn {c : F} {b : ℝ} (hb1 : 1 ≤ b) (hb : b ≤ 2 ^ 28) (h : NN (b * 256) c) :
    let w := lit32 (1/10) *₃ to32 (c /₆ lit64 256)
    NN (b * 0.1001) w ∧ r32 F (val w) = val w ∧ (1 ≤ val c → 1 / 3000 ≤ val w) := by
  obtain ⟨f256, v256⟩ := lit64_256 (F := F)
  have q0 : 0 ≤ val c / 256 := div_nonneg h.lo (by norm_num)
  have q1 : val c / 256 ≤ b := by
    have := h.hi
    rw [div_le_iff₀ (by norm_num)]; linarith
  have hf : Fits64 (val c / val (lit64 256 : F)) := by rw [v256]; exact fits64_nn q0 (q1.trans hb) (by norm_num)
  obtain ⟨fd, rd⟩ := FltRound.div64 c (lit64 256) h.fin f256 (by rw [v256]; norm_num) hf
  have ed := div64_eq c (lit64 256) h.fin f256 (by rw [v256]; norm_num) hf
  rw [v256] at rd ed
  have hd : NN (b * 1.00001) (c /₆ lit64 256) := by
    refine ⟨fd, by rw [ed]; exact r64_nonneg q0, ?_⟩
    have g := (abs_le.1 rd.1).2
    rw [abs_of_nonneg q0] at g
    have t64 := tiny64_le
    have e64 : u64 = 1 / 2 ^ 53 := by unfold u64; norm_num
    rw [e64] at g
    norm_num at g t64 ⊢
    linarith
  have hb2 : b * 1.00001 ≤ 2 ^ 29 := by norm_num at hb ⊢; linarith
  have hf2 := fits32_nn hd.lo (hd.hi.trans hb2) (by norm_num)
  obtain ⟨ft, rt⟩ := FltRound.to32 _ hd.fin hf2
  have ht := nn_to32 hd (hb2.trans (by norm_num))
  obtain ⟨fl, rl⟩ := FltRound.lit32 (F := F) (1/10) (by unfold Fits32; norm_num)
  have hl := lit32_unit (F := F) (q := 1/10) (by norm_num) (by norm_num)
  push_cast at rl
  have hl2 := rounds32_le rl (by norm_num) le_rfl
  have hl1 := rounds_ge rl (by norm_num)
  have ht32 := tiny32_le
  rw [u32_val] at hl1
  have p0 := mul_nonneg hl.lo ht.lo
  have p1 : val (lit32 (1/10) : F) * val (to32 (c /₆ lit64 256)) ≤ b * 0.10005 := by
    calc _ ≤ (0.10001 : ℝ) * (b * 1.0002) := by
          gcongr
          · exact ht.lo
          · linarith
          · have := ht.hi; norm_num at this ⊢; linarith
      _ ≤ _ := by norm_num; linarith
  have hfp := fits32_nn p0 (p1.trans (show b * 0.10005 ≤ 2 ^ 29 by norm_num at hb ⊢; linarith)) (by norm_num)
  obtain ⟨fp, rp⟩ := FltRound.mul32 _ _ hl.fin ht.fin hfp
  have ep := FltCorrect.mul32_eq _ _ hl.fin ht.fin hfp
  refine ⟨⟨fp, by rw [ep]; exact r32_nonneg p0, ?_⟩, by rw [ep, r32_idem], ?_⟩
  · have := rounds32_le rp p0 p1; norm_num at this ⊢; linarith
  · intro h1
    have g1 := rounds_ge rd q0
    have g2 := rounds_ge rt hd.lo
    have g3 := rounds_ge rp p0
    have t64 := tiny64_le
    have e64 : u64 = 1 / 2 ^ 53 := by unfold u64; norm_num
    rw [e64] at g1
    rw [u32_val] at g2 g3
    have a1 : 1 / 257 ≤ val (c /₆ lit64 256) := by
      have : 1 / 256 ≤ val c / 256 := by linarith
      norm_num at g1 ⊢
      linarith
    have a2 : 1 / 258 ≤ val (to32 (c /₆ lit64 256)) := by linarith
    have a3 : 1 / 2600 ≤ val (lit32 (1/10) : F) * val (to32 (c /₆ lit64 256)) := by
      calc (1 / 2600 : ℝ) ≤ 0.0999 * (1 / 258) := by norm_num
        _ ≤ _ := mul_le_mul (by linarith) a2 (by norm_num) hl.lo
    linarith

theorem lit32_256th : let q : F := lit32 1 /₃ lit32 256
    NN 1 q ∧ 1 / 257 ≤ val q := by
  intro q
  have h1 : NN 1 (lit32 1 : F) := lit32_unit (by norm_num) (by norm_num)
  obtain ⟨-, hge⟩ := count_nn (F := F) (n := 1) (by norm_num)
  have hge := hge le_rfl
  rw [Nat.cast_one] at hge
  have e1 : val (lit32 1 : F) = 1 := le_antisymm h1.hi hge
  have hf : Fits32 ((256 : ℚ) : ℝ) := fits32_nn (b := 256) (by norm_num) (by norm_num) (by norm_num)
  have f2 := (FltRound.lit32 (F := F) 256 hf).1
  have e2 : val (lit32 256 : F) = 256 := by
    rw [FltCorrect.lit32_eq _ hf]
    have := r32_nat (F := F) 256 (by norm_num)
    push_cast at this ⊢; exact this
  have hne : val (lit32 256 : F) ≠ 0 := by rw [e2]; norm_num
  have hfd : Fits32 (val (lit32 1 : F) / val (lit32 256 : F)) := by
    rw [e1, e2]; exact fits32_nn (b := 1) (by norm_num) (by norm_num) (by norm_num)
  obtain ⟨f, r⟩ := FltRound.div32 (lit32 1 : F) (lit32 256) h1.fin f2 hne hfd
  have e := FltCorrect.div32_eq (lit32 1 : F) (lit32 256) h1.fin f2 hne hfd
  rw [e1, e2] at e r
  refine ⟨⟨f, ?_, ?_⟩, ?_⟩
  · rw [e]; exact r32_nonneg (by norm_num)
  · rw [e]; exact r32_le_one (by norm_num)
  · have := rounds_ge r (by norm_num)
    have := tiny32_le
    rw [u32_val] at *
    linarith

/-- the weight of a colour -/
theorem itemWeight_nn {w : F} {b : ℝ} (hb1 : 1 ≤ b) (hb : b ≤ 2 ^ 28) (hw : NN (b * 0.1001) w) (hr : r32 F (val w) = val w) {n : ℕ} (hn : n ≤ 2 ^ 35) (c : RGBA) (cl : ℕ) :
    let x : F := Histogram.itemWeight w { color := c, weight := lit32 (n : ℚ), cluster := cl }
    NN (b * 1.01) x ∧ r32 F (val x) = val x ∧ (1 / 3000 ≤ val w → 1 / 3000 ≤ val x) := by
  intro x
  obtain ⟨hc, hc1⟩ := count_nn (F := F) hn
  have hz := nn_zero (F := F)
  have hz0 : val (lit32 0 : F) = 0 := le_antisymm hz.hi hz.lo
  have hlt := FltRound.lt (lit32 0 : F) (lit32 (n : ℚ)) hz.fin hc.fin
  have hx : x = if Flt.lt (lit32 0 : F) (lit32 (n : ℚ)) then Flt.fmin ((lit32 (n : ℚ) : F) *₃ (lit32 1 /₃ lit32 256)) w
    else w *₃ lit32 10 := rfl
  by_cases h : Flt.lt (lit32 0 : F) (lit32 (n : ℚ)) = true
  · rw [if_pos h] at hx
    obtain ⟨hq, hq1⟩ := lit32_256th (F := F)
    have p0 := mul_nonneg hc.lo hq.lo
    have hcb : val (lit32 (n : ℚ) : F) ≤ 2 ^ 36 := by
      have : (n : ℝ) ≤ 2 ^ 35 := by exact_mod_cast hn
      have := hc.hi; linarith
    have p1 : val (lit32 (n : ℚ) : F) * val (lit32 1 /₃ lit32 256 : F) ≤ 2 ^ 36 := by
      calc _ ≤ (2 ^ 36 : ℝ) * 1 := mul_le_mul hcb hq.hi hq.lo (by norm_num)
        _ = _ := by ring
    have hf := fits32_nn p0 p1 (by norm_num)
    obtain ⟨fm, rm⟩ := FltRound.mul32 _ _ hc.fin hq.fin hf
    have em := FltCorrect.mul32_eq _ _ hc.fin hq.fin hf
    obtain ⟨f, v⟩ := FltRound.min _ _ fm hw.fin
    rw [← hx] at f v
    refine ⟨⟨f, ?_, ?_⟩, ?_, ?_⟩
    · rw [v]
      refine le_min ?_ hw.lo
      rw [em]; exact r32_nonneg p0
    · rw [v]
      refine (min_le_right _ _).trans (hw.hi.trans ?_)
      norm_num; linarith
    · rw [v]
      rcases min_choice (val ((lit32 (n : ℚ) : F) *₃ (lit32 1 /₃ lit32 256))) (val w) with hm | hm
      · rw [hm, em, r32_idem]
      · rw [hm, hr]
    · intro hw1
      have h1 : 1 ≤ n := by
        by_contra hn0
        have : n = 0 := by omega
        rw [hlt, hz0, this] at h
        have hz' : val (lit32 ((0 : ℕ) : ℚ) : F) = 0 := by rw [Nat.cast_zero]; exact hz0
        rw [hz'] at h
        exact lt_irrefl _ h
      rw [v]
      refine le_min ?_ hw1
      have g := rounds_ge rm p0
      have := tiny32_le
      rw [u32_val] at g
      have a : 1 / 257 ≤ val (lit32 (n : ℚ) : F) * val (lit32 1 /₃ lit32 256 : F) := by
        calc (1 / 257 : ℝ) = 1 * (1 / 257) := by ring
          _ ≤ _ := mul_le_mul (hc1 h1) hq1 (by norm_num) hc.lo
      linarith
  · rw [if_neg h] at hx
    have hf10 : Fits32 ((10 : ℚ) : ℝ) := fits32_nn (b := 10) (by norm_num) (by norm_num) (by norm_num)
    have f10 := (FltRound.lit32 (F := F) 10 hf10).1
    have e10 : val (lit32 10 : F) = 10 := by
      rw [FltCorrect.lit32_eq _ hf10]
      have := r32_nat (F := F) 10 (by norm_num)
      push_cast at this ⊢; exact this
    have p0 : 0 ≤ val w * val (lit32 10 : F) := by rw [e10]; have := hw.lo; linarith
    have p1 : val w * val (lit32 10 : F) ≤ b * 1.001 := by rw [e10]; have := hw.hi; norm_num at this ⊢; linarith
    have hf := fits32_nn p0 (p1.trans (show b * 1.001 ≤ 2 ^ 29 by norm_num at hb ⊢; linarith)) (by norm_num)
    obtain ⟨fm, rm⟩ := FltRound.mul32 _ _ hw.fin f10 hf
    have em := FltCorrect.mul32_eq _ _ hw.fin f10 hf
    rw [← hx] at fm rm em
    refine ⟨⟨fm, by rw [em]; exact r32_nonneg p0, ?_⟩, by rw [em, r32_idem], ?_⟩
    · have := rounds32_le rm p0 p1
      norm_num at this ⊢; linarith
    · intro hw1
      have g := rounds_ge rm p0
      have := tiny32_le
      rw [u32_val, e10] at g
      linarith

/-- a sum that is at least one of its terms -/
theorem sum_weights {α : Type} (f : α → F) (l : List α) (m : ℕ) (s : F) (hs : SumOf m s) (hl : m + l.length ≤ 2 ^ 22)
    (h : ∀ t ∈ l, NN termMax (f t)) : SumOf (m + l.length) (l.foldl (fun s t => s +₆ f t) s) ∧
      ∀ b : ℝ, (r64 F b ≤ val s ∨ ∃ t ∈ l, b ≤ val (f t)) → r64 F b ≤ val (l.foldl (fun s t => s +₆ f t) s) := by
  induction l generalizing m s with
  | nil => exact ⟨by simpa using hs, by simp⟩
  | cons t l ih =>
    rw [List.length_cons] at hl
    have ht := h t (by simp)
    have hm : m ≤ 2 ^ 22 := by omega
    obtain ⟨i1, i2⟩ := ih (m + 1) (s +₆ f t) (hs.add64 ht hm) (by omega) (fun u hu => h u (by simp [hu]))
    have e := add64_eq s (f t) hs.fin ht.fin (fits64_nn (add_nonneg hs.lo ht.lo) (add_le_add hs.hi ht.hi) (sumOf_room hm))
    rw [List.foldl_cons]
    refine ⟨?_, ?_⟩
    · rw [List.length_cons, show m + (l.length + 1) = m + 1 + l.length by omega]; exact i1
    · intro b hb
      apply i2
      have hge : r64 F b ≤ val s ∨ b ≤ val (f t) → r64 F b ≤ val (s +₆ f t) := by
        rintro (h | h)
        · rw [e, ← r64_idem (F := F) b]
          apply r64_mono
          have := ht.lo; linarith
        · rw [e]
          apply r64_mono
          have := hs.lo; linarith
      rcases hb with hb | ⟨u, hu, hb⟩
      · exact .inl (hge (.inl hb))
      · rcases List.mem_cons.1 hu with rfl | hu
        · exact .inl (hge (.inr hb))
        · exact .inr ⟨u, hu, hb⟩

/-- opaque colours -/
theorem fromRgba_solid {gamma : F} {c : RGBA} (hc : c.a = 255) : solidLo ≤ val (FPixel.fromRgba (gammaLut gamma) c).a := by
  have e255 : fin (lit32 255 : F) ∧ val (lit32 255 : F) = 255 := by
    have hf : Fits32 ((255 : ℚ) : ℝ) := fits32_nn (b := 255) (by norm_num) (by norm_num) (by norm_num)
    refine ⟨(FltRound.lit32 (F := F) 255 hf).1, ?_⟩
    rw [FltCorrect.lit32_eq _ hf]
    have := r32_nat (F := F) 255 (by norm_num)
    push_cast at this ⊢; exact this
  obtain ⟨f, v⟩ := e255
  have hne : val (lit32 255 : F) ≠ 0 := by rw [v]; norm_num
  have hq : val (lit32 255 : F) / val (lit32 255 : F) = 1 := by rw [v]; norm_num
  have hfd : Fits32 (val (lit32 255 : F) / val (lit32 255 : F)) := by
    rw [hq]; exact fits32_nn (b := 1) (by norm_num) (by norm_num) (by norm_num)
  have fd := (FltRound.div32 (lit32 255 : F) (lit32 255) f f hne hfd).1
  have ed := FltCorrect.div32_eq (lit32 255 : F) (lit32 255) f f hne hfd
  rw [hq] at ed
  have e1 : val (lit32 255 /₃ lit32 255 : F) = 1 := by
    rw [ed]
    have := r32_nat (F := F) 1 (by norm_num)
    push_cast at this; exact this
  have hl := lit32_unit (F := F) (q := 5/8) (by norm_num) (by norm_num)
  obtain ⟨-, rl⟩ := FltRound.lit32 (F := F) (5/8) (by unfold Fits32; norm_num)
  push_cast at rl
  have g1 := rounds_ge rl (by norm_num)
  have hp : Fits32 (val (lit32 255 /₃ lit32 255 : F) * val (lit32 (5/8) : F)) := by
    rw [e1, one_mul]; exact fits32_nn hl.lo hl.hi (by norm_num)
  obtain ⟨-, rm⟩ := FltRound.mul32 _ _ fd hl.fin hp
  rw [e1, one_mul] at rm
  have g2 := rounds_ge rm hl.lo
  have := tiny32_le
  have h1 := hl.hi
  rw [u32_val] at g1 g2
  have hx : (FPixel.fromRgba (gammaLut gamma) c).a = ((lit32 255 /₃ lit32 255 : F) *₃ lit32 (5/8)) := by
    unfold FPixel.fromRgba
    rw [hc]
    rfl
  rw [hx]
  unfold solidLo
  norm_num at g1 g2 ⊢
  linarith

/-- the weights of the channels bound the channels -/
theorem fromRgba_slim {γ : F} (h : UsualGamma γ) (c : RGBA) : (FPixel.fromRgba (gammaLut γ) c).Slim := by
  have ha := byte_unit (F := F) c.a
  have lit : ∀ q : ℚ, 0 ≤ q → q ≤ 1 → NN 1 (lit32 q : F) ∧ |val (lit32 q : F) - q| ≤ 1 / 10 ^ 7 := by
    intro q h0 h1
    have h0' : (0:ℝ) ≤ q := by exact_mod_cast h0
    have h1' : (q:ℝ) ≤ 1 := by exact_mod_cast h1
    obtain ⟨-, rl⟩ := FltRound.lit32 (F := F) q (fits32_nn h0' h1' (by norm_num))
    refine ⟨lit32_unit (F := F) h0 h1, rl.1.trans ?_⟩
    have := tiny32_le
    rw [u32_val, abs_of_nonneg h0']
    norm_num at this ⊢
    linarith
  have mul : ∀ x y : F, NN 1 x → NN 1 y → NN 1 (x *₃ y) ∧ |val (x *₃ y) - val x * val y| ≤ 1 / 10 ^ 7 := by
    intro x y hx hy
    have p0 : 0 ≤ val x * val y := mul_nonneg hx.lo hy.lo
    have p1 : val x * val y ≤ 1 := mul_le_one₀ hx.hi hy.lo hy.hi
    obtain ⟨-, rm⟩ := FltRound.mul32 _ _ hx.fin hy.fin (fits32_nn p0 p1 (by norm_num))
    refine ⟨unit_mul hx hy, rm.1.trans ?_⟩
    have := tiny32_le
    rw [u32_val, abs_of_nonneg p0]
    norm_num at this ⊢
    linarith
  have hA : |val ((lit32 c.a.toNat /₃ lit32 255 : F) *₃ lit32 (5/8)) - 5/8 * val (lit32 c.a.toNat /₃ lit32 255 : F)| ≤ 2 / 10 ^ 7 := by
    obtain ⟨l1, l2⟩ := lit (5/8) (by norm_num) (by norm_num)
    obtain ⟨m1, m2⟩ := mul _ _ ha l1
    push_cast at l2
    have e : val ((lit32 c.a.toNat /₃ lit32 255 : F) *₃ lit32 (5/8)) - 5/8 * val (lit32 c.a.toNat /₃ lit32 255 : F) =
      (val ((lit32 c.a.toNat /₃ lit32 255 : F) *₃ lit32 (5/8)) - val (lit32 c.a.toNat /₃ lit32 255 : F) * val (lit32 (5/8) : F)) +
        val (lit32 c.a.toNat /₃ lit32 255 : F) * (val (lit32 (5/8) : F) - 5/8) := by ring
    rw [e]
    refine (abs_add_le _ _).trans ?_
    rw [abs_mul, abs_of_nonneg ha.lo]
    have : val (lit32 c.a.toNat /₃ lit32 255 : F) * |val (lit32 (5/8) : F) - 5/8| ≤ 1 * (1 / 10 ^ 7) :=
      mul_le_mul ha.hi l2 (abs_nonneg _) (by norm_num)
    norm_num at this m2 ⊢
    linarith
  have two : ∀ (q : ℚ) (x : F), 0 ≤ q → q ≤ 1 → NN 1 x → val (x *₃ lit32 q *₃ (lit32 c.a.toNat /₃ lit32 255)) ≤
      q * val (lit32 c.a.toNat /₃ lit32 255 : F) + 3 / 10 ^ 7 := by
    intro q x h0 h1 hx
    obtain ⟨l1, l2⟩ := lit q h0 h1
    obtain ⟨n1, n2⟩ := mul _ _ hx l1
    obtain ⟨o1, o2⟩ := mul _ _ n1 ha
    have k : val (x *₃ lit32 q) ≤ q + 2 / 10 ^ 7 := by
      have := (abs_le.1 l2).2
      have := (abs_le.1 n2).2
      have : val x * val (lit32 q : F) ≤ val (lit32 q : F) := mul_le_of_le_one_left l1.lo hx.hi
      linarith
    have := mul_le_mul_of_nonneg_right k ha.lo
    have := (abs_le.1 o2).2
    have := ha.hi
    norm_num at *
    linarith
  obtain ⟨A1, A2⟩ := abs_le.1 hA
  have h1 := two (1/2) _ (by norm_num) (by norm_num) (lut_unit h c.r)
  have h2 := two 1 _ (by norm_num) (by norm_num) (lut_unit h c.g)
  have h3 := two (45/100) _ (by norm_num) (by norm_num) (lut_unit h c.b)
  have h0 := ha.lo
  have hi := ha.hi
  norm_num at A1 A2 h1 h2 h3
  refine ⟨?_, ?_, ?_, ?_⟩
  · show val ((lit32 c.a.toNat /₃ lit32 255 : F) *₃ lit32 (5/8)) ≤ _
    norm_num; linarith
  · show val (gammaLut γ c.r *₃ lit32 (1/2) *₃ (lit32 c.a.toNat /₃ lit32 255)) ≤ 0.8 * val ((lit32 c.a.toNat /₃ lit32 255 : F) *₃ lit32 (5/8)) + _
    norm_num; linarith
  · show val (gammaLut γ c.g *₃ lit32 1 *₃ (lit32 c.a.toNat /₃ lit32 255)) ≤ 1.6 * val ((lit32 c.a.toNat /₃ lit32 255 : F) *₃ lit32 (5/8)) + _
    norm_num; linarith
  · show val (gammaLut γ c.b *₃ lit32 (45/100) *₃ (lit32 c.a.toNat /₃ lit32 255)) ≤ 0.8 * val ((lit32 c.a.toNat /₃ lit32 255 : F) *₃ lit32 (5/8)) + _
    norm_num; linarith

/-- The finished histogram: all numbers are in range, and the total weight is not too small if something was counted. -/
theorem finalized_fin {ho : HashOrder} {h : Histogram F} (hd : ColorMap.Distinct h.hashmap) (hn : ColorMap.total h.hashmap ≤ 2 ^ 35)
    (hc : (coloursOf h).card ≤ 2 ^ 21) {gamma : F} (hg : UsualGamma gamma) {r : HistogramInternal F} (e : h.finalizeBuilder ho gamma = .ok r)
    (hop : op → HasCount h ∧ (coloursOf h).card ≤ 2 ^ 14 ∧ (∀ x ∈ h.insertFixedColors ho, x.2.2.a = 255) ∧ (∀ f ∈ h.fixedColors, f.1.a = 255))
    (hsm : sm → HasCount h ∧ (coloursOf h).card ≤ 50000 ∧ ColorMap.total h.hashmap ≤ 2 ^ 28) :
    WorkFin op sm r.totalPerceptualWeight 0 r ∧ NN (2 ^ 127) r.totalPerceptualWeight ∧
      (HasCount h → 1 / 5000 ≤ val r.totalPerceptualWeight ∧ ∀ x ∈ r.items, 1 / 3000 ≤ val x.perceptualWeight ∧
        val x.perceptualWeight ≤ 2 * val x.adjustedWeight ∧ val x.perceptualWeight ≤ 2 * val r.totalPerceptualWeight) := by
  obtain ⟨r1, e1, ht, hlen⟩ := h.finalize_ok ho gamma
  rw [e] at e1; cases e1
  obtain ⟨r1, e1, e2, -, e4, e5⟩ := h.finalize_spec ho gamma
  rw [e] at e1; cases e1
  have hlc : (h.insertFixedColors ho).length ≤ 2 ^ 21 := by rw [colours_card hd]; exact hc
  set temp : List (Histogram.TempHistItem F) := Histogram.tempItems ho (h.insertFixedColors ho) with htemp
  have hsum : ColorMap.total (ho.map (h.insertFixedColors ho)) ≤ 2 ^ 35 := by
    unfold ColorMap.total
    rw [((ho.map_perm _).map _).sum_eq]
    exact (h.insertFixed_total ho).trans hn
  have hmem : ∀ t ∈ temp, ∃ y ∈ h.insertFixedColors ho, ∃ n : ℕ, n = y.2.1 ∧ n ≤ 2 ^ 35 ∧
      t = { color := y.2.2, weight := lit32 (n : ℚ), cluster := t.cluster } := by
    intro t ht
    rw [htemp, Histogram.tempItems, List.mem_map] at ht
    obtain ⟨y, hy, rfl⟩ := ht
    refine ⟨y, (ho.map_perm _).mem_iff.1 hy, y.2.1, rfl, ?_, rfl⟩
    exact (List.single_le_sum (by simp) _ (List.mem_map_of_mem (f := fun z : RGBA × ℕ × RGBA => z.2.1) hy)).trans hsum
  have hfold : temp.foldl (fun s t => s +₆ t.weight) (lit64 0) =
      ((ho.map (h.insertFixedColors ho)).map (·.2.1)).foldl (fun (s : F) (n : ℕ) => s +₆ lit32 (n : ℚ)) (lit64 0) := by
    rw [htemp, Histogram.tempItems, List.foldl_map, List.foldl_map]
  have hz := nn_zero64 (F := F)
  obtain ⟨s1, s2⟩ := sum_counts (F := F) ((ho.map (h.insertFixedColors ho)).map (·.2.1)) 0 (lit64 0) (by simpa using hz)
    (by rw [Nat.zero_add]; exact hsum)
  rw [← hfold] at s1 s2
  obtain ⟨b, hb1, hb, hbt, hbn⟩ : ∃ b : ℝ, 1 ≤ b ∧ b ≤ 2 ^ 28 ∧ percTop sm = b * 1.01 ∧
      ((((ho.map (h.insertFixedColors ho)).map (·.2.1)).sum : ℕ) : ℝ) ≤ b * 128 := by
    by_cases o : sm
    · refine ⟨2 ^ 21, by norm_num, by norm_num, by unfold percTop; rw [if_pos o], ?_⟩
      have : ColorMap.total (ho.map (h.insertFixedColors ho)) ≤ 2 ^ 28 := by
        unfold ColorMap.total
        rw [((ho.map_perm _).map _).sum_eq]
        exact (h.insertFixed_total ho).trans (hsm o).2.2
      have : ((((ho.map (h.insertFixedColors ho)).map (·.2.1)).sum : ℕ) : ℝ) ≤ 2 ^ 28 := by exact_mod_cast this
      exact this.trans (by norm_num)
    · refine ⟨2 ^ 28, by norm_num, le_rfl, by unfold percTop percMax; rw [if_neg o], ?_⟩
      have : ((((ho.map (h.insertFixedColors ho)).map (·.2.1)).sum : ℕ) : ℝ) ≤ 2 ^ 35 := by exact_mod_cast hsum
      exact this.trans (by norm_num)
  have s1' : NN (b * 256) (temp.foldl (fun s t => s +₆ t.weight) (lit64 0)) := by
    refine s1.mono ?_
    rw [Nat.zero_add]
    linarith
  obtain ⟨w1, w2, w3⟩ := maxWeight_nn hb1 hb s1'
  have hmw : Histogram.maxPerceptualWeight temp = lit32 (1/10) *₃ to32 (temp.foldl (fun s t => s +₆ t.weight) (lit64 0) /₆ lit64 256) := rfl
  rw [← hmw] at w1 w2 w3
  have hheavy : HasCount h → 1 / 3000 ≤ val (Histogram.maxPerceptualWeight temp) := by
    intro hcount
    obtain ⟨y, hy, hpos⟩ := (counted_iff hd ho).2 hcount
    have hy' := (ho.map_perm (h.insertFixedColors ho)).mem_iff.2 hy
    exact w3 (s2 (.inr ⟨y.2.1, List.mem_map_of_mem (f := fun z : RGBA × ℕ × RGBA => z.2.1) hy', hpos⟩))
  have hitem : ∀ t ∈ temp, NN (percTop sm) (Histogram.itemWeight (Histogram.maxPerceptualWeight temp) t) ∧
      r32 F (val (Histogram.itemWeight (Histogram.maxPerceptualWeight temp) t)) = val (Histogram.itemWeight (Histogram.maxPerceptualWeight temp) t) ∧
      (HasCount h → 1 / 3000 ≤ val (Histogram.itemWeight (Histogram.maxPerceptualWeight temp) t)) := by
    intro t ht
    obtain ⟨y, hy, n, -, hn, et⟩ := hmem t ht
    rw [et, hbt]
    obtain ⟨a, b, c⟩ := itemWeight_nn hb1 hb w1 w2 hn y.2.2 t.cluster
    exact ⟨a, b, fun hc => c (hheavy hc)⟩
  have htl : temp.length ≤ 2 ^ 21 := by rw [htemp, Histogram.length_tempItems]; exact hlc
  obtain ⟨t1, t2⟩ := sum_weights (Histogram.itemWeight (Histogram.maxPerceptualWeight temp)) temp 0 (lit64 0) sumOf_zero64
    (by omega) (fun t ht => (hitem t ht).1.mono (percTop_range.2.trans percMax_le))
  rw [← e4] at t1 t2
  refine ⟨⟨ht, ?_, ?_, ?_, rfl, ?_, ?_⟩, ?_, ?_⟩
  · rw [hlen]; exact hlc
  · intro x hx
    rw [e2, (Histogram.placed_perm _ _ _ (Histogram.tempItems_cluster ho _)).mem_iff] at hx
    obtain ⟨t, ht, rfl⟩ := List.mem_map.1 hx
    obtain ⟨a, b, c⟩ := hitem t ht
    refine ⟨fromRgba_unitFin hg _, a, ?_, b, ?_, fun o => ⟨fromRgba_slim hg _, c (hsm o).1, ?_⟩⟩
    rotate_left 2
    · show val (Histogram.itemWeight (Histogram.maxPerceptualWeight temp) t) ≤ 2 * val (Histogram.itemWeight (Histogram.maxPerceptualWeight temp) t)
      have := a.lo; linarith
    · rw [adjMax_zero]; exact a
    · intro o
      obtain ⟨o1, -, o3, -⟩ := hop o
      obtain ⟨y, hy, n, -, -, et⟩ := hmem t ht
      refine ⟨fromRgba_solid ?_, c o1, ?_⟩
      · rw [et]; exact o3 y hy
      · show val (Histogram.itemWeight (Histogram.maxPerceptualWeight temp) t) ≤ 2 * val (Histogram.itemWeight (Histogram.maxPerceptualWeight temp) t)
        have := a.lo; linarith
  · intro c hc
    rw [e5] at hc
    obtain ⟨f, hf, rfl⟩ := List.mem_map.1 hc
    refine ⟨fromRgba_unitFin hg _, fun o => ?_⟩
    have := fromRgba_solid (gamma := gamma) ((hop o).2.2.2 f ((ho.set_perm _).mem_iff.1 ((List.mergeSort_perm _ _).mem_iff.1 hf)))
    refine le_trans ?_ this
    unfold palLo solidLo; norm_num
  · intro o
    have hs : HasCount h ∧ Few op (coloursOf h).card := o.elim (fun o => ⟨(hop o).1, (hop o).2.1.trans (by norm_num), fun o => (hop o).2.1⟩)
      (fun o => ⟨(hsm o).1, (hsm o).2.1, fun o => (hop o).2.1⟩)
    obtain ⟨⟨y, hy, hpos⟩, o2⟩ := hs.imp_left (counted_iff hd ho).2
    refine ⟨?_, ?_⟩
    · intro h0
      rw [h0, List.length_nil] at hlen
      have := List.length_pos_of_mem hy
      omega
    · rw [hlen, colours_card hd]; exact o2
  · intro c hc _
    rw [e5] at hc
    obtain ⟨f, -, rfl⟩ := List.mem_map.1 hc
    exact (fromRgba_slim hg _).thin (fromRgba_unitFin hg _)
  · refine NN.mono t1 ((sumOf_fits (m := 0 + temp.length) (by omega)).trans ?_)
    norm_num
  · intro hcount
    obtain ⟨y, hy, hpos⟩ := (counted_iff hd ho).2 hcount
    have hy' := (ho.map_perm (h.insertFixedColors ho)).mem_iff.2 hy
    have hw := hheavy hcount
    have htm : ({ color := y.2.2, weight := lit32 (y.2.1 : ℚ), cluster := Histogram.clusterIndex y.2.2 } : Histogram.TempHistItem F) ∈ temp := by
      rw [htemp, Histogram.tempItems, List.mem_map]
      exact ⟨y, hy', rfl⟩
    have hn : y.2.1 ≤ 2 ^ 35 :=
      (List.single_le_sum (by simp) _ (List.mem_map_of_mem (f := fun z : RGBA × ℕ × RGBA => z.2.1) hy')).trans hsum
    obtain ⟨-, -, hge⟩ := itemWeight_nn hb1 hb w1 w2 hn y.2.2 (Histogram.clusterIndex y.2.2)
    have := t2 (1 / 3000) (.inr ⟨_, htm, hge hw⟩)
    refine ⟨le_trans ?_ this, ?_⟩
    rotate_left
    · intro x hx
      rw [e2, (Histogram.placed_perm _ _ _ (Histogram.tempItems_cluster ho _)).mem_iff] at hx
      obtain ⟨t, ht, rfl⟩ := List.mem_map.1 hx
      obtain ⟨a, b, c⟩ := hitem t ht
      have hc3 := c hcount
      have hT := t2 _ (.inr ⟨t, ht, le_rfl⟩)
      refine ⟨hc3, ?_, ?_⟩
      · show val (Histogram.itemWeight (Histogram.maxPerceptualWeight temp) t) ≤ 2 * val (Histogram.itemWeight (Histogram.maxPerceptualWeight temp) t)
        have := a.lo; linarith
      · show val (Histogram.itemWeight (Histogram.maxPerceptualWeight temp) t) ≤ _
        generalize Histogram.itemWeight (Histogram.maxPerceptualWeight temp) t = w at a hT hc3
        have hz0 : val (lit64 0 : F) = 0 := le_antisymm hz.hi hz.lo
        have hf : Fits64 (val w + val (lit64 0 : F)) := by
          rw [hz0, add_zero]; exact fits64_nn a.lo (a.hi.trans percTop_range.2) (by unfold percMax; norm_num)
        obtain ⟨-, rw'⟩ := FltRound.add64 _ _ a.fin hz.fin hf
        rw [add64_eq _ _ a.fin hz.fin hf, hz0, add_zero] at rw'
        have g := rounds_ge rw' a.lo
        have := tiny64_le
        have e64 : u64 = 1 / 2 ^ 53 := by unfold u64; norm_num
        rw [e64] at g
        norm_num at g this hc3 ⊢
        linarith
    have hf : Fits64 ((1 / 3000 : ℚ) : ℝ) := fits64_nn (b := 1) (by norm_num) (by norm_num) (by norm_num)
    obtain ⟨-, rl⟩ := FltRound.lit64 (F := F) _ hf
    rw [lit64_eq _ hf] at rl
    push_cast at rl
    have g := rounds_ge rl (by norm_num)
    have := tiny64_le
    have e64 : u64 = 1 / 2 ^ 53 := by unfold u64; norm_num
    rw [e64] at g
    norm_num at g this ⊢
    linarith

end Verif
