import Verif.Lemmas.DebugFinite

/-! The checks of a debug build about numbers pass when arithmetic rounds: median cut. -/

set_option linter.unusedSectionVars false
set_option exponentiation.threshold 1000

namespace Verif
open Flt FltRound FltCorrect
open FltFull (r32_idem r64 r64_mono r64_idem r64_nat lit64_eq add64_eq div64_eq to32_eq pow32_unit)

variable {F : Type} [Flt F] [FltMin F] {op sm : Prop}

/-- a finite number up to `b` in size -/
structure Size (b : ℝ) (x : F) : Prop where
  fin : fin x
  le : |val x| ≤ b

theorem Size.mono {a b : ℝ} {x : F} (h : Size a x) (hab : a ≤ b) : Size b x := ⟨h.fin, h.le.trans hab⟩

theorem NN.size {b : ℝ} {x : F} (h : NN b x) : Size b x := ⟨h.fin, by rw [abs_of_nonneg h.lo]; exact h.hi⟩

theorem Size.max {b : ℝ} {x y : F} (hx : Size b x) (hy : Size b y) : Size b (Flt.fmax x y) := by
  obtain ⟨f, e⟩ := FltRound.max x y hx.fin hy.fin
  refine ⟨f, ?_⟩
  rw [e]
  rcases max_choice (val x) (val y) with h | h <;> rw [h]
  exacts [hx.le, hy.le]

theorem Size.min {b : ℝ} {x y : F} (hx : Size b x) (hy : Size b y) : Size b (Flt.fmin x y) := by
  obtain ⟨f, e⟩ := FltRound.min x y hx.fin hy.fin
  refine ⟨f, ?_⟩
  rw [e]
  rcases min_choice (val x) (val y) with h | h <;> rw [h]
  exacts [hx.le, hy.le]

theorem NN.max {b : ℝ} {x y : F} (hx : NN b x) (hy : NN b y) : NN b (Flt.fmax x y) := by
  obtain ⟨f, e⟩ := FltRound.max x y hx.fin hy.fin
  refine ⟨f, ?_, ?_⟩ <;> rw [e]
  · exact le_max_of_le_left hx.lo
  · exact max_le hx.hi hy.hi

theorem size_of_rounds {r v b c : ℝ} (h : RoundsTo u64 tiny64 r v) (hr : |r| ≤ b) (hc : 2 * b + 1 ≤ c) : |v| ≤ c := by
  have e64 : u64 = 1 / 2 ^ 53 := by unfold u64; norm_num
  have h1 := h.1
  rw [e64] at h1
  have h2 := abs_sub_abs_le_abs_sub v r
  have := tiny64_le
  have h0 := abs_nonneg r
  norm_num at h1 this
  linarith

theorem fits64_size {r b : ℝ} (h : |r| ≤ b) (hb : b ≤ 2 ^ 900) : Fits64 r :=
  h.trans (hb.trans (pow_le_pow_right₀ (by norm_num) (by norm_num)))

theorem Size.mul {a b c : ℝ} {x y : F} (hx : Size a x) (hy : Size b y) (hab : a * b ≤ 2 ^ 900) (hc : 2 * (a * b) + 1 ≤ c) : Size c (x *₆ y) := by
  have h : |val x * val y| ≤ a * b := by
    rw [abs_mul]; exact mul_le_mul hx.le hy.le (abs_nonneg _) ((abs_nonneg _).trans hx.le)
  obtain ⟨f, r⟩ := FltRound.mul64 _ _ hx.fin hy.fin (fits64_size h hab)
  exact ⟨f, size_of_rounds r h hc⟩

/-! ### Boxes -/

/-- a square of a difference times a weight -/
theorem var_term {x y w : F} (hx : NN 1 x) (hy : NN 1 y) (hw : NN termMax w) :
    NN (2 * termMax) ((x -₃ y) *₃ (x -₃ y) *₃ w) := by
  have hT : termMax = 2 ^ 102 := rfl
  have hd : |val x - val y| ≤ 1 := by
    rw [abs_le]; have := hx.lo; have := hx.hi; have := hy.lo; have := hy.hi; constructor <;> linarith
  obtain ⟨f1, r1⟩ := FltRound.sub32 _ _ hx.fin hy.fin (fits32_small (hd.trans (by norm_num)))
  have ht := tiny32_le
  have hd2 : |val (x -₃ y)| ≤ 1.001 := by
    have h1 := r1.1
    rw [u32_val] at h1
    have h2 := abs_sub_abs_le_abs_sub (val (x -₃ y)) (val x - val y)
    norm_num at *
    linarith
  have s0 : 0 ≤ val (x -₃ y) * val (x -₃ y) := mul_self_nonneg _
  have s1 : val (x -₃ y) * val (x -₃ y) ≤ 1.01 := by
    rw [← abs_mul_abs_self]
    have := mul_le_mul hd2 hd2 (abs_nonneg _) (by norm_num)
    norm_num at this ⊢
    linarith
  have sf := fits32_nn s0 s1 (by norm_num)
  obtain ⟨f2, r2⟩ := FltRound.mul32 _ _ f1 f1 sf
  have hs : NN 1.02 ((x -₃ y) *₃ (x -₃ y)) := by
    refine ⟨f2, ?_, (rounds32_le r2 s0 s1).trans (by norm_num)⟩
    rw [mul32_eq _ _ f1 f1 sf]; exact r32_nonneg s0
  have p0 := mul_nonneg hs.lo hw.lo
  have p1 : val ((x -₃ y) *₃ (x -₃ y)) * val w ≤ 1.02 * termMax := mul_le_mul hs.hi hw.hi hw.lo (by norm_num)
  have pf := fits32_nn p0 p1 (by rw [hT]; norm_num)
  obtain ⟨f3, r3⟩ := FltRound.mul32 _ _ hs.fin hw.fin pf
  refine ⟨f3, ?_, (rounds32_le r3 p0 p1).trans (by rw [hT]; norm_num)⟩
  rw [mul32_eq _ _ hs.fin hw.fin pf]; exact r32_nonneg p0

theorem SumOf.add32_twice {m : ℕ} {x y : F} (hx : SumOf m x) (hy : NN (2 * termMax) y) (hm : m ≤ 2 ^ 22) : SumOf (m + 1) (x +₃ y) := by
  have hf := sumOf_fits hm
  have hT : termMax = 2 ^ 102 := rfl
  refine (add32_le hx hy (by rw [hT]; norm_num at hf ⊢; linarith)).mono ?_
  have hm' : (m : ℝ) ≤ 2 ^ 22 := by exact_mod_cast hm
  push_cast
  unfold termMax termStep
  have : (m : ℝ) * 2 ^ 104 / 16777216 ≤ 2 ^ 102 := by
    rw [div_le_iff₀ (by norm_num)]
    calc (m : ℝ) * 2 ^ 104 ≤ 2 ^ 22 * 2 ^ 104 := by gcongr
      _ ≤ _ := by norm_num
  rw [add_div]
  norm_num at this ⊢
  linarith

theorem boxStats_num {l : List (HistItem F)} {avg : FPixel F} (ha : avg.UnitFin) (h : ∀ x ∈ l, ItemFin op sm termMax x) (hl : l.length ≤ 2 ^ 22) :
    let s := MBox.boxStats l avg
    NN (2 ^ 126) s.1.a ∧ NN (2 ^ 126) s.1.r ∧ NN (2 ^ 126) s.1.g ∧ NN (2 ^ 126) s.1.b ∧ NN diffMax s.2 := by
  have key : ∀ (l : List (HistItem F)) (m : ℕ) (v : FPixel F) (e : F), (∀ x ∈ l, ItemFin op sm termMax x) → m + l.length ≤ 2 ^ 22 →
      SumOf m v.a → SumOf m v.r → SumOf m v.g → SumOf m v.b → NN diffMax e →
      let s := l.foldl (fun (v, m) c =>
        let d := FPixel.sub avg c.color
        let w := c.adjustedWeight
        let v : FPixel F := ⟨v.a +₃ d.a *₃ d.a *₃ w, v.r +₃ d.r *₃ d.r *₃ w,
          v.g +₃ d.g *₃ d.g *₃ w, v.b +₃ d.b *₃ d.b *₃ w⟩
        let diff := avg.diff c.color
        (v, if Flt.lt m diff then diff else m)) (v, e)
      SumOf (m + l.length) s.1.a ∧ SumOf (m + l.length) s.1.r ∧ SumOf (m + l.length) s.1.g ∧ SumOf (m + l.length) s.1.b ∧ NN diffMax s.2 := by
    intro l
    induction l with
    | nil => intro m v e _ _ h1 h2 h3 h4 h5; exact ⟨h1, h2, h3, h4, h5⟩
    | cons x l ih =>
      intro m v e hx hm h1 h2 h3 h4 h5
      simp only [List.length_cons] at hm
      have hi := hx x (by simp)
      have hm' : m ≤ 2 ^ 22 := by omega
      have hd := diff_wide_unit ha.wide hi.color
      have := ih (m + 1) ⟨v.a +₃ (FPixel.sub avg x.color).a *₃ (FPixel.sub avg x.color).a *₃ x.adjustedWeight,
          v.r +₃ (FPixel.sub avg x.color).r *₃ (FPixel.sub avg x.color).r *₃ x.adjustedWeight,
          v.g +₃ (FPixel.sub avg x.color).g *₃ (FPixel.sub avg x.color).g *₃ x.adjustedWeight,
          v.b +₃ (FPixel.sub avg x.color).b *₃ (FPixel.sub avg x.color).b *₃ x.adjustedWeight⟩
        (if Flt.lt e (avg.diff x.color) then avg.diff x.color else e) (fun y hy => hx y (by simp [hy])) (by omega)
        (h1.add32_twice (var_term ha.a hi.color.a hi.adj) hm') (h2.add32_twice (var_term ha.r hi.color.r hi.adj) hm')
        (h3.add32_twice (var_term ha.g hi.color.g hi.adj) hm') (h4.add32_twice (var_term ha.b hi.color.b hi.adj) hm')
        (by split; exacts [hd, h5])
      rw [show m + 1 + l.length = m + (x :: l).length by simp only [List.length_cons]; omega] at this
      exact this
  have hz := sumOf_zero (F := F)
  have hd : NN diffMax (lit32 0 : F) := nn_zero.mono (by unfold diffMax; norm_num)
  obtain ⟨h1, h2, h3, h4, h5⟩ := key l 0 FPixel.default (lit32 0) h (by omega) hz hz hz hz hd
  have hf := sumOf_fits (m := 0 + l.length) (by omega)
  exact ⟨NN.mono h1 hf, NN.mono h2 hf, NN.mono h3 hf, NN.mono h4 hf, h5⟩

/-- the box of a cut among `L` boxes, with numbers in range -/
structure BoxNum (op sm : Prop) (L : ℕ) (b : MBox F) : Prop where
  box : BoxFin op sm b
  stats : (b.variance, b.maxError) = MBox.boxStats b.colors b.avgColor
  sum : Size (L * 2 ^ 127) b.adjustedWeightSum

theorem BoxNum.mono {L M : ℕ} {b : MBox F} (h : BoxNum op sm L b) (hLM : L ≤ M) : BoxNum op sm M b :=
  ⟨h.box, h.stats, h.sum.mono (by have : (L : ℝ) ≤ M := by exact_mod_cast hLM
                                  gcongr)⟩

theorem BoxNum.num {L : ℕ} {b : MBox F} (h : BoxNum op sm L b) :
    NN (2 ^ 126) b.variance.a ∧ NN (2 ^ 126) b.variance.r ∧ NN (2 ^ 126) b.variance.g ∧ NN (2 ^ 126) b.variance.b ∧ NN diffMax b.maxError := by
  have := boxStats_num h.box.2.2.1 h.box.2.1 h.box.1
  rw [← h.stats] at this
  exact this

theorem newS_stats (start : ℕ) (l : List (HistItem F)) (w : F) (others : List (MBox F)) :
    ((MBox.newS start l w others).variance, (MBox.newS start l w others).maxError) =
      MBox.boxStats (MBox.newS start l w others).colors (MBox.newS start l w others).avgColor := rfl

theorem sum_adj {l : List (HistItem F)} (h : ∀ x ∈ l, ItemFin op sm termMax x) (hl : l.length ≤ 2 ^ 22) :
    NN (2 ^ 126) (sum64 (l.map (·.adjustedWeight))) := by
  have := sum64_sumOf (l := l.map (·.adjustedWeight)) (by
    intro w hw
    obtain ⟨y, hy, rfl⟩ := List.mem_map.1 hw
    exact (h y hy).adj) (by rwa [List.length_map])
  exact NN.mono this (sumOf_fits (by rwa [List.length_map]))

theorem new_boxNum (start : ℕ) {l : List (HistItem F)} (h : BoxFin op sm (MBox.new start l)) : BoxNum op sm 1 (MBox.new start l) := by
  refine ⟨h, rfl, ?_⟩
  exact (sum_adj h.2.1 h.1).size.mono (by norm_num)

theorem split_boxNum (o : SortOracle F) {b : MBox F} (others : List (MBox F)) {L : ℕ} (hL : L ≤ 256) (h : BoxNum op sm L b) (h1 : 1 < b.colors.length) :
    BoxNum op sm (L + 1) (b.split o others).1 ∧ BoxNum op sm (L + 1) (b.split o others).2 := by
  obtain ⟨s1, s2⟩ := split_boxFin o others h.box h1
  have hsum := sum_adj s1.2.1 s1.1
  have hLr : (L : ℝ) ≤ 256 := by exact_mod_cast hL
  have h0 : (0 : ℝ) ≤ L := by positivity
  refine ⟨⟨s1, newS_stats _ _ _ _, ?_⟩, ⟨s2, newS_stats _ _ _ _, ?_⟩⟩
  · refine Size.mono (b := (L + 1 : ℕ) * 2 ^ 127) (a := 2 ^ 126) hsum.size ?_
    push_cast
    norm_num
    linarith
  · show Size _ (b.adjustedWeightSum -₆ sum64 ((b.split o others).1.colors.map (·.adjustedWeight)))
    generalize sum64 ((b.split o others).1.colors.map (·.adjustedWeight)) = s at hsum
    have hb := h.sum
    have hr : |val b.adjustedWeightSum - val s| ≤ L * 2 ^ 127 + 2 ^ 126 := by
      refine (abs_sub _ _).trans (add_le_add hb.le ?_)
      rw [abs_of_nonneg hsum.lo]; exact hsum.hi
    have hbig : (L : ℝ) * 2 ^ 127 + 2 ^ 126 ≤ 2 ^ 136 := by norm_num; linarith
    obtain ⟨f, r⟩ := FltRound.sub64 _ _ hb.fin hsum.fin (fits64_size (hr.trans hbig) (by norm_num))
    refine ⟨f, ?_⟩
    have e64 : u64 = 1 / 2 ^ 53 := by unfold u64; norm_num
    have h3 := r.1
    rw [e64] at h3
    have h2 := abs_sub_abs_le_abs_sub (val (b.adjustedWeightSum -₆ s)) (val b.adjustedWeightSum - val s)
    have := tiny64_le
    push_cast
    have e : (1:ℝ) / 2 ^ 53 * |val b.adjustedWeightSum - val s| ≤ 1 / 2 ^ 53 * 2 ^ 136 := by gcongr; exact hr.trans hbig
    norm_num at *
    linarith

/-! ### The loop -/

theorem belowTarget_rest (boxes : List (MBox F)) (w t : F) :
    (totalBoxErrorBelowTarget boxes w t).2.map (fun b => { b with totalError := none }) = boxes.map (fun b => { b with totalError := none }) := by
  have key : ∀ (target total : F) (l : List (MBox F)), (errorsFrom target total l).2.map (fun b => { b with totalError := none }) =
      l.map (fun b => { b with totalError := none }) := by
    intro target total l
    induction l generalizing total with
    | nil => rfl
    | cons b bs ih =>
      unfold errorsFrom
      split
      · simp [ih]
      · dsimp only; split <;> simp [ih]
  unfold totalBoxErrorBelowTarget
  dsimp only
  split
  · rfl
  · exact key ..

theorem belowTarget_num {boxes : List (MBox F)} {w t : F} {L : ℕ} (h : ∀ b ∈ boxes, BoxNum op sm L b) :
    ∀ b ∈ (totalBoxErrorBelowTarget boxes w t).2, BoxNum op sm L b := by
  intro b hb
  have : ({ b with totalError := none } : MBox F) ∈ boxes.map (fun b => { b with totalError := none }) := by
    rw [← belowTarget_rest boxes w t]; exact List.mem_map_of_mem (f := fun b : MBox F => { b with totalError := none }) hb
  obtain ⟨y, hy, he⟩ := List.mem_map.1 this
  have g := h y hy
  cases b; cases y
  simp only [MBox.mk.injEq] at he
  obtain ⟨rfl, rfl, rfl, rfl, rfl, -, rfl⟩ := he
  exact ⟨g.box, g.stats, g.sum⟩

/-- the quality that limits how fine colours are told apart -/
theorem mse20 : fin (qualityToMse 20 : F) ∧ 1 / 1000000 ≤ val (qualityToMse 20 : F) ∧ val (qualityToMse 20 : F) ≤ 101 := by
  have h := qualityToMse_near (F := F) (q := 20) (by norm_num) (by norm_num)
  have h1 := qualityLimit_le (q := 20) (by norm_num)
  have h2 := qualityLimit_lt (p := 20) (q := 100) (by norm_num) le_rfl
  have h3 := qualityLimit_nonneg 100
  have h4 := abs_le.1 h.near
  norm_num at *
  refine ⟨h.fin, by linarith, by linarith⟩

theorem lit64_nat {n : ℕ} (hn : n ≤ 2 ^ 53) : fin (lit64 (n : ℚ) : F) ∧ val (lit64 (n : ℚ) : F) = n := by
  have hn' : (n : ℝ) ≤ 2 ^ 53 := by exact_mod_cast hn
  have hf : Fits64 ((n : ℚ) : ℝ) := by
    rw [Rat.cast_natCast]; exact fits64_nn (by positivity) hn' (by norm_num)
  refine ⟨(FltRound.lit64 _ hf).1, ?_⟩
  rw [lit64_eq _ hf, Rat.cast_natCast]; exact r64_nat n hn

/-- the limit grows with the number of boxes -/
theorem currentMax_num {n target : ℕ} (h : n < target) (ht : target ≤ 256) {mm : F} (hm : fin mm) (h0 : 1 / 1000000 ≤ val mm) (h1 : val mm ≤ 2 ^ 100) :
    fin (fma64 (lit64 n /₆ lit64 target *₆ lit64 16) mm mm) ∧ 1 / 2000000 ≤ val (fma64 (lit64 n /₆ lit64 target *₆ lit64 16) mm mm) := by
  obtain ⟨fn, en⟩ := lit64_nat (F := F) (n := n) (by norm_num; omega)
  obtain ⟨ft, et⟩ := lit64_nat (F := F) (n := target) (by norm_num; omega)
  obtain ⟨f16, e16⟩ := lit64_nat (F := F) (n := 16) (by norm_num)
  rw [Nat.cast_ofNat] at f16 e16
  have hpos : (0:ℝ) < target := by have : 0 < target := by omega
                                   exact_mod_cast this
  have hlt : (n:ℝ) ≤ target := by exact_mod_cast h.le
  have q0 : 0 ≤ val (lit64 n : F) / val (lit64 target : F) := by rw [en, et]; positivity
  have q1 : val (lit64 n : F) / val (lit64 target : F) ≤ 1 := by rw [en, et]; exact div_le_one_of_le₀ hlt hpos.le
  have qf := fits64_nn q0 q1 (by norm_num)
  have fq := (FltRound.div64 _ _ fn ft (by rw [et]; exact hpos.ne') qf).1
  have eq := div64_eq _ _ fn ft (by rw [et]; exact hpos.ne') qf
  have hq : NN 1 (lit64 n /₆ lit64 target : F) := by
    refine ⟨fq, ?_, ?_⟩ <;> rw [eq]
    · exact r64_nonneg q0
    · have := r64_le (F := F) (n := 1) (by norm_num) (by simpa using q1)
      simpa using this
  have p0 : 0 ≤ val (lit64 n /₆ lit64 target : F) * val (lit64 16 : F) := by rw [e16]; have := hq.lo; positivity
  have p1 : val (lit64 n /₆ lit64 target : F) * val (lit64 16 : F) ≤ 16 := by rw [e16]; have := hq.hi; norm_num; linarith
  obtain ⟨fp, rp⟩ := FltRound.mul64 _ _ hq.fin f16 (fits64_nn p0 p1 (by norm_num))
  have t := tiny64_le
  have e64 : u64 = 1 / 2 ^ 53 := by unfold u64; norm_num
  have lo := rounds_ge rp p0
  have hi := rounds64_le rp p0 p1
  rw [e64] at lo
  generalize (Flt.lit64 (n : ℚ) : F) /₆ Flt.lit64 (target : ℚ) *₆ Flt.lit64 16 = x at fp lo hi ⊢
  have lo' : -(1 / 100) ≤ val x := by norm_num at *; linarith
  have hi' : val x ≤ 17 := by norm_num at *; linarith
  have m0 : (0:ℝ) ≤ val mm := by linarith
  have s0 : 99 / 100 * val mm ≤ val x * val mm + val mm := by
    have := mul_le_mul_of_nonneg_right lo' m0
    linarith
  have s1 : val x * val mm + val mm ≤ 2 ^ 110 := by
    have := mul_le_mul_of_nonneg_right hi' m0
    norm_num at *
    linarith
  have s2 : 0 ≤ val x * val mm + val mm := by linarith
  obtain ⟨fc, rc⟩ := FltRound.fma64 _ _ _ fp hm hm (fits64_nn s2 s1 (by norm_num))
  refine ⟨fc, ?_⟩
  have g := rounds_ge rc s2
  rw [e64] at g
  norm_num at *
  linarith

theorem splitPriority_fin {L : ℕ} (hL : L ≤ 256) {b : MBox F} (h : BoxNum op sm L b) {cm : F} (hc : fin cm) (h0 : 1 / 2000000 ≤ val cm) :
    fin (splitPriority cm b) := by
  obtain ⟨ha, hr, hg, hb, he⟩ := h.num
  have hLr : (L : ℝ) ≤ 256 := by exact_mod_cast hL
  have hv := (((hr.max hg).max hb).max ha).size
  have hs := (h.sum.mono (b := 2 ^ 135) (by norm_num; linarith)).mul hv (c := 2 ^ 263) (by norm_num) (by norm_num)
  unfold splitPriority
  dsimp only
  split
  · have hd : diffMax ≤ 2 ^ 6 := by unfold diffMax; norm_num
    have hse := hs.mul (he.mono hd).size (c := 2 ^ 271) (by norm_num) (by norm_num)
    have hpos : 0 < val cm := by linarith
    refine (FltRound.div64 _ _ hse.fin hc hpos.ne' (fits64_size (b := 2 ^ 300) ?_ (by norm_num))).1
    rw [abs_div, abs_of_pos hpos, div_le_iff₀ hpos]
    refine hse.le.trans ?_
    calc (2:ℝ) ^ 271 ≤ 2 ^ 300 * (1 / 2000000) := by norm_num
      _ ≤ 2 ^ 300 * val cm := by gcongr
  · exact hs.fin

theorem splitOK_fin (o : SortOracle F) {L : ℕ} {b : MBox F} (others : List (MBox F)) (h : BoxNum op sm L b) (h1 : 1 < b.colors.length) :
    SplitOK true o b others := by
  obtain ⟨ha, hr, hg, hb, he⟩ := h.num
  obtain ⟨s1, s2⟩ := split_boxFin o others h.box h1
  have hitem : ∀ x ∈ b.colors, x.color.UnitFin ∧ NN termMax x.adjustedWeight := fun x hx => ⟨(h.box.2.1 x hx).color, (h.box.2.1 x hx).adj⟩
  refine ⟨fun _ i => ?_, fun _ x hx => ?_, fun _ => split_right_fin o b others h1 h.box.1 hitem, fun _ c hc => ?_, fun _ c hc => ?_⟩
  · unfold MBox.chan
    split
    exacts [isFinite_of ha.fin, isFinite_of hr.fin, isFinite_of hg.fin, isFinite_of hb.fin]
  · refine isFinite_of (colorWeights_term o ?_ x hx).nn.fin
    intro y hy
    obtain ⟨z, hz, rfl⟩ := List.mem_map.1 hy
    exact hitem z hz
  · exact isFinite_of (diff_wide_unit (weighedAverage_unit s1.2.1 s1.1).wide (s1.2.1 c hc).color).fin
  · exact isFinite_of (diff_wide_unit (weighedAverage_unit s2.2.1 s2.1).wide (s2.2.1 c hc).color).fin

theorem cutOK_fin (o : SortOracle F) {target : ℕ} (ht : target ≤ 256) (hw tm : F) {mm : F} (hm : fin mm) (h0 : 1 / 1000000 ≤ val mm)
    (h1 : val mm ≤ 2 ^ 100) : CutOK true o target hw tm mm fun boxes => ∀ b ∈ boxes, BoxNum op sm boxes.length b where
  priority := by
    intro _ boxes hI hlt b hb
    obtain ⟨f, g⟩ := currentMax_num hlt ht hm h0 h1
    exact isFinite_of (splitPriority_fin (by omega) (hI b hb) f g)
  split := fun boxes hI _ b i hb h1 => splitOK_fin o _ (hI b (List.mem_of_getElem? hb)) h1
  step := by
    intro boxes hI hlt b i hb h1
    have hlen : (swapRemove boxes i ++ [(b.split o (swapRemove boxes i)).1, (b.split o (swapRemove boxes i)).2]).length = boxes.length + 1 := by
      have := length_swapRemove (List.getElem?_eq_some_iff.1 hb).1
      simp only [List.length_append, List.length_cons, List.length_nil]; omega
    rw [totalBoxErrorBelowTarget_length, hlen]
    apply belowTarget_num
    obtain ⟨s1, s2⟩ := split_boxNum o (swapRemove boxes i) (by omega) (hI b (List.mem_of_getElem? hb)) h1
    intro x hx
    simp only [List.mem_append, List.mem_cons, List.not_mem_nil, or_false] at hx
    rcases hx with hx | rfl | rfl
    · exact (hI x ((swapRemove_perm hb).mem_iff.1 (by simp [hx]))).mono (by omega)
    · exact s1
    · exact s2

theorem clusterBoxes_new (start : ℕ) (items : List (HistItem F)) (cs : List (ℕ × ℕ)) {boxes : List (MBox F)}
    (e : clusterBoxes start items cs = .ok boxes) : ∀ b ∈ boxes, ∃ s l, b = MBox.new s l := by
  induction cs generalizing start items boxes with
  | nil => cases e; simp
  | cons c cs ih =>
    obtain ⟨b, t⟩ := c
    unfold clusterBoxes at e
    split at e
    · cases hr : clusterBoxes (start + (t - b)) (items.drop (t - b)) cs with
      | error f => rw [hr] at e; cases e
      | ok rest =>
        rw [hr] at e
        cases e
        intro x hx
        rcases List.mem_cons.1 hx with rfl | hx
        · exact ⟨_, _, rfl⟩
        · exact ih _ _ hr x hx
    · cases e

theorem Loaded.cutD {T : F} {k : ℕ} (hk : k ≤ maxRounds sm) {h : HistogramInternal F} (l : Loaded T h) (w : WorkFin op sm T k h) (o : SortOracle F) {n : ℕ}
    (h1 : 1 ≤ n) (hn : n ≤ 256) (tm : F) {mm : F} (hm : Size (2 ^ 100) mm) : mediancutD true o h n tm mm = mediancut o h n tm mm := by
  obtain ⟨q1, q2, q3⟩ := mse20 (F := F)
  obtain ⟨fm, em⟩ := FltRound.max mm (qualityToMse 20) hm.fin q1
  have hi : ∀ x ∈ h.items, ItemFin op sm termMax x := fun x hx => (w.items x hx).mono (adjMax_le hk)
  have hpos : ∀ x ∈ h.items, 1 / 6000 ≤ val x.adjustedWeight := by
    intro x hx
    obtain ⟨a, b, -⟩ := l.items x hx
    linarith
  have hz := nn_zero (F := F)
  refine mediancutD_cut (I := fun boxes => ∀ b ∈ boxes, BoxNum op sm boxes.length b) o h n tm mm
    (cutOK_fin o hn _ tm fm (by rw [em]; exact le_max_of_le_right q2) ?_) ?_ w.tiled l.ne h1
    (fun _ c hc => isFinite_of (hi c hc).adj.fin) (fun _ c hc => ?_) ?_
  · rw [em]
    exact max_le ((le_abs_self _).trans hm.le) (q3.trans (by norm_num))
  · intro b0 e0
    obtain ⟨b0', e0', -, -, hn0, hp0⟩ := initialBoxes_spec h n w.tiled
    rw [e0] at e0'; cases e0'
    have hlen : 1 ≤ b0.length := List.length_pos_iff.2 (hp0 l.ne)
    have hf : ∀ b ∈ b0, BoxFin op sm b := by
      have e0' := e0
      unfold initialBoxes at e0'
      dsimp only at e0'
      split at e0'
      · exact clusterBoxes_boxFin _ _ _ hi (w.len.trans (by norm_num)) (fun ho => (w.size ho).2) e0' (fun _ => hn0 l.ne)
      · cases e0'
        intro b hb
        rw [List.mem_singleton.1 hb]
        exact new_boxFin _ hi (w.len.trans (by norm_num)) w.size
    have hnew : ∀ b ∈ b0, ∃ s l, b = MBox.new s l := by
      unfold initialBoxes at e0
      dsimp only at e0
      split at e0
      · exact clusterBoxes_new _ _ _ e0
      · cases e0
        intro b hb
        rw [List.mem_singleton.1 hb]
        exact ⟨_, _, rfl⟩
    intro b hb
    obtain ⟨s, l', rfl⟩ := hnew b hb
    exact (new_boxNum s (hf _ hb)).mono hlen
  · rw [FltRound.lt _ _ hz.fin (hi c hc).adj.fin, le_antisymm hz.hi hz.lo]
    exact lt_of_lt_of_le (by norm_num) (hpos c hc)
  · intro _ l' hl hc
    refine NN.ge_zero (b := 2 ^ 127) ?_
    have := sum64_sumOf (l := l'.map (·.perceptualWeight)) (by
      intro w' hw'
      obtain ⟨y, hy, rfl⟩ := List.mem_map.1 hw'
      obtain ⟨z, hz, he⟩ := hc y hy
      simp only [HistItem.core, Prod.mk.injEq] at he
      rw [← he.2.2]
      exact (hi z hz).perc.mono (by unfold percMax termMax; norm_num)) (by rw [List.length_map]; exact hl.trans (w.len.trans (by norm_num)))
    rw [List.length_map] at this
    exact (nn_to32 (NN.mono this (sumOf_fits (hl.trans (w.len.trans (by norm_num))))) (by norm_num)).mono (by norm_num)

end Verif
