import Verif.Model.CorrectRound
import Verif.Props.Quantize
import Verif.Props.Progress
import Verif.Props.Remap
import Verif.Props.RoundedFloyd
import Verif.Lemmas.Machine

/-! # Property C15 with correctly rounded arithmetic -/

set_option linter.unusedSectionVars false

namespace Verif
open Flt Spec FltRound FltCorrect

variable {F : Type} [Flt F] [FltCorrect F]

/-- a finite number in a range -/
structure InR (x : F) (a b : ℝ) : Prop where
  fin : FltRound.fin x
  lo : a ≤ val x
  hi : val x ≤ b

theorem fits32_le {e : ℝ} (h : |e| ≤ 2 ^ 24) : Fits32 e := by
  unfold Fits32; exact h.trans (by norm_num)

theorem lit32_nat {n : ℕ} (hn : n ≤ 2 ^ 24) : fin (lit32 (n : ℚ) : F) ∧ val (lit32 (n : ℚ) : F) = n := by
  have hf : Fits32 ((n : ℚ) : ℝ) := by
    apply fits32_le
    rw [Rat.cast_natCast, abs_of_nonneg (by positivity)]
    exact_mod_cast hn
  refine ⟨(FltRound.lit32 _ hf).1, ?_⟩
  rw [lit32_eq _ hf, Rat.cast_natCast, r32_nat _ hn]

/-- reports so far are non-decreasing percentages up to `b` -/
structure RisingR (l : List F) (b : ℝ) : Prop where
  sorted : l.Pairwise (fun x y => val x ≤ val y)
  range : ∀ v ∈ l, InR v 0 b

theorem RisingR.mono {l : List F} {b c : ℝ} (h : RisingR l b) (hbc : b ≤ c) : RisingR l c :=
  ⟨h.sorted, fun v hv => ⟨(h.range v hv).fin, (h.range v hv).lo, (h.range v hv).hi.trans hbc⟩⟩

theorem RisingR.push {l : List F} {b : ℝ} {v : F} (h : RisingR l b) (hbv : b ≤ val v) (hf : FltRound.fin v) (hv : 0 ≤ val v)
    (cb : Option (List F → Bool)) : RisingR (reported cb l v) (val v) := by
  unfold reported
  split
  · exact h.mono hbv
  · refine ⟨?_, ?_⟩
    · rw [List.pairwise_append]
      refine ⟨h.sorted, List.pairwise_singleton _ _, ?_⟩
      intro x hx y hy
      simp only [List.mem_singleton] at hy
      subst hy
      exact (h.range x hx).hi.trans hbv
    · intro x hx
      simp only [List.mem_append, List.mem_singleton] at hx
      rcases hx with hx | rfl
      · exact ⟨(h.range x hx).fin, (h.range x hx).lo, (h.range x hx).hi.trans hbv⟩
      · exact ⟨hf, hv, le_rfl⟩

/-- the number reported for a trial, in terms of the rounding function -/
theorem overallDone_rounded (attr : Attr F) {s1 s2 : ℕ} (h1 : attr.progressStage1 = s1) (h2 : attr.progressStage2 = s2)
    (hs : s1 + s2 ≤ 100) {total : ℕ} (ht : total < 2 ^ 24) {t : ℤ} (h : t ≤ total) :
    InR (overallDone attr total t) s1 (s1 + s2 : ℕ) ∧
      val (overallDone attr total t) = r32 F (r32 F (r32 F ((max t 0).toNat / (total + 1 : ℕ)) * -r32 F ((max t 0).toNat / (total + 1 : ℕ)) + 1) * s2 + s1) ∧
      0 ≤ r32 F (((max t 0).toNat : ℝ) / (total + 1 : ℕ)) ∧ r32 F (((max t 0).toNat : ℝ) / (total + 1 : ℕ)) ≤ 1 := by
  set k := (max t 0).toNat with hk
  have hk' : k ≤ total + 1 := by omega
  obtain ⟨f1, v1⟩ := lit32_nat (F := F) (n := k) (by omega)
  obtain ⟨f2, v2⟩ := lit32_nat (F := F) (n := total + 1) (by omega)
  obtain ⟨f3, v3⟩ := lit32_nat (F := F) (n := 1) (by norm_num)
  obtain ⟨f4, v4⟩ := lit32_nat (F := F) (n := s1) (by omega)
  obtain ⟨f5, v5⟩ := lit32_nat (F := F) (n := s2) (by omega)
  have hT : (0:ℝ) < (total + 1 : ℕ) := by positivity
  have q0 : 0 ≤ (k : ℝ) / (total + 1 : ℕ) := by positivity
  have q1 : (k : ℝ) / (total + 1 : ℕ) ≤ 1 := by rw [div_le_one hT]; exact_mod_cast hk'
  set X := r32 F ((k : ℝ) / (total + 1 : ℕ)) with hX
  have x0 : 0 ≤ X := by exact r32_nonneg q0
  have x1 : X ≤ 1 := by exact r32_le_one q1
  have fd : Fits32 (val (lit32 (k : ℚ) : F) / val (lit32 ((total + 1 : ℕ) : ℚ) : F)) := by
    rw [v1, v2]; apply fits32_le; rw [abs_of_nonneg q0]; linarith [q1, (by norm_num : (1:ℝ) ≤ 2 ^ 24)]
  have nz : val (lit32 ((total + 1 : ℕ) : ℚ) : F) ≠ 0 := by rw [v2]; positivity
  have fx := (FltRound.div32 _ _ f1 f2 nz fd).1
  have vx := div32_eq _ _ f1 f2 nz fd
  rw [v1, v2, ← hX] at vx
  obtain ⟨fn, vn⟩ := FltRound.neg _ fx
  rw [vx] at vn
  have hxx : 0 ≤ X * X ∧ X * X ≤ 1 := ⟨by positivity, by nlinarith⟩
  have fy' : Fits32 (val (lit32 (k : ℚ) /₃ lit32 ((total + 1 : ℕ) : ℚ) : F) * val (fneg (lit32 (k : ℚ) /₃ lit32 ((total + 1 : ℕ) : ℚ)) : F) + val (lit32 ((1 : ℕ) : ℚ) : F)) := by
    rw [vx, vn, v3]; apply fits32_le; rw [abs_le]; norm_num; constructor <;> nlinarith
  have fy := (FltRound.fma32 _ _ _ fx fn f3 fy').1
  have vy := fma32_eq _ _ _ fx fn f3 fy'
  rw [vx, vn, v3] at vy
  set Y := r32 F (X * -X + (1 : ℕ)) with hY
  have y0 : 0 ≤ Y := by exact r32_nonneg (by push_cast; linarith)
  have y1 : Y ≤ 1 := by exact r32_le_one (by push_cast; linarith)
  have hs1 : (0 : ℝ) ≤ s1 := by positivity
  have hs2 : (0 : ℝ) ≤ s2 := by positivity
  have hsum : (s1 : ℝ) + s2 ≤ 100 := by exact_mod_cast hs
  have hz : 0 ≤ Y * s2 ∧ Y * s2 ≤ s2 := ⟨by positivity, by nlinarith⟩
  have fz' : Fits32 (val (Flt.fma32 (lit32 (k : ℚ) /₃ lit32 ((total + 1 : ℕ) : ℚ)) (fneg (lit32 (k : ℚ) /₃ lit32 ((total + 1 : ℕ) : ℚ))) (lit32 ((1 : ℕ) : ℚ)) : F) *
      val (lit32 (s2 : ℚ) : F) + val (lit32 (s1 : ℚ) : F)) := by
    rw [vy, v4, v5]; apply fits32_le; rw [abs_le]; norm_num; constructor <;> linarith
  have fz := (FltRound.fma32 _ _ _ fy f5 f4 fz').1
  have vz := fma32_eq _ _ _ fy f5 f4 fz'
  rw [vy, v4, v5] at vz
  have e : overallDone attr total t = (Flt.fma32 (Flt.fma32 (lit32 (k : ℚ) /₃ lit32 ((total + 1 : ℕ) : ℚ))
      (fneg (lit32 (k : ℚ) /₃ lit32 ((total + 1 : ℕ) : ℚ))) (lit32 ((1 : ℕ) : ℚ))) (lit32 (s2 : ℚ)) (lit32 (s1 : ℚ)) : F) := by
    unfold overallDone
    rw [h1, h2]
    push_cast
    rfl
  rw [e]
  refine ⟨⟨fz, ?_, ?_⟩, ?_, x0, x1⟩
  · rw [vz]; exact le_r32 (by omega) (by linarith)
  · rw [vz]; exact r32_le (by omega) (by push_cast; linarith)
  · rw [vz, hY]; push_cast; rfl

theorem overallDone_rounded_mono (attr : Attr F) {s1 s2 : ℕ} (h1 : attr.progressStage1 = s1) (h2 : attr.progressStage2 = s2)
    (hs : s1 + s2 ≤ 100) {total : ℕ} (ht : total < 2 ^ 24) {s t : ℤ} (hst : s ≤ t) (h : t ≤ total) :
    val (overallDone attr total t) ≤ val (overallDone attr total s) := by
  obtain ⟨-, e1, a1, -⟩ := overallDone_rounded attr h1 h2 hs ht h
  obtain ⟨-, e2, a2, -⟩ := overallDone_rounded attr h1 h2 hs ht (hst.trans h)
  rw [e1, e2]
  have hX : r32 F (((max s 0).toNat : ℝ) / (total + 1 : ℕ)) ≤ r32 F (((max t 0).toNat : ℝ) / (total + 1 : ℕ)) := by
    apply r32_mono
    apply div_le_div_of_nonneg_right _ (by positivity)
    have : (max s 0).toNat ≤ (max t 0).toNat := by omega
    exact_mod_cast this
  have hs2 : (0 : ℝ) ≤ s2 := by positivity
  apply r32_mono
  have : r32 F (r32 F (((max t 0).toNat : ℝ) / (total + 1 : ℕ)) * -r32 F (((max t 0).toNat : ℝ) / (total + 1 : ℕ)) + 1) ≤
      r32 F (r32 F (((max s 0).toNat : ℝ) / (total + 1 : ℕ)) * -r32 F (((max s 0).toNat : ℝ) / (total + 1 : ℕ)) + 1) := by
    apply r32_mono
    nlinarith
  nlinarith

/-- stage 3, of which a part is done -/
theorem stage3_rounded {s1 s2 s3 : ℕ} (hs : s1 + s2 + s3 ≤ 100) {q : ℚ} (q0 : 0 ≤ q) (q1 : q ≤ 1) {x : F} (hx : InR x 0 s3) :
    InR (Flt.fma32 x (lit32 q) (lit32 (s1 : ℚ) +₃ lit32 (s2 : ℚ)) : F) (s1 + s2 : ℕ) (s1 + s2 + s3 : ℕ) ∧
      val (Flt.fma32 x (lit32 q) (lit32 (s1 : ℚ) +₃ lit32 (s2 : ℚ)) : F) = r32 F (val x * r32 F q + (s1 + s2 : ℕ)) ∧
      0 ≤ r32 F (q : ℝ) ∧ r32 F (q : ℝ) ≤ 1 := by
  obtain ⟨f4, v4⟩ := lit32_nat (F := F) (n := s1) (by omega)
  obtain ⟨f5, v5⟩ := lit32_nat (F := F) (n := s2) (by omega)
  have hs1 : (0 : ℝ) ≤ s1 := by positivity
  have hs2 : (0 : ℝ) ≤ s2 := by positivity
  have hs3 : (0 : ℝ) ≤ s3 := by positivity
  have hsum : (s1 : ℝ) + s2 + s3 ≤ 100 := by exact_mod_cast hs
  have q0' : (0 : ℝ) ≤ (q : ℝ) := by exact_mod_cast q0
  have q1' : (q : ℝ) ≤ 1 := by exact_mod_cast q1
  have fq' : Fits32 (q : ℝ) := by apply fits32_le; rw [abs_of_nonneg q0']; linarith [(by norm_num : (1:ℝ) ≤ 2 ^ 24)]
  have fq := (FltRound.lit32 (F := F) q fq').1
  have vq := lit32_eq (F := F) q fq'
  have r0 : 0 ≤ r32 F (q : ℝ) := by exact r32_nonneg q0'
  have r1 : r32 F (q : ℝ) ≤ 1 := by exact r32_le_one q1'
  have fs' : Fits32 (val (lit32 (s1 : ℚ) : F) + val (lit32 (s2 : ℚ) : F)) := by
    rw [v4, v5]; apply fits32_le; rw [abs_of_nonneg (by linarith)]; linarith [(by norm_num : (100:ℝ) ≤ 2 ^ 24)]
  have fs := (FltRound.add32 _ _ f4 f5 fs').1
  have vs := add32_eq _ _ f4 f5 fs'
  rw [v4, v5, ← Nat.cast_add, r32_nat _ (by omega)] at vs
  have hx0 := hx.lo
  have hx1 := hx.hi
  have hp : 0 ≤ val x * r32 F (q : ℝ) ∧ val x * r32 F (q : ℝ) ≤ s3 := ⟨by positivity, by nlinarith⟩
  have fz' : Fits32 (val x * val (lit32 q : F) + val (lit32 (s1 : ℚ) +₃ lit32 (s2 : ℚ) : F)) := by
    rw [vq, vs]; apply fits32_le; push_cast; rw [abs_of_nonneg (by linarith)]; linarith [(by norm_num : (100:ℝ) ≤ 2 ^ 24)]
  have fz := (FltRound.fma32 _ _ _ hx.fin fq fs fz').1
  have vz := fma32_eq _ _ _ hx.fin fq fs fz'
  rw [vq, vs] at vz
  refine ⟨⟨fz, ?_, ?_⟩, vz, r0, r1⟩
  · rw [vz]; exact le_r32 (by omega) (by linarith)
  · rw [vz]; exact r32_le (by omega) (by push_cast; linarith)

/-- share of stage 3 that is done before pass `i` of `n` -/
theorem share_rounded {s3 : ℕ} (hs : s3 ≤ 100) {n i : ℕ} (hn : n ≤ 2 ^ 24) (hi : i < n) :
    InR (lit32 (i : ℚ) /₃ lit32 (n : ℚ) *₃ lit32 (s3 : ℚ) : F) 0 s3 ∧
      val (lit32 (i : ℚ) /₃ lit32 (n : ℚ) *₃ lit32 (s3 : ℚ) : F) = r32 F (r32 F (i / n) * s3) := by
  obtain ⟨f1, v1⟩ := lit32_nat (F := F) (n := i) (by omega)
  obtain ⟨f2, v2⟩ := lit32_nat (F := F) hn
  obtain ⟨f3, v3⟩ := lit32_nat (F := F) (n := s3) (by omega)
  have hn0 : (0 : ℝ) < n := by exact_mod_cast (by omega : 0 < n)
  have hs3 : (0 : ℝ) ≤ s3 := by positivity
  have hs' : (s3 : ℝ) ≤ 100 := by exact_mod_cast hs
  have q0 : (0 : ℝ) ≤ i / n := by positivity
  have q1 : (i : ℝ) / n ≤ 1 := by rw [div_le_one hn0]; exact_mod_cast hi.le
  have fd' : Fits32 (val (lit32 (i : ℚ) : F) / val (lit32 (n : ℚ) : F)) := by
    rw [v1, v2]; apply fits32_le; rw [abs_of_nonneg q0]; linarith [(by norm_num : (1:ℝ) ≤ 2 ^ 24)]
  have nz : val (lit32 (n : ℚ) : F) ≠ 0 := by rw [v2]; positivity
  have fd := (FltRound.div32 _ _ f1 f2 nz fd').1
  have vd := div32_eq _ _ f1 f2 nz fd'
  rw [v1, v2] at vd
  set X := r32 F ((i : ℝ) / n)
  have x0 : 0 ≤ X := by exact r32_nonneg q0
  have x1 : X ≤ 1 := by exact r32_le_one q1
  have hp : 0 ≤ X * s3 ∧ X * s3 ≤ s3 := ⟨by positivity, by nlinarith⟩
  have fm' : Fits32 (val (lit32 (i : ℚ) /₃ lit32 (n : ℚ) : F) * val (lit32 (s3 : ℚ) : F)) := by
    rw [vd, v3]; apply fits32_le; rw [abs_of_nonneg hp.1]; linarith [(by norm_num : (100:ℝ) ≤ 2 ^ 24)]
  have fm := (FltRound.mul32 _ _ fd f3 fm').1
  have vm := mul32_eq _ _ fd f3 fm'
  rw [vd, v3] at vm
  refine ⟨⟨fm, ?_, ?_⟩, vm⟩
  · rw [vm]; exact r32_nonneg hp.1
  · rw [vm]; exact r32_le (by omega) hp.2

/-- what a user's settings say about progress -/
structure StagesOK (attr : Attr F) : Prop where
  sum : attr.progressStage1 + attr.progressStage2 + attr.progressStage3 = 100
  trials : ∀ n, attr.feedbackTrials n < 2 ^ 24
  passes : ∀ n b, (attr.kmeansIterationsFor n b).1 ≤ 2 ^ 24

theorem refineDone_rounded {attr : Attr F} (hs : StagesOK attr) {n i : ℕ} (hn : n ≤ 2 ^ 24) (hi : i < n) :
    InR (refineDone attr n i) (attr.progressStage1 + attr.progressStage2 : ℕ) 100 ∧
      val (refineDone attr n i) = r32 F (r32 F (r32 F (i / n) * attr.progressStage3) * r32 F ((89 / 100 : ℚ) : ℝ) +
        (attr.progressStage1 + attr.progressStage2 : ℕ)) ∧
      val (refineDone attr n i) ≤ r32 F (attr.progressStage3 * r32 F ((95 / 100 : ℚ) : ℝ) + (attr.progressStage1 + attr.progressStage2 : ℕ)) := by
  have hsum := hs.sum
  obtain ⟨a1, a2⟩ := share_rounded (F := F) (s3 := attr.progressStage3) (by omega) hn hi
  obtain ⟨b1, b2, b3, b4⟩ := stage3_rounded (F := F) (s1 := attr.progressStage1) (s2 := attr.progressStage2)
    (s3 := attr.progressStage3) (by omega) (q := 89 / 100) (by norm_num) (by norm_num) a1
  rw [a2] at b2
  refine ⟨⟨b1.fin, b1.lo, b1.hi.trans (by rw [hsum]; norm_num)⟩, b2, ?_⟩
  refine b2.le.trans (r32_mono ?_)
  have h1 := a1.hi
  have h0 := a1.lo
  rw [a2] at h1 h0
  have : r32 F ((89 / 100 : ℚ) : ℝ) ≤ r32 F ((95 / 100 : ℚ) : ℝ) := r32_mono (by norm_num)
  have := mul_le_mul h1 this b3 (by positivity)
  linarith

theorem refineDone_rounded_mono {attr : Attr F} (hs : StagesOK attr) {n i j : ℕ} (hn : n ≤ 2 ^ 24) (hij : i ≤ j) (hj : j < n) :
    val (refineDone attr n i) ≤ val (refineDone attr n j) := by
  obtain ⟨-, e1, -⟩ := refineDone_rounded hs hn (lt_of_le_of_lt hij hj)
  obtain ⟨-, e2, -⟩ := refineDone_rounded hs hn hj
  rw [e1, e2]
  have hq : 0 ≤ r32 F ((89 / 100 : ℚ) : ℝ) := r32_nonneg (by norm_num)
  have h1 : r32 F ((i : ℝ) / n) ≤ r32 F ((j : ℝ) / n) := by
    apply r32_mono
    apply div_le_div_of_nonneg_right _ (by positivity)
    exact_mod_cast hij
  have h2 : r32 F (r32 F ((i : ℝ) / n) * attr.progressStage3) ≤ r32 F (r32 F ((j : ℝ) / n) * attr.progressStage3) :=
    r32_mono (mul_le_mul_of_nonneg_right h1 (by positivity))
  have h3 := mul_le_mul_of_nonneg_right h2 hq
  exact r32_mono (by linarith)

/-- the value reported after the search -/
noncomputable def searchedAt (attr : Attr F) : ℝ :=
  r32 F (attr.progressStage3 * r32 F ((95 / 100 : ℚ) : ℝ) + (attr.progressStage1 + attr.progressStage2 : ℕ))

variable [FltSign F]

theorem findBestPalette_rising_rounded (env : Env F) (attr : Attr F) (hs : StagesOK attr) (hm1 : 1 ≤ attr.maxColors) (hm : attr.maxColors ≤ 256)
    (targetMse : F) (z : Bool) (maxMse : Option F) (h0 : HistogramInternal F) (ht : h0.Tiled) (hpos : h0.items ≠ [])
    (log : List F) (hr : RisingR log attr.progressStage1) :
    RisingR (findBestPalette env attr targetMse z maxMse h0 log).2 (searchedAt attr) := by
  have hsum := hs.sum
  have hq : 0 ≤ r32 F ((95 / 100 : ℚ) : ℝ) := r32_nonneg (by norm_num)
  have h12 : ((attr.progressStage1 + attr.progressStage2 : ℕ) : ℝ) ≤ searchedAt attr := by
    apply le_r32 (by omega)
    have : 0 ≤ (attr.progressStage3 : ℝ) * r32 F ((95 / 100 : ℚ) : ℝ) := by positivity
    linarith
  have h1 : ((attr.progressStage1 : ℕ) : ℝ) ≤ (attr.progressStage1 + attr.progressStage2 : ℕ) := by push_cast; linarith [(by positivity : (0:ℝ) ≤ attr.progressStage2)]
  unfold findBestPalette
  split
  next hc => exact hr.mono (h1.trans h12)
  · have hh : HistOK h0 h0 := ⟨ht, hpos, List.Perm.refl _, rfl, rfl⟩
    have hinit : FindOK attr.maxColors h0 (FindState.init attr h0) :=
      ⟨hh, hm1, le_rfl, by intro p hp; simp [FindState.init] at hp⟩
    set total := attr.feedbackTrials h0.items.length with htot
    have htl : total < 2 ^ 24 := hs.trials _
    have hdone : ∀ {t : ℤ}, t ≤ total → InR (overallDone attr total t) attr.progressStage1 (attr.progressStage1 + attr.progressStage2 : ℕ) :=
      fun h => (overallDone_rounded attr rfl rfl (by omega) htl h).1
    obtain ⟨p, st, log1, e1, hp1, hst1, hlog1⟩ := findLoop_inv env attr targetMse total h0 hm
      (fun st l => st.trialsLeft ≤ total ∧ RisingR l (val (overallDone attr total st.trialsLeft)))
      (fun _ _ l => RisingR l (attr.progressStage1 + attr.progressStage2 : ℕ))
      (by intro st l p hist _ h _ _ _; exact h.2.mono (hdone h.1).hi)
      (by
        intro st l np hist err _ h hpos _ _
        have hd := hdone h.1
        have hr' := h.2.push (v := overallDone attr total st.trialsLeft) le_rfl hd.fin ((Nat.cast_nonneg _).trans hd.lo)
          attr.progressCallback
        have hlt := trialUpdate_lt st targetMse err np
        have hlt' : (nextState st targetMse err np hist).trialsLeft < st.trialsLeft := hlt
        exact ⟨fun _ _ => ⟨by omega, hr'.mono (overallDone_rounded_mono attr rfl rfl (by omega) htl hlt'.le h.1)⟩,
          fun _ _ _ => hr'.mono hd.hi⟩)
      (FindState.init attr h0) log hinit
      ⟨le_rfl, hr.mono (hdone (le_refl _)).lo⟩
    rw [PM.bind_ok e1]
    dsimp only
    unfold refinePalette
    have hil := hs.passes st.hist.items.length st.paletteError.isSome
    set iters := (attr.kmeansIterationsFor st.hist.items.length st.paletteError.isSome).1
    obtain ⟨p', err', log', e2, -, -, q2⟩ := refineLoop_inv env attr maxMse iters
      (attr.kmeansIterationsFor st.hist.items.length st.paletteError.isSome).2 attr.maxColors hm h0
      (fun _ i err l => RisingR l (searchedAt attr) ∧ (i < iters → RisingR l (val (refineDone attr iters i))))
      (fun err l => RisingR l (searchedAt attr))
      (by rintro c i err l ⟨h1, -⟩ _; exact h1)
      (by
        rintro c i err l ⟨h1, h2⟩ hi
        dsimp only
        obtain ⟨r1, -, r3⟩ := refineDone_rounded hs hil hi
        have h3 := (h2 hi).push (v := refineDone attr iters i) le_rfl r1.fin ((Nat.cast_nonneg _).trans r1.lo) attr.progressCallback
        exact ⟨fun _ => h3.mono r3, fun _ e => ⟨h3.mono r3, fun j hj _ =>
          ⟨h3.mono r3, fun hj' => h3.mono (refineDone_rounded_mono hs hil (by omega) hj')⟩⟩⟩)
      st.clock 0 st.hist p st.paletteError log1 hp1
      ⟨hlog1.mono h12, fun hi => hlog1.mono (refineDone_rounded hs hil hi).1.lo⟩
    have e2' : (refineLoop env attr maxMse iters (attr.kmeansIterationsFor st.hist.items.length st.paletteError.isSome).2
      st.clock 0 st.hist p st.paletteError log1).2 = log' := by rw [e2]
    exact e2' ▸ q2

theorem new_rising_rounded (env : Env F) (attr : Attr F) (hs : StagesOK attr) (hm1 : 1 ≤ attr.maxColors) (hm : attr.maxColors ≤ 256)
    (h0 : HistogramInternal F) (ht : h0.Tiled) (hpos : h0.items ≠ []) (freeze : Bool) (gamma : F) (log : List F)
    (hr : RisingR log attr.progressStage1) :
    RisingR (QuantizationResult.new env attr h0 freeze gamma log).2 100 := by
  have hsum := hs.sum
  obtain ⟨f1, v1⟩ := lit32_nat (F := F) (n := attr.progressStage1) (by omega)
  have p1' : (attr.progressStage1 : ℝ) ≤ 100 := by exact_mod_cast (by omega : attr.progressStage1 ≤ 100)
  unfold QuantizationResult.new
  rw [PM.bind_ok (progress_eq _ _ _)]
  have hr1 : RisingR (reported attr.progressCallback log (lit32 attr.progressStage1)) attr.progressStage1 := by
    have := hr.push (v := (lit32 (attr.progressStage1 : ℚ) : F)) v1.ge f1 (v1 ▸ Nat.cast_nonneg _) attr.progressCallback
    rwa [v1] at this
  set log1 := reported attr.progressCallback log (lit32 attr.progressStage1)
  split
  · exact hr1.mono p1'
  · obtain ⟨p, err, log2, e2, -⟩ := findBestPalette_ok env attr hm1 hm
      (attr.targetMseFor h0.items.length).2.1 (attr.targetMseFor h0.items.length).2.2
      (attr.targetMseFor h0.items.length).1 h0 ht hpos log1
    have hr2 := findBestPalette_rising_rounded env attr hs hm1 hm (attr.targetMseFor h0.items.length).2.1
      (attr.targetMseFor h0.items.length).2.2 (attr.targetMseFor h0.items.length).1 h0 ht hpos log1 hr1
    rw [e2] at hr2
    dsimp only
    rw [PM.bind_ok e2]
    dsimp only at hr2 ⊢
    rw [PM.bind_ok (progress_eq _ _ _)]
    obtain ⟨f3, v3⟩ := lit32_nat (F := F) (n := attr.progressStage3) (by omega)
    obtain ⟨b1, b2, -⟩ := stage3_rounded (F := F) (s1 := attr.progressStage1) (s2 := attr.progressStage2)
      (s3 := attr.progressStage3) (by omega) (q := 95 / 100) (by norm_num) (by norm_num) (x := lit32 (attr.progressStage3 : ℚ))
      ⟨f3, v3 ▸ Nat.cast_nonneg _, v3.le⟩
    rw [v3] at b2
    have hr3 := hr2.push (v := Flt.fma32 (lit32 (attr.progressStage3 : ℚ)) (lit32 (95/100))
        (lit32 (attr.progressStage1 : ℚ) +₃ lit32 (attr.progressStage2 : ℚ))) b2.ge b1.fin ((Nat.cast_nonneg _).trans b1.lo)
        attr.progressCallback
    have hr4 := hr3.mono (c := 100) (b1.hi.trans (by rw [hsum]; norm_num))
    split
    · exact hr4
    · split <;> exact hr4

theorem userAttr_stagesOK (cs : List Call) (cb : Option (List F → Bool)) : StagesOK (userAttr cs cb) := by
  have hs := userAttr_speedOK (F := F) cs cb
  refine ⟨hs.stages, fun n => ?_, fun n b => ?_⟩
  · have h1 : (userAttr (F := F) cs cb).feedbackTrials n ≤ (userAttr (F := F) cs cb).feedbackLoopTrials := Attr.reduceBySize_le _ _
    have h2 := hs.trials
    omega
  · have h1 : Attr.reduceBySize (userAttr (F := F) cs cb).kmeansIterations n ≤ (userAttr (F := F) cs cb).kmeansIterations := Attr.reduceBySize_le _ _
    have h2 := hs.iterations
    have h3 : (userAttr (F := F) cs cb).kmeansIterations ≤ 100 := by
      rw [h2]
      have h4 : 8 - (userAttr (F := F) cs cb).speed ≤ 7 := by have := hs.range; omega
      have : (8 - (userAttr (F := F) cs cb).speed) * (8 - (userAttr (F := F) cs cb).speed) ≤ 7 * 7 := Nat.mul_le_mul h4 h4
      omega
    unfold Attr.kmeansIterationsFor
    dsimp only
    split <;> omega

/-- **C15** (rounded). All the values that a quantization reports are numbers between 0 and 100 and never decrease, for all
settings, callbacks and histograms, whether the run succeeds or not. -/
theorem C15_quantize_progress_rounded (env : Env F) (cs : List Call) (cb : Option (List F → Bool)) (h : Histogram F)
    (freeze : Bool) :
    let log := (h.quantizeInternal env (userAttr cs cb) freeze []).2
    log.Pairwise (fun x y => val x ≤ val y) ∧ ∀ v ∈ log, fin v ∧ 0 ≤ val v ∧ val v ≤ 100 := by
  set attr := userAttr cs cb with hattr
  have hs := userAttr_stagesOK (F := F) cs cb
  have hrange := userAttr_range (F := F) cs cb
  rw [← hattr] at hs hrange
  have hsum := hs.sum
  have p1' : (attr.progressStage1 : ℝ) ≤ 100 := by exact_mod_cast (by omega : attr.progressStage1 ≤ 100)
  suffices RisingR (h.quantizeInternal env attr freeze []).2 100 from
    ⟨this.sorted, fun v hv => ⟨(this.range v hv).fin, (this.range v hv).lo, (this.range v hv).hi⟩⟩
  have h0 : RisingR ([] : List F) 0 := ⟨List.Pairwise.nil, by simp⟩
  unfold Histogram.quantizeInternal
  split
  · exact h0.mono (by norm_num)
  next he =>
    simp only [Bool.and_eq_true, List.isEmpty_iff] at he
    have hne : h.hashmap ≠ [] ∨ h.fixedColors ≠ [] := by tauto
    rw [PM.bind_ok (progress_eq _ _ _)]
    obtain ⟨f0, v0⟩ := lit32_nat (F := F) (n := 0) (by norm_num)
    rw [Nat.cast_zero] at f0 v0
    rw [Nat.cast_zero] at v0
    have hr1 := h0.push (v := (lit32 0 : F)) v0.ge f0 v0.ge attr.progressCallback
    rw [v0] at hr1
    split
    · exact hr1.mono (by norm_num)
    · rw [PM.bind_ok (progress_eq _ _ _)]
      obtain ⟨f1, v1⟩ := lit32_nat (F := F) (n := attr.progressStage1) (by omega)
      have fq' : Fits32 ((89 / 100 : ℚ) : ℝ) := by apply fits32_le; norm_num
      have fq := (FltRound.lit32 (F := F) _ fq').1
      have vq := lit32_eq (F := F) _ fq'
      have q0 : 0 ≤ r32 F ((89 / 100 : ℚ) : ℝ) := r32_nonneg (by norm_num)
      have q1 : r32 F ((89 / 100 : ℚ) : ℝ) ≤ 1 := r32_le_one (by norm_num)
      have hp : 0 ≤ (attr.progressStage1 : ℝ) * r32 F ((89 / 100 : ℚ) : ℝ) ∧ (attr.progressStage1 : ℝ) * r32 F ((89 / 100 : ℚ) : ℝ) ≤ attr.progressStage1 :=
        ⟨by positivity, mul_le_of_le_one_right (Nat.cast_nonneg _) q1⟩
      have fm' : Fits32 (val (lit32 (attr.progressStage1 : ℚ) : F) * val (lit32 (89 / 100) : F)) := by
        rw [v1, vq]; apply fits32_le; rw [abs_of_nonneg hp.1]; linarith [(by norm_num : (100:ℝ) ≤ 2 ^ 24)]
      have fm := (FltRound.mul32 _ _ f1 fq fm').1
      have vm := mul32_eq _ _ f1 fq fm'
      rw [v1, vq] at vm
      have hlo : 0 ≤ val (lit32 (attr.progressStage1 : ℚ) *₃ lit32 (89 / 100) : F) := by rw [vm]; exact r32_nonneg hp.1
      have hhi : val (lit32 (attr.progressStage1 : ℚ) *₃ lit32 (89 / 100) : F) ≤ attr.progressStage1 := by rw [vm]; exact r32_le (by omega) hp.2
      have hr2 := hr1.push (v := lit32 (attr.progressStage1 : ℚ) *₃ lit32 (89/100)) hlo fm hlo attr.progressCallback
      split
      · exact hr2.mono (hhi.trans p1')
      · obtain ⟨r, e1, ht, hl⟩ := h.finalize_ok env.ho (h.gamma.getD (lit64 (45455/100000)))
        have hpos : r.items ≠ [] := by
          apply List.ne_nil_of_length_pos
          rw [hl]
          exact List.length_pos_iff.2 (h.insertFixedColors_ne_nil env.ho hne)
        dsimp only
        rw [PM.bind_ok (a := r) (by rw [PM.lift, e1])]
        exact new_rising_rounded env attr hs hrange.1 hrange.2 r ht hpos freeze _ _ (hr2.mono hhi)

/-- **C15** (remapping; rounded). Every value that a remap of an image of up to 2²⁴ rows reports is a number between 0 and 100. -/
theorem C15_remap_percent_rounded (env : RemapEnv F) {q : QuantizationResult F} {img : Image F} (hq : UserResult q)
    (hi : UserImage img) (hh : img.height ≤ 2 ^ 24) (buf : List (Option UInt8)) (log : List F) :
    ∃ new, (remapInto env q img buf log).log = log ++ new ∧ ∀ v ∈ new, fin v ∧ 0 ≤ val v ∧ val v ≤ 100 := by
  have spec := user_spec env hq hi buf log
  by_cases hb : buf.length < img.width * img.height
  · rw [spec.small hb]; exact ⟨[], by simp, by simp⟩
  · obtain ⟨s, d, _, _, e3, _⟩ := spec.run (by omega)
    obtain ⟨new, h1, h2⟩ := d.log
    refine ⟨new, e3.trans h1, fun v hv => ?_⟩
    have hs : remapStage1 q.useDitherMap ≤ 20 := by unfold remapStage1; split <;> norm_num
    have hs0 : (0 : ℝ) ≤ remapStage1 q.useDitherMap := by positivity
    have hs1 : (remapStage1 q.useDitherMap : ℝ) ≤ 20 := by exact_mod_cast hs
    obtain ⟨f1, v1⟩ := lit32_nat (F := F) (n := remapStage1 q.useDitherMap) (by omega)
    have part : ∀ c : ℚ, 0 ≤ c → c ≤ 1 → v = lit32 (remapStage1 q.useDitherMap : ℚ) *₃ lit32 c → fin v ∧ 0 ≤ val v ∧ val v ≤ 100 := by
      intro c c0 c1 e
      have c0' : (0 : ℝ) ≤ (c : ℝ) := by exact_mod_cast c0
      have c1' : (c : ℝ) ≤ 1 := by exact_mod_cast c1
      have fq' : Fits32 (c : ℝ) := by apply fits32_le; rw [abs_of_nonneg c0']; linarith [(by norm_num : (1:ℝ) ≤ 2 ^ 24)]
      have fq := (FltRound.lit32 (F := F) _ fq').1
      have vq := lit32_eq (F := F) _ fq'
      have q0 : 0 ≤ r32 F (c : ℝ) := r32_nonneg c0'
      have q1 : r32 F (c : ℝ) ≤ 1 := r32_le_one c1'
      have hp : 0 ≤ (remapStage1 q.useDitherMap : ℝ) * r32 F (c : ℝ) ∧ (remapStage1 q.useDitherMap : ℝ) * r32 F (c : ℝ) ≤ remapStage1 q.useDitherMap :=
        ⟨by positivity, mul_le_of_le_one_right (Nat.cast_nonneg _) q1⟩
      have fm' : Fits32 (val (lit32 (remapStage1 q.useDitherMap : ℚ) : F) * val (lit32 c : F)) := by
        rw [v1, vq]; apply fits32_le; rw [abs_of_nonneg hp.1]; linarith [(by norm_num : (100:ℝ) ≤ 2 ^ 24)]
      have fm := (FltRound.mul32 _ _ f1 fq fm').1
      have vm := mul32_eq _ _ f1 fq fm'
      rw [v1, vq] at vm
      rw [e]
      refine ⟨fm, ?_, ?_⟩
      · rw [vm]; exact r32_nonneg hp.1
      · rw [vm]; exact (r32_le (by omega) hp.2).trans (by linarith)
    rcases h2 v hv with h | h | ⟨start, hlt, h⟩
    · exact part _ (by norm_num) (by norm_num) h
    · exact part _ (by norm_num) (by norm_num) h
    · have hlt' : start + 1 ≤ img.height := hlt
      obtain ⟨f2, v2⟩ := lit32_nat (F := F) (n := start) (by omega)
      obtain ⟨f3, v3⟩ := lit32_nat (F := F) (n := 100) (by norm_num)
      obtain ⟨f4, v4⟩ := lit32_nat (F := F) (n := img.height) hh
      set S := remapStage1 q.useDitherMap
      have fd' : Fits32 (val (lit32 ((100 : ℕ) : ℚ) : F) - val (lit32 (S : ℚ) : F)) := by
        rw [v1, v3]; apply fits32_le; push_cast; rw [abs_of_nonneg (by linarith)]; linarith [(by norm_num : (100:ℝ) ≤ 2 ^ 24)]
      have fd := (FltRound.sub32 _ _ f3 f1 fd').1
      have vd := sub32_eq _ _ f3 f1 fd'
      rw [v1, v3, ← Nat.cast_sub (by omega), r32_nat _ (by omega)] at vd
      have hD : ((100 - S : ℕ) : ℝ) = 100 - S := by rw [Nat.cast_sub (by omega)]; norm_num
      have hst0 : (0 : ℝ) ≤ start := by positivity
      have hH : (0 : ℝ) < img.height := by exact_mod_cast hi.good.height_pos
      have hH' : (img.height : ℝ) ≤ 2 ^ 24 := by exact_mod_cast hh
      have hst : (start : ℝ) + 1 ≤ img.height := by exact_mod_cast hlt'
      have hp : 0 ≤ (start : ℝ) * (100 - S : ℕ) := by positivity
      have hp' : (start : ℝ) * (100 - S : ℕ) ≤ 2 ^ 24 * 100 := by
        rw [hD]; exact mul_le_mul (by linarith) (by linarith) (by linarith) (by norm_num)
      have fm' : Fits32 (val (lit32 (start : ℚ) : F) * val (lit32 ((100 : ℕ) : ℚ) -₃ lit32 (S : ℚ) : F)) := by
        rw [v2, vd]; unfold Fits32; rw [abs_of_nonneg hp]; exact hp'.trans (by norm_num)
      obtain ⟨fm, rm⟩ := FltRound.mul32 _ _ f2 fd fm'
      have vm := mul32_eq _ _ f2 fd fm'
      rw [v2, vd] at vm rm
      have hm0 : 0 ≤ r32 F ((start : ℝ) * (100 - S : ℕ)) := r32_nonneg hp
      have hm1 : r32 F ((start : ℝ) * (100 - S : ℕ)) ≤ (100 - S : ℕ) * (img.height : ℝ) := by
        rw [← vm]
        have r1 := (abs_le.1 rm.1).2
        rw [abs_of_nonneg hp] at r1
        have r2 : (start : ℝ) * (100 - S : ℕ) ≤ (img.height - 1) * (100 - S : ℕ) := mul_le_mul_of_nonneg_right (by linarith) (by positivity)
        have r3 : ((img.height : ℝ) - 1) * (100 - S : ℕ) ≤ (2 ^ 24 - 1) * (100 - S : ℕ) := mul_le_mul_of_nonneg_right (by linarith) (by positivity)
        have r4 : tiny32 ≤ 2⁻¹ ^ 24 := by unfold tiny32; norm_num
        have r5 : u32 * ((start : ℝ) * (100 - S : ℕ)) ≤ u32 * ((2 ^ 24 - 1) * (100 - S : ℕ)) := mul_le_mul_of_nonneg_left (r2.trans r3) u32_nonneg
        have r6 : u32 * ((2 ^ 24 - 1) * ((100 - S : ℕ) : ℝ)) = (100 - S : ℕ) - 2⁻¹ ^ 24 * (100 - S : ℕ) := by unfold u32; ring
        have r7 : (1 : ℝ) ≤ (100 - S : ℕ) := by rw [hD]; linarith
        have r8 : (2⁻¹ : ℝ) ^ 24 ≤ 2⁻¹ ^ 24 * (100 - S : ℕ) := le_mul_of_one_le_right (by positivity) r7
        linarith
      have hq1 : r32 F ((start : ℝ) * (100 - S : ℕ)) / img.height ≤ (100 - S : ℕ) := by
        rw [div_le_iff₀ hH]; exact hm1
      have hq0 : 0 ≤ r32 F ((start : ℝ) * (100 - S : ℕ)) / img.height := by positivity
      have fv' : Fits32 (val (lit32 (start : ℚ) *₃ (lit32 ((100 : ℕ) : ℚ) -₃ lit32 (S : ℚ)) : F) / val (lit32 (img.height : ℚ) : F)) := by
        rw [vm, v4]; apply fits32_le; rw [abs_of_nonneg hq0]; exact hq1.trans (by rw [hD]; linarith [(by norm_num : (100:ℝ) ≤ 2 ^ 24)])
      have nz : val (lit32 (img.height : ℚ) : F) ≠ 0 := by rw [v4]; exact hH.ne'
      have fv := (FltRound.div32 _ _ fm f4 nz fv').1
      have vv := div32_eq _ _ fm f4 nz fv'
      rw [vm, v4] at vv
      have w0 : 0 ≤ r32 F (r32 F ((start : ℝ) * (100 - S : ℕ)) / img.height) := r32_nonneg hq0
      have w1 : r32 F (r32 F ((start : ℝ) * (100 - S : ℕ)) / img.height) ≤ (100 - S : ℕ) := r32_le (by omega) hq1
      rw [hD] at w1
      have fa' : Fits32 (val (lit32 (S : ℚ) : F) + val (lit32 (start : ℚ) *₃ (lit32 ((100 : ℕ) : ℚ) -₃ lit32 (S : ℚ)) /₃ lit32 (img.height : ℚ) : F)) := by
        rw [v1, vv, hD]; apply fits32_le; rw [hD] at w0; rw [abs_of_nonneg (by linarith)]; linarith [(by norm_num : (100:ℝ) ≤ 2 ^ 24)]
      have fa := (FltRound.add32 _ _ f1 fv fa').1
      have va := add32_eq _ _ f1 fv fa'
      rw [v1, vv] at va
      have e : v = lit32 (S : ℚ) +₃ lit32 (start : ℚ) *₃ (lit32 ((100 : ℕ) : ℚ) -₃ lit32 (S : ℚ)) /₃ lit32 (img.height : ℚ) := by
        rw [h]; unfold ditherProgress; push_cast; rfl
      rw [e]
      refine ⟨fa, ?_, ?_⟩
      · rw [va]; exact r32_nonneg (by linarith)
      · rw [va]
        have := r32_le (F := F) (n := 100) (by norm_num) (e := (S : ℝ) + r32 F (r32 F ((start : ℝ) * (100 - S : ℕ)) / img.height))
          (by rw [hD]; push_cast; linarith)
        simpa using this

/-- Both theorems apply to an arithmetic with rounding errors: something is reported, and there are results and images. -/
example : ((exampleHistogram : Histogram CutReal).quantizeInternal Env.simple (userAttr [] (some fun _ => true)) true []).2 = [lit32 0] ∧
    ∃ (q : QuantizationResult CutReal) (img : Image CutReal), UserResult q ∧ UserImage img ∧ img.height ≤ 2 ^ 24 := by
  constructor
  · rfl
  · obtain ⟨q, hq, -⟩ := example_result (F := CutReal)
    obtain ⟨img, hm, -⟩ := inkPixels_made (F := CutReal)
    have hmf := hm.facts
    refine ⟨q, img, hq, hmf.user, ?_⟩
    have := hmf.height_
    omega

end Verif
