import Verif.Lemmas.Debug
import Verif.Lemmas.FiniteHist
import Verif.Lemmas.RoundedQuality

/-! The checks of a debug build about numbers pass when arithmetic rounds: k-means. -/

set_option linter.unusedSectionVars false

namespace Verif
open Flt FltRound FltCorrect
open FltFull (r32_idem r64 r64_mono r64_idem r64_nat lit64_eq add64_eq div64_eq to32_eq pow32_unit)

variable {F : Type} [Flt F] [FltMin F] {op sm : Prop}

theorem isFinite_of {x : F} (h : fin x) : isFinite x = true := by
  have hf : Fits64 (val x - val x) := by rw [sub_self]; unfold Fits64; norm_num
  obtain ⟨f, r⟩ := FltRound.sub64 x x h h hf
  have hz := nn_zero64 (F := F)
  unfold isFinite
  rw [FltRound.eq _ _ f hz.fin, r.2 (sub_self _)]
  exact (le_antisymm hz.hi hz.lo).symm

theorem NN.ge_zero {b : ℝ} {x : F} (h : NN b x) : Flt.le (Flt.lit32 0) x = true := by
  have hz := nn_zero (F := F)
  rw [FltRound.le _ _ hz.fin h.fin, le_antisymm hz.hi hz.lo]
  exact h.lo

/-- numbers that are checked to be less than `MAX_DIFF` -/
theorem NN.small {b : ℝ} {x : F} (h : NN b x) (hb : b ≤ 2 ^ 50) : Flt.lt x (Flt.lit64 (10 ^ 20)) = true := by
  have h0 : (0:ℝ) ≤ ((10 ^ 20 : ℚ) : ℝ) := by norm_num
  have hf := fits64_nn h0 le_rfl (by norm_num)
  obtain ⟨f, r⟩ := FltRound.lit64 (F := F) _ hf
  rw [FltRound.lt _ _ h.fin f]
  have g := rounds_ge r h0
  have := tiny64_le
  have e64 : u64 = 1 / 2 ^ 53 := by unfold u64; norm_num
  rw [e64] at g
  have := h.hi
  norm_num at g this hb ⊢
  linarith

/-- an adjusted weight stays at least half the perceptual weight -/
theorem heavy_step {w p d : F} (hw : NN termMax w) (hp : NN percMax p) (hd : NN diffMax d) (h0 : 1 / 3000 ≤ val p)
    (h1 : val p ≤ 2 * val w) : val p ≤ 2 * val (fma32 (lit32 2 : F) w p *₃ (lit32 (1/2) +₃ d)) := by
  have hP : percMax ≤ 2 ^ 29 := by unfold percMax; norm_num
  have hT : termMax = 2 ^ 102 := rfl
  obtain ⟨f2, e2⟩ : fin (lit32 2 : F) ∧ val (lit32 2 : F) = 2 := by
    have hf : Fits32 ((2 : ℚ) : ℝ) := fits32_small (by norm_num)
    refine ⟨(FltRound.lit32 _ hf).1, ?_⟩
    rw [lit32_eq _ hf]
    have := r32_nat (F := F) 2 (by norm_num)
    push_cast at this ⊢
    exact this
  have s0 : 0 ≤ val (lit32 2 : F) * val w + val p := by
    rw [e2]; have := hw.lo; have := hp.lo; linarith
  have s1 : val (lit32 2 : F) * val w + val p ≤ 2 ^ 104 := by
    rw [e2]; have h2 := hw.hi; have h3 := hp.hi.trans hP; rw [hT] at h2; norm_num at h2 h3 ⊢; linarith
  have sf := fits32_nn s0 s1 (by norm_num)
  obtain ⟨f3, r3⟩ := FltRound.fma32 _ _ _ f2 hw.fin hp.fin sf
  have v3 := rounds32_le r3 s0 s1
  have n3 : 0 ≤ val (fma32 (lit32 2 : F) w p) := by
    rw [fma32_eq _ _ _ f2 hw.fin hp.fin sf]; exact r32_nonneg s0
  have hh : NN (51 / 100) (lit32 (1/2) : F) := by
    have h0 : (0:ℝ) ≤ ((1/2 : ℚ) : ℝ) := by norm_num
    have h1 : ((1/2 : ℚ) : ℝ) ≤ 1 / 2 := by norm_num
    have hf := fits32_nn h0 h1 (by norm_num)
    obtain ⟨f, r⟩ := FltRound.lit32 (F := F) (1/2) hf
    refine ⟨f, ?_, (rounds32_le r h0 h1).trans (by linarith)⟩
    rw [lit32_eq _ hf]; exact r32_nonneg h0
  have hd' : NN 48.2 d := hd
  have hs := (add32_le hh hd' (by norm_num)).mono (b := 48.72) (by norm_num)
  have p0 := mul_nonneg n3 hs.lo
  have p1 : val (fma32 (lit32 2 : F) w p) * val (lit32 (1/2) +₃ d : F) ≤ 2 ^ 105 * 64 := by
    refine mul_le_mul (v3.trans (by norm_num)) (hs.hi.trans (by norm_num)) hs.lo (by norm_num)
  have pf := fits32_nn p0 p1 (by norm_num)
  obtain ⟨f5, r5⟩ := FltRound.mul32 _ _ f3 hs.fin pf
  have a1 := (abs_le.1 (rounds_abs_nn r3 s0)).1
  have a2 := (abs_le.1 (rounds_abs_nn r5 p0)).1
  have t1 := tiny32_le
  rw [u32_val] at a1 a2
  have a3 : 0.499 ≤ val (lit32 (1/2) +₃ d : F) := by
    have hf0 : Fits32 (((1/2 : ℚ)) : ℝ) := fits32_small (by norm_num)
    have b1 := (abs_le.1 (rounds_abs_nn (FltRound.lit32 (F := F) (1/2) hf0).2 (by norm_num))).1
    have hsum := add_nonneg hh.lo hd'.lo
    have b2 := (abs_le.1 (rounds_abs_nn (FltRound.add32 _ _ hh.fin hd'.fin
      (fits32_nn hsum (add_le_add hh.hi hd'.hi) (by norm_num))).2 hsum)).1
    rw [u32_val] at b1 b2
    have := hd'.lo
    norm_num at b1 b2 t1 ⊢
    linarith
  have a4 : 1.99 * val p ≤ val (fma32 (lit32 2 : F) w p) := by
    rw [e2] at a1
    norm_num at a1 t1 ⊢
    linarith
  have a5 : 1.99 * val p * 0.499 ≤ val (fma32 (lit32 2 : F) w p) * val (lit32 (1/2) +₃ d : F) :=
    mul_le_mul a4 a3 (by norm_num) n3
  norm_num at a2 a5 t1 ⊢
  linarith

/-- a histogram in which something was counted: weights and their total are not too small for each other -/
structure Loaded (T : F) (h : HistogramInternal F) : Prop where
  ne : h.items ≠ []
  total : NN (2 ^ 127) T
  items : ∀ x ∈ h.items, 1 / 3000 ≤ val x.perceptualWeight ∧ val x.perceptualWeight ≤ 2 * val x.adjustedWeight ∧
    val x.perceptualWeight ≤ 2 * val T

/-- bound of the weights of one histogram -/
noncomputable def loadMax (T : F) : ℝ := min percMax (2 * val T)

theorem Loaded.max {T : F} {h : HistogramInternal F} (l : Loaded T h) {b : ℝ} (hi : ∀ x ∈ h.items, ItemFin op sm b x) :
    1 / 3000 ≤ loadMax T ∧ ∀ x ∈ h.items, val x.perceptualWeight ≤ loadMax T := by
  obtain ⟨x, hx⟩ := List.exists_mem_of_ne_nil _ l.ne
  have key : ∀ x ∈ h.items, val x.perceptualWeight ≤ loadMax T := fun x hx => le_min (hi x hx).perc.hi (l.items x hx).2.2
  exact ⟨(l.items x hx).1.trans (key x hx), key⟩

/-- a sum of `m` differences times weights -/
def DiffOf (P : ℝ) (m : ℕ) (x : F) : Prop := NN (m * (100 * P)) x

theorem DiffOf.mono {P : ℝ} (hP : 1 / 3000 ≤ P) {m k : ℕ} {x : F} (h : DiffOf P m x) (hmk : m ≤ k) : DiffOf P k x :=
  NN.mono h (by have : (m : ℝ) ≤ k := by exact_mod_cast hmk
                have : 0 ≤ 100 * P := by linarith
                gcongr)

theorem diffOf_zero (P : ℝ) : DiffOf P 0 (lit64 0 : F) := by unfold DiffOf; simpa using nn_zero64 (F := F)

theorem DiffOf.join {P : ℝ} (hP : 1 / 3000 ≤ P) (hP' : P ≤ percMax) {m k : ℕ} {x y : F} (hx : DiffOf P m x) (hy : DiffOf P k y)
    (hm : m + k ≤ 2 ^ 22) : DiffOf P (m + k + 1) (x +₆ y) := by
  have hm' : ((m + k : ℕ) : ℝ) ≤ 2 ^ 22 := by exact_mod_cast hm
  have e : (m : ℝ) * (100 * P) + k * (100 * P) = ((m + k : ℕ) : ℝ) * (100 * P) := by push_cast; ring
  have hS : (m : ℝ) * (100 * P) + k * (100 * P) ≤ 2 ^ 22 * (100 * P) := by
    rw [e]; exact mul_le_mul_of_nonneg_right hm' (by linarith)
  have hPP : P ≤ 2 ^ 29 := hP'.trans (by unfold percMax; norm_num)
  refine (add64_le hx hy (hS.trans ?_)).mono ?_
  · norm_num at hPP ⊢; linarith
  · have e2 : ((m + k + 1 : ℕ) : ℝ) * (100 * P) = (m : ℝ) * (100 * P) + k * (100 * P) + 100 * P := by push_cast; ring
    rw [e2]
    generalize (m : ℝ) * (100 * P) + k * (100 * P) = S at hS ⊢
    norm_num at hS ⊢
    linarith

theorem DiffOf.add {P : ℝ} (hP : 1 / 3000 ≤ P) (hP' : P ≤ percMax) {m : ℕ} {x y : F} (hx : DiffOf P m x) (hy : NN (49 * P) y)
    (hm : m ≤ 2 ^ 22) : DiffOf P (m + 1) (x +₆ y) := by
  have hm' : (m : ℝ) ≤ 2 ^ 22 := by exact_mod_cast hm
  have hS : (m : ℝ) * (100 * P) ≤ 2 ^ 22 * (100 * P) := mul_le_mul_of_nonneg_right hm' (by linarith)
  have hPP : P ≤ 2 ^ 29 := hP'.trans (by unfold percMax; norm_num)
  refine (add64_le hx hy ?_).mono ?_
  · norm_num at hPP hS ⊢; linarith
  · have e2 : ((m + 1 : ℕ) : ℝ) * (100 * P) = (m : ℝ) * (100 * P) + 100 * P := by push_cast; ring
    rw [e2]
    generalize (m : ℝ) * (100 * P) = S at hS ⊢
    norm_num at hS ⊢
    linarith

theorem sum64_diffOf {P : ℝ} (hP : 1 / 3000 ≤ P) (hP' : P ≤ percMax) {l : List F} (h : ∀ x ∈ l, NN (49 * P) x) (hl : l.length ≤ 2 ^ 22) :
    DiffOf P l.length (sum64 l) := by
  have key : ∀ (l : List F) (m : ℕ) (s : F), (∀ x ∈ l, NN (49 * P) x) → m + l.length ≤ 2 ^ 22 → DiffOf P m s →
      DiffOf P (m + l.length) (l.foldl (· +₆ ·) s) := by
    intro l
    induction l with
    | nil => intro m s _ _ hs; simpa using hs
    | cons x l ih =>
      intro m s h hl hs
      simp only [List.length_cons] at hl
      have := ih (m + 1) (s +₆ x) (fun y hy => h y (by simp [hy])) (by omega) (hs.add hP hP' (h x (by simp)) (by omega))
      simpa [Nat.add_assoc, Nat.add_comm 1] using this
  have := key l 0 (lit64 0) h (by omega) (diffOf_zero P)
  rwa [Nat.zero_add] at this

theorem diff_term {P : ℝ} (hP : 1 / 3000 ≤ P) (hP' : P ≤ percMax) {d w : F} (hd : NN diffMax d) (hw : NN P w) : NN (49 * P) (d *₃ w) := by
  have hPP : P ≤ 2 ^ 29 := hP'.trans (by unfold percMax; norm_num)
  have p0 := mul_nonneg hd.lo hw.lo
  have p1 : val d * val w ≤ 48.2 * P := mul_le_mul hd.hi hw.hi hw.lo (by norm_num)
  have pf := fits32_nn p0 p1 (by norm_num at hPP ⊢; linarith)
  obtain ⟨f, r⟩ := FltRound.mul32 _ _ hd.fin hw.fin pf
  refine ⟨f, ?_, (rounds32_le r p0 p1).trans (by norm_num; linarith)⟩
  rw [mul32_eq _ _ hd.fin hw.fin pf]; exact r32_nonneg p0

/-! ### K-means -/

theorem PalFin.ok {p : PalF F} (h : PalFin op p) : PaletteOK true p := by
  have hz := nn_zero (F := F)
  refine ⟨fun _ i => ?_, fun _ i j => ?_⟩
  · unfold palPopularity
    split
    next e he => exact isFinite_of (FltRound.abs _ (h e (List.mem_of_getElem? he)).1.2).1
    · exact isFinite_of hz.fin
  · have hi : (palColor p i).UnitFin := palColor_of (fun e he => (h e he).1.1) FPixel.unitFin_default i
    unfold vpDist
    split
    next e he => exact isFinite_of (diff_wide_unit hi.wide (h e (List.mem_of_getElem? he)).1.1).fin
    · exact isFinite_of hz.fin

namespace Kmeans

theorem batch_diff {P : ℝ} (hP : 1 / 3000 ≤ P) (hP' : P ≤ percMax) {n : Nearest F} {adjust : Bool} {m : ℕ} {k : Kmeans F}
    (h : DiffOf P m k.weighedDiffSum) {batch : List (HistItem F)} (hl : batch.length ≤ 256) (hm : m + 257 ≤ 2 ^ 22)
    (hx : ∀ x ∈ batch, NN P (matchItem n adjust x).1.perceptualWeight ∧ NN diffMax (matchItem n adjust x).2) :
    DiffOf P (m + 257) (iterateBatch n adjust k batch).weighedDiffSum := by
  have h2 := sum64_diffOf hP hP' (l := (batch.map (matchItem n adjust)).map fun x => x.2 *₃ x.1.perceptualWeight) (by
    intro y hy
    obtain ⟨z, hz, rfl⟩ := List.mem_map.1 hy
    obtain ⟨x, hxm, rfl⟩ := List.mem_map.1 hz
    exact diff_term hP hP' (hx x hxm).2 (hx x hxm).1) (by simp only [List.length_map]; omega)
  simp only [List.length_map] at h2
  have hd : ∀ (l : List (HistItem F × F)) (k : Kmeans F),
      (l.foldl (fun k x => k.updateColor x.1.color x.1.adjustedWeight x.1.tmp) k).weighedDiffSum = k.weighedDiffSum := by
    intro l
    induction l with
    | nil => intro k; rfl
    | cons x l ih => intro k; exact ih _
  have := DiffOf.join hP hP' h h2 (by omega)
  unfold iterateBatch
  dsimp only
  rw [hd]
  exact this.mono hP (by omega)

theorem worker_diff {P : ℝ} (hP : 1 / 3000 ≤ P) (hP' : P ≤ percMax) {n : Nearest F} {adjust : Bool} {len : ℕ} {items : List (HistItem F)}
    (hx : ∀ x ∈ items, NN P (matchItem n adjust x).1.perceptualWeight ∧ NN diffMax (matchItem n adjust x).2)
    (chunks : List ℕ) (hm : 257 * chunks.length ≤ 2 ^ 22) :
    DiffOf P (257 * chunks.length) (worker n adjust len items chunks).weighedDiffSum := by
  have key : ∀ (cs : List ℕ) (m : ℕ) (k : Kmeans F), DiffOf P m k.weighedDiffSum → m + 257 * cs.length ≤ 2 ^ 22 →
      DiffOf P (m + 257 * cs.length) (cs.foldl (fun k i => iterateBatch n adjust k (chunk items i)) k).weighedDiffSum := by
    intro cs
    induction cs with
    | nil => intro m k h _; rw [List.length_nil, Nat.mul_zero, Nat.add_zero]; exact h
    | cons c cs ih =>
      intro m k h hm
      rw [List.length_cons] at hm ⊢
      have hb := batch_diff hP hP' (n := n) (adjust := adjust) h (chunk_length items c) (le_trans (by linarith) hm)
        (fun x hxm => hx x (List.mem_of_mem_drop (List.mem_of_mem_take hxm)))
      have := ih (m + 257) _ hb (by omega)
      rw [show m + 257 * (cs.length + 1) = m + 257 + 257 * cs.length by ring]
      exact this
  have := key chunks 0 (new len) (diffOf_zero P) (by omega)
  rw [Nat.zero_add] at this
  exact this

theorem reduce_diff {P : ℝ} (hP : 1 / 3000 ≤ P) (hP' : P ≤ percMax) {sched : List (List ℕ)} {items : List (HistItem F)} {n : Nearest F}
    {adjust : Bool} {len : ℕ} (hs : SchedValid (numChunks items.length) sched) (hl : items.length ≤ 2 ^ 21)
    (hx : ∀ x ∈ items, NN P (matchItem n adjust x).1.perceptualWeight ∧ NN diffMax (matchItem n adjust x).2) :
    ∀ K, reduceWorkers (sched.map (worker n adjust len items)) = some K → DiffOf P (2 ^ 22) K.weighedDiffSum := by
  obtain ⟨s1, s2⟩ := sched_size hs
  have hc : numChunks items.length ≤ 8193 := by
    unfold numChunks chunkSize; omega
  have merged : ∀ (ws : List (List ℕ)) (m : ℕ) (k : Kmeans F), DiffOf P m k.weighedDiffSum →
      m + (257 * ws.flatten.length + ws.length) ≤ 2 ^ 22 →
      DiffOf P (m + (257 * ws.flatten.length + ws.length)) ((ws.map (worker n adjust len items)).foldl Kmeans.merge k).weighedDiffSum := by
    intro ws
    induction ws with
    | nil => intro m k h _; simpa using h
    | cons w ws ih =>
      intro m k h hm
      simp only [List.flatten_cons, List.length_append, List.length_cons] at hm ⊢
      have := ih (m + 257 * w.length + 1) (k.merge (worker n adjust len items w))
        (h.join hP hP' (worker_diff hP hP' (len := len) hx w (by omega)) (by omega)) (by omega)
      rw [show m + (257 * (w.length + ws.flatten.length) + (ws.length + 1)) =
        m + 257 * w.length + 1 + (257 * ws.flatten.length + ws.length) by ring]
      exact this
  intro K hK
  cases hsched : sched with
  | nil => rw [hsched] at hK; cases hK
  | cons w ws =>
    rw [hsched] at hK s1 s2
    cases hK
    simp only [List.flatten_cons, List.length_append, List.length_cons] at s1 s2
    exact (merged ws _ _ (worker_diff hP hP' (len := len) hx w (by omega)) (by omega)).mono hP (by omega)

end Kmeans

/-- the error of a pass over a histogram in which something was counted -/
theorem error_small {T d : F} (h0 : 1 / 3000 ≤ loadMax T) (hT : NN (2 ^ 127) T) (hd : DiffOf (loadMax T) (2 ^ 22) d) : NN (2 ^ 40) (d /₆ T) := by
  have h2 : loadMax T ≤ 2 * val T := min_le_right _ _
  have hpos : 0 < val T := by linarith
  have q0 := div_nonneg hd.lo hpos.le
  have q1 : val d / val T ≤ 2 ^ 30 := by
    rw [div_le_iff₀ hpos]
    have := hd.hi
    push_cast at this
    norm_num at this ⊢
    linarith
  have hf := fits64_nn q0 q1 (by norm_num)
  obtain ⟨f, r⟩ := FltRound.div64 _ _ hd.fin hT.fin hpos.ne' hf
  refine ⟨f, ?_, (rounds64_le r q0 q1).trans (by norm_num)⟩
  rw [div64_eq _ _ hd.fin hT.fin hpos.ne' hf]; exact r64_nonneg q0

theorem matchItem_perc (n : Nearest F) (adjust : Bool) (x : HistItem F) : (Kmeans.matchItem n adjust x).1.perceptualWeight = x.perceptualWeight := by
  unfold Kmeans.matchItem
  dsimp only
  split <;> rfl

theorem matchItem_heavy {n : Nearest F} {adjust : Bool} {x : HistItem F} {k : ℕ} (hk : k ≤ maxRounds sm) (hx : ItemFin op sm (adjMax sm k) x)
    (hd : NN diffMax (Kmeans.matchItem n adjust x).2) (h0 : 1 / 3000 ≤ val x.perceptualWeight) (h1 : val x.perceptualWeight ≤ 2 * val x.adjustedWeight) :
    val x.perceptualWeight ≤ 2 * val (Kmeans.matchItem n adjust x).1.adjustedWeight := by
  unfold Kmeans.matchItem at hd ⊢
  dsimp only at hd ⊢
  cases adjust with
  | false => exact h1
  | true =>
    simp only [if_true] at hd ⊢
    exact heavy_step (hx.adj.mono (adjMax_le hk)) hx.perc hd h0 h1

theorem Loaded.pass {T : F} {k : ℕ} (hk : k ≤ maxRounds sm) {h : HistogramInternal F} (l : Loaded T h) (w : WorkFin op sm T k h) {env : Env F} {t : ℕ} {p : PalF F}
    {adj : Bool} (ha : adj = true → k < maxRounds sm ∧ ThinPal sm p) (hp : PalFin op p) :
    env.kmeansD true t h p adj = env.kmeans t h p adj ∧
    ∀ h' p' err, env.kmeans t h p adj = .ok (h', p', err) → Loaded T h' ∧ NN (2 ^ 40) err := by
  obtain ⟨m0, m1⟩ := l.max w.items
  have m2 : loadMax T ≤ percMax := min_le_left _ _
  have hb : adjMax sm (if adj then k + 1 else k) ≤ termMax := by
    apply adjMax_le
    split
    next h => have := (ha h).1; omega
    · exact hk
  have hmatch : ∀ n, Nearest.new p = .ok n → ∀ x ∈ h.items, ItemFin op sm termMax (Kmeans.matchItem n adj x).1 ∧ NN diffMax (Kmeans.matchItem n adj x).2 :=
    fun n hn x hx => let m := Kmeans.matchItem_ok hn hp adj ha (w.items x hx); ⟨m.1.mono hb, m.2⟩
  have hsums := fun n hn => Kmeans.reduce_sums (len := p.length) (env.sched_valid t _) w.len (hmatch n hn)
  constructor
  · refine Kmeans.iterationD_of (P := PalFin op) (fun q hq => hq.ok) _ h p adj (fun _ n hn x hx => ?_) (fun _ n hn x hx => ?_) (fun _ n K hn hK => ?_) hp
      (fun n K hn hK => ?_) (fun n hn q i q' hq e => ?_)
    · exact (hmatch n hn x hx).2.small (by unfold diffMax; norm_num)
    · exact (hmatch n hn x hx).1.adj.ge_zero
    · unfold Kmeans.finalizeChecks
      rw [List.all_eq_true]
      intro x hx
      have := ((hsums n hn K hK).avg x.1 (List.of_mem_zip hx).1).1
      rw [Bool.or_eq_true]
      exact .inr (nn_to32 this ((sumOf_fits le_rfl).trans (by norm_num))).ge_zero
    · exact Kmeans.finalizePalette_fin le_rfl (hsums n hn K hK) hp
    · refine Kmeans.replaceUnusedAt_fin (sm := sm) (b := termMax) ?_ q i q' hq e
      intro x hx
      obtain ⟨y, hy, rfl⟩ := List.mem_map.1 hx
      exact (hmatch n hn y hy).1
  · intro h' p' err e
    unfold Env.kmeans Kmeans.iteration at e
    rw [if_neg (by simpa using l.ne)] at e
    cases hn : Nearest.new p with
    | error f => rw [hn] at e; cases e
    | ok n =>
      rw [hn] at e
      simp only [bind, Except.bind] at e
      have hload : Loaded T { h with items := h.items.map fun x => (Kmeans.matchItem n adj x).1 } := by
        refine ⟨by simpa using l.ne, l.total, ?_⟩
        intro x hx
        obtain ⟨y, hy, rfl⟩ := List.mem_map.1 hx
        obtain ⟨a, b, c⟩ := l.items y hy
        rw [matchItem_perc]
        exact ⟨a, matchItem_heavy hk (w.items y hy) (hmatch n hn y hy).2 a b, c⟩
      have hdiff := Kmeans.reduce_diff m0 m2 (len := p.length) (env.sched_valid t _) w.len (n := n) (adjust := adj) (fun x hx => by
        refine ⟨?_, (hmatch n hn x hx).2⟩
        rw [matchItem_perc]
        exact ⟨(w.items x hx).perc.fin, (w.items x hx).perc.lo, m1 x hx⟩)
      cases hK : Kmeans.reduceWorkers ((env.sched t (Kmeans.numChunks h.items.length)).map (Kmeans.worker n adj p.length h.items)) with
      | none =>
        rw [hK] at e
        dsimp only at e
        split at e
        · cases e
        · cases e
          exact ⟨hload, nn_zero64.mono (by norm_num)⟩
      | some K =>
        rw [hK] at e
        dsimp only at e
        split at e
        · cases e
        · cases e
          refine ⟨hload, ?_⟩
          have := error_small m0 l.total (hdiff K hK)
          rw [w.total]; exact this

theorem Loaded.cut {T : F} {h h' : HistogramInternal F} (l : Loaded T h) (ht : h.Tiled) {o : SortOracle F} {n : ℕ} {a b : F} {pal : PalF F} (hn : n ≤ 256)
    (e : mediancut o h n a b = .ok (pal, h')) : Loaded T h' := by
  obtain ⟨pal', h'', boxes, e', c⟩ := mediancut_spec o h n a b ht hn
  rw [e] at e'; cases e'
  refine ⟨?_, l.total, ?_⟩
  · apply List.ne_nil_of_length_pos
    rw [c.items_len]; exact List.length_pos_iff.2 l.ne
  · intro x hx
    have : x.core ∈ h.items.map HistItem.core := c.items_core.mem_iff.1 (List.mem_map_of_mem hx)
    obtain ⟨y, hy, he⟩ := List.mem_map.1 this
    simp only [HistItem.core, Prod.mk.injEq] at he
    obtain ⟨-, e2, e3⟩ := he
    rw [← e2, ← e3]
    exact l.items y hy

end Verif
