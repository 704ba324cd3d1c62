import Verif.Lemmas.Kmeans

/-! Exact arithmetic: what a k-means pass accumulates, independent of the distribution over threads. -/

set_option linter.unusedSectionVars false

namespace Verif
open Flt

namespace ColorAvg

@[ext] theorem ext' {a b : ColorAvg ℝ} (hs : a.sum = b.sum) (ht : a.total = b.total) : a = b := by
  cases a; cases b; cases hs; cases ht; rfl

noncomputable instance : Zero (ColorAvg ℝ) := ⟨⟨⟨0, 0, 0, 0⟩, 0⟩⟩
noncomputable instance : Add (ColorAvg ℝ) :=
  ⟨fun x y => ⟨⟨x.sum.a + y.sum.a, x.sum.r + y.sum.r, x.sum.g + y.sum.g, x.sum.b + y.sum.b⟩, x.total + y.total⟩⟩

theorem add_def (x y : ColorAvg ℝ) : x + y =
  ⟨⟨x.sum.a + y.sum.a, x.sum.r + y.sum.r, x.sum.g + y.sum.g, x.sum.b + y.sum.b⟩, x.total + y.total⟩ := rfl

theorem zero_def : (0 : ColorAvg ℝ) = ⟨⟨0, 0, 0, 0⟩, 0⟩ := rfl

noncomputable instance : AddCommMonoid (ColorAvg ℝ) where
  add_assoc x y z := by simp only [add_def]; ext <;> simp only [add_assoc]
  zero_add x := by simp only [add_def, zero_def, zero_add]
  add_zero x := by simp only [add_def, zero_def, add_zero]
  add_comm x y := by simp only [add_def]; ext <;> simp only [add_comm]
  nsmul := nsmulRec

end ColorAvg

namespace Kmeans

/-- one pixel of colour `c` and weight `w` -/
noncomputable def unitAvg (c : FPixel ℝ) (w : ℝ) : ColorAvg ℝ := ⟨⟨c.a * w, c.r * w, c.g * w, c.b * w⟩, w⟩

/-- what the items assigned to entry `j` add up to -/
noncomputable def contrib (l : List (HistItem ℝ)) (j : ℕ) : ColorAvg ℝ :=
  ((l.filter (fun x => x.tmp = j)).map fun x => unitAvg x.color x.adjustedWeight).sum

theorem contrib_nil (j : ℕ) : contrib [] j = 0 := rfl

theorem contrib_cons (x : HistItem ℝ) (l : List (HistItem ℝ)) (j : ℕ) :
    contrib (x :: l) j = (if x.tmp = j then unitAvg x.color x.adjustedWeight else 0) + contrib l j := by
  unfold contrib
  by_cases h : x.tmp = j <;> simp [h]

theorem contrib_append (l m : List (HistItem ℝ)) (j : ℕ) : contrib (l ++ m) j = contrib l j + contrib m j := by
  simp [contrib]

theorem contrib_perm {l m : List (HistItem ℝ)} (h : l.Perm m) (j : ℕ) : contrib l j = contrib m j :=
  ((h.filter _).map _).sum_eq

theorem addTo_eq (px : FPixel ℝ) (v : ℝ) (c : ColorAvg ℝ) : addTo px v c = c + unitAvg px v := by
  simp [addTo, unitAvg, ColorAvg.add_def]

/-- the accumulators of entry `j`, zero outside -/
noncomputable def at' (k : Kmeans ℝ) (j : ℕ) : ColorAvg ℝ := k.averages.getD j 0

theorem updateColor_at (k : Kmeans ℝ) (px : FPixel ℝ) (v : ℝ) (m : ℕ) (hm : m < k.averages.length) (j : ℕ) :
    (k.updateColor px v m).at' j = k.at' j + (if m = j then unitAvg px v else 0) := by
  unfold at' updateColor
  simp only [List.getD_eq_getElem?_getD, List.getElem?_modify]
  by_cases h : m = j
  · subst h
    rw [List.getElem?_eq_getElem hm]
    simp [addTo_eq]
  · simp [h]

theorem updateColor_len (k : Kmeans ℝ) (px : FPixel ℝ) (v : ℝ) (m : ℕ) :
    (k.updateColor px v m).averages.length = k.averages.length := by
  simp [updateColor]

theorem updates_at (l : List (HistItem ℝ × ℝ)) (k : Kmeans ℝ) (h : ∀ x ∈ l, x.1.tmp < k.averages.length) :
    let k' := l.foldl (fun k x => k.updateColor x.1.color x.1.adjustedWeight x.1.tmp) k
    k'.averages.length = k.averages.length ∧ k'.weighedDiffSum = k.weighedDiffSum ∧
    ∀ j, k'.at' j = k.at' j + contrib (l.map Prod.fst) j := by
  induction l generalizing k with
  | nil => simp [contrib_nil]
  | cons x l ih =>
    have := ih (k.updateColor x.1.color x.1.adjustedWeight x.1.tmp) (by
      intro y hy; rw [updateColor_len]; exact h y (by simp [hy]))
    refine ⟨this.1.trans (updateColor_len ..), this.2.1, ?_⟩
    intro j
    rw [List.foldl_cons, this.2.2 j, updateColor_at _ _ _ _ (h x (by simp)), List.map_cons, contrib_cons, add_assoc]

/-- weighted error of the items -/
noncomputable def errorOf (l : List (HistItem ℝ × ℝ)) : ℝ := (l.map fun x => x.2 * x.1.perceptualWeight).sum

theorem sum64_real (l : List ℝ) : sum64 l = l.sum := by
  unfold sum64
  have : ∀ (l : List ℝ) (a : ℝ), l.foldl (fun a b => a +₆ b) a = a + l.sum := by
    intro l
    induction l with
    | nil => simp
    | cons x l ih => intro a; rw [List.foldl_cons, ih, List.sum_cons]; simp [add_assoc]
  have h := this l
  rw [h]; simp

theorem iterateBatch_at (n : Nearest ℝ) (adjust : Bool) (k : Kmeans ℝ) (b : List (HistItem ℝ))
    (h : ∀ x ∈ b, (matchItem n adjust x).1.tmp < k.averages.length) :
    (iterateBatch n adjust k b).averages.length = k.averages.length ∧
    (iterateBatch n adjust k b).weighedDiffSum = k.weighedDiffSum + errorOf (b.map (matchItem n adjust)) ∧
    ∀ j, (iterateBatch n adjust k b).at' j = k.at' j + contrib (b.map fun x => (matchItem n adjust x).1) j := by
  have := updates_at (b.map (matchItem n adjust)) k (by
    intro x hx; obtain ⟨y, hy, rfl⟩ := List.mem_map.1 hx; exact h y hy)
  obtain ⟨h1, h2, h3⟩ := this
  refine ⟨h1, ?_, ?_⟩
  · unfold iterateBatch
    simp only [real_add64, sum64_real]
    rw [h2]
    rfl
  · intro j
    have := h3 j
    rw [List.map_map] at this
    exact this

theorem worker_at (n : Nearest ℝ) (adjust : Bool) (len : ℕ) (items : List (HistItem ℝ)) (chunks : List ℕ)
    (h : ∀ x, (matchItem n adjust x).1.tmp < len) :
    (worker n adjust len items chunks).averages.length = len ∧
    (worker n adjust len items chunks).weighedDiffSum =
      errorOf ((chunks.flatMap (chunk items)).map (matchItem n adjust)) ∧
    ∀ j, (worker n adjust len items chunks).at' j =
      contrib ((chunks.flatMap (chunk items)).map fun x => (matchItem n adjust x).1) j := by
  unfold worker
  have key : ∀ (cs : List ℕ) (k : Kmeans ℝ), k.averages.length = len →
      let k' := cs.foldl (fun k i => iterateBatch n adjust k (chunk items i)) k
      k'.averages.length = len ∧
      k'.weighedDiffSum = k.weighedDiffSum + errorOf ((cs.flatMap (chunk items)).map (matchItem n adjust)) ∧
      ∀ j, k'.at' j = k.at' j + contrib ((cs.flatMap (chunk items)).map fun x => (matchItem n adjust x).1) j := by
    intro cs
    induction cs with
    | nil => intro k hk; simp [hk, errorOf, contrib_nil]
    | cons c cs ih =>
      intro k hk
      obtain ⟨a1, a2, a3⟩ := iterateBatch_at n adjust k (chunk items c) (fun x _ => by rw [hk]; exact h x)
      obtain ⟨b1, b2, b3⟩ := ih (iterateBatch n adjust k (chunk items c)) (a1.trans hk)
      refine ⟨b1, ?_, ?_⟩
      · rw [List.foldl_cons, b2, a2, List.flatMap_cons, List.map_append]
        simp [errorOf, add_assoc]
      · intro j
        rw [List.foldl_cons, b3, a3, List.flatMap_cons, List.map_append, contrib_append, add_assoc]
  obtain ⟨c1, c2, c3⟩ := key chunks (new len) (by simp [new])
  refine ⟨c1, ?_, ?_⟩
  · rw [c2]; simp [new]
  · intro j
    rw [c3]
    have : (new len : Kmeans ℝ).at' j = 0 := by
      unfold at' new
      simp only [List.getD_eq_getElem?_getD, List.getElem?_replicate]
      split <;> simp [ColorAvg.zero_def]
    rw [this, zero_add]

theorem merge_at (a b : Kmeans ℝ) (h : a.averages.length = b.averages.length) :
    (merge a b).averages.length = a.averages.length ∧
    (merge a b).weighedDiffSum = a.weighedDiffSum + b.weighedDiffSum ∧
    ∀ j, (merge a b).at' j = a.at' j + b.at' j := by
  refine ⟨by simp [merge, h], rfl, ?_⟩
  intro j
  unfold at' merge
  simp only [List.getD_eq_getElem?_getD, List.getElem?_zipWith]
  by_cases hj : j < a.averages.length
  · rw [List.getElem?_eq_getElem hj, List.getElem?_eq_getElem (h ▸ hj)]
    simp [ColorAvg.add_def]
  · rw [List.getElem?_eq_none (by omega), List.getElem?_eq_none (by omega)]
    simp

theorem mergeAll_at (ks : List (Kmeans ℝ)) (k : Kmeans ℝ) (len : ℕ) (h0 : k.averages.length = len)
    (h : ∀ x ∈ ks, x.averages.length = len) :
    (ks.foldl merge k).averages.length = len ∧
    (ks.foldl merge k).weighedDiffSum = k.weighedDiffSum + (ks.map (·.weighedDiffSum)).sum ∧
    ∀ j, (ks.foldl merge k).at' j = k.at' j + (ks.map (·.at' j)).sum := by
  induction ks generalizing k with
  | nil => simp [h0]
  | cons x ks ih =>
    obtain ⟨m1, m2, m3⟩ := merge_at k x (by rw [h0, h x (by simp)])
    obtain ⟨i1, i2, i3⟩ := ih (merge k x) (m1.trans h0) (fun y hy => h y (by simp [hy]))
    refine ⟨i1, ?_, ?_⟩
    · rw [List.foldl_cons, i2, m2, List.map_cons, List.sum_cons, add_assoc]
    · intro j
      rw [List.foldl_cons, i3, m3, List.map_cons, List.sum_cons, add_assoc]

theorem eq_of_at {a b : Kmeans ℝ} (hl : a.averages.length = b.averages.length)
    (hw : a.weighedDiffSum = b.weighedDiffSum) (h : ∀ j, a.at' j = b.at' j) : a = b := by
  have : a.averages = b.averages := by
    apply List.ext_getElem hl
    intro i h1 h2
    have := h i
    unfold at' at this
    simpa [List.getD_eq_getElem?_getD, h1, h2] using this
  cases a; cases b; cases this; cases hw; rfl

theorem chunks_flatten {α : Type} (l : List α) : (List.range (numChunks l.length)).flatMap (chunk l) = l := by
  have key : ∀ m, (List.range m).flatMap (chunk l) = l.take (m * chunkSize) := by
    intro m
    induction m with
    | zero => simp
    | succ m ih =>
      rw [List.range_succ, List.flatMap_append, ih]
      simp only [List.flatMap_cons, List.flatMap_nil, List.append_nil, chunk]
      rw [Nat.succ_mul, List.take_add]
  rw [key, List.take_of_length_le]
  unfold numChunks chunkSize
  omega

/-- The sums accumulated by all workers together, for any valid schedule. -/
theorem reduce_at (sched : List (List ℕ)) (n : Nearest ℝ) (adjust : Bool) (len : ℕ) (items : List (HistItem ℝ))
    (hs : SchedValid (numChunks items.length) sched) (h0 : items ≠ [])
    (h : ∀ x, (matchItem n adjust x).1.tmp < len) :
    ∃ k, reduceWorkers (sched.map (worker n adjust len items)) = some k ∧ k.averages.length = len ∧
      k.weighedDiffSum = errorOf (items.map (matchItem n adjust)) ∧
      ∀ j, k.at' j = contrib (items.map fun x => (matchItem n adjust x).1) j := by
  have hflat : (sched.flatMap (fun w => w.flatMap (chunk items))).Perm items := by
    have h1 : sched.flatMap (fun w => w.flatMap (chunk items)) = sched.flatten.flatMap (chunk items) := by
      simp only [List.flatMap_def, List.map_flatten, List.flatten_flatten, List.map_map]
      rfl
    rw [h1]
    have h2 := List.Perm.flatMap_right (chunk items) hs.1
    rw [chunks_flatten] at h2
    exact h2
  cases sched with
  | nil =>
    exfalso
    have := hflat.length_eq
    simp at this
    exact h0 (List.length_eq_zero_iff.1 this.symm)
  | cons w ws =>
    refine ⟨_, rfl, ?_⟩
    obtain ⟨m1, m2, m3⟩ := mergeAll_at (ws.map (worker n adjust len items)) (worker n adjust len items w) len
      (worker_at n adjust len items w h).1 (by
        intro x hx; obtain ⟨c, -, rfl⟩ := List.mem_map.1 hx; exact (worker_at n adjust len items c h).1)
    refine ⟨m1, ?_, ?_⟩
    · rw [m2, (worker_at n adjust len items w h).2.1, List.map_map]
      have : ∀ (ws : List (List ℕ)), (ws.map ((·.weighedDiffSum) ∘ worker n adjust len items)).sum =
          errorOf ((ws.flatMap fun w => w.flatMap (chunk items)).map (matchItem n adjust)) := by
        intro ws
        induction ws with
        | nil => simp [errorOf]
        | cons v ws ih =>
          rw [List.map_cons, List.sum_cons, ih, List.flatMap_cons, List.map_append]
          simp only [Function.comp, (worker_at n adjust len items v h).2.1]
          simp [errorOf]
      rw [this ws]
      have e := ((hflat.map (matchItem n adjust)).map fun x => x.2 * x.1.perceptualWeight).sum_eq
      rw [List.flatMap_cons, List.map_append] at e
      show errorOf _ + errorOf _ = _
      rw [show errorOf (items.map (matchItem n adjust)) = _ from e.symm]
      simp [errorOf]
    · intro j
      rw [m3, (worker_at n adjust len items w h).2.2, List.map_map]
      have : ∀ (ws : List (List ℕ)), (ws.map ((fun x => x.at' j) ∘ worker n adjust len items)).sum =
          contrib ((ws.flatMap fun w => w.flatMap (chunk items)).map fun x => (matchItem n adjust x).1) j := by
        intro ws
        induction ws with
        | nil => simp [contrib_nil]
        | cons v ws ih =>
          rw [List.map_cons, List.sum_cons, ih, List.flatMap_cons, List.map_append, contrib_append]
          simp only [Function.comp, (worker_at n adjust len items v h).2.2]
      rw [this ws, ← contrib_append, ← List.map_append, ← List.flatMap_cons]
      exact contrib_perm (hflat.map _) j

/-- the one accumulator that all schedules produce -/
noncomputable def total (n : Nearest ℝ) (adjust : Bool) (len : ℕ) (items : List (HistItem ℝ)) : Kmeans ℝ :=
  { averages := (List.range len).map (contrib (items.map fun x => (matchItem n adjust x).1))
    weighedDiffSum := errorOf (items.map (matchItem n adjust)) }

theorem reduce_eq (sched : List (List ℕ)) (n : Nearest ℝ) (adjust : Bool) (len : ℕ) (items : List (HistItem ℝ))
    (hs : SchedValid (numChunks items.length) sched) (h0 : items ≠ [])
    (h : ∀ x, (matchItem n adjust x).1.tmp < len) :
    reduceWorkers (sched.map (worker n adjust len items)) = some (total n adjust len items) := by
  obtain ⟨k, hk, h1, h2, h3⟩ := reduce_at sched n adjust len items hs h0 h
  rw [hk]
  congr 1
  apply eq_of_at
  · simp [h1, total]
  · rw [h2]; rfl
  · intro j
    rw [h3]
    unfold at' total
    simp only [List.getD_eq_getElem?_getD, List.getElem?_map]
    by_cases hj : j < len
    · rw [List.getElem?_range hj]; rfl
    · rw [List.getElem?_eq_none (by simpa using hj)]
      simp only [Option.map_none, Option.getD_none]
      unfold contrib
      rw [List.filter_eq_nil_iff.2]
      · simp
      · intro x hx
        obtain ⟨y, -, rfl⟩ := List.mem_map.1 hx
        have := h y
        simp; omega

end Kmeans
end Verif
