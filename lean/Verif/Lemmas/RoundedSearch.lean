import Verif.Lemmas.RoundedDiff
import Verif.Lemmas.NearestSearch

/-! The search tree with rounded arithmetic: the pruning loses at most a fixed distance. -/

set_option linter.unusedSectionVars false

namespace Verif
open Flt
open FltRound (val fin)

variable {F : Type} [Flt F] [FltOrd F]

/-- every colour of a palette is of moderate size -/
def PalF.Reach (p : PalF F) : Prop := ∀ e ∈ p, e.color.Reach

theorem palColor_reach {p : PalF F} (hp : p.Reach) {i : ℕ} (h : i < p.length) : (palColor p i).Reach := by
  simp only [palColor, List.getElem?_eq_getElem h]
  exact hp _ (List.getElem_mem h)

theorem vpDist_of (p : PalF F) (vp : FPixel F) {i : ℕ} (h : i < p.length) :
    vpDist p vp i = vp.diff (palColor p i) := by
  simp [vpDist, palColor, List.getElem?_eq_getElem h]

theorem fin_zero : fin (zero : F) ∧ val (zero : F) = 0 := by
  have h := FltRound.lit32 (F := F) 0 (by unfold Fits32; norm_num)
  exact ⟨h.1, h.2.2 (by norm_num)⟩

theorem vpDist_fin {p : PalF F} (hp : p.Reach) {vp : FPixel F} (hv : vp.Reach) (i : ℕ) : fin (vpDist p vp i) := by
  by_cases h : i < p.length
  · rw [vpDist_of p vp h]
    exact (diff_rounded hv (palColor_reach hp h)).1
  · simp only [vpDist, List.getElem?_eq_none (not_lt.1 h)]
    exact fin_zero.1

theorem sortByKey_pairwise_fin {α : Type} (key : α → F) (hk : ∀ x, fin (key x)) (l : List α) :
    (sortByKey key l).Pairwise (fun x y => val (key x) ≤ val (key y)) := by
  have e : ∀ x y, (!Flt.lt (key y) (key x)) = true ↔ val (key x) ≤ val (key y) := by
    intro x y
    rw [Bool.not_eq_true', ← Bool.not_eq_true, FltRound.lt _ _ (hk y) (hk x), not_lt]
  have h := List.pairwise_mergeSort (le := fun x y => !Flt.lt (key y) (key x))
    (by intro a b c h1 h2; rw [e] at *; exact h1.trans h2)
    (by
      intro a b
      rw [Bool.or_eq_true, e, e]
      exact le_total _ _) l
  refine h.imp ?_
  intro a b hab
  exact (e a b).1 hab

/-- near points are within the radius of the vantage point, far points are not inside it -/
def Node.RBall (p : PalF F) : Node F → Prop
  | .leaf _ _ _ => True
  | .nodes vp _ radius radiusSq near far =>
    fin radiusSq ∧ 0 ≤ val radiusSq ∧ fin radius ∧ radius = sqrt32 radiusSq ∧
    (∀ i ∈ near.idxs, val (vp.diff (palColor p i)) ≤ val radiusSq) ∧
    (∀ i ∈ far.idxs, val radiusSq ≤ val (vp.diff (palColor p i))) ∧
    near.RBall p ∧ far.RBall p

theorem vpCreate_rball {p : PalF F} (hr : p.Reach) (l : List ℕ) (hp : ∀ i ∈ l, i < p.length) :
    (vpCreate p l).RBall p := by
  induction l using vpCreate.induct (F := F) (p := p) with
  | case1 l h => rw [vpCreate, if_pos h]; trivial
  | case2 l h hnil =>
    exfalso
    have := length_popularFirst p l
    rw [hnil] at this
    simp at this
    omega
  | case3 l h ref rest heq vp sorted hle =>
    rw [vpCreate, if_neg h]
    split
    next heq' => rw [heq'] at heq; cases heq
    next ref' rest' heq' =>
      rw [heq] at heq'; cases heq'
      simp only
      rw [if_pos hle]
      trivial
  | case4 l h ref rest heq vp sorted hle half near far ih1 ih2 =>
    rw [vpCreate, if_neg h]
    have hperm := popularFirst_perm p l
    split
    next heq' => rw [heq'] at heq; cases heq
    next ref' rest' heq' =>
      rw [heq] at heq'; cases heq'
      rw [heq] at hperm
      have hvp : vp.Reach := palColor_reach hr (hp ref (hperm.subset (by simp)))
      have hs : sorted.Perm rest := sortByKey_perm _ _
      have hpw : sorted.Pairwise (fun x y => val (vpDist p vp x) ≤ val (vpDist p vp y)) :=
        sortByKey_pairwise_fin _ (vpDist_fin hr hvp) _
      simp only
      rw [if_neg hle]
      have hlen : ¬ sorted.length ≤ 6 := hle
      have hn : near ≠ [] := by
        intro h0
        have : near.length = 0 := by rw [h0]; rfl
        simp only [near, half, List.length_take] at this
        omega
      have hf : far ≠ [] := by
        intro h0
        have : far.length = 0 := by rw [h0]; rfl
        simp only [far, half, List.length_drop] at this
        omega
      have hmem : ∀ i ∈ sorted, i < p.length := fun i hi =>
        hp i (hperm.subset (List.mem_cons_of_mem _ (hs.subset hi)))
      have hmn : ∀ i ∈ near, i < p.length := fun i hi => hmem i (List.mem_of_mem_take hi)
      have hmf : ∀ i ∈ far, i < p.length := fun i hi => hmem i (List.mem_of_mem_drop hi)
      have hsplit : sorted = near ++ far := (List.take_append_drop _ _).symm
      rw [hsplit, List.pairwise_append] at hpw
      obtain ⟨-, hpf, hnf⟩ := hpw
      obtain ⟨f0, ft, hft⟩ := List.exists_cons_of_ne_nil hf
      have hr0 : farRadiusSq p vp far = vpDist p vp f0 := by rw [hft]; rfl
      have hf0 : f0 < p.length := hmf f0 (by rw [hft]; simp)
      have hd := diff_rounded hvp (palColor_reach hr hf0)
      have hq := root_rounded hvp (palColor_reach hr hf0)
      change Node.RBall p (Node.nodes vp ref (sqrt32 (farRadiusSq p vp far)) (farRadiusSq p vp far) (vpCreate p near) (vpCreate p far))
      refine ⟨?_, ?_, ?_, rfl, ?_, ?_, ih1 hmn, ih2 hmf⟩
      · rw [hr0, vpDist_of p vp hf0]; exact hd.1
      · rw [hr0, vpDist_of p vp hf0]; exact hd.2.1
      · rw [hr0, vpDist_of p vp hf0]; exact hq.1
      · intro i hi
        have hi' : i ∈ near := (vpCreate_idxs_perm p near hn hmn).subset hi
        rw [← vpDist_of p vp (hmn i hi'), hr0]
        exact hnf i hi' f0 (by rw [hft]; simp)
      · intro i hi
        have hi' : i ∈ far := (vpCreate_idxs_perm p far hf hmf).subset hi
        rw [← vpDist_of p vp (hmf i hi'), hr0]
        rw [hft] at hi' hpf
        rcases List.mem_cons.1 hi' with rfl | h'
        · exact le_refl _
        · exact (List.pairwise_cons.1 hpf).1 i h'

/-- a visitor with finite distances: either a distance and its root, or the largest number twice -/
structure Visitor.Good (v : Visitor F) : Prop where
  fin1 : fin v.distance
  fin2 : fin v.distanceSq
  nonneg : 0 ≤ val v.distanceSq
  root : v.distance = sqrt32 v.distanceSq ∨ (v.distance = f32Max ∧ v.distanceSq = f32Max)

/-- what one search step guarantees about the visitor -/
structure RImproves (p : PalF F) (needle : FPixel F) (S : List ℕ) (v v' : Visitor F) : Prop where
  excl : v'.exclude = v.exclude
  le : val v'.distance ≤ val v.distance
  good : v'.Good
  min : ∀ i ∈ S, v.exclude ≠ some i → val v'.distance ≤ (palColor p i).dist needle + 2 * fuzz
  from' : v' = v ∨ (v'.idx ∈ S ∧ v.exclude ≠ some v'.idx ∧
    v'.distanceSq = (palColor p v'.idx).diff needle ∧ v'.distance = sqrt32 v'.distanceSq)

theorem RImproves.trans {p : PalF F} {needle : FPixel F} {S T U : List ℕ} {v v' v'' : Visitor F}
    (h1 : RImproves p needle S v v') (h2 : RImproves p needle T v' v'')
    (hU : ∀ i, i ∈ U ↔ i ∈ S ∨ i ∈ T) : RImproves p needle U v v'' := by
  refine ⟨h2.excl.trans h1.excl, h2.le.trans h1.le, h2.good, ?_, ?_⟩
  · intro i hi he
    rcases (hU i).1 hi with h | h
    · exact h2.le.trans (h1.min i h he)
    · exact h2.min i h (h1.excl ▸ he)
  · rcases h2.from' with h | ⟨a, b, c, d⟩
    · rw [h]
      rcases h1.from' with h' | ⟨a, b, c, d⟩
      · left; exact h'
      · right; exact ⟨(hU _).2 (Or.inl a), b, c, d⟩
    · right; exact ⟨(hU _).2 (Or.inr a), h1.excl ▸ b, c, d⟩

theorem fuzz_nonneg : 0 ≤ fuzz := by unfold fuzz; norm_num
theorem fuzz_le : fuzz ≤ 1 := by unfold fuzz; norm_num

theorem visit_rimproves {p : PalF F} {needle : FPixel F} (hn : needle.Reach) {v : Visitor F} (i : ℕ) (c : FPixel F)
    (hc : c = palColor p i) (hr : c.Reach) (hv : v.Good) :
    RImproves p needle [i] v (v.visit (sqrt32 (c.diff needle)) (c.diff needle) i) := by
  subst hc
  obtain ⟨fd, zd, ed, bd⟩ := diff_rounded hr hn
  obtain ⟨fs, es, bs⟩ := root_rounded hr hn
  have es' := abs_le.1 es
  have hf0 := fuzz_nonneg
  have hf1 := fuzz_le
  have big := FltOrd.f32Max (F := F)
  have hD : val ((palColor p i).diff needle) < 2 ^ 127 := by
    have := (abs_le.1 ed).2
    have hu := u32_val
    have hτ := tiny32_le
    rw [hu] at this
    have h100 : val ((palColor p i).diff needle) ≤ 100 := by
      have : (1:ℝ) / 10 ^ 40 ≤ 1 / 1000 := by norm_num
      linarith
    exact lt_of_le_of_lt h100 (by norm_num)
  unfold Visitor.visit
  split
  next h =>
    rw [Bool.and_eq_true, FltRound.lt _ _ fd hv.fin2] at h
    refine ⟨rfl, ?_, ⟨fs, fd, zd, Or.inl rfl⟩, ?_, ?_⟩
    · show val (sqrt32 _) ≤ _
      rcases hv.root with e | ⟨e1, e2⟩
      · rw [e]
        exact FltOrd.sqrt_mono _ _ fd hv.fin2 zd h.1.le
      · rw [e1]
        refine le_trans ?_ big.2.1
        have : val (sqrt32 ((palColor p i).diff needle)) ≤ 10 := by linarith [es'.2]
        exact this.trans (by norm_num)
    · intro j hj _
      simp only [List.mem_singleton] at hj
      subst hj
      show val (sqrt32 _) ≤ _
      linarith [es'.2]
    · right; exact ⟨by simp, of_decide_eq_true h.2, rfl, rfl⟩
  next h =>
    refine ⟨rfl, le_refl _, hv, ?_, Or.inl rfl⟩
    intro j hj he
    simp only [List.mem_singleton] at hj
    subst hj
    have hlt : ¬ Flt.lt ((palColor p j).diff needle) v.distanceSq = true := by
      intro hl
      exact h (by rw [Bool.and_eq_true]; exact ⟨hl, decide_eq_true he⟩)
    rw [FltRound.lt _ _ fd hv.fin2, not_lt] at hlt
    rcases hv.root with e | ⟨e1, e2⟩
    · rw [e]
      have := FltOrd.sqrt_mono _ _ hv.fin2 fd hv.nonneg hlt
      linarith [es'.2]
    · exfalso
      rw [e2] at hlt
      linarith [big.2.1]

theorem RImproves.refl_of {p : PalF F} {needle : FPixel F} {S : List ℕ} {v : Visitor F} (hv : v.Good)
    (h : ∀ i ∈ S, val v.distance ≤ (palColor p i).dist needle + 2 * fuzz) : RImproves p needle S v v :=
  ⟨rfl, le_refl _, hv, fun i hi _ => h i hi, Or.inl rfl⟩

theorem leafScan_rimproves {p : PalF F} {needle : FPixel F} (hn : needle.Reach) (items : List (ℕ × FPixel F))
    (hc : ∀ x ∈ items, x.2 = palColor p x.1) (hr : ∀ x ∈ items, x.2.Reach) {v : Visitor F} (hv : v.Good) :
    RImproves p needle (items.map Prod.fst) v (leafScan needle v items) := by
  induction items generalizing v with
  | nil => exact RImproves.refl_of hv (by simp)
  | cons x xs ih =>
    obtain ⟨i, c⟩ := x
    have h1 := visit_rimproves hn i c (hc (i, c) (by simp)) (hr (i, c) (by simp)) hv
    have h2 := ih (fun x hx => hc x (by simp [hx])) (fun x hx => hr x (by simp [hx])) h1.good
    exact h1.trans h2 (by intro j; simp)

theorem vpSearch_rimproves {p : PalF F} {needle : FPixel F} (hp : p.Reach) (hn : needle.Reach) (n : Node F)
    (hi : ∀ i ∈ n.idxs, i < p.length) (hcol : n.Colored p) (hball : n.RBall p) {v : Visitor F} (hv : v.Good) :
    RImproves p needle n.idxs v (vpSearch needle n v) := by
  induction n generalizing v with
  | leaf vp idx items =>
    have hc1 : vp.Reach := hcol.1 ▸ palColor_reach hp (hi idx (by simp [Node.idxs]))
    have h1 := visit_rimproves hn idx vp hcol.1 hc1 hv
    have h2 := leafScan_rimproves hn items hcol.2 (by
      intro x hx
      rw [hcol.2 x hx]
      exact palColor_reach hp (hi x.1 (by
        simp only [Node.idxs, List.mem_cons, List.mem_map]
        exact Or.inr ⟨x, hx, rfl⟩))) h1.good
    exact h1.trans h2 (by intro j; simp [Node.idxs])
  | nodes vp idx radius radiusSq near far ihn ihf =>
    obtain ⟨hvp, hcn, hcf⟩ := hcol
    obtain ⟨fq, zq, fr, hrad, hbn, hbf, hbn', hbf'⟩ := hball
    have hc1 : vp.Reach := hvp ▸ palColor_reach hp (hi idx (by simp [Node.idxs]))
    have hin : ∀ i ∈ near.idxs, i < p.length := fun i h => hi i (by simp [Node.idxs, h])
    have hif : ∀ i ∈ far.idxs, i < p.length := fun i h => hi i (by simp [Node.idxs, h])
    have h1 := visit_rimproves hn idx vp hvp hc1 hv
    obtain ⟨fd, zd, -, -⟩ := diff_rounded hc1 hn
    obtain ⟨fs, es, -⟩ := root_rounded hc1 hn
    have es' := abs_le.1 es
    simp only [vpSearch]
    set v1 := v.visit (sqrt32 (vp.diff needle)) (vp.diff needle) idx with hv1
    split
    next hlt =>
      have h2 := ihn hin hcn hbn' h1.good
      set v2 := vpSearch needle near v1 with hv2
      split
      next hc =>
        have h3 := ihf hif hcf hbf' h2.good
        exact (h1.trans h2 (U := idx :: near.idxs) (by intro j; simp)).trans h3
          (by intro j; simp [Node.idxs, or_assoc])
      next hc =>
        have hc' : val (sqrt32 (vp.diff needle)) < val radius - val v2.distance := by
          by_contra hcon
          exact hc (FltOrd.sub_le_sqrt _ _ _ fd zd fr h2.good.fin1 (not_lt.1 hcon))
        have h3 : RImproves p needle far.idxs v2 v2 := by
          refine RImproves.refl_of h2.good ?_
          intro i hi
          have hri := palColor_reach hp (hif i hi)
          have t := FPixel.dist_triangle vp needle (palColor p i)
          obtain ⟨fi, zi, -, -⟩ := diff_rounded hc1 hri
          have hr := FltOrd.sqrt_mono _ _ fq fi zq (hbf i hi)
          have ei := abs_le.1 (root_rounded hc1 hri).2.1
          rw [FPixel.dist_comm needle] at t
          rw [hrad] at hc'
          linarith [es'.1, ei.2]
        exact (h1.trans h2 (U := idx :: near.idxs) (by intro j; simp)).trans h3
          (by intro j; simp [Node.idxs, or_assoc])
    next hlt =>
      have h2 := ihf hif hcf hbf' h1.good
      set v2 := vpSearch needle far v1 with hv2
      split
      next hc =>
        have h3 := ihn hin hcn hbn' h2.good
        exact (h1.trans h2 (U := idx :: far.idxs) (by intro j; simp)).trans h3
          (by intro j; simp [Node.idxs]; tauto)
      next hc =>
        have hc' : val radius + val v2.distance < val (sqrt32 (vp.diff needle)) := by
          by_contra hcon
          exact hc (FltOrd.sqrt_le_add _ _ _ fd zd fr h2.good.fin1 (not_lt.1 hcon))
        have h3 : RImproves p needle near.idxs v2 v2 := by
          refine RImproves.refl_of h2.good ?_
          intro i hi
          have hri := palColor_reach hp (hin i hi)
          have t := FPixel.dist_triangle vp (palColor p i) needle
          obtain ⟨fi, zi, -, -⟩ := diff_rounded hc1 hri
          have hr := FltOrd.sqrt_mono _ _ fi fq zi (hbn i hi)
          have ei := abs_le.1 (root_rounded hc1 hri).2.1
          rw [hrad] at hc'
          linarith [es'.2, ei.1]
        exact (h1.trans h2 (U := idx :: far.idxs) (by intro j; simp)).trans h3
          (by intro j; simp [Node.idxs]; tauto)

theorem root_rimproves {p : PalF F} (hr : p.Reach) (hp : 0 < p.length) {needle : FPixel F} (hn : needle.Reach) {v : Visitor F}
    (hv : v.Good) :
    RImproves p needle (List.range p.length) v (vpSearch needle (vpCreate p (List.range p.length)) v) := by
  have hmem : ∀ i ∈ List.range p.length, i < p.length := by simp
  have hne : List.range p.length ≠ [] := by
    rw [ne_eq, List.range_eq_nil]; omega
  have hperm := vpCreate_idxs_perm p _ hne hmem
  have h := vpSearch_rimproves hr hn _ (fun i hi => hmem i (hperm.subset hi)) (vpCreate_colored p _ hmem)
    (vpCreate_rball hr _ hmem) hv
  refine ⟨h.excl, h.le, h.good, fun i hi => h.min i (hperm.symm.subset hi), ?_⟩
  rcases h.from' with h' | ⟨a, b⟩
  · exact Or.inl h'
  · exact Or.inr ⟨hperm.subset a, b⟩

/-- a search that starts without a candidate takes the first colour it meets -/
theorem vpSearch_inf {needle : FPixel F} (hn : needle.Reach) (n : Node F) (vp : FPixel F) (idx : ℕ)
    (hroot : (∃ items, n = .leaf vp idx items) ∨ ∃ r q a b, n = .nodes vp idx r q a b) (hvp : vp.Reach) (k : ℕ) :
    vpSearch needle n { distance := inf, distanceSq := inf, idx := k, exclude := none } =
      vpSearch needle n { distance := sqrt32 (vp.diff needle), distanceSq := vp.diff needle, idx := idx, exclude := none } := by
  obtain ⟨fd, zd, ed, bd⟩ := diff_rounded hvp hn
  have hD : val (vp.diff needle) ≤ 2 ^ 127 := by
    have := (abs_le.1 ed).2
    have hu := u32_val
    have hτ := tiny32_le
    rw [hu] at this
    have h100 : val (vp.diff needle) ≤ 100 := by
      have : (1:ℝ) / 10 ^ 40 ≤ 1 / 1000 := by norm_num
      linarith
    exact h100.trans (by norm_num)
  have e1 : Visitor.visit { distance := inf, distanceSq := inf, idx := k, exclude := none } (sqrt32 (vp.diff needle))
      (vp.diff needle) idx = { distance := sqrt32 (vp.diff needle), distanceSq := vp.diff needle, idx := idx, exclude := none } := by
    unfold Visitor.visit
    rw [if_pos]
    rw [Bool.and_eq_true]
    exact ⟨FltOrd.lt_inf _ fd hD, by simp⟩
  have e2 : Visitor.visit { distance := sqrt32 (vp.diff needle), distanceSq := vp.diff needle, idx := idx, exclude := none }
      (sqrt32 (vp.diff needle)) (vp.diff needle) idx =
      { distance := sqrt32 (vp.diff needle), distanceSq := vp.diff needle, idx := idx, exclude := none } := by
    unfold Visitor.visit
    split <;> rfl
  rcases hroot with ⟨items, rfl⟩ | ⟨r, q, a, b, rfl⟩
  · simp only [vpSearch, e1, e2]
  · simp only [vpSearch, e1, e2]

/-- the root of the tree holds a palette colour -/
theorem vpCreate_root (p : PalF F) (hp : 0 < p.length) : ∃ vp idx,
    ((∃ items, vpCreate p (List.range p.length) = .leaf vp idx items) ∨
      ∃ r q a b, vpCreate p (List.range p.length) = .nodes vp idx r q a b) ∧ idx < p.length ∧ palColor p idx = vp := by
  have hmem : ∀ i ∈ List.range p.length, i < p.length := by simp
  have hne : List.range p.length ≠ [] := by
    rw [ne_eq, List.range_eq_nil]; omega
  have hperm := vpCreate_idxs_perm p _ hne hmem
  have hcol := vpCreate_colored p _ hmem
  cases hc : vpCreate p (List.range p.length) with
  | leaf vp idx items =>
    rw [hc] at hperm hcol
    exact ⟨vp, idx, Or.inl ⟨items, rfl⟩, List.mem_range.1 (hperm.subset (by simp [Node.idxs])), hcol.1.symm⟩
  | nodes vp idx r q a b =>
    rw [hc] at hperm hcol
    exact ⟨vp, idx, Or.inr ⟨r, q, a, b, rfl⟩, List.mem_range.1 (hperm.subset (by simp [Node.idxs])), hcol.1.symm⟩

/-- the exact root of a difference computed in floats -/
theorem diff_root {x y : FPixel F} (hx : x.Reach) (hy : y.Reach) : |Real.sqrt (val (x.diff y)) - x.dist y| ≤ fuzz := by
  obtain ⟨f, z, e, b⟩ := diff_rounded hx hy
  have hu := u32_val
  have hτ := tiny32_le
  have hE := (root_rounded hx hy).2.2
  have n := FPixel.dist_nonneg x y
  rw [← FPixel.dist_sq] at e
  have s1 := sqrt_error (D := val (x.diff y)) (E := x.dist y) (k := 13 * u32) (t := 2 / 10 ^ 19) n (by rw [hu]; norm_num)
    (by rw [hu]; norm_num) (by norm_num) (e.trans (by linarith))
  refine s1.trans ?_
  rw [hu]
  unfold fuzz
  linarith

/-- the early-exit table never exceeds a quarter of the distance to any other palette colour by much -/
theorem nearestOther_rounded {p : PalF F} (hp : p.Reach) {i j : ℕ} (hi : i < p.length) (hj : j < p.length) (hij : j ≠ i) :
    fin (nearestOtherDist (vpCreate p (List.range p.length)) p i) ∧
    Real.sqrt (val (nearestOtherDist (vpCreate p (List.range p.length)) p i)) ≤ (palColor p j).dist (palColor p i) / 2 + 3 / 2 * fuzz := by
  obtain ⟨v, hv⟩ : ∃ v, v = vpSearch (palColor p i) (vpCreate p (List.range p.length))
    { idx := 0, distance := f32Max, distanceSq := f32Max, exclude := some i } := ⟨_, rfl⟩
  have hdef : nearestOtherDist (vpCreate p (List.range p.length)) p i = v.distanceSq /₃ lit32 4 := by rw [hv]; rfl
  have big := FltOrd.f32Max (F := F)
  have h := root_rimproves hp (by omega) (palColor_reach hp hi)
    (v := { idx := 0, distance := f32Max, distanceSq := f32Max, exclude := some i })
    ⟨big.1, big.1, le_trans (by positivity) big.2.1, Or.inr ⟨rfl, rfl⟩⟩
  rw [← hv] at h
  have hm := h.min j (by simpa using hj) (by simp only [ne_eq, Option.some.injEq]; exact fun e => hij e.symm)
  have hE := (root_rounded (palColor_reach hp hj) (palColor_reach hp hi)).2.2
  have hE0 := FPixel.dist_nonneg (palColor p j) (palColor p i)
  have hf0 := fuzz_nonneg
  have hf1 := fuzz_le
  obtain ⟨hidx, -, hsq, hroot⟩ : v.idx ∈ List.range p.length ∧ some i ≠ some v.idx ∧
      v.distanceSq = (palColor p v.idx).diff (palColor p i) ∧ v.distance = sqrt32 v.distanceSq := by
    rcases h.from' with e | e
    · exfalso
      rw [e] at hm
      have h2 : (2:ℝ) ^ 127 ≤ 10 := big.2.1.trans (hm.trans (by linarith))
      norm_num at h2
    · exact e
  have hr2 := palColor_reach hp (List.mem_range.1 hidx)
  obtain ⟨fd, zd, ed, bd⟩ := diff_rounded hr2 (palColor_reach hp hi)
  rw [← hsq] at fd zd ed
  have hu := u32_val
  have hτ : tiny32 ≤ 1 / 10 ^ 40 := tiny32_le
  have hτ0 := tiny32_nonneg
  have hq : val v.distanceSq ≤ 20 := by
    have := (abs_le.1 ed).2
    rw [hu] at this
    have : (1:ℝ) / 10 ^ 40 ≤ 1 / 1000 := by norm_num
    linarith
  obtain ⟨s, hs⟩ : ∃ s, s = Real.sqrt (val v.distanceSq) := ⟨_, rfl⟩
  have hs0 : 0 ≤ s := hs ▸ Real.sqrt_nonneg _
  have hs2 : s ^ 2 = val v.distanceSq := by rw [hs, Real.sq_sqrt zd]
  have hs5 : s ≤ 5 := by nlinarith
  obtain ⟨-, r⟩ := FltRound.sqrt32 v.distanceSq fd zd (fits32_small (by rw [← hs, abs_of_nonneg hs0]; linarith))
  have r1 := (abs_le.1 r.1).1
  rw [← hs, abs_of_nonneg hs0, ← hroot] at r1
  have hsE : s ≤ (palColor p j).dist (palColor p i) + 2 * fuzz + 1 / 10 ^ 6 := by
    rw [hu] at r1
    have : (1:ℝ) / 10 ^ 40 ≤ 1 / 10 ^ 8 := by norm_num
    linarith
  obtain ⟨f4, r4⟩ := FltRound.lit32 (F := F) 4 (fits32_small (by norm_num))
  have r4' := r4.1
  push_cast at r4'
  rw [abs_of_pos (by norm_num : (0:ℝ) < 4)] at r4'
  have hv4 := abs_le.1 r4'
  have hv4' : (3.99:ℝ) ≤ val (lit32 4 : F) := by
    rw [hu] at hv4
    have : (1:ℝ) / 10 ^ 40 ≤ 1 / 10 ^ 8 := by norm_num
    linarith [hv4.1]
  have hv0 : (0:ℝ) < val (lit32 4 : F) := by linarith
  have hdq : val v.distanceSq / val (lit32 4 : F) ≤ 0.2507 * val v.distanceSq := by
    rw [div_le_iff₀ hv0]
    nlinarith
  have hdq0 : 0 ≤ val v.distanceSq / val (lit32 4 : F) := div_nonneg zd hv0.le
  obtain ⟨fQ, rQ⟩ := FltRound.div32 v.distanceSq (lit32 4) fd f4 hv0.ne' (fits32_small (by
    rw [abs_of_nonneg hdq0]; linarith))
  have rQ' := rQ.1
  rw [abs_of_nonneg hdq0] at rQ'
  have e2 : |val v.distanceSq / val (lit32 4 : F) - val v.distanceSq / 4| ≤ 0.26 * u32 * val v.distanceSq := by
    have : val v.distanceSq / val (lit32 4 : F) - val v.distanceSq / 4 =
        (val v.distanceSq / val (lit32 4 : F)) * ((4 - val (lit32 4 : F)) / 4) := by
      field_simp
    rw [this, abs_mul, abs_of_nonneg hdq0]
    have : |(4 - val (lit32 4 : F)) / 4| ≤ 1.01 * u32 := by
      rw [abs_div, abs_of_pos (by norm_num : (0:ℝ) < 4), abs_sub_comm]
      have : tiny32 ≤ 0.04 * u32 := by rw [hu]; exact hτ.trans (by norm_num)
      linarith
    have hu0 := u32_nonneg
    calc _ ≤ (0.2507 * val v.distanceSq) * (1.01 * u32) := mul_le_mul hdq this (abs_nonneg _) (by linarith)
      _ ≤ 0.26 * u32 * val v.distanceSq := by nlinarith [mul_nonneg hu0 zd]
  have e3 : |val (v.distanceSq /₃ lit32 4) - (s / 2) ^ 2| ≤ 4 * u32 * (s / 2) ^ 2 + (1 / 10 ^ 20) ^ 2 := by
    have h4 : (s / 2) ^ 2 = val v.distanceSq / 4 := by rw [← hs2]; ring
    rw [h4]
    have : val (v.distanceSq /₃ lit32 4) - val v.distanceSq / 4 =
      (val (v.distanceSq /₃ lit32 4) - val v.distanceSq / val (lit32 4 : F)) +
        (val v.distanceSq / val (lit32 4 : F) - val v.distanceSq / 4) := by ring
    rw [this]
    refine (abs_add_le _ _).trans ?_
    have hu0 := u32_nonneg
    have h5 : u32 * (val v.distanceSq / val (lit32 4 : F)) ≤ u32 * (0.2507 * val v.distanceSq) := mul_le_mul_of_nonneg_left hdq hu0
    have h6 : ((1:ℝ) / 10 ^ 20) ^ 2 = 1 / 10 ^ 40 := by norm_num
    rw [h6]
    have h7 := mul_nonneg hu0 zd
    have h8 : u32 * (0.2507 * val v.distanceSq) = 0.2507 * (u32 * val v.distanceSq) := by ring
    have h9 : 0.26 * u32 * val v.distanceSq = 0.26 * (u32 * val v.distanceSq) := by ring
    have h10 : 4 * u32 * (val v.distanceSq / 4) = u32 * val v.distanceSq := by ring
    linarith
  have e4 := (abs_le.1 (sqrt_error (by linarith : 0 ≤ s / 2) (by rw [hu]; norm_num) (by rw [hu]; norm_num) (by norm_num) e3)).2
  rw [hdef]
  refine ⟨fQ, ?_⟩
  rw [hu] at e4
  have h20 : (1:ℝ) / 10 ^ 20 ≤ 1 / 10 ^ 8 := by norm_num
  unfold fuzz at *
  linarith

/-- the result of a search: a palette index, the difference to that colour, and a distance that no palette colour
undercuts by more than a fixed amount -/
theorem Nearest.search_rounded {p : PalF F} {n : Nearest F} (hn : Nearest.new p = .ok n) (hp : p.Reach) {px : FPixel F}
    (hpx : px.Reach) (likely : ℕ) :
    (n.search px likely).1 < p.length ∧
    ((n.search px likely).2 = px.diff (palColor p (n.search px likely).1) ∨
      (n.search px likely).2 = (palColor p (n.search px likely).1).diff px) ∧
    ∀ j < p.length, px.dist (palColor p (n.search px likely).1) ≤ px.dist (palColor p j) + 5 * fuzz := by
  refine ⟨Nearest.search_lt hn px likely, ?_⟩
  obtain ⟨hpos, -, hpal, hroot, hoth⟩ := Nearest.new_ok hn
  have hf0 := fuzz_nonneg
  unfold Nearest.search
  rw [hpal]
  split
  next e he =>
    obtain ⟨hlt, hel⟩ := List.getElem?_eq_some_iff.1 he
    have hcol : palColor p likely = e.color := by simp [palColor, he]
    have hrl := palColor_reach hp hlt
    obtain ⟨fd, zd, -, -⟩ := diff_rounded hpx hrl
    obtain ⟨fs, es, bs⟩ := root_rounded hpx hrl
    have es' := abs_le.1 es
    dsimp only
    by_cases hearly : lt (px.diff e.color) (n.nearestOther.getD likely zero) = true
    · simp only [if_pos hearly]
      rw [← hcol] at hearly ⊢
      refine ⟨Or.inl rfl, ?_⟩
      intro j hj
      by_cases hjl : j = likely
      · subst hjl; linarith
      · have hoth' : n.nearestOther.getD likely zero =
            nearestOtherDist (vpCreate p (List.range p.length)) p likely := by
          rw [hoth, List.getD_eq_getElem?_getD, List.getElem?_map, List.getElem?_range hlt]
          rfl
        obtain ⟨fo, ho⟩ := nearestOther_rounded hp hlt hj hjl
        rw [hoth', FltRound.lt _ _ fd fo] at hearly
        have h1 := Real.sqrt_le_sqrt hearly.le
        have h2 : px.dist (palColor p likely) ≤ Real.sqrt (val (px.diff (palColor p likely))) + fuzz := by
          have := (diff_root hpx hrl)
          linarith [(abs_le.1 this).1]
        have t := FPixel.dist_triangle (palColor p j) px (palColor p likely)
        rw [FPixel.dist_comm (palColor p j) px] at t
        linarith
    · simp only [if_neg hearly]
      rw [hroot, ← hcol]
      have h := root_rimproves hp hpos hpx
        (v := { distance := sqrt32 (px.diff (palColor p likely)), distanceSq := px.diff (palColor p likely), idx := likely, exclude := none })
        ⟨fs, fd, zd, Or.inl rfl⟩
      revert h
      generalize vpSearch px (vpCreate p (List.range p.length))
        { distance := sqrt32 (px.diff (palColor p likely)), distanceSq := px.diff (palColor p likely), idx := likely, exclude := none } = v
      intro h
      rcases h.from' with e | ⟨a, b, c, d⟩
      · rw [e]
        refine ⟨Or.inl rfl, ?_⟩
        intro j hj
        have := h.min j (by simpa using hj) (by simp)
        rw [e, FPixel.dist_comm (palColor p j)] at this
        simp only at this ⊢
        linarith
      · refine ⟨Or.inr c, ?_⟩
        intro j hj
        have := h.min j (by simpa using hj) (by simp)
        rw [FPixel.dist_comm (palColor p j), d, c] at this
        have e3 := abs_le.1 (root_rounded (palColor_reach hp (List.mem_range.1 a)) hpx).2.1
        rw [FPixel.dist_comm px (palColor p v.idx)]
        linarith [e3.1]
  next he =>
    simp only
    rw [hroot]
    obtain ⟨vp, idx, hshape, hidx, hvp⟩ := vpCreate_root p hpos
    have hrv : vp.Reach := hvp ▸ palColor_reach hp hidx
    rw [vpSearch_inf hpx _ vp idx hshape hrv]
    obtain ⟨fd, zd, -, -⟩ := diff_rounded hrv hpx
    obtain ⟨fs, es, bs⟩ := root_rounded hrv hpx
    have es' := abs_le.1 es
    have h := root_rimproves hp hpos hpx
      (v := { distance := sqrt32 (vp.diff px), distanceSq := vp.diff px, idx := idx, exclude := none })
      ⟨fs, fd, zd, Or.inl rfl⟩
    revert h
    generalize vpSearch px (vpCreate p (List.range p.length))
      { distance := sqrt32 (vp.diff px), distanceSq := vp.diff px, idx := idx, exclude := none } = v
    intro h
    have key : v.distanceSq = (palColor p v.idx).diff px ∧ v.distance = sqrt32 v.distanceSq ∧ v.idx < p.length := by
      rcases h.from' with e | ⟨a, b, c, d⟩
      · rw [e]; exact ⟨by rw [← hvp], rfl, hidx⟩
      · exact ⟨c, d, List.mem_range.1 a⟩
    obtain ⟨c, d, hlt⟩ := key
    refine ⟨Or.inr c, ?_⟩
    intro j hj
    have := h.min j (by simpa using hj) (by simp)
    rw [FPixel.dist_comm (palColor p j), d, c] at this
    have e3 := abs_le.1 (root_rounded (palColor_reach hp hlt) hpx).2.1
    rw [FPixel.dist_comm px (palColor p v.idx)]
    linarith [e3.1]

end Verif
