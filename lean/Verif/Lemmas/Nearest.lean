import Verif.Model.Nearest
import Verif.Lemmas.Basic
import Verif.Lemmas.Metric

/-! The search tree: structure (any floats) and correctness of the pruning (exact). -/

namespace Verif
open Flt

section AnyFloat
variable {F : Type} [Flt F]

/-- all palette indices stored in a tree -/
def Node.idxs : Node F → List ℕ
  | .leaf _ idx items => idx :: items.map Prod.fst
  | .nodes _ idx _ _ near far => idx :: (near.idxs ++ far.idxs)

/-- every stored colour is the palette colour of the stored index -/
def Node.Colored (p : PalF F) : Node F → Prop
  | .leaf vp idx items => vp = palColor p idx ∧ ∀ x ∈ items, x.2 = palColor p x.1
  | .nodes vp idx _ _ near far => vp = palColor p idx ∧ near.Colored p ∧ far.Colored p

theorem popularFirst_perm (p : PalF F) (l : List ℕ) : (popularFirst p l).Perm l :=
  swapAt_perm _ _ _

theorem leafItem_fst (p : PalF F) {i : ℕ} (h : i < p.length) : (leafItem p i).1 = i := by
  simp [leafItem, List.getElem?_eq_getElem h]

theorem leafItem_snd (p : PalF F) {i : ℕ} (h : i < p.length) : (leafItem p i).2 = palColor p i := by
  simp [leafItem, palColor, List.getElem?_eq_getElem h]

theorem vpCreate_idxs_perm (p : PalF F) (l : List ℕ) (hl : l ≠ []) (hp : ∀ i ∈ l, i < p.length) :
    (vpCreate p l).idxs.Perm l := by
  induction l using vpCreate.induct (F := F) (p := p) with
  | case1 l h =>
    rw [vpCreate, if_pos h]
    match l, hl with
    | [x], _ => simp [Node.idxs]
    | x :: y :: t, _ => simp at h
  | case2 l h hnil =>
    exfalso
    have := length_popularFirst p l
    rw [hnil] at this
    exact hl (List.length_eq_zero_iff.1 this.symm)
  | case3 l h ref rest heq vp sorted hle =>
    rw [vpCreate, if_neg h]
    have hperm := popularFirst_perm p l
    split
    next heq' => rw [heq'] at heq; cases heq
    next ref' rest' heq' =>
      rw [heq] at heq'; cases heq'
      rw [heq] at hperm
      have hs : sorted.Perm rest := sortByKey_perm _ _
      simp only
      rw [if_pos hle]
      simp only [Node.idxs, List.map_map]
      refine List.Perm.trans (List.Perm.cons _ ?_) hperm
      refine List.Perm.trans (List.Perm.of_eq ?_) hs
      conv_rhs => rw [← List.map_id sorted]
      apply List.map_congr_left
      intro i hi
      exact leafItem_fst p (hp i (hperm.subset (List.mem_cons_of_mem _ (hs.subset hi))))
  | case4 l h ref rest heq vp sorted hle half near far ih1 ih2 =>
    rw [vpCreate, if_neg h]
    have hperm := popularFirst_perm p l
    split
    next heq' => rw [heq'] at heq; cases heq
    next ref' rest' heq' =>
      rw [heq] at heq'; cases heq'
      rw [heq] at hperm
      have hs : sorted.Perm rest := sortByKey_perm _ _
      simp only
      rw [if_neg hle]
      simp only [Node.idxs]
      have hlen : ¬ sorted.length ≤ 6 := hle
      have hn : near ≠ [] := by
        intro h0
        have : near.length = 0 := by rw [h0]; rfl
        simp only [near, half, List.length_take] at this
        omega
      have hf : far ≠ [] := by
        intro h0
        have : far.length = 0 := by rw [h0]; rfl
        simp only [far, half, List.length_drop] at this
        omega
      have hmem : ∀ i ∈ sorted, i < p.length := fun i hi =>
        hp i (hperm.subset (List.mem_cons_of_mem _ (hs.subset hi)))
      have p1 := ih1 hn (fun i hi => hmem i (List.mem_of_mem_take hi))
      have p2 := ih2 hf (fun i hi => hmem i (List.mem_of_mem_drop hi))
      refine List.Perm.trans (List.Perm.cons _ ?_) hperm
      refine (p1.append p2).trans ?_
      rw [List.take_append_drop]
      exact hs

theorem vpCreate_colored (p : PalF F) (l : List ℕ) (hp : ∀ i ∈ l, i < p.length) :
    (vpCreate p l).Colored p := by
  induction l using vpCreate.induct (F := F) (p := p) with
  | case1 l h =>
    rw [vpCreate, if_pos h]
    simp [Node.Colored]
  | case2 l h hnil =>
    exfalso
    have := length_popularFirst p l
    rw [hnil] at this
    simp at this
    omega
  | case3 l h ref rest heq vp sorted hle =>
    rw [vpCreate, if_neg h]
    have hperm := popularFirst_perm p l
    split
    next heq' => rw [heq'] at heq; cases heq
    next ref' rest' heq' =>
      rw [heq] at heq'; cases heq'
      rw [heq] at hperm
      have hs : sorted.Perm rest := sortByKey_perm _ _
      simp only
      rw [if_pos hle]
      refine ⟨rfl, ?_⟩
      intro x hx
      obtain ⟨i, hi, rfl⟩ := List.mem_map.1 hx
      have hlt := hp i (hperm.subset (List.mem_cons_of_mem _ (hs.subset hi)))
      rw [leafItem_snd p hlt, leafItem_fst p hlt]
  | case4 l h ref rest heq vp sorted hle half near far ih1 ih2 =>
    rw [vpCreate, if_neg h]
    have hperm := popularFirst_perm p l
    split
    next heq' => rw [heq'] at heq; cases heq
    next ref' rest' heq' =>
      rw [heq] at heq'; cases heq'
      rw [heq] at hperm
      have hs : sorted.Perm rest := sortByKey_perm _ _
      simp only
      rw [if_neg hle]
      have hmem : ∀ i ∈ sorted, i < p.length := fun i hi =>
        hp i (hperm.subset (List.mem_cons_of_mem _ (hs.subset hi)))
      exact ⟨rfl, ih1 (fun i hi => hmem i (List.mem_of_mem_take hi)),
        ih2 (fun i hi => hmem i (List.mem_of_mem_drop hi))⟩

theorem Visitor.visit_idx (v : Visitor F) (d dq : F) (i : ℕ) :
    (v.visit d dq i).idx = v.idx ∨ (v.visit d dq i).idx = i := by
  unfold Visitor.visit; split <;> simp

theorem Visitor.visit_exclude (v : Visitor F) (d dq : F) (i : ℕ) :
    (v.visit d dq i).exclude = v.exclude := by
  unfold Visitor.visit; split <;> simp

theorem leafScan_idx (needle : FPixel F) (items : List (ℕ × FPixel F)) (v : Visitor F) :
    (leafScan needle v items).idx = v.idx ∨ (leafScan needle v items).idx ∈ items.map Prod.fst := by
  induction items generalizing v with
  | nil => simp [leafScan]
  | cons x xs ih =>
    obtain ⟨i, c⟩ := x
    simp only [leafScan, List.map_cons, List.mem_cons]
    rcases ih (v.visit (sqrt32 (c.diff needle)) (c.diff needle) i) with h | h
    · rw [h]
      rcases Visitor.visit_idx v (sqrt32 (c.diff needle)) (c.diff needle) i with h' | h'
      · left; exact h'
      · right; left; exact h'
    · right; right; exact h

/-- any-float: a search only ever returns the starting index or an index stored in the tree -/
theorem vpSearch_idx (needle : FPixel F) (n : Node F) (v : Visitor F) :
    (vpSearch needle n v).idx = v.idx ∨ (vpSearch needle n v).idx ∈ n.idxs := by
  induction n generalizing v with
  | leaf vp idx items =>
    simp only [vpSearch, Node.idxs, List.mem_cons]
    rcases leafScan_idx needle items (v.visit (sqrt32 (vp.diff needle)) (vp.diff needle) idx) with h | h
    · rw [h]
      rcases Visitor.visit_idx v (sqrt32 (vp.diff needle)) (vp.diff needle) idx with h' | h'
      · left; exact h'
      · right; left; exact h'
    · right; right; exact h
  | nodes vp idx radius radiusSq near far ihn ihf =>
    simp only [vpSearch, Node.idxs, List.mem_cons, List.mem_append]
    set v1 := v.visit (sqrt32 (vp.diff needle)) (vp.diff needle) idx with hv1
    have h1 : v1.idx = v.idx ∨ v1.idx = idx := Visitor.visit_idx _ _ _ _
    have hn1 := ihn v1
    have hf1 := ihf v1
    have hfn := ihf (vpSearch needle near v1)
    have hnf := ihn (vpSearch needle far v1)
    split
    · split <;> grind
    · split <;> grind

theorem Nearest.search_lt {p : PalF F} {n : Nearest F} (hn : Nearest.new p = .ok n)
    (px : FPixel F) (likely : ℕ) : (n.search px likely).1 < p.length := by
  unfold Nearest.new at hn
  split at hn
  · cases hn
  · split at hn
    · cases hn
    next h1 h0 =>
      cases hn
      have hne : List.range p.length ≠ [] := by simpa using h0
      have hperm := vpCreate_idxs_perm p (List.range p.length) hne (by simp)
      have key : ∀ v : Visitor F, v.idx < p.length →
          (vpSearch px (vpCreate p (List.range p.length)) v).idx < p.length := by
        intro v hv
        rcases vpSearch_idx px (vpCreate p (List.range p.length)) v with h | h
        · rw [h]; exact hv
        · have := hperm.subset h; simpa using this
      unfold Nearest.search
      simp only
      split
      next e he =>
        have hlt : likely < p.length := (List.getElem?_eq_some_iff.1 he).1
        split
        · exact hlt
        · exact key _ hlt
      next he =>
        exact key _ (by simp only; omega)

end AnyFloat

/-! ### Exact arithmetic -/

/-- near points are within the radius of the vantage point, far points are not inside it -/
def Node.Ball (p : PalF ℝ) : Node ℝ → Prop
  | .leaf _ _ _ => True
  | .nodes vp _ radius radiusSq near far =>
    radius = Real.sqrt radiusSq ∧
    (∀ i ∈ near.idxs, vp.diff (palColor p i) ≤ radiusSq) ∧
    (∀ i ∈ far.idxs, radiusSq ≤ vp.diff (palColor p i)) ∧
    near.Ball p ∧ far.Ball p

theorem vpDist_eq (p : PalF ℝ) (vp : FPixel ℝ) {i : ℕ} (h : i < p.length) :
    vpDist p vp i = vp.diff (palColor p i) := by
  simp [vpDist, palColor, List.getElem?_eq_getElem h]

theorem vpCreate_ball (p : PalF ℝ) (l : List ℕ) (hp : ∀ i ∈ l, i < p.length) :
    (vpCreate p l).Ball p := by
  induction l using vpCreate.induct (F := ℝ) (p := p) with
  | case1 l h => rw [vpCreate, if_pos h]; trivial
  | case2 l h hnil =>
    exfalso
    have := length_popularFirst p l
    rw [hnil] at this
    simp at this
    omega
  | case3 l h ref rest heq vp sorted hle =>
    rw [vpCreate, if_neg h]
    split
    next heq' => rw [heq'] at heq; cases heq
    next ref' rest' heq' =>
      rw [heq] at heq'; cases heq'
      simp only
      rw [if_pos hle]
      trivial
  | case4 l h ref rest heq vp sorted hle half near far ih1 ih2 =>
    rw [vpCreate, if_neg h]
    have hperm := popularFirst_perm p l
    split
    next heq' => rw [heq'] at heq; cases heq
    next ref' rest' heq' =>
      rw [heq] at heq'; cases heq'
      rw [heq] at hperm
      have hs : sorted.Perm rest := sortByKey_perm _ _
      have hpw : sorted.Pairwise (fun x y => vpDist p vp x ≤ vpDist p vp y) :=
        sortByKey_pairwise_real _ _
      simp only
      rw [if_neg hle]
      have hlen : ¬ sorted.length ≤ 6 := hle
      have hn : near ≠ [] := by
        intro h0
        have : near.length = 0 := by rw [h0]; rfl
        simp only [near, half, List.length_take] at this
        omega
      have hf : far ≠ [] := by
        intro h0
        have : far.length = 0 := by rw [h0]; rfl
        simp only [far, half, List.length_drop] at this
        omega
      have hmem : ∀ i ∈ sorted, i < p.length := fun i hi =>
        hp i (hperm.subset (List.mem_cons_of_mem _ (hs.subset hi)))
      have hmn : ∀ i ∈ near, i < p.length := fun i hi => hmem i (List.mem_of_mem_take hi)
      have hmf : ∀ i ∈ far, i < p.length := fun i hi => hmem i (List.mem_of_mem_drop hi)
      have hsplit : sorted = near ++ far := (List.take_append_drop _ _).symm
      rw [hsplit, List.pairwise_append] at hpw
      obtain ⟨-, hpf, hnf⟩ := hpw
      obtain ⟨f0, ft, hft⟩ := List.exists_cons_of_ne_nil hf
      have hr : farRadiusSq p vp far = vpDist p vp f0 := by rw [hft]; rfl
      change Node.Ball p (Node.nodes vp ref (Real.sqrt (farRadiusSq p vp far)) (farRadiusSq p vp far) (vpCreate p near) (vpCreate p far))
      refine ⟨rfl, ?_, ?_, ih1 hmn, ih2 hmf⟩
      · intro i hi
        have hi' : i ∈ near := (vpCreate_idxs_perm p near hn hmn).subset hi
        rw [← vpDist_eq p vp (hmn i hi'), hr]
        exact hnf i hi' f0 (by rw [hft]; simp)
      · intro i hi
        have hi' : i ∈ far := (vpCreate_idxs_perm p far hf hmf).subset hi
        rw [← vpDist_eq p vp (hmf i hi'), hr]
        rw [hft] at hi' hpf
        rcases List.mem_cons.1 hi' with rfl | h'
        · exact le_refl _
        · exact (List.pairwise_cons.1 hpf).1 i h'

/-- what one search step guarantees about the visitor -/
structure Improves (p : PalF ℝ) (needle : FPixel ℝ) (S : List ℕ) (v v' : Visitor ℝ) : Prop where
  excl : v'.exclude = v.exclude
  le : v'.distanceSq ≤ v.distanceSq
  inv : 0 ≤ v'.distance ∧ v'.distanceSq ≤ v'.distance ^ 2
  min : ∀ i ∈ S, v.exclude ≠ some i → v'.distanceSq ≤ (palColor p i).diff needle
  from' : v' = v ∨ (v'.idx ∈ S ∧ v.exclude ≠ some v'.idx ∧
    v'.distanceSq = (palColor p v'.idx).diff needle ∧ v'.distance = Real.sqrt v'.distanceSq)

theorem Improves.trans {p : PalF ℝ} {needle : FPixel ℝ} {S T U : List ℕ} {v v' v'' : Visitor ℝ}
    (h1 : Improves p needle S v v') (h2 : Improves p needle T v' v'')
    (hU : ∀ i, i ∈ U ↔ i ∈ S ∨ i ∈ T) : Improves p needle U v v'' := by
  refine ⟨h2.excl.trans h1.excl, h2.le.trans h1.le, h2.inv, ?_, ?_⟩
  · intro i hi he
    rcases (hU i).1 hi with h | h
    · exact h2.le.trans (h1.min i h he)
    · exact h2.min i h (h1.excl ▸ he)
  · rcases h2.from' with h | ⟨a, b, c, d⟩
    · rw [h]
      rcases h1.from' with h' | ⟨a, b, c, d⟩
      · left; exact h'
      · right; exact ⟨(hU _).2 (Or.inl a), b, c, d⟩
    · right; exact ⟨(hU _).2 (Or.inr a), h1.excl ▸ b, c, d⟩

theorem visit_improves (p : PalF ℝ) (needle : FPixel ℝ) (v : Visitor ℝ) (i : ℕ) (c : FPixel ℝ)
    (hc : c = palColor p i) (hv : 0 ≤ v.distance ∧ v.distanceSq ≤ v.distance ^ 2) :
    Improves p needle [i] v (v.visit (sqrt32 (c.diff needle)) (c.diff needle) i) := by
  subst hc
  have hnn := FPixel.diff_nonneg (palColor p i) needle
  unfold Visitor.visit
  split
  next h =>
    simp only [Bool.and_eq_true, real_lt, decide_eq_true_eq] at h
    refine ⟨rfl, h.1.le, ⟨?_, ?_⟩, ?_, ?_⟩
    · simp only [real_sqrt32]; exact Real.sqrt_nonneg _
    · simp only [real_sqrt32]; rw [Real.sq_sqrt hnn]
    · intro j hj _; simp at hj; subst hj; exact le_refl _
    · right; exact ⟨by simp, h.2, rfl, rfl⟩
  next h =>
    refine ⟨rfl, le_refl _, hv, ?_, Or.inl rfl⟩
    intro j hj he
    simp only [List.mem_singleton] at hj
    subst hj
    simp only [Bool.and_eq_true, real_lt, decide_eq_true_eq, not_and] at h
    by_contra hlt
    exact h (not_le.1 hlt) he

theorem Improves.refl_of {p : PalF ℝ} {needle : FPixel ℝ} {S : List ℕ} {v : Visitor ℝ}
    (hv : 0 ≤ v.distance ∧ v.distanceSq ≤ v.distance ^ 2)
    (h : ∀ i ∈ S, v.distanceSq ≤ (palColor p i).diff needle) : Improves p needle S v v :=
  ⟨rfl, le_refl _, hv, fun i hi _ => h i hi, Or.inl rfl⟩

theorem leafScan_improves (p : PalF ℝ) (needle : FPixel ℝ) (items : List (ℕ × FPixel ℝ))
    (hc : ∀ x ∈ items, x.2 = palColor p x.1) (v : Visitor ℝ)
    (hv : 0 ≤ v.distance ∧ v.distanceSq ≤ v.distance ^ 2) :
    Improves p needle (items.map Prod.fst) v (leafScan needle v items) := by
  induction items generalizing v with
  | nil => exact Improves.refl_of hv (by simp)
  | cons x xs ih =>
    obtain ⟨i, c⟩ := x
    have h1 := visit_improves p needle v i c (hc (i, c) (by simp)) hv
    have h2 := ih (fun x hx => hc x (by simp [hx])) _ h1.inv
    exact h1.trans h2 (by intro j; simp)

theorem vpSearch_improves (p : PalF ℝ) (needle : FPixel ℝ) (n : Node ℝ)
    (hcol : n.Colored p) (hball : n.Ball p) (v : Visitor ℝ)
    (hv : 0 ≤ v.distance ∧ v.distanceSq ≤ v.distance ^ 2) :
    Improves p needle n.idxs v (vpSearch needle n v) := by
  induction n generalizing v with
  | leaf vp idx items =>
    have h1 := visit_improves p needle v idx vp hcol.1 hv
    have h2 := leafScan_improves p needle items hcol.2 _ h1.inv
    exact h1.trans h2 (by intro j; simp [Node.idxs])
  | nodes vp idx radius radiusSq near far ihn ihf =>
    obtain ⟨hvp, hcn, hcf⟩ := hcol
    obtain ⟨hrad, hbn, hbf, hbn', hbf'⟩ := hball
    have h1 := visit_improves p needle v idx vp hvp hv
    simp only [vpSearch]
    set v1 := v.visit (sqrt32 (vp.diff needle)) (vp.diff needle) idx with hv1
    have hsq : ∀ (w : Visitor ℝ) (i : ℕ), 0 ≤ w.distance → w.distanceSq ≤ w.distance ^ 2 →
        w.distance ≤ Real.sqrt ((palColor p i).diff needle) →
        w.distanceSq ≤ (palColor p i).diff needle := by
      intro w i h0 h2 h
      have := pow_le_pow_left₀ h0 h 2
      rw [Real.sq_sqrt (FPixel.diff_nonneg _ _)] at this
      linarith
    split
    next hlt =>
      have h2 := ihn hcn hbn' v1 h1.inv
      set v2 := vpSearch needle near v1 with hv2
      split
      next hc =>
        have h3 := ihf hcf hbf' v2 h2.inv
        exact (h1.trans h2 (U := idx :: near.idxs) (by intro j; simp)).trans h3
          (by intro j; simp [Node.idxs, or_assoc])
      next hc =>
        simp only [real_le, real_sub32, real_sqrt32, not_le] at hc
        have h3 : Improves p needle far.idxs v2 v2 := by
          refine Improves.refl_of h2.inv ?_
          intro i hi
          apply hsq v2 i h2.inv.1 h2.inv.2
          have t := FPixel.sqrt_diff_triangle vp needle (palColor p i)
          have hr := Real.sqrt_le_sqrt (hbf i hi)
          rw [FPixel.diff_comm needle] at t
          rw [hrad] at hc
          linarith
        exact (h1.trans h2 (U := idx :: near.idxs) (by intro j; simp)).trans h3
          (by intro j; simp [Node.idxs, or_assoc])
    next hlt =>
      have h2 := ihf hcf hbf' v1 h1.inv
      set v2 := vpSearch needle far v1 with hv2
      split
      next hc =>
        have h3 := ihn hcn hbn' v2 h2.inv
        exact (h1.trans h2 (U := idx :: far.idxs) (by intro j; simp)).trans h3
          (by intro j; simp [Node.idxs]; tauto)
      next hc =>
        simp only [real_le, real_add32, real_sqrt32, not_le] at hc
        have h3 : Improves p needle near.idxs v2 v2 := by
          refine Improves.refl_of h2.inv ?_
          intro i hi
          apply hsq v2 i h2.inv.1 h2.inv.2
          have t := FPixel.sqrt_diff_triangle vp (palColor p i) needle
          have hr := Real.sqrt_le_sqrt (hbn i hi)
          rw [hrad] at hc
          linarith
        exact (h1.trans h2 (U := idx :: far.idxs) (by intro j; simp)).trans h3
          (by intro j; simp [Node.idxs]; tauto)

end Verif
