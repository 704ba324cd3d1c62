import Verif.Model.Hist
import Verif.Lemmas.MedianCutResult
import Mathlib.Algebra.BigOperators.Group.List.Basic
import Mathlib.Data.List.Count

/-! `finalize_builder` is a counting sort by cluster. -/

set_option linter.unusedSectionVars false

namespace Verif
open Flt

variable {F : Type} [Flt F]

namespace Histogram

theorem top_bit (x : UInt8) : x >>> 7 = 0 ∨ x >>> 7 = 1 := by
  have h : ∀ n : Fin 256, (UInt8.ofNat n.val) >>> 7 = 0 ∨ (UInt8.ofNat n.val) >>> 7 = 1 := by decide +kernel
  have := h ⟨x.toNat, x.toNat_lt⟩
  simpa using this

theorem clusterIndex_lt (c : RGBA) : clusterIndex c < maxCluster := by
  unfold clusterIndex
  rcases top_bit c.r with h1 | h1 <;> rcases top_bit c.g with h2 | h2 <;>
  rcases top_bit c.b with h3 | h3 <;> rcases top_bit c.a with h4 | h4 <;> rw [h1, h2, h3, h4] <;> decide

/-- number of items of cluster `k` -/
def cnt (l : List (TempHistItem F)) (k : ℕ) : ℕ := (l.filter fun t => decide (t.cluster = k)).length

theorem clusterCounts_get (temp : List (TempHistItem F)) :
    (clusterCounts temp).length = maxCluster ∧ ∀ k < maxCluster, (clusterCounts temp)[k]? = some (cnt temp k) := by
  unfold clusterCounts
  have : ∀ (l done : List (TempHistItem F)) (cs : List ℕ), cs.length = maxCluster →
      (∀ k < maxCluster, cs[k]? = some (cnt done k)) →
      (l.foldl (fun counts t => counts.modify t.cluster (· + 1)) cs).length = maxCluster ∧
      ∀ k < maxCluster, (l.foldl (fun counts t => counts.modify t.cluster (· + 1)) cs)[k]? = some (cnt (done ++ l) k) := by
    intro l
    induction l with
    | nil => intro done cs h1 h2; simpa using ⟨h1, h2⟩
    | cons t l ih =>
      intro done cs h1 h2
      have := ih (done ++ [t]) (cs.modify t.cluster (· + 1)) (by simpa using h1) (by
        intro k hk
        rw [List.getElem?_modify, h2 k hk]
        by_cases hkt : t.cluster = k <;> simp [hkt, cnt, List.filter_append])
      simpa using this
  simpa using this temp [] (List.replicate maxCluster 0) (by simp) (by
    intro k hk; simp [cnt, hk])

/-- where cluster `k` begins -/
def beginOf (temp : List (TempHistItem F)) (k : ℕ) : ℕ := ((List.range k).map (cnt temp)).sum

theorem beginOf_succ (temp : List (TempHistItem F)) (k : ℕ) : beginOf temp (k + 1) = beginOf temp k + cnt temp k := by
  simp [beginOf, List.range_succ]

theorem clusterBegins_get (s : ℕ) (l : List ℕ) (k : ℕ) (h : k < l.length) :
    (clusterBegins s l)[k]? = some (s + (l.take k).sum, s + (l.take k).sum) := by
  induction l generalizing s k with
  | nil => simp at h
  | cons c cs ih =>
    cases k with
    | zero => simp [clusterBegins]
    | succ k =>
      simp only [clusterBegins, List.getElem?_cons_succ, List.take_succ_cons, List.sum_cons]
      rw [ih (s + c) k (by simpa using h), Nat.add_assoc]

theorem length_clusterBegins (s : ℕ) (l : List ℕ) : (clusterBegins s l).length = l.length := by
  induction l generalizing s with
  | nil => rfl
  | cons c cs ih => simp [clusterBegins, ih]

theorem counts_eq (temp : List (TempHistItem F)) :
    clusterCounts temp = (List.range maxCluster).map (cnt temp) := by
  obtain ⟨h1, h2⟩ := clusterCounts_get temp
  apply List.ext_getElem?
  intro k
  by_cases hk : k < maxCluster
  · rw [h2 k hk]; simp [hk]
  · rw [List.getElem?_eq_none (by omega), List.getElem?_eq_none (by simp; omega)]

theorem begins_get (temp : List (TempHistItem F)) (k : ℕ) (hk : k < maxCluster) :
    (clusterBegins 0 (clusterCounts temp))[k]? = some (beginOf temp k, beginOf temp k) := by
  rw [counts_eq temp, clusterBegins_get _ _ _ (by simpa using hk)]
  simp only [Nat.zero_add, beginOf]
  rw [← List.map_take, List.take_range, min_eq_left (le_of_lt hk)]

theorem beginOf_mono (temp : List (TempHistItem F)) {j k : ℕ} (h : j ≤ k) : beginOf temp j ≤ beginOf temp k := by
  induction h with
  | refl => exact le_rfl
  | step _ ih => rw [beginOf_succ]; omega

theorem beginOf_end (temp : List (TempHistItem F)) (h : ∀ t ∈ temp, t.cluster < maxCluster) :
    beginOf temp maxCluster = temp.length := by
  unfold beginOf
  induction temp with
  | nil => show ((List.range maxCluster).map (fun _ => 0)).sum = 0; decide
  | cons t ts ih =>
    have ht := h t (by simp)
    have ih' := ih (fun x hx => h x (by simp [hx]))
    have : (List.range maxCluster).map (cnt (t :: ts)) =
        (List.range maxCluster).map (fun k => (if t.cluster = k then 1 else 0) + cnt ts k) := by
      apply List.map_congr_left
      intro k _
      by_cases hk : t.cluster = k <;> simp [cnt, hk, Nat.add_comm]
    rw [this, List.sum_map_add, ih']
    have h2 : ((List.range maxCluster).map (fun k => if t.cluster = k then 1 else 0)).sum = 1 := by
      have : ∀ c < maxCluster, ((List.range maxCluster).map (fun k => if c = k then 1 else 0)).sum = 1 := by decide
      exact this _ ht
    rw [h2, List.length_cons]; omega

/-- the items in their final order -/
def placed (lut : UInt8 → F) (maxW : F) (temp : List (TempHistItem F)) (k : ℕ) : List (HistItem F) :=
  (temp.filter fun t => decide (t.cluster = k)).map (mkItem lut maxW)

/-- State of the placement loop after the items `done` of `temp`. -/
structure Placing (lut : UInt8 → F) (maxW : F) (temp done : List (TempHistItem F))
    (st : List (ℕ × ℕ) × List (HistItem F) × F) : Prop where
  clen : st.1.length = maxCluster
  cl : ∀ k < maxCluster, st.1[k]? = some (beginOf temp k, beginOf temp k + cnt done k)
  ilen : st.2.1.length = temp.length
  items : ∀ k < maxCluster, ∀ j x, (placed lut maxW done k)[j]? = some x → st.2.1[beginOf temp k + j]? = some x
  total : st.2.2 = done.foldl (fun s t => s +₆ itemWeight maxW t) (lit64 0)

theorem cnt_append (a b : List (TempHistItem F)) (k : ℕ) : cnt (a ++ b) k = cnt a k + cnt b k := by
  simp [cnt]

theorem placeItem_ok (lut : UInt8 → F) (maxW : F) (temp done rest : List (TempHistItem F)) (t : TempHistItem F)
    (ht : temp = done ++ t :: rest) (hc : ∀ t ∈ temp, t.cluster < maxCluster)
    (st : List (ℕ × ℕ) × List (HistItem F) × F) (p : Placing lut maxW temp done st) :
    ∃ st', placeItem lut maxW st t = .ok st' ∧ Placing lut maxW temp (done ++ [t]) st' := by
  obtain ⟨clusters, items, total⟩ := st
  have htc : t.cluster < maxCluster := hc t (by rw [ht]; simp)
  have hcl := p.cl t.cluster htc
  have hcount : cnt done t.cluster + 1 ≤ cnt temp t.cluster := by
    rw [ht, cnt_append]; simp [cnt]
  have hend : beginOf temp t.cluster + cnt temp t.cluster ≤ temp.length := by
    rw [← beginOf_succ, ← beginOf_end temp hc]; exact beginOf_mono temp htc
  have hil : items.length = temp.length := p.ilen
  refine ⟨(clusters.set t.cluster (beginOf temp t.cluster, beginOf temp t.cluster + cnt done t.cluster + 1),
    items.set (beginOf temp t.cluster + cnt done t.cluster) (mkItem lut maxW t), total +₆ itemWeight maxW t), ?_, ?_⟩
  · simp only [placeItem]
    simp only at hcl
    rw [hcl]
    simp only
    rw [if_pos (by omega)]
  · have hlenc : clusters.length = maxCluster := p.clen
    refine ⟨by simpa using hlenc, ?_, by simpa using hil, ?_, ?_⟩
    · intro k hk
      simp only
      by_cases hkt : t.cluster = k
      · subst hkt
        rw [List.getElem?_set_self (by omega), cnt_append]
        simp [cnt, Nat.add_assoc]
      · rw [List.getElem?_set_ne hkt, cnt_append]
        have := p.cl k hk
        simp only at this
        rw [this]; simp [cnt, hkt]
    · intro k hk j x hx
      simp only
      by_cases hkt : t.cluster = k
      · subst hkt
        have hpl : placed lut maxW (done ++ [t]) t.cluster = placed lut maxW done t.cluster ++ [mkItem lut maxW t] := by
          simp [placed]
        have hplen : (placed lut maxW done t.cluster).length = cnt done t.cluster := by simp [placed, cnt]
        rw [hpl] at hx
        rcases Nat.lt_trichotomy j (cnt done t.cluster) with hj | hj | hj
        · rw [List.getElem?_append_left (by omega)] at hx
          rw [List.getElem?_set_ne (by omega)]
          exact p.items _ hk j x hx
        · subst hj
          rw [List.getElem?_append_right (by omega), hplen] at hx
          simp at hx
          rw [List.getElem?_set_self (by omega), hx]
        · rw [List.getElem?_eq_none (by simp [hplen]; omega)] at hx; cases hx
      · have hpl : placed lut maxW (done ++ [t]) k = placed lut maxW done k := by simp [placed, hkt]
        rw [hpl] at hx
        have hj : j < cnt done k := by
          have := (List.getElem?_eq_some_iff.1 hx).1
          simpa [placed, cnt] using this
        have hck : cnt done k ≤ cnt temp k := by rw [ht, cnt_append]; omega
        rw [List.getElem?_set_ne]
        · exact p.items k hk j x hx
        · rcases Nat.lt_or_gt_of_ne hkt with h | h
          · have := beginOf_mono temp (j := t.cluster + 1) (k := k) h
            rw [beginOf_succ] at this; omega
          · have := beginOf_mono temp (j := k + 1) (k := t.cluster) h
            rw [beginOf_succ] at this; omega
    · simp only [List.foldl_append, List.foldl_cons, List.foldl_nil]
      have := p.total
      simp only at this
      rw [this]

theorem place_all (lut : UInt8 → F) (maxW : F) (temp : List (TempHistItem F)) (hc : ∀ t ∈ temp, t.cluster < maxCluster)
    (rest done : List (TempHistItem F)) (ht : temp = done ++ rest) (st : List (ℕ × ℕ) × List (HistItem F) × F)
    (p : Placing lut maxW temp done st) :
    ∃ st', rest.foldlM (placeItem lut maxW) st = .ok st' ∧ Placing lut maxW temp temp st' := by
  induction rest generalizing done st with
  | nil => simp at ht; subst ht; exact ⟨st, rfl, p⟩
  | cons t rest ih =>
    obtain ⟨st', e, p'⟩ := placeItem_ok lut maxW temp done rest t ht hc st p
    rw [List.foldlM_cons, e]
    exact ih (done ++ [t]) (by simpa using ht) st' p'

theorem flatMap_get {α : Type} (f : ℕ → List α) (n k j : ℕ) (hk : k < n) (hj : j < (f k).length) :
    ((List.range n).flatMap f)[((List.range k).map fun i => (f i).length).sum + j]? = (f k)[j]? := by
  induction n with
  | zero => omega
  | succ n ih =>
    rw [List.range_succ, List.flatMap_append]
    simp only [List.flatMap_cons, List.flatMap_nil, List.append_nil]
    have hlen : ((List.range n).flatMap f).length = ((List.range n).map fun i => (f i).length).sum := by
      rw [List.length_flatMap]
    by_cases hkn : k = n
    · subst hkn
      rw [List.getElem?_append_right (by rw [hlen]; omega), hlen]
      congr 1; omega
    · have h1 := ih (by omega)
      rw [List.getElem?_append_left, h1]
      have : (((List.range n).flatMap f)[((List.range k).map fun i => (f i).length).sum + j]?).isSome := by
        rw [h1]; simp [hj]
      by_contra hcon
      rw [List.getElem?_eq_none (by omega)] at this
      simp at this

theorem cluster_of (temp : List (TempHistItem F)) (m n : ℕ) (h : n < beginOf temp m) :
    ∃ k < m, beginOf temp k ≤ n ∧ n < beginOf temp (k + 1) := by
  induction m with
  | zero => simp [beginOf] at h
  | succ m ih =>
    by_cases hm : n < beginOf temp m
    · obtain ⟨k, hk, h1, h2⟩ := ih hm
      exact ⟨k, by omega, h1, h2⟩
    · exact ⟨m, by omega, by omega, h⟩

/-- The result of `finalize_builder`. -/
theorem finalize_spec (ho : HashOrder) (h : Histogram F) (gamma : F) :
    let temp : List (TempHistItem F) := tempItems ho (h.insertFixedColors ho)
    let maxW := maxPerceptualWeight temp
    ∃ r, h.finalizeBuilder ho gamma = .ok r ∧
      r.items = (List.range maxCluster).flatMap (placed (gammaLut gamma) maxW temp) ∧
      r.clusters = (List.range maxCluster).map (fun k => (beginOf temp k, beginOf temp (k + 1))) ∧
      r.totalPerceptualWeight = temp.foldl (fun s t => s +₆ itemWeight maxW t) (lit64 0) ∧
      r.fixedColors = ((ho.set h.fixedColors).mergeSort (fun x y => decide (x.2 ≤ y.2))).map
        fun c => FPixel.fromRgba (gammaLut gamma) c.1 := by
  intro temp maxW
  have hc : ∀ t ∈ temp, t.cluster < maxCluster := by
    intro t ht
    simp only [temp, tempItems, List.mem_map] at ht
    obtain ⟨⟨k, b, c⟩, -, rfl⟩ := ht
    exact clusterIndex_lt _
  obtain ⟨st, e, p⟩ := place_all (gammaLut gamma) maxW temp hc temp [] rfl
    (clusterBegins 0 (clusterCounts temp), List.replicate temp.length blankItem, lit64 0)
    ⟨by simp [length_clusterBegins, counts_eq temp], by
      intro k hk
      simp only
      rw [begins_get temp k hk]; simp [cnt], by simp, by
      intro k hk j x hx; simp [placed] at hx, rfl⟩
  obtain ⟨clusters, items, total⟩ := st
  refine ⟨{ items := items, totalPerceptualWeight := total, clusters := clusters
            fixedColors := ((ho.set h.fixedColors).mergeSort (fun x y => decide (x.2 ≤ y.2))).map
              fun c => FPixel.fromRgba (gammaLut gamma) c.1 }, ?_, ?_, ?_, p.total, rfl⟩
  · unfold finalizeBuilder
    show (temp.foldlM (placeItem (gammaLut gamma) maxW)
      (clusterBegins 0 (clusterCounts temp), List.replicate temp.length blankItem, lit64 0) >>= _) = _
    rw [e]; rfl
  · show items = _
    have hlen : ((List.range maxCluster).flatMap (placed (gammaLut gamma) maxW temp)).length = temp.length := by
      rw [List.length_flatMap, ← beginOf_end temp hc]
      simp only [beginOf, placed, List.length_map]; rfl
    apply List.ext_getElem?
    intro n
    have hil : items.length = temp.length := p.ilen
    by_cases hn : n < temp.length
    · obtain ⟨k, hk, h1, h2⟩ := cluster_of temp maxCluster n (by rw [beginOf_end temp hc]; exact hn)
      rw [beginOf_succ] at h2
      have hj : n - beginOf temp k < (placed (gammaLut gamma) maxW temp k).length := by
        simp only [placed, List.length_map]; show _ < cnt temp k; omega
      have e1 := p.items k hk (n - beginOf temp k) _ (List.getElem?_eq_getElem hj)
      have e2 := flatMap_get (placed (gammaLut gamma) maxW temp) maxCluster k (n - beginOf temp k) hk hj
      have e3 : ((List.range k).map fun i => (placed (gammaLut gamma) maxW temp i).length).sum = beginOf temp k := by
        simp only [beginOf, placed, List.length_map]; rfl
      rw [e3] at e2
      have e4 : beginOf temp k + (n - beginOf temp k) = n := by omega
      rw [e4] at e1 e2
      simp only at e1
      rw [e1, e2, List.getElem?_eq_getElem hj]
    · rw [List.getElem?_eq_none (by omega), List.getElem?_eq_none (by omega)]
  · show clusters = _
    apply List.ext_getElem?
    intro k
    by_cases hk : k < maxCluster
    · have := p.cl k hk
      simp only at this
      rw [this]; simp [hk, beginOf_succ]
    · have := p.clen
      simp only at this
      rw [List.getElem?_eq_none (by omega), List.getElem?_eq_none (by simp; omega)]

theorem chain_begins (temp : List (TempHistItem F)) (s n : ℕ) :
    ClusterChain (beginOf temp s) (beginOf temp (s + n))
      ((List.range' s n).map fun k => (beginOf temp k, beginOf temp (k + 1))) := by
  induction n generalizing s with
  | zero => rfl
  | succ n ih =>
    rw [List.range'_succ, List.map_cons]
    refine ⟨rfl, beginOf_mono temp (by omega), ?_⟩
    have := ih (s + 1)
    rwa [show s + 1 + n = s + (n + 1) by omega] at this

theorem tempItems_cluster (ho : HashOrder) (m : ColorMap) :
    ∀ t ∈ (tempItems ho m : List (TempHistItem F)), t.cluster < maxCluster := by
  intro t ht
  simp only [tempItems, List.mem_map] at ht
  obtain ⟨⟨k, b, c⟩, -, rfl⟩ := ht
  exact clusterIndex_lt _

theorem length_tempItems (ho : HashOrder) (m : ColorMap) :
    (tempItems ho m : List (TempHistItem F)).length = m.length := by
  simp only [tempItems, List.length_map]; exact (ho.map_perm m).length_eq

/-- The items of the finished histogram are a permutation of the finished temporary items. -/
theorem placed_perm (lut : UInt8 → F) (maxW : F) (temp : List (TempHistItem F)) (h : ∀ t ∈ temp, t.cluster < maxCluster) :
    ((List.range maxCluster).flatMap (placed lut maxW temp)).Perm (temp.map (mkItem lut maxW)) := by
  have e : (List.range maxCluster).flatMap (placed lut maxW temp) =
      ((List.range maxCluster).flatMap fun k => temp.filter fun t => decide (t.cluster = k)).map (mkItem lut maxW) := by
    rw [List.map_flatMap]; rfl
  rw [e]; clear e
  apply List.Perm.map
  induction temp with
  | nil => simp
  | cons t ts ih =>
    have ih' := ih (fun x hx => h x (by simp [hx]))
    have ht := h t (by simp)
    have : ∀ m, ((List.range m).flatMap fun k => (t :: ts).filter fun t => decide (t.cluster = k)).Perm
        ((if t.cluster < m then [t] else []) ++ (List.range m).flatMap fun k => ts.filter fun t => decide (t.cluster = k)) := by
      intro m
      induction m with
      | zero => simp
      | succ m ihm =>
        rw [List.range_succ, List.flatMap_append, List.flatMap_append]
        simp only [List.flatMap_cons, List.flatMap_nil, List.append_nil]
        by_cases hm : t.cluster = m
        · rw [List.filter_cons_of_pos (by simpa using hm)]
          rw [if_neg (by omega)] at ihm
          rw [if_pos (by omega)]
          refine (List.Perm.append_right _ ihm).trans ?_
          simp only [List.nil_append, List.singleton_append]
          exact List.perm_middle
        · rw [List.filter_cons_of_neg (by simpa using hm)]
          refine (List.Perm.append_right _ ihm).trans ?_
          have : (t.cluster < m) = (t.cluster < m + 1) := by
            apply propext; omega
          simp only [this, List.append_assoc]
          exact List.Perm.refl _
    have h2 := this maxCluster
    rw [if_pos ht] at h2
    exact h2.trans (List.Perm.cons t ih')

theorem finalize_ok (ho : HashOrder) (h : Histogram F) (gamma : F) :
    ∃ r, h.finalizeBuilder ho gamma = .ok r ∧ r.Tiled ∧ r.items.length = (h.insertFixedColors ho).length := by
  obtain ⟨r, e1, e2, e3, -, -⟩ := finalize_spec ho h gamma
  have hl : r.items.length = (h.insertFixedColors ho).length := by
    rw [e2, (placed_perm _ _ _ (tempItems_cluster ho _)).length_eq, List.length_map, length_tempItems]
  refine ⟨r, e1, ?_, hl⟩
  unfold HistogramInternal.Tiled
  rw [e3, hl]
  have := chain_begins (tempItems ho (h.insertFixedColors ho) : List (TempHistItem F)) 0 maxCluster
  rw [Nat.zero_add, beginOf_end _ (tempItems_cluster ho _), length_tempItems, ← List.range_eq_range'] at this
  exact this

theorem upsert_ne_nil (m : ColorMap) (k : RGBA) (f : Option (ℕ × RGBA) → ℕ × RGBA) : ColorMap.upsert m k f ≠ [] := by
  cases m with
  | nil => simp [ColorMap.upsert]
  | cons x t => simp only [ColorMap.upsert]; split <;> simp

theorem insertFixedColors_ne_nil (ho : HashOrder) (h : Histogram F) (hne : h.hashmap ≠ [] ∨ h.fixedColors ≠ []) :
    h.insertFixedColors ho ≠ [] := by
  unfold insertFixedColors
  have aux : ∀ (l : List HashColor) (m : ColorMap), m ≠ [] ∨ l ≠ [] →
      l.foldl (fun m (rgba, _) =>
        let key : RGBA := if rgba.a ≠ 0 then rgba else ⟨0, 0, 0, 0⟩
        ColorMap.upsert m key (fun _ => (0, rgba))) m ≠ [] := by
    intro l
    induction l with
    | nil => intro m h; simpa using h
    | cons x l ih => intro m _; exact ih _ (Or.inl (upsert_ne_nil _ _ _))
  apply aux
  rcases hne with h1 | h1
  · exact Or.inl h1
  · right
    intro e
    have := (ho.set_perm h.fixedColors).length_eq
    rw [e] at this
    exact h1 (List.length_eq_zero_iff.1 this.symm)

end Histogram
end Verif
