import Verif.Lemmas.Hist
import Verif.Lemmas.Env
import Verif.Lemmas.Reach
import Verif.Props.Quantize

/-! # Property C44: clusters of the finished histogram -/

set_option linter.unusedSectionVars false

namespace Verif
open Flt

namespace Spec

/-- the corner of the colour cube: one bit per channel, set for the upper half -/
def corner (c : RGBA) : ℕ :=
  (if 128 ≤ c.r.toNat then 8 else 0) + (if 128 ≤ c.g.toNat then 4 else 0) +
  (if 128 ≤ c.b.toNat then 2 else 0) + (if 128 ≤ c.a.toNat then 1 else 0)

end Spec
open Spec

theorem shift7 (x : UInt8) : x >>> 7 = if 128 ≤ x.toNat then 1 else 0 := by
  have h : ∀ n : Fin 256, (UInt8.ofNat n.val) >>> 7 = if 128 ≤ (UInt8.ofNat n.val).toNat then 1 else 0 := by decide +kernel
  have := h ⟨x.toNat, x.toNat_lt⟩
  simpa using this

theorem clusterIndex_corner (c : RGBA) : Histogram.clusterIndex c = corner c := by
  unfold Histogram.clusterIndex corner
  rw [shift7, shift7, shift7, shift7]
  by_cases h1 : 128 ≤ c.r.toNat <;> by_cases h2 : 128 ≤ c.g.toNat <;> by_cases h3 : 128 ≤ c.b.toNat <;>
    by_cases h4 : 128 ≤ c.a.toNat <;> simp only [h1, h2, h3, h4, if_true, if_false] <;> decide

namespace Histogram
variable {F : Type} [Flt F]

/-- the source colours in their final order -/
def sources (temp : List (TempHistItem F)) : List (TempHistItem F) :=
  (List.range maxCluster).flatMap fun k => temp.filter fun t => decide (t.cluster = k)

theorem sources_perm (temp : List (TempHistItem F)) (h : ∀ t ∈ temp, t.cluster < maxCluster) : (sources temp).Perm temp := by
  classical
  rw [List.perm_iff_count]
  intro x
  unfold sources
  rw [List.count_flatMap]
  have : (List.map (List.count x ∘ fun k => temp.filter fun t => decide (t.cluster = k)) (List.range maxCluster)) =
      (List.range maxCluster).map fun k => if x.cluster = k then temp.count x else 0 := by
    apply List.map_congr_left
    intro k _
    simp only [Function.comp]
    by_cases hk : x.cluster = k
    · rw [if_pos hk, List.count_filter (by simpa using hk)]
    · rw [if_neg hk]
      apply List.count_eq_zero_of_not_mem
      intro hx
      have := (List.mem_filter.1 hx).2
      exact hk (by simpa using this)
  rw [this]
  by_cases hx : x ∈ temp
  · have hc := h x hx
    have hs : ∀ c < maxCluster, ∀ n : ℕ, ((List.range maxCluster).map fun k => if c = k then n else 0).sum = n := by
      intro c hc n
      unfold maxCluster at hc ⊢
      interval_cases c <;> simp [List.range_succ]
    exact hs _ hc _
  · rw [List.count_eq_zero_of_not_mem hx]
    simp

theorem sources_get (temp : List (TempHistItem F)) (hc : ∀ t ∈ temp, t.cluster < maxCluster) (j : ℕ) (t : TempHistItem F)
    (h : (sources temp)[j]? = some t) (k : ℕ) (hk : k < maxCluster) :
    (beginOf temp k ≤ j ∧ j < beginOf temp (k + 1)) ↔ t.cluster = k := by
  have hlen : (sources temp).length = temp.length := (sources_perm temp hc).length_eq
  have hj : j < temp.length := by
    have := (List.getElem?_eq_some_iff.1 h).1; omega
  have main : ∀ k < maxCluster, beginOf temp k ≤ j → j < beginOf temp (k + 1) → t.cluster = k := by
    intro k hk h1 h2
    rw [beginOf_succ] at h2
    have e := flatMap_get (fun k => temp.filter fun t => decide (t.cluster = k)) maxCluster k (j - beginOf temp k) hk
      (by show _ < cnt temp k; omega)
    have e3 : ((List.range k).map fun i => (temp.filter fun t => decide (t.cluster = i)).length).sum = beginOf temp k := rfl
    rw [e3, show beginOf temp k + (j - beginOf temp k) = j by omega] at e
    unfold sources at h
    rw [h] at e
    have := List.mem_of_getElem? e.symm
    simpa using (List.mem_filter.1 this).2
  constructor
  · rintro ⟨h1, h2⟩; exact main k hk h1 h2
  · intro ht
    obtain ⟨k', hk', h1, h2⟩ := cluster_of temp maxCluster j (by rw [beginOf_end temp hc]; exact hj)
    have := main k' hk' h1 h2
    rw [ht] at this
    subst this
    exact ⟨h1, h2⟩

end Histogram

section
variable {F : Type} [Flt F]

/-- **C44** (any float arithmetic). The finished histogram lists the colours of the map (as a multiset, fixed colours
included) so that the 16 clusters are consecutive intervals from 0 to the number of colours, and the colours in cluster
`k` are exactly those in corner `k` of the colour cube. -/
theorem C44_clusters (ho : HashOrder) (h : Histogram F) (gamma : F) :
    ∃ (r : HistogramInternal F) (src : List RGBA), h.finalizeBuilder ho gamma = .ok r ∧
      src.Perm ((h.insertFixedColors ho).map (·.2.2)) ∧
      r.items.map (·.color) = src.map (FPixel.fromRgba (gammaLut gamma)) ∧
      r.clusters.length = 16 ∧
      (∀ k b e, r.clusters[k]? = some (b, e) → b ≤ e ∧ e ≤ r.items.length ∧
        (k = 0 → b = 0) ∧ (k = 15 → e = r.items.length) ∧
        (∀ b' e', r.clusters[k + 1]? = some (b', e') → b' = e) ∧
        ∀ j c, src[j]? = some c → ((b ≤ j ∧ j < e) ↔ corner c = k)) := by
  obtain ⟨r, e1, e2, e3, -, -⟩ := h.finalize_spec ho gamma
  set temp : List (Histogram.TempHistItem F) := Histogram.tempItems ho (h.insertFixedColors ho) with htemp
  have hc : ∀ t ∈ temp, t.cluster < Histogram.maxCluster := Histogram.tempItems_cluster ho _
  have hcorner : ∀ t ∈ temp, t.cluster = corner t.color := by
    intro t ht
    simp only [htemp, Histogram.tempItems, List.mem_map] at ht
    obtain ⟨⟨k, b, c⟩, -, rfl⟩ := ht
    exact clusterIndex_corner c
  have hitems : r.items = (Histogram.sources temp).map (Histogram.mkItem (gammaLut gamma) (Histogram.maxPerceptualWeight temp)) := by
    rw [e2, Histogram.sources, List.map_flatMap]; rfl
  have hlen : r.items.length = temp.length := by rw [hitems, List.length_map, (Histogram.sources_perm temp hc).length_eq]
  refine ⟨r, (Histogram.sources temp).map (·.color), e1, ?_, ?_, ?_, ?_⟩
  · refine ((Histogram.sources_perm temp hc).map _).trans ?_
    rw [htemp, Histogram.tempItems, List.map_map]
    exact (ho.map_perm _).map _
  · rw [hitems, List.map_map, List.map_map]; rfl
  · rw [e3]; simp [Histogram.maxCluster]
  · intro k b e hk
    have hk16 : k < Histogram.maxCluster := by
      have := (List.getElem?_eq_some_iff.1 hk).1
      rw [e3] at this; simpa using this
    have hget : ∀ k < Histogram.maxCluster, r.clusters[k]? = some (Histogram.beginOf temp k, Histogram.beginOf temp (k + 1)) := by
      intro k hk; rw [e3]; simp [hk]
    rw [hget k hk16] at hk
    simp only [Option.some.injEq, Prod.mk.injEq] at hk
    obtain ⟨rfl, rfl⟩ := hk
    have hend := Histogram.beginOf_end temp hc
    refine ⟨Histogram.beginOf_mono temp (by omega), ?_, ?_, ?_, ?_, ?_⟩
    · rw [hlen, ← hend]; exact Histogram.beginOf_mono temp hk16
    · rintro rfl; simp [Histogram.beginOf]
    · rintro rfl; rw [hlen, ← hend]; rfl
    · intro b' e' h'
      have hk1 : k + 1 < Histogram.maxCluster := by
        have := (List.getElem?_eq_some_iff.1 h').1
        rw [e3] at this; simpa using this
      rw [hget _ hk1] at h'
      simp only [Option.some.injEq, Prod.mk.injEq] at h'
      exact h'.1.symm
    · intro j c hj
      rw [List.getElem?_map] at hj
      obtain ⟨t, ht, rfl⟩ := Option.map_eq_some_iff.1 hj
      rw [Histogram.sources_get temp hc j t ht k hk16,
        hcorner t ((Histogram.sources_perm temp hc).mem_iff.1 (List.mem_of_getElem? ht))]
end

theorem foldl_add64_real {α : Type} (f : α → ℝ) (l : List α) (s : ℝ) :
    l.foldl (fun s t => s +₆ f t) s = s + (l.map f).sum := by
  induction l generalizing s with
  | nil => simp
  | cons x l ih => rw [List.foldl_cons, ih, List.map_cons, List.sum_cons, real_add64]; ring

/-- **C44** (exact). With `T` the sum of the counts divided by 256: the recorded total is the sum of the weights of the
items; an item of a counted colour weighs its count / 256, but at most a tenth of `T`; an item with count 0 (a fixed
colour) weighs `T`. -/
theorem C44_weights (ho : HashOrder) (h : Histogram ℝ) (gamma : ℝ) (r : HistogramInternal ℝ)
    (hr : h.finalizeBuilder ho gamma = .ok r) :
    let T : ℝ := (((h.insertFixedColors ho).map fun e => (e.2.1 : ℝ)).sum) / 256
    r.totalPerceptualWeight = (r.items.map (·.perceptualWeight)).sum ∧
    (∀ x ∈ r.items, x.adjustedWeight = x.perceptualWeight) ∧
    (r.items.map fun x => (x.color, x.perceptualWeight)).Perm
      ((h.insertFixedColors ho).map fun e => (FPixel.fromRgba (gammaLut gamma) e.2.2,
        if e.2.1 = 0 then T else min ((e.2.1 : ℝ) / 256) (T / 10))) ∧
    (∀ x ∈ r.items, 0 ≤ x.perceptualWeight) := by
  intro T
  obtain ⟨r', e1, e2, -, e4, -⟩ := h.finalize_spec ho gamma
  rw [hr] at e1; cases e1
  set temp : List (Histogram.TempHistItem ℝ) := Histogram.tempItems ho (h.insertFixedColors ho) with htemp
  have hc : ∀ t ∈ temp, t.cluster < Histogram.maxCluster := Histogram.tempItems_cluster ho _
  have hperm : r.items.Perm (temp.map (Histogram.mkItem (gammaLut gamma) (Histogram.maxPerceptualWeight temp))) := by
    rw [e2]; exact Histogram.placed_perm _ _ temp hc
  have hT : Histogram.maxPerceptualWeight temp = T / 10 := by
    unfold Histogram.maxPerceptualWeight
    rw [foldl_add64_real (fun t : Histogram.TempHistItem ℝ => t.weight)]
    have : (temp.map fun t => t.weight).sum = ((h.insertFixedColors ho).map fun e => (e.2.1 : ℝ)).sum := by
      rw [htemp, Histogram.tempItems, List.map_map]
      refine (((ho.map_perm (h.insertFixedColors ho)).map _).sum_eq).trans ?_
      congr 1
    rw [this]
    simp [T]; ring
  have hT0 : 0 ≤ T := by
    apply div_nonneg _ (by norm_num)
    apply List.sum_nonneg
    intro x hx
    obtain ⟨e, -, rfl⟩ := List.mem_map.1 hx
    exact Nat.cast_nonneg _
  have hw : ∀ (k : RGBA) (b : ℕ) (c : RGBA), Histogram.itemWeight (T / 10) (⟨c, lit32 b, Histogram.clusterIndex c⟩ : Histogram.TempHistItem ℝ) =
      if b = 0 then T else min ((b : ℝ) / 256) (T / 10) := by
    intro k b c
    unfold Histogram.itemWeight
    by_cases hb : b = 0
    · subst hb; simp
    · have : (0:ℝ) < b := by exact_mod_cast Nat.pos_of_ne_zero hb
      simp [hb, this]; ring_nf
  have hitem : temp.map (fun t => (FPixel.fromRgba (gammaLut gamma) t.color, Histogram.itemWeight (T / 10) t)) =
      (ho.map (h.insertFixedColors ho)).map fun e => (FPixel.fromRgba (gammaLut gamma) e.2.2,
        if e.2.1 = 0 then T else min ((e.2.1 : ℝ) / 256) (T / 10)) := by
    rw [htemp, Histogram.tempItems, List.map_map]
    apply List.map_congr_left
    rintro ⟨k, b, c⟩ _
    simp only [Function.comp]
    rw [hw k]
  have hpair : (r.items.map fun x => (x.color, x.perceptualWeight)).Perm
      ((h.insertFixedColors ho).map fun e => (FPixel.fromRgba (gammaLut gamma) e.2.2,
        if e.2.1 = 0 then T else min ((e.2.1 : ℝ) / 256) (T / 10))) := by
    refine (hperm.map _).trans ?_
    rw [List.map_map, hT]
    show (temp.map fun t => (FPixel.fromRgba (gammaLut gamma) t.color, Histogram.itemWeight (T / 10) t)).Perm _
    rw [hitem]
    exact (ho.map_perm _).map _
  refine ⟨?_, ?_, hpair, ?_⟩
  · rw [e4, foldl_add64_real (fun t => Histogram.itemWeight _ t), (hperm.map _).sum_eq, List.map_map]
    simp [Histogram.mkItem, Function.comp_def]
  · intro x hx
    obtain ⟨t, -, rfl⟩ := List.mem_map.1 (hperm.mem_iff.1 hx)
    rfl
  · intro x hx
    have := hpair.mem_iff.1 (List.mem_map.2 ⟨x, hx, rfl⟩)
    obtain ⟨e, -, he⟩ := List.mem_map.1 this
    have := congrArg Prod.snd he
    simp only at this
    rw [← this]
    split
    · exact hT0
    · exact le_min (by positivity) (by positivity)

/-- C44 on two counted colours and one fixed colour. -/
example : ∃ r, ({ (exampleHistogram : Histogram ℝ) with fixedColors := [(⟨1, 2, 3, 255⟩, 0)] }).finalizeBuilder HashOrder.insertion 0.45455 = .ok r ∧
    r.items.length = 3 := by
  obtain ⟨r, e, -, hl⟩ := ({ (exampleHistogram : Histogram ℝ) with fixedColors := [(⟨1, 2, 3, 255⟩, 0)] }).finalize_ok HashOrder.insertion 0.45455
  exact ⟨r, e, hl.trans (by decide)⟩

end Verif
