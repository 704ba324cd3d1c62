import Verif.Lemmas.CutSpec
import Verif.Props.QuantError

/-! # Property C57: median cut divides the worst box at its weighted median -/

set_option linter.unusedSectionVars false

namespace Verif
open Flt

/-- **C57** (exact). For every histogram tiled by its clusters, with colours in range and weights that are not negative, the
palette of median cut is the list of representatives of the boxes of the greedy algorithm `Spec.Cut`: it starts from the
clusters (or from a single box), always divides a box of the highest priority along its widest channel at the weighted
median, and stops as soon as it may. -/
theorem C57_greedy (o : SortOracle ℝ) (hist hist' : HistogramInternal ℝ) (target : ℕ) (tm mm : ℝ) (pal : PalF ℝ)
    (ht : hist.Tiled) (hall : ∀ x ∈ hist.items, x.color.InUnit ∧ 0 ≤ x.adjustedWeight ∧ 0 ≤ x.perceptualWeight)
    (h : mediancut o hist target tm mm = .ok (pal, hist')) :
    ∃ l l', Spec.IsStart (hist.items.map HistItem.spec) hist.clusters target l ∧
      Spec.Cut target (max mm (Spec.qualityLimit 20)) (tm * hist.totalPerceptualWeight) l l' ∧
      pal.map (·.color.spec) = l'.map (·.rep) := by
  have hall' : ∀ x ∈ hist.items, ItemOK x := fun x hx => ⟨(hall x hx).1, (hall x hx).2.1, (hall x hx).2.2⟩
  unfold mediancut at h
  cases hb : initialBoxes hist target with
  | error e => rw [hb] at h; cases h
  | ok boxes =>
    rw [hb] at h
    obtain ⟨h1, h2⟩ := initialBoxes_start hist target ht hall' boxes hb
    have hlim : (Flt.fmax mm (qualityToMse 20) : ℝ) = max mm (Spec.qualityLimit 20) := by
      rw [real_max, qualityToMse_spec]
    have hpos : (0 : ℝ) < max mm (Spec.qualityLimit 20) := by
      apply lt_max_of_lt_right
      have := qualityLimit_lt (show 20 < 100 by norm_num) le_rfl
      have := qualityLimit_nonneg 100
      linarith
    have h3 := cutLoop_spec o target hist.totalPerceptualWeight tm _ hpos boxes h2
    refine ⟨_, _, h1, h3, ?_⟩
    change (intoPalette (cutLoop o target hist.totalPerceptualWeight tm (Flt.fmax mm (qualityToMse 20)) boxes) >>= _) = _ at h
    rw [hlim] at h
    unfold intoPalette at h
    split at h
    · injection h with h
      simp only [Prod.mk.injEq] at h
      rw [← h.1]
      simp only [List.map_map]
      rfl
    · cases h

/-- hypotheses of `C57_greedy`: two colours in two clusters, to be cut into at most two boxes -/
example (o : SortOracle ℝ) : ∃ (hist hist' : HistogramInternal ℝ) (pal : PalF ℝ),
    hist.Tiled ∧ hist.items.length = 2 ∧
    (∀ x ∈ hist.items, x.color.InUnit ∧ 0 ≤ x.adjustedWeight ∧ 0 ≤ x.perceptualWeight) ∧
    mediancut o hist 2 0 0 = .ok (pal, hist') := by
  have ht : (⟨[⟨⟨1, 0, 0, 0⟩, 1, 1, 0, 0⟩, ⟨⟨1, 1, 0, 0⟩, 1, 1, 0, 0⟩], 2, [(0, 1), (1, 2)], []⟩ : HistogramInternal ℝ).Tiled :=
    ⟨rfl, by decide, rfl, by decide, rfl⟩
  obtain ⟨pal, h', -, e, -⟩ := mediancut_spec o _ 2 0 0 ht (by norm_num)
  refine ⟨_, h', pal, ht, rfl, ?_, e⟩
  intro x hx
  simp only [List.mem_cons, List.not_mem_nil, or_false] at hx
  rcases hx with rfl | rfl <;> refine ⟨fun i => ?_, by norm_num, by norm_num⟩ <;> fin_cases i <;> simp [FPixel.chan]

/-- the histograms a search in the environment `env` can come to, starting with `h`: after any median cuts into at most 256
boxes and any refinements of palettes of colours in range -/
inductive Reached (env : Env ℝ) (h : HistogramInternal ℝ) : HistogramInternal ℝ → Prop
  | start : Reached env h h
  | cut {h1 h2 : HistogramInternal ℝ} {k : ℕ} {a b : ℝ} {pal : PalF ℝ} (hr : Reached env h h1) (hk : k ≤ 256)
      (e : mediancut env.so h1 k a b = .ok (pal, h2)) : Reached env h h2
  | pass {h1 h2 : HistogramInternal ℝ} {t : ℕ} {p p' : PalF ℝ} {adj : Bool} {err : ℝ} (hr : Reached env h h1)
      (hp : ∀ x ∈ p, x.color.InUnit) (e : env.kmeans t h1 p adj = .ok (h2, p', err)) : Reached env h h2

theorem Reached.mixHist {env : Env ℝ} {h h' : HistogramInternal ℝ} (hh : MixHist FPixel.InUnit h) (r : Reached env h h') :
    MixHist FPixel.InUnit h' := by
  induction r with
  | start => exact hh
  | @cut h1 h2 k a b pal hr hk e ih =>
    obtain ⟨pal', h'', boxes, e1', c⟩ := mediancut_spec env.so h1 k a b ih.tiled hk
    rw [e] at e1'
    simp only [Except.ok.injEq, Prod.mk.injEq] at e1'
    obtain ⟨rfl, rfl⟩ := e1'
    have hcore : ∀ x ∈ h2.items, ∃ y ∈ h1.items, y.color = x.color ∧ y.adjustedWeight = x.adjustedWeight ∧
        y.perceptualWeight = x.perceptualWeight := by
      intro x hx
      have : x.core ∈ h1.items.map HistItem.core := c.items_core.mem_iff.1 (List.mem_map_of_mem hx)
      obtain ⟨y, hy, he⟩ := List.mem_map.1 this
      simp only [HistItem.core, Prod.mk.injEq] at he
      exact ⟨y, hy, he⟩
    refine ⟨c.tiled ih.tiled, ?_, ?_, ?_, ?_, ?_⟩
    · apply List.ne_nil_of_length_pos; rw [c.items_len]; exact List.length_pos_iff.2 ih.pos
    · intro x hx
      obtain ⟨y, hy, h1, -⟩ := hcore x hx
      rw [← h1]; exact ih.items y hy
    · rw [c.fixed]; exact ih.fixed
    · intro x hx
      obtain ⟨y, hy, -, h1, h2⟩ := hcore x hx
      rw [← h1, ← h2]; exact ih.nonneg y hy
    · rw [c.items_len, c.fixed]
      refine ih.weights.imp_left ?_
      intro hw x hx
      obtain ⟨y, hy, -, h1, -⟩ := hcore x hx
      rw [← h1]; exact hw y hy
  | @pass h1 h2 t p p' adj err hr hp e ih =>
    exact ((mixHist_kept inUnit_mixes env le_rfl).pass t h1 p adj h2 p' err ih hp e).1

/-- **C57** (exact), for callers: in every quantization of a histogram given by a caller, whatever has been cut and refined
before, the next median cut into `k ≤ 256` boxes succeeds and is the greedy cut of the weighted colours as they then are. -/
theorem C57_every_trial {h : Histogram ℝ} (hg : Spec.OnlyGiven (fun _ => True) h) (env : Env ℝ) {gamma : ℝ} (hγ : 0 < gamma)
    (hne : h.hashmap ≠ [] ∨ h.fixedColors ≠ []) {h0 h1 : HistogramInternal ℝ} (e : h.finalizeBuilder env.ho gamma = .ok h0)
    (hr : Reached env h0 h1) (k : ℕ) (hk : k ≤ 256) (tm mm : ℝ) :
    ∃ pal h2 l l', mediancut env.so h1 k tm mm = .ok (pal, h2) ∧
      Spec.IsStart (h1.items.map HistItem.spec) h1.clusters k l ∧
      Spec.Cut k (max mm (Spec.qualityLimit 20)) (tm * h1.totalPerceptualWeight) l l' ∧
      pal.map (·.color.spec) = l'.map (·.rep) := by
  have hm := hr.mixHist (finalize_mix hg.holds env.ho (fun c _ => fromRgba_unit hγ c) hne e)
  obtain ⟨pal, h2, -, e2, -⟩ := mediancut_spec env.so h1 k tm mm hm.tiled hk
  obtain ⟨l, l', a, b, c⟩ := C57_greedy env.so h1 h2 k tm mm pal hm.tiled
    (fun x hx => ⟨hm.items x hx, hm.nonneg x hx⟩) e2
  exact ⟨pal, h2, l, l', e2, a, b, c⟩

/-- hypotheses of `C57_every_trial`: three counted colours and a fixed one -/
example : ∃ (h1 h2 : Histogram ℝ) (h0 : HistogramInternal ℝ),
    (Histogram.new (userAttr [] none)).addColors
      [(⟨255, 0, 0, 255⟩, 1), (⟨0, 0, 255, 255⟩, 7), (⟨0, 0, 5, 5⟩, 3)] 0 = .ok h1 ∧
    h1.addFixedColor ⟨255, 0, 0, 255⟩ 0 = .ok h2 ∧ Spec.OnlyGiven (fun _ => True) h2 ∧
    (h2.hashmap ≠ [] ∨ h2.fixedColors ≠ []) ∧
    h2.finalizeBuilder (Env.simple : Env ℝ).ho (1/2) = .ok h0 ∧ Reached Env.simple h0 h0 := by
  obtain ⟨h1, e1⟩ : ∃ h1, (Histogram.new (userAttr (F := ℝ) [] none)).addColors
      [(⟨255, 0, 0, 255⟩, 1), (⟨0, 0, 255, 255⟩, 7), (⟨0, 0, 5, 5⟩, 3)] 0 = .ok h1 := by
    unfold Histogram.addColors
    rw [if_neg (by simp), if_neg (by simp)]
    exact ⟨_, rfl⟩
  have hf1 : h1.fixedColors = [] := by
    unfold Histogram.addColors at e1
    rw [if_neg (by simp), if_neg (by simp)] at e1
    simp [Histogram.new] at e1
    rw [← e1]
    rfl
  obtain ⟨h2, e2, hf2⟩ : ∃ h2, h1.addFixedColor ⟨255, 0, 0, 255⟩ 0 = .ok h2 ∧ h2.fixedColors = [(⟨255, 0, 0, 255⟩, 0)] := by
    unfold Histogram.addFixedColor
    rw [if_neg (by simp [hf1, maxColorsCap])]
    refine ⟨_, rfl, ?_⟩
    dsimp only
    rw [if_neg (by simp)]
    rw [hf1]; rfl
  obtain ⟨h0, e0, -⟩ := Histogram.finalize_ok (Env.simple : Env ℝ).ho h2 (1/2)
  exact ⟨h1, h2, h0, e1, e2, .fixed (.colors (.new _) (fun _ _ => trivial) e1) trivial e2, .inr (by rw [hf2]; simp), e0, .start⟩

end Verif
