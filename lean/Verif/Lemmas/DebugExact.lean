import Verif.Lemmas.Debug
import Verif.Lemmas.HullHist
import Verif.Lemmas.Diffuse
import Verif.Props.Clusters
import Verif.Props.QuantError

/-! The checks of a debug build in the search for a palette: those about structure for any arithmetic, all of them in
exact arithmetic. -/

set_option linter.unusedSectionVars false

namespace Verif
open Flt Spec

section anyFloat
variable {F : Type} [Flt F] [FltSign F]

theorem checked_structure (env : Env F) {m : ℕ} (hm : m ≤ 256) (h0 : HistogramInternal F) :
    Checked false env m (HistOK h0) (PalOK m h0.fixedColors) where
  kept := histOK_kept env hm h0
  cut := fun h k a b hh h1 _ => mediancutD_eq Sound.off env.so h k a b hh.tiled hh.pos h1 (by intro h; cases h) (by intro h; cases h)
  fixed := by
    intro h k a b pal h' hh h1 hk e
    obtain ⟨pal', h'', boxes, e1, c⟩ := mediancut_spec env.so h k a b hh.tiled (hk.trans hm)
    rw [e] at e1
    simp only [Except.ok.injEq, Prod.mk.injEq] at e1
    obtain ⟨rfl, rfl⟩ := e1
    have := c.pal_len
    exact withFixedColorsD_eq Sound.off _ _ _ (by omega) hm
  pass := fun t h p adj _ _ => Kmeans.iterationD_eq Sound.off _ _ _ _ (by intro h; cases h) (by intro h; cases h) (by intro h; cases h)
  err := by intro h; cases h

end anyFloat

theorem sound_real : Sound ℝ true where
  fin := by intro _ x; simp [isFinite]
  split := fun _ => split_right_pos
  zero := by intro _; simp
  refl := by intro _ x; simp

theorem diff_small {lo hi : ℝ} {x y : FPixel ℝ} (hx : ∀ i, lo ≤ x.chan i ∧ x.chan i ≤ hi) (hy : ∀ i, lo ≤ y.chan i ∧ y.chan i ≤ hi) :
    x.diff y ≤ 12 * (hi - lo) ^ 2 := by
  rw [FPixel.diff_spec]
  have hx0 : lo ≤ x.a ∧ x.a ≤ hi := hx 0
  have hx1 : lo ≤ x.r ∧ x.r ≤ hi := hx 1
  have hx2 : lo ≤ x.g ∧ x.g ≤ hi := hx 2
  have hx3 : lo ≤ x.b ∧ x.b ≤ hi := hx 3
  have hy0 : lo ≤ y.a ∧ y.a ≤ hi := hy 0
  have hy1 : lo ≤ y.r ∧ y.r ≤ hi := hy 1
  have hy2 : lo ≤ y.g ∧ y.g ≤ hi := hy 2
  have hy3 : lo ≤ y.b ∧ y.b ≤ hi := hy 3
  have key : ∀ c a d : ℝ, -d ≤ c → c ≤ d → -d ≤ a → a ≤ d → chanDiff c a ≤ 4 * d ^ 2 := by
    intro c a d h1 h2 h3 h4
    unfold chanDiff
    apply max_le <;> nlinarith
  unfold diff FPixel.spec
  dsimp only
  have k1 := key (x.r - y.r) (x.a - y.a) (hi - lo) (by linarith) (by linarith) (by linarith) (by linarith)
  have k2 := key (x.g - y.g) (x.a - y.a) (hi - lo) (by linarith) (by linarith) (by linarith) (by linarith)
  have k3 := key (x.b - y.b) (x.a - y.a) (hi - lo) (by linarith) (by linarith) (by linarith) (by linarith)
  linarith

theorem matchItem_small {p : PalF ℝ} {n : Nearest ℝ} (hn : Nearest.new p = .ok n) (hp : ∀ e ∈ p, e.color.InUnit)
    (adjust : Bool) {x : HistItem ℝ} (hx : x.color.InUnit) : (Kmeans.matchItem n adjust x).2 ≤ 108 := by
  have hpal : n.palette = p := (Nearest.new_ok hn).2.2.1
  have hunit : ∀ j < p.length, (palColor p j).InUnit := by
    intro j hj
    rw [(palColor_get hj).2]
    exact hp _ (List.getElem_mem hj)
  have hlt := Nearest.search_lt hn x.color x.tmp
  cases adjust with
  | false =>
    obtain ⟨h1, h2, -⟩ := Nearest.search_min hn x.color x.tmp (.inr ⟨_, hlt, inUnit_diff hx (hunit _ hlt)⟩)
    show (n.search x.color x.tmp).2 ≤ 108
    rw [h2]
    have := diff_small (lo := 0) (hi := 1) hx (hunit _ h1)
    linarith
  | true =>
    obtain ⟨h1, h2, -⟩ := Nearest.search_min hn (FPixel.sub ⟨x.color.a +₃ x.color.a, x.color.r +₃ x.color.r, x.color.g +₃ x.color.g,
      x.color.b +₃ x.color.b⟩ (palColor n.palette (n.search x.color x.tmp).1)) (n.search x.color x.tmp).1 (.inl hlt)
    show (n.search (FPixel.sub ⟨x.color.a +₃ x.color.a, x.color.r +₃ x.color.r, x.color.g +₃ x.color.g,
      x.color.b +₃ x.color.b⟩ (palColor n.palette (n.search x.color x.tmp).1)) (n.search x.color x.tmp).1).2 ≤ 108
    rw [h2]
    have hm : ∀ i, (-1 : ℝ) ≤ (FPixel.sub ⟨x.color.a +₃ x.color.a, x.color.r +₃ x.color.r, x.color.g +₃ x.color.g,
        x.color.b +₃ x.color.b⟩ (palColor n.palette (n.search x.color x.tmp).1)).chan i ∧
        (FPixel.sub ⟨x.color.a +₃ x.color.a, x.color.r +₃ x.color.r, x.color.g +₃ x.color.g,
        x.color.b +₃ x.color.b⟩ (palColor n.palette (n.search x.color x.tmp).1)).chan i ≤ 2 := by
      rw [hpal]
      intro i
      have hu := hunit _ hlt i
      have hv := hx i
      generalize palColor p (n.search x.color x.tmp).1 = q at hu
      generalize x.color = c at hv
      fin_cases i <;> simp [FPixel.chan, FPixel.sub] at hu hv ⊢ <;> constructor <;> linarith
    have hd : ∀ q : FPixel ℝ, q.InUnit → (FPixel.sub ⟨x.color.a +₃ x.color.a, x.color.r +₃ x.color.r, x.color.g +₃ x.color.g,
        x.color.b +₃ x.color.b⟩ (palColor n.palette (n.search x.color x.tmp).1)).diff q ≤ 108 := by
      intro q hq
      have := diff_small (lo := -1) (hi := 2) hm (fun i => ⟨by linarith [(hq i).1], by linarith [(hq i).2]⟩)
      linarith
    exact hd _ (hunit _ h1)


/-- every item of the working histogram weighs something -/
def HeavyHist (h0 h : HistogramInternal ℝ) : Prop := (MixHist FPixel.InUnit h ∧ HistOK h0 h) ∧ ∀ x ∈ h.items, 0 < x.adjustedWeight

def UnitPal (m : ℕ) (h0 : HistogramInternal ℝ) (p : PalF ℝ) : Prop := (∀ e ∈ p, e.color.InUnit) ∧ PalOK m h0.fixedColors p

theorem heavy_kept (env : Env ℝ) {m : ℕ} (hm : m ≤ 256) (h0 : HistogramInternal ℝ) : Kept env m (HeavyHist h0) (UnitPal m h0) where
  cut := by
    intro h k a b pal h' pal2 hh h1 h2 e1 e2
    obtain ⟨g1, g2⟩ := ((mixHist_kept inUnit_mixes env hm).and (histOK_kept env hm h0)).cut _ _ _ _ _ _ _ hh.1 h1 h2 e1 e2
    refine ⟨⟨g1, ?_⟩, g2⟩
    obtain ⟨pal', h'', boxes, e1', c⟩ := mediancut_spec env.so h k a b hh.1.1.tiled (h2.trans hm)
    rw [e1] at e1'
    simp only [Except.ok.injEq, Prod.mk.injEq] at e1'
    obtain ⟨rfl, rfl⟩ := e1'
    intro x hx
    have : x.core ∈ h.items.map HistItem.core := c.items_core.mem_iff.1 (List.mem_map_of_mem hx)
    obtain ⟨y, hy, he⟩ := List.mem_map.1 this
    simp only [HistItem.core, Prod.mk.injEq] at he
    rw [← he.2.1]; exact hh.2 y hy
  pass := by
    intro t h p adj h' p' e hh hp e1
    obtain ⟨g1, g2⟩ := ((mixHist_kept inUnit_mixes env hm).and (histOK_kept env hm h0)).pass _ _ _ _ _ _ _ hh.1 hp e1
    obtain ⟨-, i2, -⟩ := Kmeans.iteration_mixes inUnit_mixes (env.sched_valid _ _) hh.1.1.nonneg hh.1.1.items hp.1 e1
    exact ⟨⟨g1, i2 hh.2⟩, g2⟩

theorem entriesOK_nonneg {h : HistogramInternal ℝ} (hw : ∀ x ∈ h.items, 0 ≤ x.perceptualWeight) : EntriesOK true h := by
  intro _ l _ hl
  simp only [PalPop.new, real_to32, Kmeans.sum64_real, real_le, real_lit32, Rat.cast_zero]
  apply List.sum_nonneg
  intro y hy
  obtain ⟨x, hx, rfl⟩ := List.mem_map.1 hy
  obtain ⟨z, hz, he⟩ := hl x hx
  simp only [HistItem.core, Prod.mk.injEq] at he
  rw [← he.2.2]; exact hw z hz

theorem mean_le {α : Type} (l : List α) (w d : α → ℝ) (B : ℝ) (hB : 0 ≤ B) (hw : ∀ x ∈ l, 0 ≤ w x) (hd : ∀ x ∈ l, d x ≤ B) :
    (l.map fun x => w x * d x).sum / (l.map w).sum ≤ B := by
  have h0 : 0 ≤ (l.map w).sum := by
    apply List.sum_nonneg
    intro y hy
    obtain ⟨x, hx, rfl⟩ := List.mem_map.1 hy
    exact hw x hx
  apply div_le_of_le_mul₀ h0 hB
  clear h0
  induction l with
  | nil => simp
  | cons x l ih =>
    have h1 := ih (fun y hy => hw y (by simp [hy])) (fun y hy => hd y (by simp [hy]))
    have h2 := mul_le_mul_of_nonneg_left (hd x (by simp)) (hw x (by simp))
    simp only [List.map_cons, List.sum_cons]
    linarith

theorem checked_exact (env : Env ℝ) {m : ℕ} (hm : m ≤ 256) {h0 : HistogramInternal ℝ}
    (ht : h0.totalPerceptualWeight = (h0.items.map (·.perceptualWeight)).sum) :
    Checked true env m (HeavyHist h0) (UnitPal m h0) where
  kept := heavy_kept env hm h0
  cut := by
    intro h k a b hh h1 _
    exact mediancutD_eq sound_real env.so h k a b hh.1.1.tiled hh.1.1.pos h1 (fun _ c hc => by simpa using hh.2 c hc)
      (entriesOK_nonneg fun x hx => (hh.1.1.nonneg x hx).2)
  fixed := by
    intro h k a b pal h' hh h1 hk e
    obtain ⟨pal', h'', boxes, e1, c⟩ := mediancut_spec env.so h k a b hh.1.1.tiled (hk.trans hm)
    rw [e] at e1
    simp only [Except.ok.injEq, Prod.mk.injEq] at e1
    obtain ⟨rfl, rfl⟩ := e1
    have := c.pal_len
    exact withFixedColorsD_eq sound_real _ _ _ (by omega) hm
  pass := by
    intro t h p adj hh hp
    refine Kmeans.iterationD_eq sound_real _ _ _ _ ?_ ?_ ?_
    · intro _ n hn x hx
      have := matchItem_small hn hp.1 adj (hh.1.1.items x hx)
      simp only [real_lt, real_lit64]
      refine lt_of_le_of_lt this ?_
      push_cast; norm_num
    · intro _ n hn x hx
      have := (Kmeans.matchItem_weights hn adj x (hh.1.1.nonneg x hx)).1
      simpa using this
    · intro _ n k hn hk
      rw [Kmeans.reduce_eq _ n adj p.length h.items (env.sched_valid _ _) hh.1.1.pos (fun x => by
        rw [Kmeans.matchItem_tmp]; exact Nearest.search_lt hn _ _)] at hk
      cases hk
      unfold Kmeans.finalizeChecks
      rw [List.all_eq_true]
      rintro ⟨a, e⟩ hx
      have ha := (List.of_mem_zip hx).1
      obtain ⟨j, -, rfl⟩ := List.mem_map.1 ha
      rw [Kmeans.contrib_sums]
      have : 0 ≤ (((h.items.map fun x => (Kmeans.matchItem n adj x).1).filter fun x => decide (x.tmp = j)).map
          fun x => x.adjustedWeight).sum := by
        apply List.sum_nonneg
        intro y hy
        obtain ⟨x, hx, rfl⟩ := List.mem_map.1 hy
        obtain ⟨z, hz, rfl⟩ := List.mem_map.1 (List.mem_filter.1 hx).1
        exact (Kmeans.matchItem_weights hn adj z (hh.1.1.nonneg z hz)).1
      simp only [Bool.or_eq_true, real_le, real_lit32, real_to32, Rat.cast_zero]
      exact .inr this
  err := by
    intro _ t h p h' p' e hh hp e1
    obtain ⟨en, hen⟩ := List.exists_mem_of_ne_nil p hp.2.pos
    have hfar : ∀ x ∈ h.items, ∃ e ∈ p, x.color.diff e.color < 2 ^ 128 := fun x hx =>
      ⟨en, hen, inUnit_diff (hh.1.1.items x hx) (hp.1 en hen)⟩
    have herr := Kmeans.iteration_error (env.sched_valid _ _) hh.1.1.pos hfar e1
    have htot : h.totalPerceptualWeight = (h.items.map (·.perceptualWeight)).sum := by
      rw [hh.1.2.total, ht]
      have := (hh.1.2.perm.map fun y : FPixel ℝ × ℝ => y.2).sum_eq
      simpa [List.map_map, Function.comp_def] using this.symm
    have hle : e ≤ 12 := by
      rw [herr, htot]
      apply mean_le h.items (fun x => x.perceptualWeight) (fun x => distTo (p.map fun e => e.color.spec) x.color.spec) 12 (by norm_num)
        (fun x hx => (hh.1.1.nonneg x hx).2)
      intro x hx
      have h1 : distTo (p.map fun e => e.color.spec) x.color.spec ≤ diff x.color.spec en.color.spec := by
        apply csInf_le
        · refine ⟨0, ?_⟩
          rintro d ⟨c, hc, rfl⟩
          obtain ⟨y, hy, rfl⟩ := List.mem_map.1 hc
          rw [← FPixel.diff_spec]; exact FPixel.diff_nonneg _ _
        · exact ⟨_, List.mem_map_of_mem hen, rfl⟩
      rw [← FPixel.diff_spec] at h1
      have := diff_small (lo := 0) (hi := 1) (hh.1.1.items x hx) (hp.1 en hen)
      linarith
    simp only [real_lt, real_lit64]
    refine lt_of_le_of_lt hle ?_
    push_cast; norm_num

end Verif
