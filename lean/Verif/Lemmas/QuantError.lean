import Verif.Lemmas.QuantLast
import Verif.Lemmas.HullUse
import Verif.Lemmas.Diffuse
import Verif.Props.Kmeans
import Verif.Props.Clusters
import Verif.Props.PaletteOrder
import Verif.Spec.Search

/-! The error that a k-means pass reports, and palettes made of all the colours of the histogram. -/

set_option linter.unusedSectionVars false

namespace Verif
open Flt Spec

theorem Kept.and {F : Type} [Flt F] {env : Env F} {m : ℕ} {H H' : HistogramInternal F → Prop} {P P' : PalF F → Prop}
    (k : Kept env m H P) (k' : Kept env m H' P') : Kept env m (fun h => H h ∧ H' h) (fun p => P p ∧ P' p) where
  cut := fun h j a b pal h' pal2 hh h1 h2 e1 e2 =>
    ⟨⟨(k.cut h j a b pal h' pal2 hh.1 h1 h2 e1 e2).1, (k'.cut h j a b pal h' pal2 hh.2 h1 h2 e1 e2).1⟩,
      (k.cut h j a b pal h' pal2 hh.1 h1 h2 e1 e2).2, (k'.cut h j a b pal h' pal2 hh.2 h1 h2 e1 e2).2⟩
  pass := fun t h p adj h' p' e hh hp e1 =>
    ⟨⟨(k.pass t h p adj h' p' e hh.1 hp.1 e1).1, (k'.pass t h p adj h' p' e hh.2 hp.2 e1).1⟩,
      (k.pass t h p adj h' p' e hh.1 hp.1 e1).2, (k'.pass t h p adj h' p' e hh.2 hp.2 e1).2⟩

theorem histOK_kept {F : Type} [Flt F] [FltSign F] (env : Env F) {m : ℕ} (hm : m ≤ 256) (h0 : HistogramInternal F) :
    Kept env m (HistOK h0) (PalOK m h0.fixedColors) where
  cut := by
    intro h k a b pal h' pal2 hh h1 h2 e1 e2
    obtain ⟨pal', hist, boxes, pal2', f1, -, hok, f2, pok⟩ := cut_fixed_ok env.so hm hh h1 h2 a b
    rw [e1] at f1
    simp only [Except.ok.injEq, Prod.mk.injEq] at f1
    obtain ⟨rfl, rfl⟩ := f1
    rw [e2] at f2
    simp only [Except.ok.injEq] at f2
    subst f2
    exact ⟨hok, pok⟩
  pass := by
    intro t h p adj h' p' e hh hp e1
    obtain ⟨h'', p'', e', f1, k, s, -⟩ := Kmeans.iteration_ok (env.sched t (Kmeans.numChunks h.items.length)) h p adj hp.pos
      (hp.le.trans hm)
    unfold Env.kmeans at e1
    rw [e1] at f1
    simp only [Except.ok.injEq, Prod.mk.injEq] at f1
    obtain ⟨rfl, rfl, rfl⟩ := f1
    exact ⟨hh.same s, hp.keep k⟩

theorem distTo_eq {pal : List Color} {c e : Color} (he : e ∈ pal) (h : ∀ e' ∈ pal, diff c e ≤ diff c e') :
    distTo pal c = diff c e := by
  unfold distTo
  apply IsLeast.csInf_eq
  refine ⟨⟨e, he, rfl⟩, ?_⟩
  rintro d ⟨e', he', rfl⟩
  exact h e' he'

namespace Kmeans

/-- The error that a pass without adjustment reports. -/
theorem iteration_error {sched : List (List ℕ)} {hist hist' : HistogramInternal ℝ} {p p' : PalF ℝ} {err : ℝ}
    (hs : SchedValid (numChunks hist.items.length) sched) (hne : hist.items ≠ [])
    (hfar : ∀ x ∈ hist.items, ∃ e ∈ p, x.color.diff e.color < 2 ^ 128)
    (h : iteration sched hist p false = .ok (hist', p', err)) :
    err = (hist.items.map fun x => x.perceptualWeight * distTo (p.map fun e => e.color.spec) x.color.spec).sum /
      hist.totalPerceptualWeight := by
  cases hn : Nearest.new p with
  | error f =>
    unfold iteration at h
    rw [if_neg (by simpa using hne), hn] at h
    cases h
  | ok n =>
    rw [iteration_eq false hne hn hs] at h
    cases hr : replaceUnused (finalizePalette (total n false p.length hist.items).averages p)
      (matched n false hist).items with
    | error f => rw [hr] at h; cases h
    | ok q =>
      rw [hr] at h
      simp only [bind, Except.bind, pure, Except.pure, Except.ok.injEq, Prod.mk.injEq] at h
      rw [← h.2.2]
      congr 1
      unfold total errorOf
      dsimp only
      rw [List.map_map]
      congr 1
      apply List.map_congr_left
      intro x hx
      obtain ⟨e, he, hfe⟩ := hfar x hx
      obtain ⟨j, hj, rfl⟩ := List.getElem_of_mem he
      obtain ⟨m1, m2, m3⟩ := Nearest.search_min hn x.color x.tmp
        (.inr ⟨j, hj, by simpa [palColor, List.getElem?_eq_getElem hj] using hfe⟩)
      have hd : (matchItem n false x).2 = (n.search x.color x.tmp).2 := by unfold matchItem; simp
      have hget : palColor p (n.search x.color x.tmp).1 = p[(n.search x.color x.tmp).1].color := by
        simp [palColor, List.getElem?_eq_getElem m1]
      show (matchItem n false x).2 * (matchItem n false x).1.perceptualWeight = _
      rw [(matchItem_color n false x).2, hd, mul_comm]
      congr 1
      rw [distTo_eq (e := p[(n.search x.color x.tmp).1].color.spec)
        (List.mem_map.2 ⟨_, List.getElem_mem _, rfl⟩), ← FPixel.diff_spec, m2, hget]
      intro e' he'
      obtain ⟨y, hy, rfl⟩ := List.mem_map.1 he'
      obtain ⟨k, hk, rfl⟩ := List.getElem_of_mem hy
      have := m3 k hk
      rw [m2, hget] at this
      rw [← FPixel.diff_spec, ← FPixel.diff_spec]
      simpa [palColor, List.getElem?_eq_getElem hk] using this

/-- A pass without adjustment is a refinement. -/
theorem iteration_refined {sched : List (List ℕ)} {hist hist' : HistogramInternal ℝ} {p p' : PalF ℝ} {err : ℝ}
    (hs : SchedValid (numChunks hist.items.length) sched) (hne : hist.items ≠ []) (h0 : p ≠ []) (hp : p.length ≤ 256)
    (hw : NonnegWeights hist) (hfar : ∀ x ∈ hist.items, ∃ e ∈ p, x.color.diff e.color < 2 ^ 128) {adj : Bool}
    (h : iteration sched hist p adj = .ok (hist', p', err)) :
    Refined (hist.items.map fun x => x.color.spec) (p.map fun e => (e.color.spec, e.pop.isFixed)) (p'.map fun e => e.color.spec) := by
  obtain ⟨h'', p'', e', f1, k, s, -⟩ := iteration_ok sched hist p adj h0 hp
  rw [h] at f1
  simp only [Except.ok.injEq, Prod.mk.injEq] at f1
  obtain ⟨rfl, rfl, rfl⟩ := f1
  obtain ⟨c1, c2⟩ := C26_weighted_mean hs hne (fun x hx => .inr (hfar x hx)) h
  obtain ⟨a1, -, -⟩ := iteration_range hs hw h
  have hcol : hist'.items.map (fun x => x.color.spec) = hist.items.map fun x => x.color.spec := by
    have := congrArg (List.map fun y : FPixel ℝ × ℝ => y.1.spec) s.items
    simpa [List.map_map, Function.comp_def] using this
  refine ⟨hist'.items.map fun x => (x.color.spec, x.adjustedWeight, x.tmp), ?_, ?_, by simp [k.1], ?_⟩
  · rw [List.map_map, ← hcol]; rfl
  · intro y hy
    obtain ⟨x, hx, rfl⟩ := List.mem_map.1 hy
    refine ⟨(a1 x hx).1, ?_⟩
    obtain ⟨hlt, hmin⟩ := c1 x hx
    refine ⟨p[x.tmp].color.spec, ?_, ?_⟩
    · simp [List.getElem?_eq_getElem hlt]
    · intro c' hc'
      simp only [List.map_map, List.mem_map, Function.comp] at hc'
      obtain ⟨e, he, rfl⟩ := hc'
      rw [← FPixel.diff_spec, ← FPixel.diff_spec]
      exact hmin e he
  · intro i c f hi mine
    rw [List.getElem?_map] at hi
    cases hpi : p[i]? with
    | none => rw [hpi] at hi; cases hi
    | some e =>
      rw [hpi] at hi
      simp only [Option.map_some, Option.some.injEq, Prod.mk.injEq] at hi
      obtain ⟨rfl, rfl⟩ := hi
      have hmine : mine = (hist'.items.filter fun x => x.tmp = i).map fun x => (x.color.spec, x.adjustedWeight) := by
        simp only [mine, List.filter_map, List.map_map]
        rfl
      constructor
      · intro hf
        rw [List.getElem?_map, k.2 i e hpi hf, Option.map_some]
      · intro hf ha hpos
        have hwt : (mine.map (·.2)).sum = Spec.weightOf hist'.items i := by
          rw [hmine, List.map_map]; rfl
        rw [hwt] at hpos
        obtain ⟨e1, he1, h1, h2, h3, h4, -⟩ := c2 i e hpi hf ha hpos
        rw [List.getElem?_map, he1, Option.map_some]
        unfold meanColor
        dsimp only
        rw [hwt, hmine]
        simp only [List.map_map, Option.some.injEq, FPixel.spec, Color.mk.injEq]
        exact ⟨h1, h2, h3, h4⟩

end Kmeans

/-! ### A palette of all colours -/

theorem set_getElem_self_map {α β : Type} (f : α → β) (l : List α) (i : ℕ) (x y : α) (h : l[i]? = some y) (hf : f x = f y) :
    (l.set i x).map f = l.map f := by
  rw [List.map_set, hf]
  apply List.ext_getElem?
  intro k
  by_cases hk : k = i
  · subst hk
    obtain ⟨hlt, rfl⟩ := List.getElem?_eq_some_iff.1 h
    rw [List.getElem?_set_self (by simpa using hlt)]
    simp [List.getElem?_eq_getElem hlt]
  · rw [List.getElem?_set_ne (Ne.symm hk)]

/-- a fixed colour that is in the rest of the palette takes its own place -/
theorem fixStep_perm {p p' : PalF ℝ} {i : ℕ} {c : FPixel ℝ} (hc : ∃ e ∈ p.drop i, e.color = c)
    (e : PalF.fixStep p i c = .ok p') : (p'.map (·.color)).Perm (p.map (·.color)) := by
  unfold PalF.fixStep at e
  split at e
  · cases e
  next x best hm =>
    obtain ⟨y, hy, hyc⟩ := hc
    have hmem := minByKey_mem _ hm
    have hle := minByKey_le _ hm
    obtain ⟨k, hk⟩ := List.mem_iff_getElem?.1 hy
    rw [List.getElem?_drop] at hk
    have hyz : (y, i + k) ∈ (p.zipIdx).drop i := by
      apply List.mem_of_getElem? (i := k)
      rw [List.getElem?_drop, List.getElem?_zipIdx, hk]
      simp
    have h0 := hle _ hyz
    simp only [hyc] at h0
    rw [FPixel.diff_self] at h0
    have hxc : x.color = c := FPixel.eq_of_diff_eq_zero (le_antisymm h0 (FPixel.diff_nonneg _ _))
    have hbest : p[best]? = some x ∧ i ≤ best := by
      obtain ⟨j, hj⟩ := List.mem_iff_getElem?.1 hmem
      rw [List.getElem?_drop, List.getElem?_zipIdx] at hj
      cases hp : p[i + j]? with
      | none => rw [hp] at hj; simp at hj
      | some w =>
        rw [hp] at hj
        simp only [Option.map_some, zero_add, Option.some.injEq, Prod.mk.injEq] at hj
        obtain ⟨rfl, rfl⟩ := hj
        exact ⟨hp, by omega⟩
    dsimp only at e
    have hget : (swapAt p i best)[i]? = some x := by
      have hil : i < p.length := by have := (List.getElem?_eq_some_iff.1 hbest.1).1; omega
      unfold swapAt
      rw [hbest.1, List.getElem?_eq_getElem hil]
      dsimp only
      by_cases hib : i = best
      · subst hib
        rw [List.getElem?_set_self (by simpa using hil)]
        have := hbest.1
        rw [List.getElem?_eq_getElem hil] at this
        exact this
      · rw [List.getElem?_set_ne (Ne.symm hib), List.getElem?_set_self hil]
    rw [hget] at e
    simp only [Except.ok.injEq] at e
    rw [← e, set_getElem_self_map (fun e : PalEntry ℝ => e.color) _ _ _ x hget hxc.symm]
    exact (swapAt_perm _ _ _).map _

theorem fixLoop_perm {fs done : List (FPixel ℝ)} {p p' : PalF ℝ} (hd : FixedPrefix done p) (hnd : (done ++ fs).Nodup)
    (hin : ∀ c ∈ fs, c ∈ p.map (·.color)) (hl : done.length + fs.length ≤ p.length)
    (e : PalF.fixLoop p done.length fs = .ok p') : (p'.map (·.color)).Perm (p.map (·.color)) := by
  induction fs generalizing done p with
  | nil => cases e; exact List.Perm.refl _
  | cons c cs ih =>
    simp only [List.length_cons] at hl
    obtain ⟨p1, e1, l1, k1, x, hx, hxc, hf⟩ := fixStep_spec p done.length c (by omega)
    rw [PalF.fixLoop, e1] at e
    have hstep : (p1.map (·.color)).Perm (p.map (·.color)) := by
      refine fixStep_perm ?_ e1
      obtain ⟨y, hy, hyc⟩ := List.mem_map.1 (hin c (by simp))
      rw [← List.take_append_drop done.length p] at hy
      rcases List.mem_append.1 hy with hy | hy
      · exfalso
        obtain ⟨k, hk⟩ := List.mem_iff_getElem?.1 hy
        have hkd : k < done.length := by
          have := (List.getElem?_eq_some_iff.1 hk).1
          rw [List.length_take] at this
          omega
        rw [List.getElem?_take_of_lt hkd] at hk
        obtain ⟨w, hw, hwc, -⟩ := hd k done[k] (List.getElem?_eq_getElem hkd)
        rw [hk] at hw
        injection hw with hw
        subst hw
        have h1 : c ∈ done := by rw [← hyc, hwc]; exact List.getElem_mem _
        rw [List.nodup_append] at hnd
        exact hnd.2.2 c h1 c (by simp) rfl
      · exact ⟨y, hy, hyc⟩
    have hd1 : FixedPrefix (done ++ [c]) p1 := by
      intro i d hi
      rcases Nat.lt_trichotomy i done.length with h | h | h
      · rw [List.getElem?_append_left h] at hi
        rw [k1 i h]; exact hd i d hi
      · subst h
        simp at hi
        exact ⟨x, hx, hxc.trans hi, hf⟩
      · rw [List.getElem?_eq_none (by simp; omega)] at hi; cases hi
    refine (ih (done := done ++ [c]) hd1 (by simpa using hnd) (fun d hd' => ?_) (by simp; omega) ?_).trans hstep
    · exact hstep.mem_iff.2 (hin d (by simp [hd']))
    · rw [List.length_append]; exact e

theorem withFixedColors_perm {p p' : PalF ℝ} {m : ℕ} {fs : List (FPixel ℝ)} (hnd : fs.Nodup)
    (hin : ∀ c ∈ fs, c ∈ p.map (·.color))
    (e : p.withFixedColors m fs = .ok p') : (p'.map (·.color)).Perm (p.map (·.color)) := by
  have hlen : fs.length ≤ p.length := by
    have := (List.subperm_of_subset hnd hin).length_le
    simpa using this
  unfold PalF.withFixedColors at e
  split at e
  · cases e; exact List.Perm.refl _
  · dsimp only at e
    rw [if_neg (by omega)] at e
    have : PalF.fixLoop p ([] : List (FPixel ℝ)).length (fs.take p.length) = .ok p' := e
    refine fixLoop_perm (FixedPrefix.nil p) ?_ ?_ ?_ this
    · simpa using hnd.sublist (List.take_sublist _ _)
    · intro c hc; exact hin c (List.mem_of_mem_take hc)
    · simp

/-- every fixed colour is among the colours of the finished histogram -/
theorem fixed_in_items {ho : HashOrder} {h : Histogram ℝ} {gamma : ℝ} {r : HistogramInternal ℝ}
    (e : h.finalizeBuilder ho gamma = .ok r) : ∀ c ∈ r.fixedColors, c ∈ r.items.map (·.color) := by
  obtain ⟨r', e1, -, -, -, e5⟩ := Histogram.finalize_spec ho h gamma
  rw [e] at e1; cases e1
  obtain ⟨-, -, h3, -⟩ := C44_weights ho h gamma r e
  intro c hc
  rw [e5] at hc
  obtain ⟨f, hf, rfl⟩ := List.mem_map.1 hc
  rw [(List.mergeSort_perm _ _).mem_iff] at hf
  have key : ∀ (l : List (RGBA × ℕ)) (m : ColorMap) (g : RGBA),
      (g ∈ l.map (·.1) ∨ ∃ v, m.get (if g.a ≠ 0 then g else ⟨0, 0, 0, 0⟩) = some v ∧
        FPixel.fromRgba (gammaLut gamma) v.2 = FPixel.fromRgba (gammaLut gamma) g) →
      ∃ v, (l.foldl (fun m (x : RGBA × ℕ) =>
        let key : RGBA := if x.1.a ≠ 0 then x.1 else ⟨0, 0, 0, 0⟩
        ColorMap.upsert m key (fun _ => (0, x.1))) m).get (if g.a ≠ 0 then g else ⟨0, 0, 0, 0⟩) = some v ∧
        FPixel.fromRgba (gammaLut gamma) v.2 = FPixel.fromRgba (gammaLut gamma) g := by
    intro l
    induction l with
    | nil => intro m g hg; simpa using hg
    | cons x l ih =>
      intro m g hg
      rw [List.foldl_cons]
      apply ih
      by_cases hkey : (if x.1.a ≠ 0 then x.1 else (⟨0, 0, 0, 0⟩ : RGBA)) = (if g.a ≠ 0 then g else ⟨0, 0, 0, 0⟩)
      · right
        refine ⟨(0, x.1), ?_, ?_⟩
        · dsimp only
          rw [ColorMap.get_upsert, if_pos hkey]
        · dsimp only
          by_cases hx : x.1.a = 0 <;> by_cases hga : g.a = 0
          · unfold FPixel.fromRgba; simp [hx, hga]
          · simp [hx, hga] at hkey; rw [← hkey] at hga; simp at hga
          · simp [hx, hga] at hkey; rw [hkey] at hx; simp at hx
          · simp [hx, hga] at hkey; rw [hkey]
      · rcases hg with hg | ⟨v, hv, hvc⟩
        · rw [List.map_cons, List.mem_cons] at hg
          rcases hg with rfl | hg
          · exact absurd rfl hkey
          · exact .inl hg
        · right
          refine ⟨v, ?_, hvc⟩
          dsimp only
          rw [ColorMap.get_upsert, if_neg hkey]
          exact hv
  obtain ⟨v, hv, hvc⟩ := key (ho.set h.fixedColors) h.hashmap f.1 (.inl (List.mem_map_of_mem hf))
  have hmem : ∃ x ∈ h.insertFixedColors ho, x.2 = v := by
    unfold ColorMap.get at hv
    obtain ⟨x, hx, hxv⟩ := Option.map_eq_some_iff.1 hv
    exact ⟨x, List.mem_of_find?_eq_some hx, hxv⟩
  obtain ⟨x, hx, rfl⟩ := hmem
  have := (h3.map (fun y => y.1)).mem_iff (a := FPixel.fromRgba (gammaLut gamma) f.1)
  simp only [List.map_map, Function.comp_def] at this
  rw [this]
  exact List.mem_map.2 ⟨x, hx, hvc⟩

end Verif
