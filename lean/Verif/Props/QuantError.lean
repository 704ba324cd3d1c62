import Verif.Lemmas.QuantError
import Verif.Props.Mixture

/-! The error that a quantization reports (C53). -/

set_option linter.unusedSectionVars false

namespace Verif
open Flt Spec

/-- The colours of a histogram with their weights: with `T` the sum of all counts / 256, a colour weighs its
count / 256 but at most `T / 10`, a colour with count 0 (a fixed colour) weighs `T`. -/
noncomputable def Spec.weighted (h : Histogram ℝ) (ho : HashOrder) (γ : ℝ) : List (Color × ℝ) :=
  let all := h.insertFixedColors ho
  let T : ℝ := ((all.map fun e => (e.2.1 : ℝ)).sum) / 256
  all.map fun e => (colorOf γ e.2.2, if e.2.1 = 0 then T else min ((e.2.1 : ℝ) / 256) (T / 10))

theorem inUnit_mixes : Mixes FPixel.InUnit := by
  have h : Mixes fun c : FPixel ℝ => (((0:ℝ) ≤ 1 * c.a + 0 * c.r + 0 * c.g + 0 * c.b ∧ (0:ℝ) ≤ 0 * c.a + 1 * c.r + 0 * c.g + 0 * c.b) ∧
      ((0:ℝ) ≤ 0 * c.a + 0 * c.r + 1 * c.g + 0 * c.b ∧ (0:ℝ) ≤ 0 * c.a + 0 * c.r + 0 * c.g + 1 * c.b)) ∧
      (((-1:ℝ) ≤ (-1) * c.a + 0 * c.r + 0 * c.g + 0 * c.b ∧ (-1:ℝ) ≤ 0 * c.a + (-1) * c.r + 0 * c.g + 0 * c.b) ∧
      ((-1:ℝ) ≤ 0 * c.a + 0 * c.r + (-1) * c.g + 0 * c.b ∧ (-1:ℝ) ≤ 0 * c.a + 0 * c.r + 0 * c.g + (-1) * c.b)) :=
    (((mixes_half _ _ _ _ _).and (mixes_half _ _ _ _ _)).and ((mixes_half _ _ _ _ _).and (mixes_half _ _ _ _ _))).and
      (((mixes_half _ _ _ _ _).and (mixes_half _ _ _ _ _)).and ((mixes_half _ _ _ _ _).and (mixes_half _ _ _ _ _)))
  refine h.congr fun c => ?_
  unfold FPixel.InUnit
  constructor
  · intro h
    have h0 : 0 ≤ c.a ∧ c.a ≤ 1 := h 0
    have h1 : 0 ≤ c.r ∧ c.r ≤ 1 := h 1
    have h2 : 0 ≤ c.g ∧ c.g ≤ 1 := h 2
    have h3 : 0 ≤ c.b ∧ c.b ≤ 1 := h 3
    refine ⟨⟨⟨?_, ?_⟩, ?_, ?_⟩, ⟨?_, ?_⟩, ?_, ?_⟩ <;> linarith [h0.1, h0.2, h1.1, h1.2, h2.1, h2.2, h3.1, h3.2]
  · rintro ⟨⟨⟨h1, h2⟩, h3, h4⟩, ⟨h5, h6⟩, h7, h8⟩ i
    fin_cases i
    · show 0 ≤ c.a ∧ c.a ≤ 1
      constructor <;> linarith
    · show 0 ≤ c.r ∧ c.r ≤ 1
      constructor <;> linarith
    · show 0 ≤ c.g ∧ c.g ≤ 1
      constructor <;> linarith
    · show 0 ≤ c.b ∧ c.b ≤ 1
      constructor <;> linarith

theorem inUnit_diff {x y : FPixel ℝ} (hx : x.InUnit) (hy : y.InUnit) : x.diff y < 2 ^ 128 := by
  rw [FPixel.diff_spec]
  have hx0 : 0 ≤ x.a ∧ x.a ≤ 1 := hx 0
  have hx1 : 0 ≤ x.r ∧ x.r ≤ 1 := hx 1
  have hx2 : 0 ≤ x.g ∧ x.g ≤ 1 := hx 2
  have hx3 : 0 ≤ x.b ∧ x.b ≤ 1 := hx 3
  have hy0 : 0 ≤ y.a ∧ y.a ≤ 1 := hy 0
  have hy1 : 0 ≤ y.r ∧ y.r ≤ 1 := hy 1
  have hy2 : 0 ≤ y.g ∧ y.g ≤ 1 := hy 2
  have hy3 : 0 ≤ y.b ∧ y.b ≤ 1 := hy 3
  have key : ∀ c a : ℝ, -1 ≤ c → c ≤ 1 → -1 ≤ a → a ≤ 1 → chanDiff c a ≤ 4 := by
    intro c a h1 h2 h3 h4
    unfold chanDiff
    apply max_le <;> nlinarith
  unfold diff FPixel.spec
  dsimp only
  have k1 := key (x.r - y.r) (x.a - y.a) (by linarith) (by linarith) (by linarith) (by linarith)
  have k2 := key (x.g - y.g) (x.a - y.a) (by linarith) (by linarith) (by linarith) (by linarith)
  have k3 := key (x.b - y.b) (x.a - y.a) (by linarith) (by linarith) (by linarith) (by linarith)
  have : (12:ℝ) < 2 ^ 128 := by norm_num
  linarith

theorem reduceBySize_pos {x n : ℕ} : 0 < Attr.reduceBySize x n ↔ 0 < x := by
  have h : ∀ y, 0 < Attr.reduce y ↔ 0 < y := by
    intro y; unfold Attr.reduce; omega
  unfold Attr.reduceBySize
  dsimp only
  split <;> split <;> split <;> split <;> simp only [h]

/-- **C53** (exact), the part that holds: a quantization that was never asked to stop, of a histogram in which no fixed
colour occurs twice. Either the number reported is 0 and the palette consists of all the colours of the
histogram; or it is the weighted mean of the differences of the histogram's colours to their nearest colours in a palette of
which the palette of the result is one refinement; or nothing is reported, which happens only without a quality limit at
speed 8 and above.

The full statement has no condition on the fixed colours; see `C53_does_not_hold`. -/
theorem C53_error_partial {h : Histogram ℝ} (hg : OnlyGiven (fun _ => True) h) (env : Env ℝ) (cs : List Call)
    (cb : Option (List ℝ → Bool)) (freeze : Bool) (log log' : List ℝ) (r : QuantizationResult ℝ)
    (e : h.quantizeInternal env (userAttr cs cb) freeze log = (.ok r, log'))
    (hcb : ∀ f, cb = some f → ∀ l, log <+: l → l ≠ log → l <+: log' → f l = false)
    (hfix : ((h.fixedColors.map fun c => colorOf r.gamma c.1)).Nodup) :
    (r.paletteError = none ∧ lastQuality cs = none ∧ 8 ≤ (Settings.default.after cs).speed) ∨
    (r.paletteError = some 0 ∧
      (r.palette.map fun x => x.color.spec).Perm ((weighted h env.ho r.gamma).map (·.1))) ∨
    ∃ (old : List (Color × Bool)) (new : List Color),
      r.paletteError = some (meanError (weighted h env.ho r.gamma) (old.map (·.1))) ∧
      Refined ((weighted h env.ho r.gamma).map (·.1)) old new ∧ new.Perm (r.palette.map fun x => x.color.spec) := by
  have hgam : r.gamma = h.gamma.getD (45455/100000 : ℝ) := by
    rcases user_outcome env cs cb h freeze log with ⟨-, -, e'⟩ | ⟨-, e'⟩
    · rw [e] at e'; cases e'
    · rw [e] at e'
      cases e' with
      | ok _ _ _ _ hr => rw [hr.rest]; simp
  have hγ : 0 < r.gamma := quantize_gamma_pos hg e
  have hnb : ¬ Broke (userAttr cs cb).progressCallback log log' := by
    rintro ⟨l, h1, h2, h3, h4⟩
    cases cb with
    | none => cases h4
    | some f =>
      have h5 : f l = true := h4
      rw [hcb f rfl l h1 h2 h3] at h5; cases h5
  unfold Histogram.quantizeInternal at e
  split at e
  · cases e
  next hne =>
    rw [PM.bind_ok (progress_eq _ _ _)] at e
    split at e
    · cases e
    · rw [PM.bind_ok (progress_eq _ _ _)] at e
      split at e
      · cases e
      · dsimp only at e
        obtain ⟨hist, l1, e1, e2⟩ := PM.bind_ok_inv e
        obtain ⟨e1', hl1⟩ := PM.lift_ok_inv e1
        have hne' : h.hashmap ≠ [] ∨ h.fixedColors ≠ [] := by
          by_contra hc
          push Not at hc
          exact hne (by simp [hc.1, hc.2])
        have hg' : h.gamma.getD (lit64 (45455/100000)) = r.gamma := by
          rw [hgam]; congr 1; simp
        rw [hg'] at e1'
        have hmix : MixHist FPixel.InUnit hist := finalize_mix hg.holds env.ho (fun c _ => fromRgba_unit hγ c) hne' e1'
        have hmax := userAttr_range (F := ℝ) cs cb
        have hsp := userAttr_speedOK (F := ℝ) cs cb
        obtain ⟨w1, -, w3, -⟩ := C44_weights env.ho h r.gamma hist e1'
        have hok : HistOK hist hist := ⟨hmix.tiled, hmix.pos, List.Perm.refl _, rfl, rfl⟩
        have hw : (hist.items.map fun x => (x.color.spec, x.perceptualWeight)).Perm (weighted h env.ho r.gamma) := by
          have := w3.map fun y : FPixel ℝ × ℝ => (y.1.spec, y.2)
          simp only [List.map_map, Function.comp_def, fromRgba_spec] at this
          exact this
        obtain ⟨p, err, he, hpal, hcase⟩ := new_last ((mixHist_kept inUnit_mixes env hmax.2).and (histOK_kept env hmax.2 hist))
          hmax.1 ⟨hmix, hok⟩ (fun h' hh => hh.2.len) (by
            intro ht
            unfold Attr.feedbackTrials at ht
            rw [reduceBySize_pos, hsp.trials] at ht
            unfold Attr.kmeansIterationsFor
            dsimp only
            have : 0 < Attr.reduceBySize (userAttr (F := ℝ) cs cb).kmeansIterations hist.items.length := by
              rw [reduceBySize_pos, hsp.iterations]; omega
            split <;> omega) e2 (by
              rintro ⟨l, h1, h2, h3, h4⟩
              refine hnb ⟨l, ?_, ?_, h3, h4⟩
              · refine List.IsPrefix.trans ?_ h1
                rw [hl1]
                exact (prefix_reported _ _ _).trans (prefix_reported _ _ _)
              · intro hll
                apply h2
                have h5 : log <+: l1 := by rw [hl1]; exact (prefix_reported _ _ _).trans (prefix_reported _ _ _)
                rw [hll] at h1
                rw [hll]
                exact h5.eq_of_length_le h1.length_le)
        have hperm : (r.palette.map fun x => x.color.spec).Perm (p.map fun x => x.color.spec) := by
          rw [hpal]
          refine ((sortPalette_perm _ _).map _).trans ?_
          split
          · rw [List.map_map]; exact List.Perm.refl _
          · exact List.Perm.refl _
        rcases hcase with ⟨hlen, -, hp⟩ | ⟨rfl, hit⟩ | ⟨t, hw', q, h'', pe, hH, hP, hkm, rfl⟩
        · right; left
          obtain ⟨p', f1, -, f2⟩ := paletteFromHistogram_ok (h := hist) hmax.2 hmix.pos hlen
          rw [hp] at f1
          simp only [Except.ok.injEq, Prod.mk.injEq] at f1
          obtain ⟨rfl, rfl⟩ := f1
          refine ⟨by rw [he]; simp, hperm.trans ?_⟩
          have hnd : hist.fixedColors.Nodup := by
            obtain ⟨r', g1, -, -, -, g5⟩ := Histogram.finalize_spec env.ho h r.gamma
            rw [e1'] at g1; cases g1
            have hpf : (((env.ho.set h.fixedColors).mergeSort (fun x y => decide (x.2 ≤ y.2))).map
                fun c => colorOf r.gamma c.1).Perm (h.fixedColors.map fun c => colorOf r.gamma c.1) :=
              ((List.mergeSort_perm _ _).trans (env.ho.set_perm _)).map _
            have := hpf.nodup_iff.2 hfix
            rw [g5]
            apply List.Nodup.of_map FPixel.spec
            rw [List.map_map]
            simpa only [Function.comp_def, fromRgba_spec] using this
          have hwp := withFixedColors_perm hnd (by simpa [List.map_map, Function.comp_def] using fixed_in_items e1') f2
          have := hwp.map FPixel.spec
          simp only [List.map_map, Function.comp_def] at this
          refine this.trans ?_
          have h2 := hw.map (·.1)
          simp only [List.map_map, Function.comp_def] at h2
          exact h2
        · left
          refine ⟨he, ?_, ?_⟩
          · unfold Attr.kmeansIterationsFor at hit
            dsimp only at hit
            by_contra hq
            have hm : (userAttr (F := ℝ) cs cb).maxMse.isSome = true := by
              rw [(userAttr_quality cs cb).1]
              cases hl : lastQuality cs with
              | none => exact absurd hl hq
              | some q => rfl
            split at hit
            · cases hit
            next hc => exact hc ⟨hit, by simp, hm⟩
          · unfold Attr.kmeansIterationsFor at hit
            dsimp only at hit
            have h0 : ¬ 0 < Attr.reduceBySize (userAttr (F := ℝ) cs cb).kmeansIterations hist.items.length := by
              split at hit
              · cases hit
              · omega
            rw [reduceBySize_pos, hsp.iterations] at h0
            have hobs := C13_settings_registers_any_float (F := ℝ) cs
            simp only [Attr.observeInt, Attr.getSpeed, Prod.mk.injEq] at hobs
            have : (userAttr (F := ℝ) cs cb).speed = (Settings.default.after cs).speed := hobs.2.1
            omega
        · right; right
          have hfar : ∀ x ∈ hw'.items, ∃ e ∈ q, x.color.diff e.color < 2 ^ 128 := by
            intro x hx
            obtain ⟨en, hen⟩ := List.exists_mem_of_ne_nil q hP.2.pos
            exact ⟨en, hen, inUnit_diff (hH.1.items x hx) (hP.1 en hen)⟩
          have hsv := env.sched_valid t (Kmeans.numChunks hw'.items.length)
          have herr := Kmeans.iteration_error hsv hH.1.pos hfar hkm
          have href := Kmeans.iteration_refined hsv hH.1.pos hP.2.pos (hP.2.le.trans hmax.2) hH.1.nonneg hfar hkm
          have hpw : (hw'.items.map fun x => (x.color.spec, x.perceptualWeight)).Perm (weighted h env.ho r.gamma) := by
            have := hH.2.perm.map fun y : FPixel ℝ × ℝ => (y.1.spec, y.2)
            simp only [List.map_map, Function.comp_def] at this
            exact this.trans hw
          refine ⟨q.map fun e => (e.color.spec, e.pop.isFixed), p.map fun e => e.color.spec, ?_, ?_, hperm.symm⟩
          · rw [he, herr]
            congr 1
            unfold meanError
            rw [List.map_map]
            congr 1
            · have := (hpw.map fun x => x.2 * distTo (q.map fun e => e.color.spec) x.1).sum_eq
              rw [List.map_map] at this
              exact this
            · rw [hH.2.total, w1]
              have := (hw.map (·.2)).sum_eq
              rw [List.map_map] at this
              exact this
          · obtain ⟨l, k1, k2⟩ := href
            refine ⟨l, k1.trans ?_, k2⟩
            have := hpw.map (·.1)
            rw [List.map_map] at this
            exact this

/-- hypotheses of `C53_error_partial`: three counted colours and a fixed one, at most two entries -/
example : ∃ (h0 h1 h2 : Histogram ℝ) (r : QuantizationResult ℝ) (log' : List ℝ),
    h0 = Histogram.new (userAttr [] none) ∧
    h0.addColors [(⟨255, 0, 0, 255⟩, 1), (⟨0, 0, 255, 255⟩, 7), (⟨0, 0, 5, 5⟩, 3)] 0 = .ok h1 ∧
    h1.addFixedColor ⟨255, 0, 0, 255⟩ 0 = .ok h2 ∧ OnlyGiven (fun _ => True) h2 ∧
    h2.quantizeInternal Env.simple (userAttr [.maxColors 2] none) false [] = (.ok r, log') ∧
    (h2.fixedColors.map fun c => colorOf r.gamma c.1).Nodup := by
  obtain ⟨h1, e1⟩ : ∃ h1, (Histogram.new (userAttr (F := ℝ) [] none)).addColors
      [(⟨255, 0, 0, 255⟩, 1), (⟨0, 0, 255, 255⟩, 7), (⟨0, 0, 5, 5⟩, 3)] 0 = .ok h1 := by
    unfold Histogram.addColors
    rw [if_neg (by simp), if_neg (by simp)]
    exact ⟨_, rfl⟩
  have hf1 : h1.fixedColors = [] := by
    unfold Histogram.addColors at e1
    rw [if_neg (by simp), if_neg (by simp)] at e1
    simp [Histogram.new] at e1
    rw [← e1]
    rfl
  obtain ⟨h2, e2, hf2⟩ : ∃ h2, h1.addFixedColor ⟨255, 0, 0, 255⟩ 0 = .ok h2 ∧ h2.fixedColors = [(⟨255, 0, 0, 255⟩, 0)] := by
    unfold Histogram.addFixedColor
    rw [if_neg (by simp [hf1, maxColorsCap])]
    refine ⟨_, rfl, ?_⟩
    dsimp only
    rw [if_neg (by simp)]
    rw [hf1]; rfl
  obtain ⟨r, log', e3⟩ := C42_succeeds (F := ℝ) Env.simple [.maxColors 2] h2 false [] rfl (.inr (by rw [hf2]; simp))
  exact ⟨_, h1, h2, r, log', rfl, e1, e2, .fixed (.colors (.new _) (fun _ _ => trivial) e1) trivial e2, e3, by rw [hf2]; simp⟩

/-- **C53 fails for a fixed colour that was added twice** (exact). A histogram of red and blue to which red is added twice as a
fixed colour has two colours, and 256 are allowed; the reported error is 0 and the reported quality 100; but both
entries of the palette are red. -/
theorem C53_does_not_hold : ∃ (h0 h1 h2 h3 : Histogram ℝ) (r : QuantizationResult ℝ) (log' : List ℝ),
    h0 = Histogram.new (userAttr [] none) ∧
    h0.addColors [(⟨255, 0, 0, 255⟩, 1), (⟨0, 0, 255, 255⟩, 1)] 0 = .ok h1 ∧
    h1.addFixedColor ⟨255, 0, 0, 255⟩ 0 = .ok h2 ∧ h2.addFixedColor ⟨255, 0, 0, 255⟩ 0 = .ok h3 ∧
    h3.quantizeInternal Env.simple (userAttr [] none) false [] = (.ok r, log') ∧
    r.quantizationError = some 0 ∧ r.quantizationQuality = some 100 ∧
    r.palette.map (fun x => x.color.spec) = [colorOf r.gamma ⟨255, 0, 0, 255⟩, colorOf r.gamma ⟨255, 0, 0, 255⟩] ∧
    (∃ w, 0 < w ∧ (colorOf r.gamma ⟨0, 0, 255, 255⟩, w) ∈ weighted h3 (Env.simple : Env ℝ).ho r.gamma) ∧
    colorOf r.gamma ⟨0, 0, 255, 255⟩ ≠ colorOf r.gamma ⟨255, 0, 0, 255⟩ := by
  have hpb : (userAttr (F := ℝ) [] none).posterizeBits = 0 := rfl
  obtain ⟨M, hM⟩ : ∃ M, M = (userAttr (F := ℝ) [] none).maxHistogramEntries := ⟨_, rfl⟩
  obtain ⟨h3, hh3⟩ : ∃ h3 : Histogram ℝ, h3 = ⟨none, [(⟨255, 0, 0, 255⟩, 0), (⟨255, 0, 0, 255⟩, 1)],
    [(⟨255, 0, 0, 255⟩, (1, ⟨255, 0, 0, 255⟩)), (⟨0, 0, 255, 255⟩, (1, ⟨0, 0, 255, 255⟩))], 0, M⟩ := ⟨_, rfl⟩
  have hins : h3.insertFixedColors (Env.simple : Env ℝ).ho =
      [(⟨255, 0, 0, 255⟩, (0, ⟨255, 0, 0, 255⟩)), (⟨0, 0, 255, 255⟩, (1, ⟨0, 0, 255, 255⟩))] := by
    rw [hh3]; rfl
  have hq := userAttr_quality (F := ℝ) [] none
  have hmax : (userAttr (F := ℝ) [] none).maxColors = 256 := by rw [userAttr_maxColors]; rfl
  obtain ⟨hi, p, f1, f2, f3⟩ := quantize_few (Env.simple : Env ℝ) (userAttr (F := ℝ) [] none) (by rw [hmax]) rfl h3 false []
    (.inl (by rw [hh3]; simp)) (by rw [hins, hmax]; simp) (by rw [hq.2]; simp [lastQuality]) (by
      intro m hm'
      rw [hq.1] at hm'
      simp [lastQuality] at hm')
  have hg : h3.gamma.getD (lit64 (45455/100000)) = (45455/100000 : ℝ) := by rw [hh3]; simp
  rw [hg] at f1 f3
  obtain ⟨r', g1, -, -, -, g5⟩ := Histogram.finalize_spec (Env.simple : Env ℝ).ho h3 (45455/100000)
  rw [f1] at g1; cases g1
  have hfix : hi.fixedColors = [FPixel.fromRgba (gammaLut (45455/100000 : ℝ)) ⟨255, 0, 0, 255⟩,
      FPixel.fromRgba (gammaLut (45455/100000 : ℝ)) ⟨255, 0, 0, 255⟩] := by
    rw [g5, hh3]
    show List.map _ (List.mergeSort [((⟨255, 0, 0, 255⟩ : RGBA), 0), (⟨255, 0, 0, 255⟩, 1)] _) = _
    rw [List.mergeSort_of_pairwise (by simp)]
    rfl
  have hlen : hi.items.length = 2 := by
    obtain ⟨r', g1, -, g2⟩ := h3.finalize_ok (Env.simple : Env ℝ).ho (45455/100000)
    rw [f1] at g1; cases g1
    rw [g2, hins]; rfl
  obtain ⟨p', k1, k2, k3⟩ := withFixedColors_spec (hi.items.map fun x => (⟨x.color, PalPop.new x.perceptualWeight⟩ : PalEntry ℝ))
    (userAttr (F := ℝ) [] none).maxColors hi.fixedColors (by simp [hlen, hmax]) (by rw [hmax])
  rw [f2] at k1; cases k1
  rw [hmax, hfix] at k3
  rw [hfix, hmax, List.length_map, hlen] at k2
  have hpal : p.map (fun x => x.color.spec) = [colorOf (45455/100000) ⟨255, 0, 0, 255⟩, colorOf (45455/100000) ⟨255, 0, 0, 255⟩] := by
    obtain ⟨e0, he0, hc0, -⟩ := k3 0 _ rfl
    obtain ⟨e1, he1, hc1, -⟩ := k3 1 _ rfl
    apply List.ext_getElem?
    intro i
    rcases i with _ | _ | i
    · rw [List.getElem?_map, he0, Option.map_some, hc0, fromRgba_spec]; rfl
    · rw [List.getElem?_map, he1, Option.map_some, hc1, fromRgba_spec]; rfl
    · rw [List.getElem?_eq_none (by simp [k2]), List.getElem?_eq_none (by simp)]
  refine ⟨_, ⟨none, [], [(⟨255, 0, 0, 255⟩, (1, ⟨255, 0, 0, 255⟩)), (⟨0, 0, 255, 255⟩, (1, ⟨0, 0, 255, 255⟩))], 0, M⟩,
    ⟨none, [(⟨255, 0, 0, 255⟩, 0)], [(⟨255, 0, 0, 255⟩, (1, ⟨255, 0, 0, 255⟩)), (⟨0, 0, 255, 255⟩, (1, ⟨0, 0, 255, 255⟩))], 0, M⟩,
    h3, _, _, rfl, ?_, ?_, ?_, f3, ?_, ?_, ?_, ?_, ?_⟩
  · unfold Histogram.addColors
    rw [if_neg (by simp), if_neg (by simp)]
    simp only [Histogram.new, hpb, ← hM, real_lt, real_lit64]
    rw [if_neg (by simp)]
    have m1 : maskColor 0 ⟨255, 0, 0, 255⟩ = ⟨255, 0, 0, 255⟩ := by decide
    have m2 : maskColor 0 ⟨0, 0, 255, 255⟩ = ⟨0, 0, 255, 255⟩ := by decide
    simp [Histogram.addColor, m1, m2, ColorMap.upsert]
  · unfold Histogram.addFixedColor
    rw [if_neg (by simp [maxColorsCap])]
    dsimp only
    rw [if_neg (by simp)]
    rfl
  · unfold Histogram.addFixedColor
    rw [if_neg (by simp [maxColorsCap])]
    dsimp only
    rw [if_neg (by simp), hh3]
    rfl
  · simp [QuantizationResult.quantizationError, mseToStandardMse]
  · simp only [QuantizationResult.quantizationQuality, Option.map_some, Option.some.injEq]
    have := C12_quality_of_error (lit64 0 : ℝ)
    apply le_antisymm this.1.1
    apply this.2 ⟨le_rfl, .inr ?_⟩
    simp [qualityLimit]
  · simp only [Bool.false_eq_true, if_false]
    have hperm := (sortPalette_perm (userAttr (F := ℝ) [] none).lastIndexTransparent p).map fun x => x.color.spec
    rw [hpal] at hperm
    exact (List.perm_replicate (n := 2)).1 hperm
  · refine ⟨1/2560, by norm_num, ?_⟩
    unfold weighted
    rw [hins]
    simp
    norm_num
  · intro hc
    have := congrArg Color.b hc
    simp [colorOf] at this
    rw [Real.zero_rpow (by norm_num)] at this
    norm_num at this

end Verif
