import Verif.Lemmas.QuantRun

/-! Quantization of a histogram with no more colours than the limit, perfect quality asked for. -/

set_option linter.unusedSectionVars false

namespace Verif
open Flt

variable {F : Type} [Flt F]

theorem progress_none (v : F) (log : List F) : progress (none : Option (List F → Bool)) v log = (.ok false, log) := rfl

/-- With few colours and target quality 100 the palette consists of the histogram's colours with the fixed colours
merged in, and the error is 0. -/
theorem quantize_few [FltSign F] (env : Env F) (attr : Attr F) (hm : attr.maxColors ≤ 256) (hcb : attr.progressCallback = none)
    (h : Histogram F) (freeze : Bool) (log : List F) (hne : h.hashmap ≠ [] ∨ h.fixedColors ≠ [])
    (hlen : (h.insertFixedColors env.ho).length ≤ attr.maxColors)
    (hperf : eq attr.targetMse (lit64 0) = true)
    (hq : ∀ m, attr.maxMse = some m → lt (m *₆ lit64 (33/100)) (lit64 0 : F) = false) :
    ∃ (hi : HistogramInternal F) (p : PalF F),
      h.finalizeBuilder env.ho (h.gamma.getD (lit64 (45455/100000))) = .ok hi ∧
      PalF.withFixedColors (hi.items.map fun x => (⟨x.color, PalPop.new x.perceptualWeight⟩ : PalEntry F))
        attr.maxColors hi.fixedColors = .ok p ∧
      h.quantizeInternal env attr freeze log =
        (.ok { palette := sortPalette attr.lastIndexTransparent
                (if freeze then p.map fun e => { e with pop := e.pop.toFixed } else p)
               gamma := h.gamma.getD (lit64 (45455/100000)), paletteError := some (lit64 0)
               minPosterizationOutput := attr.minPosterizationOutput, useDitherMap := attr.useDitherMap
               remapped := none, progressCallback := none, intPalette := [], ditherLevel := lit32 1
               singleThreadedDithering := attr.singleThreadedDithering }, log) := by
  obtain ⟨hi, e1, ht, hl⟩ := h.finalize_ok env.ho (h.gamma.getD (lit64 (45455/100000)))
  have hpos : hi.items ≠ [] := by
    apply List.ne_nil_of_length_pos
    rw [hl]
    exact List.length_pos_iff.2 (h.insertFixedColors_ne_nil env.ho hne)
  obtain ⟨p, e2, -, e3⟩ := paletteFromHistogram_ok hm hpos (by rw [hl]; exact hlen)
  refine ⟨hi, p, e1, e3, ?_⟩
  unfold Histogram.quantizeInternal
  rw [if_neg (by simp only [Bool.and_eq_true, List.isEmpty_iff]; tauto), hcb]
  rw [PM.bind_ok (progress_none _ _)]
  simp only [Bool.false_eq_true, if_false]
  rw [PM.bind_ok (progress_none _ _)]
  simp only [Bool.false_eq_true, if_false]
  rw [PM.bind_ok (a := hi) (log' := log) (by rw [PM.lift, e1])]
  unfold QuantizationResult.new
  rw [hcb, PM.bind_ok (progress_none _ _)]
  simp only [Bool.false_eq_true, if_false]
  have hz : (attr.targetMseFor hi.items.length).2.2 = true := hperf
  have hfb : findBestPalette env attr (attr.targetMseFor hi.items.length).2.1 (attr.targetMseFor hi.items.length).2.2
      (attr.targetMseFor hi.items.length).1 hi log = (.ok (p, some (lit64 0)), log) := by
    unfold findBestPalette
    rw [hz, if_pos (by simp only [Bool.and_true, decide_eq_true_eq]; rw [hl]; exact hlen)]
    rw [PM.lift, e2]
  rw [PM.bind_ok hfb]
  dsimp only
  rw [PM.bind_ok (progress_none _ _)]
  simp only [Bool.false_eq_true, if_false]
  rw [if_neg]
  · rfl
  · simp only [Attr.targetMseFor]
    cases hmm : attr.maxMse with
    | none => simp [qualityTooLow]
    | some m =>
      have h256 : hi.items.length ≤ maxColorsCap := by show _ ≤ 256; omega
      simp only [Option.map_some, if_pos h256, qualityTooLow, hq m hmm]
      decide

end Verif
