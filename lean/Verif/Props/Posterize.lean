import Verif.Props.Gamma
import Verif.Props.Convert

/-! # C40 and C41 for everything a caller can do with a result -/

set_option linter.unusedSectionVars false

namespace Verif
open Flt Spec

section
variable {F : Type} [Flt F]

theorem quantized_post [FltSign F] {env : Env F} {cs : List Call} {cb : Option (List F → Bool)} {h : Histogram F} {freeze : Bool}
    {log log' : List F} {r : QuantizationResult F} (e : h.quantizeInternal env (userAttr cs cb) freeze log = (.ok r, log')) :
    r.minPosterizationOutput = (Settings.default.after cs).minPosterization := by
  rcases user_outcome env cs cb h freeze log with ⟨-, -, e'⟩ | ⟨-, e'⟩
  · rw [e] at e'; cases e'
  · rw [e] at e'
    cases e' with
    | ok _ _ _ _ hr =>
      rw [hr.rest]
      have := C13_settings_registers_any_float (F := F) cs
      simp only [Attr.observeInt, Attr.getMinPosterization, Prod.mk.injEq] at this
      exact this.2.2

/-- every list of bytes in the result came from rounding -/
structure Rounded (b : ℕ) (q : QuantizationResult F) : Prop where
  post_ : q.minPosterizationOutput = b
  int_ : ∀ c ∈ q.intPalette, ∃ (γ : F) (e : PalEntry F), c = (PalF.roundEntry γ (UInt8.ofNat b) e).2
  remapped_ : ∀ re, q.remapped = some re → ∀ c ∈ re.intPalette, ∃ (γ : F) (e : PalEntry F), c = (PalF.roundEntry γ (UInt8.ofNat b) e).2

theorem Rounded.report {b : ℕ} {q : QuantizationResult F} (h : Rounded b q) :
    (∀ c ∈ q.getPalette.2, ∃ (γ : F) (e : PalEntry F), c = (PalF.roundEntry γ (UInt8.ofNat b) e).2) ∧ Rounded b q.getPalette.1 := by
  unfold QuantizationResult.getPalette
  cases hre : q.remapped with
  | some re => exact ⟨h.remapped_ re hre, h⟩
  | none =>
    dsimp only
    split
    · have key : ∀ c ∈ (q.palette.initIntPalette q.gamma (UInt8.ofNat q.minPosterizationOutput)).2,
          ∃ (γ : F) (e : PalEntry F), c = (PalF.roundEntry γ (UInt8.ofNat b) e).2 := by
        intro c hc
        unfold PalF.initIntPalette at hc
        obtain ⟨e, -, rfl⟩ := List.mem_map.1 hc
        exact ⟨q.gamma, e, by rw [h.post_]⟩
      exact ⟨key, h.post_, key, fun re h' => by cases h'⟩
    · exact ⟨h.int_, h⟩

theorem Called.rounded [FltSign F] {q0 q : QuantizationResult F} {g : F} {s : Option F} (hq : UserResult q0) (hint : q0.intPalette = [])
    (hrem : q0.remapped = none) (h : Called q0 g s q) : Rounded q0.minPosterizationOutput q := by
  induction h with
  | start => exact ⟨rfl, by simp [hint], fun re hre => by rw [hrem] at hre; cases hre⟩
  | @remap g s q img env buf log hc hi ih =>
    rcases remapInto_quant env (hc.user hq).good hi.good buf log with ⟨_, e⟩ | ⟨_, p, err, _, e⟩ <;> rw [e]
    · exact ih
    · refine ⟨ih.post_, ih.int_, fun re hre => ?_⟩
      simp only [Option.some.injEq] at hre
      rw [← hre]
      intro c hc
      unfold PalF.conv PalF.initIntPalette at hc
      obtain ⟨e, -, rfl⟩ := List.mem_map.1 hc
      exact ⟨q.gamma, e, by rw [ih.post_]⟩
  | level _ e ih =>
    unfold QuantizationResult.setDitheringLevel at e
    split at e <;> cases e
    exact ⟨ih.1, ih.2, fun re hre => by cases hre⟩
  | gamma _ e ih =>
    unfold QuantizationResult.setOutputGamma at e
    split at e <;> cases e
    exact ⟨ih.1, ih.2, fun re hre => by cases hre⟩
  | callback cb _ ih => exact ⟨ih.1, ih.2, ih.3⟩
  | clone _ ih => exact ⟨ih.1, ih.2, ih.3⟩
  | paletteRemapped _ _ ih => exact ih.report.2
  | palette _ _ ih => exact ih.report.2

/-- **C40 for callers** (for every float arithmetic). Whatever was done with a result, every colour that it reports is
posterized as `set_min_posterization` asked for, except the fixed substitute for transparent entries. -/
theorem C40_reported_partial [FltSign F] (env : Env F) (cs : List Call) (cb : Option (List F → Bool)) (h : Histogram F) (freeze : Bool)
    (log log' : List F) (r q : QuantizationResult F) (g : F) (s : Option F)
    (e : h.quantizeInternal env (userAttr cs cb) freeze log = (.ok r, log')) (hu : Called r g s q) :
    ∀ c ∈ q.getPalette.2, PosterizedColor (Settings.default.after cs).minPosterization c ∨ c = ⟨71, 112, 76, 0⟩ := by
  obtain ⟨-, h1, h2⟩ := quantize_good env cs cb h freeze log log' e
  intro c hc
  obtain ⟨γ, en, rfl⟩ := (hu.rounded (.quantized env cs cb h freeze log log' e) h2 h1).report.1 c hc
  rw [quantized_post e]
  exact C40_palette_partial [en] γ (userAttr_post_le cs) _ (by simp [PalF.initIntPalette])

end

/-- **C41 for callers** (exact arithmetic). Whatever was done with a result, every fully transparent colour that it reports
is the substitute colour or (0,0,0,0), if there is no output posterization; `C41_fixed_posterized_not_canonical` says why. -/
theorem C41_reported_partial (env : Env ℝ) (cs : List Call) (cb : Option (List ℝ → Bool)) (h : Histogram ℝ) (freeze : Bool)
    (log log' : List ℝ) (r q : QuantizationResult ℝ) (g : ℝ) (s : Option ℝ) (hpost : (Settings.default.after cs).minPosterization = 0)
    (e : h.quantizeInternal env (userAttr cs cb) freeze log = (.ok r, log')) (hu : Called r g s q) :
    ∀ c ∈ q.getPalette.2, c.a = 0 → c = ⟨71, 112, 76, 0⟩ ∨ c = ⟨0, 0, 0, 0⟩ := by
  obtain ⟨-, h1, h2⟩ := quantize_good env cs cb h freeze log log' e
  intro c hc ha
  obtain ⟨γ, en, rfl⟩ := (hu.rounded (.quantized env cs cb h freeze log log' e) h2 h1).report.1 c hc
  rw [quantized_post e] at ha ⊢
  have := C41_transparent_partial [en] γ (b := (Settings.default.after cs).minPosterization) 0 en _ rfl
    (by simp [PalF.initIntPalette]) ha (.inl hpost)
  rw [this]
  split
  · exact .inr rfl
  · exact .inl rfl

/-- a colour that is not posterized is quantized with 4 bits of posterization, and the palette is looked at twice with
another output gamma in between -/
example : ∃ (h : Histogram ℝ) (r q : QuantizationResult ℝ),
    h.quantizeInternal Env.simple (userAttr [.minPosterization 4] none) false [] = (.ok r, []) ∧
    Called r (1/2) (some r.gamma) q ∧ q.getPalette.2 ≠ [] ∧ r.palette.map (·.color) = [FPixel.fromRgba (gammaLut r.gamma) ⟨100, 150, 201, 255⟩] ∧
    ¬ PosterizedColor 4 ⟨100, 150, 201, 255⟩ := by
  obtain ⟨h, eh⟩ : ∃ h, (Histogram.new (userAttr (F := ℝ) [.minPosterization 4] none)).addColors [(⟨100, 150, 201, 255⟩, 1)] 0 = .ok h := by
    unfold Histogram.addColors
    simp
  have hh : h.gamma = none ∧ h.fixedColors = [] ∧ ∃ k, h.hashmap = [(k, 1, ⟨100, 150, 201, 255⟩)] := by
    unfold Histogram.addColors at eh
    rw [if_neg (by simp), if_neg (by simp)] at eh
    dsimp only at eh
    rw [if_neg (by simp)] at eh
    cases eh
    exact ⟨rfl, rfl, _, rfl⟩
  obtain ⟨hg, hfx, k, hmap⟩ := hh
  obtain ⟨q, e, hpal, hγ, hpost, hcb, hl, hrem, hint⟩ := quantize_few_colors Env.simple [.minPosterization 4] (by decide) h
    (by rw [hmap]; simp) hfx (by rw [hmap]; show 1 ≤ _; decide) false []
  rw [hmap] at hpal
  simp only [List.map_cons, List.map_nil] at hpal
  have hpal' := List.perm_singleton.mp hpal
  have hne : q.palette ≠ [] := by intro h0; rw [h0] at hpal'; cases hpal'
  obtain ⟨q', hq'⟩ : ∃ q', q.getPalette.1.setOutputGamma (1/2) = .ok q' := by
    unfold QuantizationResult.setOutputGamma
    rw [if_neg (by norm_num)]
    exact ⟨_, rfl⟩
  have hlen : q'.getPalette.2 ≠ [] := by
    unfold QuantizationResult.setOutputGamma at hq'
    rw [if_neg (by norm_num)] at hq'
    cases hq'
    unfold QuantizationResult.getPalette
    simp only [hrem, hint]
    simp [PalF.initIntPalette, hne]
  exact ⟨h, q, q', e, .gamma (.palette .start hrem) hq', hlen, hpal', by unfold PosterizedColor; decide⟩

end Verif
