import Verif.Props.RoundedRemap

/-! # C69: quantizing the output again is lossless -/

set_option linter.unusedSectionVars false

namespace Verif
open Flt Spec
open FltRound (val fin)

/-- the picture that a palette and bytes show, the rows of bytes being `w` long -/
def Spec.picture (palette : List RGBA) (w : ℕ) (bytes : List (Option UInt8)) (y x : ℕ) : RGBA :=
  match bytes[y * w + x]? with
  | some (some b) => palette.getD b.toNat ⟨0, 0, 0, 0⟩
  | _ => ⟨0, 0, 0, 0⟩

theorem index_lt {w h y x : ℕ} (hy : y < h) (hx : x < w) : y * w + x < w * h := by
  calc y * w + x < y * w + w := by omega
    _ = (y + 1) * w := by ring
    _ ≤ h * w := Nat.mul_le_mul_right _ hy
    _ = w * h := Nat.mul_comm _ _

/-- the picture has only colours of the palette -/
theorem picture_mem {F : Type} [Flt F] [FltSign F] (env : RemapEnv F) {q : QuantizationResult F} {img : Image F} (hq : UserResult q)
    (hi : UserImage img) (buf : List (Option UInt8)) (log : List F) (hok : (remapInto env q img buf log).res = .ok ()) :
    let r := remapInto env q img buf log
    ∀ y < img.height, ∀ x < img.width, picture r.quant.getPalette.2 img.width r.buf y x ∈ r.quant.getPalette.2 := by
  intro r y hy x hx
  have hf := C02_indices_valid env hq hi buf log hok
  obtain ⟨b, hb, hlt⟩ := hf (y * img.width + x) (index_lt hy hx)
  unfold picture
  rw [hb]
  dsimp only
  rw [List.getD_eq_getElem?_getD, List.getElem?_eq_getElem hlt, Option.getD_some]
  exact List.getElem_mem _

/-- **C69** (exact arithmetic). Take the picture that any remap produced and make a new image of it. Quantize this image with
settings that allow as many colours as the palette has (speed at most 7, posterization 0, target quality 100). This succeeds,
and so does remapping it at every dithering level, and the output is the same picture (fully transparent colours are all
alike). -/
theorem C69_picture_kept (env : Env ℝ) (renv renv' : RemapEnv ℝ) {q : QuantizationResult ℝ} {img : Image ℝ} (hq : UserResult q)
    (hi : UserImage img) (buf : List (Option UInt8)) (log : List ℝ) (hok : (remapInto renv q img buf log).res = .ok ())
    (cs : List Call) (hspeed : (Settings.default.after cs).speed ≤ 7) (hpost : (Settings.default.after cs).minPosterization = 0)
    (hqual : (Settings.default.after cs).quality.2 = 100) (hlen : q.palette.length ≤ (Settings.default.after cs).maxColors) {γ : ℝ}
    {img2 : Image ℝ} :
    let r := remapInto renv q img buf log
    let shown := picture r.quant.getPalette.2 img.width r.buf
    Made shown img.width img.height γ img2 →
    ∃ q2 img2' log', quantizeImage env (userAttr cs none) img2 log = ((.ok q2, img2'), log') ∧
      ∀ (v : ℝ) (q2' : QuantizationResult ℝ), q2.setDitheringLevel v = .ok q2' →
      ∀ (buf : List (Option UInt8)) (log : List ℝ), img.width * img.height ≤ buf.length →
        let r2 := remapInto renv' q2' img2' buf log
        r2.res = .ok () ∧ ∀ y < img.height, ∀ x < img.width,
          let c := picture r2.quant.getPalette.2 img.width r2.buf y x
          c = shown y x ∨ (c.a = 0 ∧ (shown y x).a = 0) := by
  intro r shown hm
  have hmem := picture_mem renv hq hi buf log hok
  obtain ⟨q2, img2', log', e, h⟩ := C06_lossless env renv' cs hspeed hpost hqual hm r.quant.getPalette.2
    (by rw [(C01_remap_keeps_size renv hq hi buf log).2.2.2.2]; exact hlen)
    (fun y hy x hx => ⟨_, hmem y hy x hx, .inl rfl⟩) log
  refine ⟨q2, img2', log', e, fun v q2' hv buf2 log2 hbuf => ?_⟩
  obtain ⟨h1, h2⟩ := h v q2' hv buf2 log2 hbuf
  refine ⟨h1, fun y hy x hx => ?_⟩
  obtain ⟨b, c, hb, hc, hl⟩ := h2 y hy x hx
  have : picture (remapInto renv' q2' img2' buf2 log2).quant.getPalette.2 img.width (remapInto renv' q2' img2' buf2 log2).buf y x = c := by
    unfold picture
    rw [hb]
    dsimp only
    rw [List.getD_eq_getElem?_getD, hc, Option.getD_some]
  show picture _ _ _ _ _ = _ ∨ _
  rw [this]
  exact hl

/-- **C69** (exact arithmetic). The same with the settings that were used the first time: the limit on the number of colours
is met by itself. -/
theorem C69_same_settings (env env' : Env ℝ) (renv renv' : RemapEnv ℝ) (cs : List Call) (hspeed : (Settings.default.after cs).speed ≤ 7)
    (hpost : (Settings.default.after cs).minPosterization = 0) (hqual : (Settings.default.after cs).quality.2 = 100)
    {cb : Option (List ℝ → Bool)} {h : Histogram ℝ} {freeze : Bool} {log log' : List ℝ} {q q' : QuantizationResult ℝ}
    (hquant : h.quantizeInternal env' (userAttr cs cb) freeze log = (.ok q, log')) {v : ℝ} (hv : q.setDitheringLevel v = .ok q')
    {img : Image ℝ} (hi : UserImage img) (buf : List (Option UInt8)) (hok : (remapInto renv q' img buf log).res = .ok ()) {γ : ℝ}
    {img2 : Image ℝ} :
    let r := remapInto renv q' img buf log
    let shown := picture r.quant.getPalette.2 img.width r.buf
    Made shown img.width img.height γ img2 →
    ∃ q2 img2' log', quantizeImage env (userAttr cs none) img2 log = ((.ok q2, img2'), log') ∧
      ∀ (v : ℝ) (q2' : QuantizationResult ℝ), q2.setDitheringLevel v = .ok q2' →
      ∀ (buf : List (Option UInt8)) (log : List ℝ), img.width * img.height ≤ buf.length →
        let r2 := remapInto renv' q2' img2' buf log
        r2.res = .ok () ∧ ∀ y < img.height, ∀ x < img.width,
          let c := picture r2.quant.getPalette.2 img.width r2.buf y x
          c = shown y x ∨ (c.a = 0 ∧ (shown y x).a = 0) := by
  refine C69_picture_kept env renv renv' (.level (.quantized _ _ _ _ _ _ _ hquant) hv) hi buf log hok cs hspeed hpost hqual ?_
  have := (C01_palette_size _ _ _ _ _ _ _ _ hquant).2.1
  unfold QuantizationResult.setDitheringLevel at hv
  split at hv
  · cases hv; exact this
  · cases hv

section
variable {F : Type} [Flt F] [FltOrd F] [FltSign F]

/-- **C69** (rounded). The same with rounding errors, if every pixel of the picture is fully transparent or has an alpha that is not
too small (`RGBA.Solid`). Remapping the new image fails only if the arithmetic has NaN. -/
theorem C69_picture_kept_rounded (env : Env F) (renv renv' : RemapEnv F) {q : QuantizationResult F} {img : Image F} (hq : UserResult q)
    (hi : UserImage img) (buf : List (Option UInt8)) (log : List F) (hok : (remapInto renv q img buf log).res = .ok ())
    (cs : List Call) (hspeed : (Settings.default.after cs).speed ≤ 7) (hpost : (Settings.default.after cs).minPosterization = 0)
    (hqual : (Settings.default.after cs).quality.2 = 100) (hlen : q.palette.length ≤ (Settings.default.after cs).maxColors) {γ : F}
    {img2 : Image F} (hbr : BrightGamma img2.px.gamma) (hsize : img.height * img.width + (renv'.sched img.height).workers ≤ 2 ^ 28) :
    let r := remapInto renv q img buf log
    let shown := picture r.quant.getPalette.2 img.width r.buf
    (∀ y < img.height, ∀ x < img.width, (shown y x).Solid) → Made shown img.width img.height γ img2 →
    ∃ q2 img2' log', quantizeImage env (userAttr cs none) img2 log = ((.ok q2, img2'), log') ∧
      ∀ (v : F) (q2' : QuantizationResult F), fin v → q2.setDitheringLevel v = .ok q2' →
      ∀ (buf : List (Option UInt8)) (log : List F), img.width * img.height ≤ buf.length →
        let r2 := remapInto renv' q2' img2' buf log
        ((∀ x : F, isNan x = false) → r2.res = .ok ()) ∧ (r2.res = .ok () → ∀ y < img.height, ∀ x < img.width,
          let c := picture r2.quant.getPalette.2 img.width r2.buf y x
          c = shown y x ∨ (c.a = 0 ∧ (shown y x).a = 0)) := by
  intro r shown hsolid hm
  have hmem := picture_mem renv hq hi buf log hok
  obtain ⟨q2, img2', log', e, h⟩ := C06_lossless_rounded env renv' cs hspeed hpost hqual hm hbr
    hsolid hsize r.quant.getPalette.2
    (by rw [(C01_remap_keeps_size renv hq hi buf log).2.2.2.2]; exact hlen)
    (fun y hy x hx => ⟨_, hmem y hy x hx, .inl rfl⟩) log
  refine ⟨q2, img2', log', e, fun v q2' hf hv buf2 log2 hbuf => ?_⟩
  obtain ⟨h1, h2⟩ := h v q2' hf hv buf2 log2 hbuf
  refine ⟨h1, fun hok2 y hy x hx => ?_⟩
  obtain ⟨b, c, hb, hc, hl⟩ := h2 hok2 y hy x hx
  have : picture (remapInto renv' q2' img2' buf2 log2).quant.getPalette.2 img.width (remapInto renv' q2' img2' buf2 log2).buf y x = c := by
    unfold picture
    rw [hb]
    dsimp only
    rw [List.getD_eq_getElem?_getD, hc, Option.getD_some]
  show picture _ _ _ _ _ = _ ∨ _
  rw [this]
  exact hl

end

/-- an image for every small picture -/
theorem small_made (f : ℕ → ℕ → RGBA) : ∃ img : Image ℝ, Made f 2 1 0 img := by
  refine ⟨_, .inl (?_ : Image.newFn f 2 1 (0 : ℝ) = .ok
      { px := { width := 2, height := 1, fPixels := none, source := .callback f, gamma := lit64 (45455/100000) }
        importanceMap := none, edges := none, ditherMap := none, background := none, fixedColors := [] })⟩
  unfold Image.newFn Image.newInternal Image.toU32
  simp [Image.checkImageSize, Bind.bind, Except.bind]

/-- the hypotheses of `C69_same_settings` (and so those of `C69_picture_kept`) can be met, for a dithered remap -/
example : ∃ (h : Histogram ℝ) (q q' : QuantizationResult ℝ) (img img2 : Image ℝ) (log' : List ℝ),
    h.quantizeInternal Env.simple (userAttr [] none) true [] = (.ok q, log') ∧ q.setDitheringLevel (1 / 2) = .ok q' ∧ UserImage img ∧
    (remapInto RemapEnv.simple q' img [none, none] []).res = .ok () ∧
    Made (picture (remapInto RemapEnv.simple q' img [none, none] []).quant.getPalette.2 img.width
      (remapInto RemapEnv.simple q' img [none, none] []).buf) img.width img.height 0 img2 := by
  obtain ⟨q, log', e⟩ := C42_succeeds (F := ℝ) Env.simple [] exampleHistogram true [] rfl
    (Or.inl (by simp [exampleHistogram]))
  obtain ⟨img, hi, hw, hh, -⟩ := example_image inkPixels (w := 2) (h := 1) (by decide) (by decide) (by decide) (by decide)
  have hq : UserResult q := .quantized _ _ _ _ _ _ _ e
  have hset : q.setDitheringLevel (1 / 2) = .ok { q with remapped := none, ditherLevel := 1 / 2 } := by
    unfold QuantizationResult.setDitheringLevel
    rw [if_pos]
    simp [Flt.le, Flt.lit32]
    norm_num
  have hcb : q.progressCallback = none := by
    rcases user_outcome Env.simple [] (none : Option (List ℝ → Bool)) exampleHistogram true [] with ⟨-, -, e'⟩ | ⟨-, e'⟩
    · rw [e] at e'; cases e'
    · rw [e] at e'
      cases e' with
      | ok _ _ _ _ hr => rw [hr.rest]
  obtain ⟨img2, hm⟩ := small_made (picture (remapInto RemapEnv.simple { q with remapped := none, ditherLevel := 1 / 2 } img [none, none] []).quant.getPalette.2
    img.width (remapInto RemapEnv.simple { q with remapped := none, ditherLevel := 1 / 2 } img [none, none] []).buf)
  refine ⟨_, q, _, img, img2, log', e, hset, hi, C48_succeeds _ (.level hq hset) hi _ _ (by simp [hw, hh]) hcb (fun _ => rfl), ?_⟩
  rw [hw, hh]
  rw [hw] at hm
  exact hm

/-- an image for every small picture, at the default gamma -/
theorem small_made_rounded (f : ℕ → ℕ → RGBA) : ∃ img : Image CutReal, Made f 2 1 (lit64 0) img ∧ BrightGamma img.px.gamma := by
  obtain ⟨z1, z2⟩ := FltRound.lit64 (F := CutReal) 0 (by unfold Fits64; norm_num)
  have zv : val (lit64 0 : CutReal) = 0 := z2.2 (by norm_num)
  have one := Approx.lit64 (F := CutReal) (q := 1) (by push_cast; exact mid_of (by norm_num) (by norm_num))
  have h1 : le (lit64 0 : CutReal) (lit64 0) = true := (FltRound.le _ _ z1 z1).2 le_rfl
  have h2 : le (lit64 0 : CutReal) (lit64 1) = true := (FltRound.le _ _ z1 one.fin).2 (by rw [zv]; exact (one.rel.pos (by norm_num)).le)
  have h3 : lt (lit64 0 : CutReal) (lit64 0) = false := by
    rw [← Bool.not_eq_true, FltRound.lt _ _ z1 z1]; exact lt_irrefl _
  have e : Image.newFn f 2 1 (lit64 0 : CutReal) = .ok
      { px := { width := 2, height := 1, fPixels := none, source := .callback f, gamma := lit64 (45455/100000) }
        importanceMap := none, edges := none, ditherMap := none, background := none, fixedColors := [] } := by
    unfold Image.newFn Image.newInternal Image.toU32
    simp [Image.checkImageSize, Bind.bind, Except.bind, h1, h2, h3]
  exact ⟨_, .inl e, BrightGamma.default⟩

/-- the hypotheses of `C69_picture_kept_rounded` can be met -/
example : ∃ (q : QuantizationResult CutReal) (img img2 : Image CutReal), UserResult q ∧ UserImage img ∧ q.palette.length ≤ 256 ∧
    img.width = 2 ∧ img.height = 1 ∧
    let r := remapInto RemapEnv.simple q img [none, none] []
    let shown := picture r.quant.getPalette.2 img.width r.buf
    r.res = .ok () ∧ BrightGamma img2.px.gamma ∧ (∀ y < img.height, ∀ x < img.width, (shown y x).Solid) ∧
    Made shown img.width img.height (lit64 0) img2 := by
  obtain ⟨img, hm, hbr⟩ := inkPixels_made (F := CutReal)
  obtain ⟨q, img', log', e, h⟩ := C06_lossless_rounded Env.simple RemapEnv.simple [.maxColors 2] (by decide) (by decide) (by decide)
    hm hbr (fun y _ x _ => inkPixels_solid y x) (by decide) [⟨10, 20, 30, 40⟩, ⟨50, 60, 70, 255⟩] (by decide)
    (fun y _ x _ => inkPixels_colors y x) []
  have hmf := hm.facts
  obtain ⟨z1, z2⟩ := FltRound.lit64 (F := CutReal) 0 (by unfold Fits64; norm_num)
  have zv : val (lit64 0 : CutReal) = 0 := z2.2 (by norm_num)
  obtain ⟨q2, img2, log2, e2, huq, hui, -, -, hw, hh, -⟩ :=
    quantizeImage_few_any Env.simple [.maxColors 2] (by decide) (by decide) (by decide) hm
      (hmf.user.good.mapPositive_rounded hmf.shows_ hbr.toUsualGamma)
      ((FltRound.lt _ _ z1 hbr.fin).2 (by rw [zv]; linarith [hbr.bright])) ((FltRound.eq _ _ z1 z1).2 rfl)
      (fun _ => limit_scaled) [⟨10, 20, 30, 40⟩, ⟨50, 60, 70, 255⟩] (by decide) (fun y _ x _ => inkPixels_colors y x) []
  rw [e] at e2
  cases e2
  have z := IsZero.lit32 (F := CutReal)
  have one := Approx.lit32 (F := CutReal) (q := 1) (by push_cast; exact mid_of (by norm_num) (by norm_num))
  have hset : q.setDitheringLevel (lit32 0) = .ok { q with remapped := none, ditherLevel := lit32 0 } := by
    unfold QuantizationResult.setDitheringLevel
    rw [if_pos]
    rw [Bool.and_eq_true, FltRound.le _ _ z.fin z.fin, FltRound.le _ _ z.fin one.fin, z.zero]
    exact ⟨le_rfl, (one.rel.pos (by norm_num)).le⟩
  obtain ⟨h1, h2⟩ := h _ _ z.fin hset [none, none] [] (by simp)
  have h1 := h1 (fun _ => rfl)
  have h2 := h2 h1
  obtain ⟨img3, hm3, hb3⟩ := small_made_rounded (picture (remapInto RemapEnv.simple { q with remapped := none, ditherLevel := lit32 0 } img' [none, none] []).quant.getPalette.2
    2 (remapInto RemapEnv.simple { q with remapped := none, ditherLevel := lit32 0 } img' [none, none] []).buf)
  refine ⟨_, img', img3, .level huq hset, hui, huq.good.le, hw, hh, h1, hb3, ?_, ?_⟩
  · intro y hy x hx
    obtain ⟨b, c, hb, hc, hl⟩ := h2 y (by rwa [hh] at hy) x (by rwa [hw] at hx)
    have : picture (remapInto RemapEnv.simple { q with remapped := none, ditherLevel := lit32 0 } img' [none, none] []).quant.getPalette.2
        img'.width (remapInto RemapEnv.simple { q with remapped := none, ditherLevel := lit32 0 } img' [none, none] []).buf y x = c := by
      unfold picture
      rw [hw, hb]
      dsimp only
      rw [List.getD_eq_getElem?_getD, hc, Option.getD_some]
    rw [this]
    rcases hl with rfl | ⟨h0, -⟩
    · exact inkPixels_solid _ _
    · exact .inl h0
  · rw [hw, hh]; exact hm3

end Verif
