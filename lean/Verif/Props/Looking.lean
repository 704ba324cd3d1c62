import Verif.Props.Repeat
import Verif.Props.Frozen
import Verif.Props.Mixture

/-! # C68: looking at the palette changes nothing -/

set_option linter.unusedSectionVars false

namespace Verif
open Flt Spec

section
variable {F : Type} [Flt F]

/-- **C68** (any float arithmetic). `palette()` returns the same colours when it is called again, and does not change the
errors, the quality and the settings that are reported. -/
theorem C68_reports [FltSign F] {q : QuantizationResult F} (hq : UserResult q) :
    q.getPalette.1.getPalette = q.getPalette ∧ q.getPalette.1.quantizationError = q.quantizationError ∧
    q.getPalette.1.remappingError = q.remappingError ∧ q.getPalette.1.remappingQuality = q.remappingQuality ∧
    q.getPalette.1.ditherLevel = q.ditherLevel ∧ q.getPalette.1.gamma = q.gamma ∧ q.getPalette.1.palette.length = q.palette.length := by
  have hpos := hq.good.pos
  have hlen : q.palette.length ≠ 0 := by omega
  unfold QuantizationResult.getPalette
  cases hr : q.remapped with
  | some re => simp [hr]
  | none =>
    by_cases hi : q.intPalette.isEmpty = true
    · simp only [hi, if_true]
      have : (q.palette.initIntPalette q.gamma (UInt8.ofNat q.minPosterizationOutput)).2.isEmpty = false := by
        rw [List.isEmpty_eq_false_iff]
        intro h
        have := congrArg List.length h
        simp [PalF.initIntPalette] at this
        rw [this] at hlen
        simp at hlen
      simp only [this]
      refine ⟨rfl, rfl, ?_, ?_, trivial, trivial, ?_⟩
      · unfold QuantizationResult.remappingError; simp only [hr]
      · unfold QuantizationResult.remappingQuality; simp only [hr]
      · simp [PalF.initIntPalette]
    · have hi' : q.intPalette.isEmpty = false := by simpa using hi
      simp [hr, hi']

/-- **C68** (any float arithmetic). After a remap that succeeded `palette()` does not change anything. -/
theorem C68_after_remap [FltSign F] (env : RemapEnv F) {q : QuantizationResult F} {img : Image F} (hq : UserResult q) (hi : UserImage img)
    (buf : List (Option UInt8)) (log : List F) (hok : (remapInto env q img buf log).res = .ok ()) :
    (remapInto env q img buf log).quant.getPalette.1 = (remapInto env q img buf log).quant := by
  have spec := remapInto_spec env buf log hq.good hi.good
  have hbig : img.width * img.height ≤ buf.length := by
    by_contra hlt
    rw [spec.small (by omega)] at hok
    cases hok
  obtain ⟨s, d, e1, -⟩ := spec.run hbig
  obtain ⟨re, hre, -⟩ := d.done hok
  rw [e1, hre]
  rfl

/-- two results that differ in what `palette()` changes, and whose palettes are equal after rounding -/
structure SameRounded (q q' : QuantizationResult F) : Prop where
  eq' : q' = { q with palette := q'.palette, intPalette := q'.intPalette }
  rounded : (q'.palette.initIntPalette q.gamma (UInt8.ofNat q.minPosterizationOutput)).1 =
    (q.palette.initIntPalette q.gamma (UInt8.ofNat q.minPosterizationOutput)).1

theorem writeRemapped_rounded (env : RemapEnv F) {s t : RemapState F} (h : SameRounded s.quant t.quant) (h1 : t.image = s.image)
    (h2 : t.out = s.out) (h3 : t.log = s.log) (h4 : t.uninit = s.uninit) (hl : eq s.quant.ditherLevel (lit32 0) = true) :
    (writeRemapped env t).1 = (writeRemapped env s).1 ∧ (writeRemapped env t).2.image = (writeRemapped env s).2.image ∧
    (writeRemapped env t).2.out = (writeRemapped env s).2.out ∧
    ((writeRemapped env s).1 = .ok () → ∃ err,
      (writeRemapped env s).2.quant.remapped =
        some ⟨(s.quant.palette.initIntPalette s.quant.gamma (UInt8.ofNat s.quant.minPosterizationOutput)).2, some err⟩ ∧
      (writeRemapped env t).2.quant.remapped =
        some ⟨(t.quant.palette.initIntPalette s.quant.gamma (UInt8.ofNat s.quant.minPosterizationOutput)).2, some err⟩) := by
  obtain ⟨q, img, out, log, un⟩ := s
  obtain ⟨q', img', out', log', un'⟩ := t
  subst h1 h2 h3 h4
  obtain ⟨he, hr⟩ := h
  dsimp only at he hr hl ⊢
  generalize q'.palette = p at *
  generalize q'.intPalette = ip at *
  subst he
  unfold writeRemapped
  simp only [progress_eq]
  generalize reported q.progressCallback log' _ = l
  cases answered q.progressCallback l with
  | true => exact ⟨rfl, rfl, rfl, fun h => by cases h⟩
  | false =>
    simp only [hl, if_true]
    unfold remapPlain
    dsimp only
    rw [hr]
    generalize remapToPalette env _ _ _ _ _ = z
    obtain ⟨res, r⟩ := z
    cases res with
    | error e => exact ⟨rfl, rfl, rfl, fun h => by cases h⟩
    | ok err => exact ⟨rfl, rfl, rfl, fun _ => ⟨err, rfl, rfl⟩⟩

end

/-- rounding a second time shows the same colour, whether it is fixed or not -/
theorem roundEntry_twice {γ : ℝ} (hγ : 0 < γ) {b : ℕ} (hb : b ≤ 4) (e : PalEntry ℝ) :
    RGBA.Looks (PalF.roundEntry γ (UInt8.ofNat b) (PalF.roundEntry γ (UInt8.ofNat b) e).1).2 (PalF.roundEntry γ (UInt8.ofNat b) e).2 ∧
    (b = 0 → (PalF.roundEntry γ (UInt8.ofNat b) (PalF.roundEntry γ (UInt8.ofNat b) e).1).2 = (PalF.roundEntry γ (UInt8.ofNat b) e).2) := by
  by_cases hf : e.pop.isFixed = true
  · exact roundEntry_again hγ hb e hf
  have hkept : ∀ c : RGBA, (c.map fun v => PalF.posterizeChannel v (UInt8.ofNat b)).Kept (UInt8.ofNat b) := by
    intro c
    have h1 : ∀ v, PalF.posterizeChannel (PalF.posterizeChannel v (UInt8.ofNat b)) (UInt8.ofNat b) =
        PalF.posterizeChannel v (UInt8.ofNat b) := by
      intro v
      rw [← UInt8.toNat_inj]
      exact (C40_posterize_channel _ hb).2.2.2.1 (C40_posterize_channel v hb).1
    simp [RGBA.Kept, RGBA.map, h1]
  have hlook := (roundEntry_keeps hγ (hkept (e.color.toRgb γ)) (PalF.roundEntry γ (UInt8.ofNat b) e).1 rfl).2
  have hform : ∀ x : PalEntry ℝ, ¬ x.pop.isFixed = true → (PalF.roundEntry γ (UInt8.ofNat b) x).2 =
      if ((x.color.toRgb γ).map fun v => PalF.posterizeChannel v (UInt8.ofNat b)).a = 0 then ⟨71, 112, 76, 0⟩
      else (x.color.toRgb γ).map fun v => PalF.posterizeChannel v (UInt8.ofNat b) := by
    intro x hx
    unfold PalF.roundEntry
    dsimp only
    by_cases ha : ((x.color.toRgb γ).map fun v => PalF.posterizeChannel v (UInt8.ofNat b)).a = 0
    · rw [if_pos ⟨ha, hx⟩, if_pos ha, ha]
    · rw [if_neg (fun h => ha h.1), if_neg ha]
  have hall : (PalF.roundEntry γ (UInt8.ofNat b) (PalF.roundEntry γ (UInt8.ofNat b) e).1).2 = (PalF.roundEntry γ (UInt8.ofNat b) e).2 := by
    rw [hform e hf]
    have h2 := hform (PalF.roundEntry γ (UInt8.ofNat b) e).1 hf
    split
    next ha =>
      rw [h2] at hlook ⊢
      split
      · rfl
      next hb' =>
        rw [if_neg hb'] at hlook
        rcases hlook with h | h
        · rw [h] at hb'; exact absurd ha hb'
        · exact absurd h.1 hb'
    next ha =>
      rcases hlook with h | h
      · exact h
      · exact absurd h.2 ha
  exact ⟨.inl hall, fun _ => hall⟩

/-- **C68** (exact arithmetic), `_partial`: calling `palette()` before a remap without dithering does not change its outcome,
its bytes, the image and the error that is reported. The colours that are reported are the same, except that of those that
are fully transparent the hidden channels may differ; without posterization they are the same, too. Missing: dithering, and
changes of the output gamma between the two calls (`C68_does_not_hold`). -/
theorem C68_plain_partial (env : RemapEnv ℝ) {q : QuantizationResult ℝ} (hq : UserResult q) (hγ : 0 < q.gamma) (hl : q.ditherLevel = 0)
    (img : Image ℝ) (buf : List (Option UInt8)) (log : List ℝ) :
    let seen := remapInto env q.getPalette.1 img buf log
    let unseen := remapInto env q img buf log
    seen.res = unseen.res ∧ seen.buf = unseen.buf ∧ seen.image = unseen.image ∧
    (unseen.res = .ok () → seen.quant.remappingError = unseen.quant.remappingError ∧
      List.Forall₂ (fun c d => c = d ∨ (c.a = 0 ∧ d.a = 0)) seen.quant.getPalette.2 unseen.quant.getPalette.2 ∧
      (q.minPosterizationOutput = 0 → seen.quant.getPalette.2 = unseen.quant.getPalette.2)) := by
  intro seen unseen
  have hpost := hq.post_le
  have hkept : ∀ c : RGBA, (c.map fun v => PalF.posterizeChannel v (UInt8.ofNat q.minPosterizationOutput)).Kept (UInt8.ofNat q.minPosterizationOutput) := by
    intro c
    have h1 : ∀ v, PalF.posterizeChannel (PalF.posterizeChannel v (UInt8.ofNat q.minPosterizationOutput)) (UInt8.ofNat q.minPosterizationOutput) =
        PalF.posterizeChannel v (UInt8.ofNat q.minPosterizationOutput) := by
      intro v
      rw [← UInt8.toNat_inj]
      exact (C40_posterize_channel _ hpost).2.2.2.1 (C40_posterize_channel v hpost).1
    simp [RGBA.Kept, RGBA.map, h1]
  -- the result after `palette()`
  have hcases : q.getPalette.1 = q ∨ q.getPalette.1 = { q with
      palette := (q.palette.initIntPalette q.gamma (UInt8.ofNat q.minPosterizationOutput)).1
      intPalette := (q.palette.initIntPalette q.gamma (UInt8.ofNat q.minPosterizationOutput)).2 } := by
    unfold QuantizationResult.getPalette
    cases q.remapped with
    | some re => exact .inl rfl
    | none =>
      dsimp only
      split
      · exact .inr rfl
      · exact .inl rfl
  have htwice : ∀ e, (PalF.roundEntry q.gamma (UInt8.ofNat q.minPosterizationOutput)
      (PalF.roundEntry q.gamma (UInt8.ofNat q.minPosterizationOutput) e).1).1 = (PalF.roundEntry q.gamma (UInt8.ofNat q.minPosterizationOutput) e).1 := by
    intro e
    have := (roundEntry_keeps hγ (hkept (e.color.toRgb q.gamma)) (PalF.roundEntry q.gamma (UInt8.ofNat q.minPosterizationOutput) e).1 rfl).1
    generalize hz : PalF.roundEntry q.gamma (UInt8.ofNat q.minPosterizationOutput) e = z at *
    have hpop : z.1.pop = e.pop := by rw [← hz]; rfl
    have hcol : z.1.color = FPixel.fromRgba (gammaLut q.gamma) ((e.color.toRgb q.gamma).map fun v => PalF.posterizeChannel v (UInt8.ofNat q.minPosterizationOutput)) := by
      rw [← hz]; rfl
    rw [← hcol] at this
    obtain ⟨⟨c, p⟩, _⟩ := z
    show PalEntry.mk _ _ = _
    exact congrArg (PalEntry.mk · p) this
  rcases hcases with h | h
  · have hs : seen = unseen := by
      show remapInto env q.getPalette.1 img buf log = _
      rw [h]
    rw [hs]
    exact ⟨rfl, rfl, rfl, fun _ => ⟨rfl, List.forall₂_same.mpr fun _ _ => .inl rfl, fun _ => rfl⟩⟩
  have hsame : SameRounded q q.getPalette.1 := by
    rw [h]
    refine ⟨rfl, ?_⟩
    simp only [PalF.initIntPalette, List.map_map]
    exact List.map_congr_left fun e _ => htwice e
  have hlev : eq q.ditherLevel (lit32 0) = true := by rw [hl]; simp
  have hrem : ∀ {s : RemapState ℝ} {ip : List RGBA} {err : ℝ}, s.quant.remapped = some ⟨ip, some err⟩ →
      s.quant.getPalette.2 = ip ∧ s.quant.remappingError = some (mseToStandardMse err) := by
    intro s ip err h
    unfold QuantizationResult.getPalette QuantizationResult.remappingError
    rw [h]
    exact ⟨rfl, rfl⟩
  by_cases hb : buf.length < img.width * img.height
  · have h1 : seen = ⟨.error (.err .bufferTooSmall), q.getPalette.1, img, buf, log, false⟩ := by
      show remapInto _ _ _ _ _ = _
      unfold remapInto
      rw [if_pos hb]
    have h2 : unseen = ⟨.error (.err .bufferTooSmall), q, img, buf, log, false⟩ := by
      show remapInto _ _ _ _ _ = _
      unfold remapInto
      rw [if_pos hb]
    rw [h1, h2]
    exact ⟨rfl, rfl, rfl, fun h => by cases h⟩
  · obtain ⟨k1, k2, k3, k4⟩ := writeRemapped_rounded env (s := remapStart q img buf log) (t := remapStart q.getPalette.1 img buf log)
      hsame rfl rfl rfl rfl hlev
    have hout : ∀ q, remapInto env q img buf log = ⟨(writeRemapped env (remapStart q img buf log)).1, (writeRemapped env (remapStart q img buf log)).2.quant,
        (writeRemapped env (remapStart q img buf log)).2.image, (writeRemapped env (remapStart q img buf log)).2.out.flatten ++ buf.drop (img.width * img.height),
        (writeRemapped env (remapStart q img buf log)).2.log, (writeRemapped env (remapStart q img buf log)).2.uninit⟩ := by
      intro q
      unfold remapInto
      rw [if_neg hb]
      rfl
    have hseen : seen = _ := hout _
    have hunseen : unseen = _ := hout _
    rw [hseen, hunseen]
    refine ⟨k1, by dsimp only; rw [k3], k2, fun hok => ?_⟩
    obtain ⟨err, m1, m2⟩ := k4 hok
    dsimp only
    rw [(hrem m1).1, (hrem m2).1, (hrem m1).2, (hrem m2).2]
    refine ⟨rfl, ?_⟩
    show List.Forall₂ _ (q.getPalette.1.palette.initIntPalette q.gamma (UInt8.ofNat q.minPosterizationOutput)).2
      (q.palette.initIntPalette q.gamma (UInt8.ofNat q.minPosterizationOutput)).2 ∧ (_ → (q.getPalette.1.palette.initIntPalette q.gamma (UInt8.ofNat q.minPosterizationOutput)).2 =
      (q.palette.initIntPalette q.gamma (UInt8.ofNat q.minPosterizationOutput)).2)
    rw [h]
    simp only [PalF.initIntPalette, List.map_map, List.forall₂_map_left_iff, List.forall₂_map_right_iff]
    refine ⟨List.forall₂_same.mpr fun x _ => (roundEntry_twice hγ hpost x).1, fun h0 => List.map_congr_left fun x _ => (roundEntry_twice hγ hpost x).2 h0⟩

/-- the hypotheses of the theorems above: a result whose palette was not looked at before, an image and a remap that succeeds -/
example : ∃ (q : QuantizationResult ℝ) (img : Image ℝ), UserResult q ∧ 0 < q.gamma ∧ q.ditherLevel = 0 ∧
    q.remapped = none ∧ UserImage img ∧ img.width * img.height = 100 ∧
    (remapInto RemapEnv.simple q img (List.replicate 100 none) []).res = .ok () := by
  obtain ⟨q, hq, hcb, -⟩ := example_result (F := ℝ)
  obtain ⟨img, hi, w, h, -⟩ := example_image (fun _ _ => ⟨1, 2, 3, 255⟩) (w := 10) (h := 10) (by omega) (by omega) (by omega) (by omega)
  have h0 : q.setDitheringLevel 0 = .ok { q with remapped := none, ditherLevel := (0 : ℝ) } := by
    simp [QuantizationResult.setDitheringLevel]
  have h1 : QuantizationResult.setOutputGamma { q with remapped := none, ditherLevel := (0 : ℝ) } (1/2) =
      .ok { q with remapped := none, ditherLevel := (0 : ℝ), gamma := (1/2 : ℝ) } := by
    unfold QuantizationResult.setOutputGamma
    rw [if_neg]
    simp
    norm_num
  have hq' : UserResult { q with remapped := none, ditherLevel := (0 : ℝ), gamma := (1/2 : ℝ) } := .gamma (.level hq h0) h1
  refine ⟨_, img, hq', by norm_num, rfl, rfl, hi, by rw [w, h], C48_succeeds _ hq' hi _ _ (by rw [w, h]; simp) hcb (fun x => by simp)⟩

/-! ### Looking and the output gamma -/

/-- **C68 does not hold**: the image has one dark colour. With a large output gamma `palette()` shows it as black, and the
remap after the output gamma was set back shows black, too. Without the call in between it shows the colour. -/
theorem C68_does_not_hold : ∃ (env : RemapEnv ℝ) (γ γ' : ℝ) (q bright seen unseen : QuantizationResult ℝ) (img : Image ℝ), UserResult q ∧
    UserImage img ∧ q.setOutputGamma γ' = .ok bright ∧ bright.getPalette.1.setOutputGamma γ = .ok seen ∧ bright.setOutputGamma γ = .ok unseen ∧
    let a := remapInto env seen img (List.replicate 16 none) []
    let b := remapInto env unseen img (List.replicate 16 none) []
    a.res = .ok () ∧ a.quant.getPalette.2 = [⟨0, 0, 0, 255⟩] ∧ b.res = .ok () ∧ b.quant.getPalette.2 = [⟨1, 1, 1, 255⟩] := by
  obtain ⟨img, ei, hg⟩ : ∃ img : Image ℝ, Image.newFn (fun _ _ => ⟨1, 1, 1, 255⟩) 4 4 0 = .ok img ∧ img.px.gamma = 45455/100000 := by
    unfold Image.newFn Image.newInternal Image.toU32
    simp [Image.checkImageSize, Bind.bind, Except.bind]
    norm_num
  have hmi : Made (fun _ _ => ⟨1, 1, 1, 255⟩) 4 4 0 img := .inl ei
  obtain ⟨q0, img', log', -, hu0, hui, hsb, -, hw, hh, hγ, hpo, hcb, hlev, ⟨hr0, hip⟩, hγ', hcol, hsome, hlen, -, -⟩ :=
    quantizeImage_few_all Env.simple [] (by decide) (by decide) (by decide) hmi hmi.facts.user.good.mapPositive
      (by simpa using hmi.facts.user.gamma_pos.1) (by simp) (fun q _ => by
        rw [qualityToMse_spec]
        have := qualityLimit_nonneg q
        simp only [real_lit64, real_mul64, real_lt_false]
        push_cast
        positivity) [⟨1, 1, 1, 255⟩] (by decide) (fun y _ x _ => ⟨_, by simp, .inl rfl⟩) []
  obtain ⟨en, hen, d, hd1, hd2⟩ := hsome 0 (by omega) 0 (by omega)
  have hpal : q0.palette = [en] := by
    match h : q0.palette, hen, hlen with
    | [x], hen, _ => rw [List.mem_singleton] at hen; rw [hen]
    | x :: y :: l, _, hlen => simp at hlen
  have hγ0 : (0 : ℝ) < 45455/100000 := by norm_num
  have hcolor : en.color = FPixel.fromRgba (gammaLut (45455/100000 : ℝ)) ⟨1, 1, 1, 255⟩ := by
    rw [hd1, hγ', hg]
    exact (C07_distinct hγ0 d _).mpr hd2
  have hlevel : q0.setDitheringLevel 0 = .ok { q0 with remapped := none, ditherLevel := (0 : ℝ) } := by
    simp [QuantizationResult.setDitheringLevel]
  have hgam : ∀ (r : QuantizationResult ℝ) (v : ℝ), 0 < v → v < 1 → r.setOutputGamma v = .ok { r with remapped := none, gamma := v } := by
    intro r v h0 h1
    unfold QuantizationResult.setOutputGamma
    rw [if_neg]
    simp
    exact ⟨h0, h1⟩
  set q : QuantizationResult ℝ := { q0 with remapped := none, ditherLevel := (0 : ℝ) } with hqdef
  have hu : UserResult q := .level hu0 hlevel
  have hu1 : UserResult { q with remapped := none, gamma := (2 * (45455/100000) : ℝ) } := .gamma hu (hgam _ _ (by norm_num) (by norm_num))
  set bright : QuantizationResult ℝ := { q with remapped := none, gamma := (2 * (45455/100000) : ℝ) } with hbright
  have hread : bright.getPalette.1.palette = [⟨FPixel.fromRgba (gammaLut (45455/100000 : ℝ)) ⟨0, 0, 0, 255⟩, en.pop⟩] ∧
      bright.getPalette.1.minPosterizationOutput = 0 ∧ bright.getPalette.1.progressCallback = none ∧ bright.getPalette.1.ditherLevel = 0 := by
    have hbytes : en.color.toRgb (2 * (45455/100000) : ℝ) = ⟨0, 0, 0, 255⟩ := by
      have hc : en.color.spec = colorOf (45455/100000) ⟨1, 1, 1, 255⟩ := by rw [hcolor, fromRgba_spec]
      generalize en.color = x at hc ⊢
      obtain ⟨ca, cr, cg, cb⟩ := x
      simp only [FPixel.spec, colorOf, Color.mk.injEq] at hc
      obtain ⟨h1, h2, h3, h4⟩ := hc
      have hone : ((255 : UInt8).toNat : ℝ) / 255 = 1 := by
        rw [show (255 : UInt8).toNat = 255 from rfl]; norm_num
      have hdark : ((1 : UInt8).toNat : ℝ) / 255 = 1 / 255 := by
        rw [show (1 : UInt8).toNat = 1 from rfl]; norm_num
      rw [hone] at h1 h2 h3 h4
      rw [hdark] at h2 h3 h4
      have hpow : (((1 / 255 : ℝ) ^ ((0.57 : ℝ) / (45455/100000))) ^ (2 * (45455/100000) / (57 / 100 : ℝ))) = (1 / 255) ^ 2 := by
        rw [← Real.rpow_mul (by norm_num), ← Real.rpow_natCast]
        congr 1
        norm_num
      generalize (1 / 255 : ℝ) ^ ((0.57 : ℝ) / (45455/100000)) = v at *
      have e1 : (5/8 / (1/2) * cr / ca : ℝ) = v := by rw [h1, h2]; field_simp; norm_num; ring
      have e2 : (5/8 * cg / ca : ℝ) = v := by rw [h1, h3]; field_simp; norm_num; ring
      have e3 : (5/8 / (45/100) * cb / ca : ℝ) = v := by rw [h1, h4]; field_simp; norm_num; ring
      rw [toRgb_real (by dsimp only; rw [h1]; norm_num)]
      dsimp only
      rw [e1, e2, e3, hpow, h1]
      have t0 : toU8 ((1 / 255 : ℝ) ^ 2 * 256) = 0 := by
        rw [real_toU8, show ⌊((1 / 255 : ℝ) ^ 2 * 256)⌋₊ = 0 from Nat.floor_eq_zero.mpr (by norm_num)]
        rfl
      have t1 : toU8 (256 / (5/8) * (1 * 0.625) : ℝ) = 255 := by
        rw [real_toU8, show (256 / (5/8) * (1 * 0.625) : ℝ) = ((256 : ℕ) : ℝ) by norm_num, Nat.floor_natCast]
        rfl
      rw [t0, t1]
    have hz : ∀ γ : ℝ, 0 < γ → (FPixel.fromRgba (gammaLut γ) ⟨0, 0, 0, 255⟩).spec = ⟨0.625, 0, 0, 0⟩ := by
      intro γ h
      rw [fromRgba_spec]
      simp only [colorOf, Color.mk.injEq]
      have hone : ((255 : UInt8).toNat : ℝ) / 255 = 1 := by
        rw [show (255 : UInt8).toNat = 255 from rfl]; norm_num
      have hdark : ((0 : UInt8).toNat : ℝ) / 255 = 0 := by
        rw [show (0 : UInt8).toNat = 0 from rfl]; norm_num
      rw [hone, hdark, Real.zero_rpow (by positivity)]
      norm_num
    have hgp : bright.getPalette.1 = { bright with
        palette := (bright.palette.initIntPalette bright.gamma (UInt8.ofNat bright.minPosterizationOutput)).1
        intPalette := (bright.palette.initIntPalette bright.gamma (UInt8.ofNat bright.minPosterizationOutput)).2 } := by
      unfold QuantizationResult.getPalette
      rw [show bright.remapped = none from rfl, show bright.intPalette = [] from hip]
      rfl
    rw [hgp]
    refine ⟨?_, hpo, hcb, rfl⟩
    show (q0.palette.initIntPalette (2 * (45455/100000) : ℝ) (UInt8.ofNat q0.minPosterizationOutput)).1 = _
    rw [hpal, hpo]
    show [(PalF.roundEntry _ _ en).1] = _
    unfold PalF.roundEntry
    dsimp only
    rw [hbytes, show (⟨0, 0, 0, 255⟩ : RGBA).map (fun c => PalF.posterizeChannel c (UInt8.ofNat 0)) = ⟨0, 0, 0, 255⟩ from kept_zero _]
    have h1 := (hz (2 * (45455/100000)) (by norm_num)).trans (hz (45455/100000) hγ0).symm
    generalize FPixel.fromRgba (gammaLut (45455/100000 : ℝ)) ⟨0, 0, 0, 255⟩ = x at *
    generalize FPixel.fromRgba (gammaLut (2 * (45455/100000) : ℝ)) ⟨0, 0, 0, 255⟩ = y at *
    obtain ⟨a1, a2, a3, a4⟩ := x
    obtain ⟨b1, b2, b3, b4⟩ := y
    simp only [FPixel.spec, Color.mk.injEq] at h1
    obtain ⟨rfl, rfl, rfl, rfl⟩ := h1
    rfl
  have hus : UserResult { bright.getPalette.1 with remapped := none, gamma := (45455/100000 : ℝ) } :=
    .gamma (.palette hu1) (hgam _ _ (by norm_num) (by norm_num))
  have huu : UserResult { bright with remapped := none, gamma := (45455/100000 : ℝ) } := .gamma hu1 (hgam _ _ (by norm_num) (by norm_num))
  have hbuf : img'.width * img'.height ≤ (List.replicate 16 (none : Option UInt8)).length := by rw [hw, hh]; simp
  have rep : ∀ (p : List (PalEntry ℝ)) (e : PalEntry ℝ) (c : RGBA) (post : ℕ), p = [e] → post = 0 → c.a = 255 →
      e.color = FPixel.fromRgba (gammaLut (45455/100000 : ℝ)) c → (PalF.initIntPalette p (45455/100000 : ℝ) (UInt8.ofNat post)).2 = [c] := by
    rintro p e c post rfl rfl hc he
    rcases (roundEntry_keeps (post := UInt8.ofNat 0) hγ0 (kept_zero _) e he).2 with h | ⟨-, h⟩
    · show [(PalF.roundEntry _ _ e).2] = [c]
      rw [h]
    · rw [hc] at h; cases h
  have ok1 := C48_succeeds RemapEnv.simple hus hui (List.replicate 16 none) [] hbuf hread.2.2.1 (fun x => by simp)
  have ok2 := C48_succeeds RemapEnv.simple huu hui (List.replicate 16 none) [] hbuf hcb (fun x => by simp)
  refine ⟨RemapEnv.simple, 45455/100000, 2 * (45455/100000), q, bright, _, _, img', hu, hui, hgam _ _ (by norm_num) (by norm_num),
    hgam _ _ (by norm_num) (by norm_num), hgam _ _ (by norm_num) (by norm_num), ok1, ?_, ok2, ?_⟩
  · obtain ⟨n, -, -, h, -⟩ := remapInto_plain RemapEnv.simple hus.good hui.good (List.replicate 16 none) [] (by simp [hread.2.2.2]) ok1
    rw [h]
    exact rep _ _ _ _ hread.1 hread.2.1 rfl rfl
  · obtain ⟨n, -, -, h, -⟩ := remapInto_plain RemapEnv.simple huu.good hui.good (List.replicate 16 none) [] (by simp [hbright, hqdef]) ok2
    rw [h]
    exact rep _ _ _ _ hpal hpo rfl hcolor

end Verif
