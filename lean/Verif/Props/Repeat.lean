import Verif.Lemmas.Alike
import Verif.Props.Prepare

/-! # C67: remaps do not influence each other -/

set_option linter.unusedSectionVars false

namespace Verif
open Flt Spec

section
variable {F : Type} [Flt F] [FltSign F]

/-- `q'` is what became of the result `q` by remapping any images with it, successfully or not -/
inductive AfterRemaps (q : QuantizationResult F) : QuantizationResult F → Prop
  | start : AfterRemaps q q
  | remap {q' : QuantizationResult F} (env : RemapEnv F) {img : Image F} (buf : List (Option UInt8)) (log : List F) :
      AfterRemaps q q' → UserImage img → AfterRemaps q (remapInto env q' img buf log).quant

/-- `img'` is what became of the image `img` by remapping it with any results, successfully or not. The results either did
not dither it, or do not want a dither map, or found that the image has one. -/
inductive AfterPlainRemaps (img : Image F) : Image F → Prop
  | start : AfterPlainRemaps img img
  | remap {img' : Image F} (env : RemapEnv F) {q : QuantizationResult F} (buf : List (Option UInt8)) (log : List F) :
      AfterPlainRemaps img img' → UserResult q →
      (eq q.ditherLevel (lit32 0) = true ∨ q.useDitherMap = .none ∨ img'.ditherMap ≠ none) →
      AfterPlainRemaps img (remapInto env q img' buf log).image

theorem AfterRemaps.forget {q q' : QuantizationResult F} (hq : UserResult q) (h : AfterRemaps q q') :
    UserResult q' ∧ ∃ x, q' = { q with remapped := x } := by
  induction h with
  | start => exact ⟨hq, q.remapped, rfl⟩
  | @remap q' env img buf log _ hi ih =>
    obtain ⟨hq', x, rfl⟩ := ih
    refine ⟨.remap env buf log hq' hi, ?_⟩
    have spec := remapInto_spec env buf log hq'.good hi.good
    by_cases hb : buf.length < img.width * img.height
    · rw [spec.small hb]; exact ⟨x, rfl⟩
    · obtain ⟨s, d, e1, -⟩ := spec.run (by omega)
      rw [e1]
      by_cases hok : (remapInto env { q with remapped := x } img buf log).res = .ok ()
      · obtain ⟨re, hre, -⟩ := d.done hok
        exact ⟨some re, by rw [hre]; rfl⟩
      · exact ⟨x, by rw [d.failed hok]; rfl⟩

theorem AfterPlainRemaps.alike {img img' : Image F} (hi : UserImage img) (h : AfterPlainRemaps img img') : UserImage img' ∧ Alike img img' := by
  induction h with
  | start => exact ⟨hi, Alike.refl _⟩
  | @remap img' env q buf log _ hq hm ih =>
    refine ⟨.remap env q buf log ih.1 hq.good, ih.2.trans (remapInto_keeps_maps env hq.good ih.1.good buf log ?_)⟩
    rcases hm with h | h
    · exact .inl h
    · exact .inr (not_generates_of h)

/-- **C67** (any float arithmetic). What a remap does to an image does not depend on which images were remapped before with
the same result: it succeeds or fails in the same way, writes the same bytes and leaves the same image; and if it succeeds it
leaves the same result, so that palette and error are the same. -/
theorem C67_other_images (env : RemapEnv F) {q q' : QuantizationResult F} (hq : UserResult q) (h : AfterRemaps q q') (img : Image F)
    (buf : List (Option UInt8)) (log : List F) :
    (remapInto env q' img buf log).res = (remapInto env q img buf log).res ∧
    (remapInto env q' img buf log).buf = (remapInto env q img buf log).buf ∧
    (remapInto env q' img buf log).image = (remapInto env q img buf log).image ∧
    ((remapInto env q img buf log).res = .ok () →
      (remapInto env q' img buf log).quant.getPalette.2 = (remapInto env q img buf log).quant.getPalette.2 ∧
      (remapInto env q' img buf log).quant.remappingError = (remapInto env q img buf log).quant.remappingError) := by
  obtain ⟨-, x, rfl⟩ := h.forget hq
  obtain ⟨h1, h2, h3, -, h5⟩ := remapInto_recall env q x img buf log
  exact ⟨h1, h2, h3, fun hok => by rw [h5 hok]; exact ⟨rfl, rfl⟩⟩

/-- **C67** (any float arithmetic). The same for an image that was itself remapped before, if no remap made a dither map for
it: whenever both remaps succeed they write the same bytes, whatever the buffers contained, and report the same palette and
the same error. -/
theorem C67_again_partial (env : RemapEnv F) {q q' : QuantizationResult F} (hq : UserResult q) (h : AfterRemaps q q') {img img' : Image F}
    (hi : UserImage img) (hr : AfterPlainRemaps img img') (buf buf' : List (Option UInt8)) (log log' : List F)
    (h1 : (remapInto env q img buf log).res = .ok ()) (h2 : (remapInto env q' img' buf' log').res = .ok ()) :
    (∀ i < img.width * img.height, (remapInto env q' img' buf' log').buf[i]? = (remapInto env q img buf log).buf[i]?) ∧
    (remapInto env q' img' buf' log').quant.getPalette.2 = (remapInto env q img buf log).quant.getPalette.2 ∧
    (remapInto env q' img' buf' log').quant.remappingError = (remapInto env q img buf log).quant.remappingError := by
  obtain ⟨-, x, rfl⟩ := h.forget hq
  obtain ⟨hi', ha⟩ := hr.alike hi
  obtain ⟨k1, k2, -, -, k5⟩ := remapInto_recall env q x img' buf' log'
  rw [k1] at h2
  rw [k2, k5 h2]
  obtain ⟨m1, m2⟩ := remapInto_alike env hq.good hi.good hi'.good ha buf buf' log log' h1 h2
  refine ⟨fun i hlt => ?_, by rw [m1], by rw [m1]⟩
  have := congrArg (·[i]?) m2
  simpa only [List.getElem?_take, hlt, if_true] using this

end

/-- the hypotheses of `C67_other_images` and `C67_again_partial` with an image that is dithered after it was remapped without
dithering, by a result that had remapped another image before -/
example : ∃ (q q' : QuantizationResult ℝ) (img img' : Image ℝ), UserResult q ∧ AfterRemaps q q' ∧ q' ≠ q ∧ UserImage img ∧
    AfterPlainRemaps img img' ∧ eq q.ditherLevel (lit32 0) = false ∧
    (remapInto RemapEnv.simple q img (List.replicate 100 none) []).res = .ok () ∧
    (remapInto RemapEnv.simple q' img' (List.replicate 100 (some 7)) []).res = .ok () := by
  obtain ⟨q, hq, hcb, hl, -⟩ := example_result (F := ℝ)
  obtain ⟨img, hi, w, h, -⟩ := example_image (fun _ _ => ⟨1, 2, 3, 255⟩) (w := 10) (h := 10) (by omega) (by omega) (by omega) (by omega)
  obtain ⟨other, ho, wo, h', -⟩ := example_image (fun _ _ => ⟨1, 2, 255, 255⟩) (w := 5) (h := 2) (by omega) (by omega) (by omega) (by omega)
  have hlev : ∀ v : ℝ, v = 0 ∨ v = 1 → q.setDitheringLevel v = .ok { q with remapped := none, ditherLevel := v } := by
    rintro v (rfl | rfl) <;> simp [QuantizationResult.setDitheringLevel]
  have hq1 : UserResult { q with remapped := none, ditherLevel := (1 : ℝ) } := .level hq (hlev 1 (.inr rfl))
  have hq0 : UserResult { q with remapped := none, ditherLevel := (0 : ℝ) } := .level hq (hlev 0 (.inl rfl))
  have hb : (10 : ℕ) ≤ (List.replicate 100 (none : Option UInt8)).length := by rw [List.length_replicate]; omega
  have h1 := C48_succeeds RemapEnv.simple hq1 ho (List.replicate 100 none) [] (by rw [wo, h']; exact hb) hcb (fun x => by simp)
  have ha : AfterPlainRemaps img (remapInto RemapEnv.simple { q with remapped := none, ditherLevel := (0 : ℝ) } img [] []).image :=
    .remap _ _ _ .start hq0 (.inl (by simp))
  have hr : AfterRemaps { q with remapped := none, ditherLevel := (1 : ℝ) } _ := .remap RemapEnv.simple (List.replicate 100 none) [] .start ho
  obtain ⟨hq', x, hx⟩ := hr.forget hq1
  obtain ⟨hi', hal⟩ := ha.alike hi
  refine ⟨_, _, img, _, hq1, hr, ?_, hi, ha, by simp, ?_, ?_⟩
  · obtain ⟨s, d, e1, -⟩ := (remapInto_spec RemapEnv.simple (List.replicate 100 none) [] hq1.good ho.good).run (by rw [wo, h']; exact hb)
    obtain ⟨re, hre, -⟩ := d.done h1
    intro hc
    have := congrArg QuantizationResult.remapped hc
    rw [e1, hre] at this
    cases this
  · exact C48_succeeds RemapEnv.simple hq1 hi _ [] (by rw [w, h]; simp) hcb (fun x => by simp)
  · refine C48_succeeds RemapEnv.simple hq' hi' _ [] ?_ (by rw [hx]; exact hcb) (fun x => by simp)
    have h1 : Image.width _ = img.width := hal.px.width
    have h2 : Image.height _ = img.height := hal.px.height
    rw [h1, h2, w, h]
    simp

/-! ### A dithered remap changes the next one -/

/-- **C67 does not hold**: an image that is remapped twice in a row with the same result. The palette was made for a black
image and has one colour. The first remap of a white image refines the palette and shows white. It leaves a dither map in
the image, so the second one does not refine the palette and shows black. -/
theorem C67_does_not_hold : ∃ (env : RemapEnv ℝ) (q : QuantizationResult ℝ) (img : Image ℝ), UserResult q ∧ UserImage img ∧
    q.progressCallback = none ∧
    let first := remapInto env q img (List.replicate 16 none) []
    let second := remapInto env first.quant first.image (List.replicate 16 none) []
    first.res = .ok () ∧ first.quant.getPalette.2 = [⟨255, 255, 255, 255⟩] ∧
    second.res = .ok () ∧ second.quant.getPalette.2 = [⟨0, 0, 0, 255⟩] := by
  have hnew : ∀ c : RGBA, ∃ img : Image ℝ, Image.newFn (fun _ _ => c) 4 4 0 = .ok img ∧ img.ditherMap = none := by
    intro c
    unfold Image.newFn Image.newInternal Image.toU32
    simp [Image.checkImageSize, Bind.bind, Except.bind]
    norm_num
  obtain ⟨black, eb, -⟩ := hnew ⟨0, 0, 0, 255⟩
  obtain ⟨img, ei, hd⟩ := hnew ⟨255, 255, 255, 255⟩
  have hmb : Made (fun _ _ => ⟨0, 0, 0, 255⟩) 4 4 0 black := .inl eb
  have hmi : MadeFacts _ 4 4 img := Made.facts (.inl ei)
  obtain ⟨q, black', log', -, hu, hub, hsb, -, -, -, hγ, hpo, hcb, hlev, -, -, hcol, hsome, hlen, ⟨hist, hin, hfin, hpop⟩, hudm⟩ :=
    quantizeImage_few_all Env.simple [] (by decide) (by decide) (by decide) hmb hmb.facts.user.good.mapPositive
      (by simpa using hmb.facts.user.gamma_pos.1) (by simp) (fun q _ => by
        rw [qualityToMse_spec]
        have := qualityLimit_nonneg q
        simp only [real_lit64, real_mul64, real_lt_false]
        push_cast
        positivity) [⟨0, 0, 0, 255⟩] (by decide) (fun y _ x _ => ⟨_, by simp, .inl rfl⟩) []
  obtain ⟨en, hen, d, hd1, hd2⟩ := hsome 0 (by omega) 0 (by omega)
  have hpal : q.palette = [en] := by
    match h : q.palette, hen, hlen with
    | [x], hen, _ => rw [List.mem_singleton] at hen; rw [hen]
    | x :: y :: l, _, hlen => simp at hlen
  have hγ0 : 0 < q.gamma := by rw [hγ]; exact hub.gamma_pos.1
  have hdb : en.color = FPixel.fromRgba (gammaLut q.gamma) ⟨0, 0, 0, 255⟩ := by
    rw [hd1, hγ]
    exact (C07_distinct hub.gamma_pos.1 d _).mpr hd2
  have hnf : en.pop.isFixed = false := by
    obtain ⟨x, hx, he⟩ := hpop en hen
    rw [he]
    unfold PalPop.isFixed PalPop.new
    have := (C44_weights _ _ _ _ hfin).2.2.2 x hx
    simpa using this
  have rep : ∀ (e : PalEntry ℝ) (c : RGBA), c.a = 255 → e.color = FPixel.fromRgba (gammaLut q.gamma) c →
      (PalF.initIntPalette [e] q.gamma (UInt8.ofNat q.minPosterizationOutput)).2 = [c] := by
    intro e c hc he
    have := (roundEntry_keeps (post := UInt8.ofNat q.minPosterizationOutput) hγ0 (by rw [hpo]; exact kept_zero _) e he).2
    rcases this with h | ⟨-, h⟩
    · simp [PalF.initIntPalette, h]
    · rw [hc] at h; cases h
  have hsz : img.width * img.height = 16 := by rw [hmi.width_, hmi.height_]
  have hmode : q.useDitherMap ≠ .none := by
    rw [hudm]
    decide
  have hl : eq q.ditherLevel (lit32 0) = false := by
    rw [hlev]
    simp
  have hok := C48_succeeds RemapEnv.simple hu hmi.user (List.replicate 16 none) [] (by rw [hsz]; simp) hcb (fun x => by simp)
  refine ⟨RemapEnv.simple, q, img, hu, hmi.user, hcb, ?_⟩
  intro first second
  have hu1 : UserResult first.quant := .remap RemapEnv.simple _ _ hu hmi.user
  have hi1 : UserImage first.image := .remap RemapEnv.simple q _ _ hmi.user hu.good
  have hsame := (remapInto_same RemapEnv.simple (List.replicate 16 none) [] hu.good hmi.user.good).1
  have hsz1 : first.image.width * first.image.height = 16 := by
    rw [show first.image.width = img.width from hsame.width, show first.image.height = img.height from hsame.height, hsz]
  rcases remapInto_mapped RemapEnv.simple hu.good hmi.user.good (List.replicate 16 none) [] hl hok with ⟨hg, -⟩ | ⟨-, err, r, img', h1, h2, h3, h4⟩
  · rw [generates_of hd (.inr ⟨hmode, by rw [hsz]; norm_num⟩)] at hg; cases hg
  obtain ⟨rows, hrows, -, -, href⟩ := refined_before RemapEnv.simple hu hmi.user hmi.shows_ h1
  have hq1 : first.quant = { q with remapped := first.quant.remapped } := by
    show (remapInto _ _ _ _ _).quant = _
    rw [h4]
  have hok1 := C48_succeeds RemapEnv.simple hu1 hi1 (List.replicate 16 none) [] (by rw [hsz1]; simp) (by rw [hq1]; exact hcb) (fun x => by simp)
  have hplen : r.palette.length = 1 := by
    have := href.length
    simpa [Kmeans.slots, hpal] using this
  obtain ⟨en', hr⟩ := List.length_eq_one_iff.mp hplen
  have hwhite : en'.color = FPixel.fromRgba (gammaLut q.gamma) ⟨255, 255, 255, 255⟩ := by
    have hs0 : (Kmeans.slots q.palette)[0]? = some (Kmeans.slotOf en) := by simp [Kmeans.slots, hpal]
    have hs1 : (Kmeans.slots r.palette)[0]? = some (Kmeans.slotOf en') := by rw [hr]; simp [Kmeans.slots]
    have hidx : ∀ y < 4, ∀ x < 4, Image.indexAt rows y x = 0 := by
      intro y hy x hx
      obtain ⟨c, hc, -⟩ := href.nearest y (by rw [hmi.height_]; omega) x (by rw [hmi.width_]; omega)
      have := (List.getElem?_eq_some_iff.mp hc).1
      rw [Kmeans.colorsOf_slots] at this
      simpa [hpal] using this
    have hmov := (href.moved 0 _ _ hs0 hs1).2 hnf
    have hread : (reading img.width img.height).filter (fun z => decide (Image.indexAt rows z.1 z.2 = 0)) = reading 4 4 := by
      rw [hmi.width_, hmi.height_]
      refine List.filter_eq_self.mpr fun z hz => ?_
      simp only [reading, List.mem_flatMap, List.mem_map, List.mem_range] at hz
      obtain ⟨y, hy, x, hx, rfl⟩ := hz
      simpa using hidx y hy x hx
    rw [hread, hmi.importance] at hmov
    have ha : (Kmeans.slotOf en).color.a ≠ 0 := by
      show en.color.spec.a ≠ 0
      rw [hdb, fromRgba_spec]
      norm_num [colorOf]
      decide
    have hmean := hmov.2.2.1 ⟨by simp only [pixelWeight, reading, List.range_succ]; norm_num, ha⟩
    have hspec : en'.color.spec = (FPixel.fromRgba (gammaLut q.gamma) ⟨255, 255, 255, 255⟩).spec := by
      rw [fromRgba_spec]
      show (Kmeans.slotOf en').color = _
      rw [hmean]
      simp [meanColor, pixelWeight, colorOf, reading, List.range_succ]
      norm_num
    generalize FPixel.fromRgba (gammaLut q.gamma) ⟨255, 255, 255, 255⟩ = x at *
    obtain ⟨a1, a2, a3, a4⟩ := x
    generalize en'.color = x at *
    obtain ⟨b1, b2, b3, b4⟩ := x
    simp only [FPixel.spec, Color.mk.injEq] at hspec
    obtain ⟨rfl, rfl, rfl, rfl⟩ := hspec
    rfl
  refine ⟨hok, ?_, hok1, ?_⟩
  · show (remapInto _ _ _ _ _).quant.getPalette.2 = _
    rw [h4, hr]
    exact rep _ _ rfl hwhite
  · have hdm : first.image.ditherMap ≠ none := by
      have hfree := Rows.free_same img.px
      have hpx := (remapToPalette_pixels RemapEnv.simple img.importanceMap hu.good.pos hu.good.le (hfree.readable hmi.user.good.px)
        (Rows.Same.refl _) (by rw [hfree.height]; exact h1) (by rw [hfree.height]; exact h1)).2.2.2.1
      have hpx' := hfree.trans hpx
      have := (updateDitherMap_same (a := { img with px := r.px }) (b := { img with px := r.px })
        (hmi.user.good.change hpx' (BgSame.refl _)) (Rows.Same.refl _) rfl
        (by show Image.skipsContrastMaps r.px.width r.px.height = false
            rw [hpx'.width, hpx'.height, show img.px.width = 4 from hmi.width_, show img.px.height = 4 from hmi.height_]; decide) h2 h2).2
      rw [show first.image.ditherMap = img'.ditherMap from h3.1]
      intro h
      rw [h] at this
      cases this
    obtain ⟨p, e, _, _, _, _, _, hp, -, -, -, h, -⟩ := remapInto_dithered RemapEnv.simple hu1.good hi1.good (List.replicate 16 none) []
      (by rw [hq1]; exact hl) hok1
    rcases hp with ⟨-, -, rfl⟩ | ⟨hg, -⟩
    · rw [h, hq1]
      show (PalF.initIntPalette q.palette q.gamma (UInt8.ofNat q.minPosterizationOutput)).2 = _
      rw [hpal]
      exact rep _ _ rfl hdb
    · rw [not_generates_of (.inr hdm)] at hg; cases hg

end Verif
