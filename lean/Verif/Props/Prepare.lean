import Verif.Lemmas.Prepare
import Verif.Props.Refine
import Verif.Props.Lossless
import Verif.Props.Clusters

/-! # C66: preparing an image for dithering before its background is known -/

set_option linter.unusedSectionVars false

namespace Verif
open Flt Spec

section
variable {F : Type} [Flt F] [FltSign F]

theorem prepare_good (env : RemapEnv F) {q : QuantizationResult F} (hq : q.Good) {img : Image F} (hi : img.Good) {buf : List (Option UInt8)}
    (hb : buf.length = img.width * img.height) :
    (prepareForDithering env q img buf).image.Good ∧ Rows.Same img.px (prepareForDithering env q img buf).image.px ∧
    (prepareForDithering env q img buf).image.background = img.background ∧
    ((prepareForDithering env q img buf).res = .ok () ∧ (prepareForDithering env q img buf).quant.palette.length = q.palette.length ∨
      (prepareForDithering env q img buf).res = .error (.err .outOfMemory) ∧ (prepareForDithering env q img buf).quant = q ∧
        ∃ x : F, isNan x = true) := by
  obtain ⟨c1, c2, -⟩ := chunksExact_rows (h := img.height) hi.width_pos buf hb
  have spec := generateDitherMap_spec env (s := ⟨q, img, chunksExact img.width buf, [], false⟩) true (p := q.palette) hi ⟨c1, c2⟩ hq.pos hq.le
  obtain ⟨k1, k2, -, -, -, -, k3⟩ := spec
  unfold prepareForDithering
  generalize generateDitherMap env ⟨q, img, chunksExact img.width buf, [], false⟩ true q.palette = x at *
  obtain ⟨res, s⟩ := x
  simp only at k1 k2 k3
  rcases k3 with ⟨e, p, rfl, hl, -⟩ | ⟨rfl, hn⟩
  · exact ⟨k1.good, k1.samePx, k2, .inl ⟨rfl, hl⟩⟩
  · exact ⟨k1.good, k1.samePx, k2, .inr ⟨rfl, rfl, hn⟩⟩

/-- **C66** (any float arithmetic). With a buffer of the size of the image, preparing succeeds, or it reports lack of memory
if a float is not a number. The pixels of the image and its background stay the same, and so does the number of colours. -/
theorem C66_outcomes (env : RemapEnv F) {q : QuantizationResult F} (hq : UserResult q) {img : Image F} (hi : UserImage img)
    {buf : List (Option UInt8)} (hb : buf.length = img.width * img.height) :
    let r := prepareForDithering env q img buf
    (r.res = .ok () ∨ r.res = .error (.err .outOfMemory) ∧ ∃ x : F, isNan x = true) ∧
    (∀ y < img.height, r.image.px.pixelsF y = img.px.pixelsF y) ∧ r.image.background = img.background ∧
    r.quant.palette.length = q.palette.length := by
  obtain ⟨-, h2, h3, h4⟩ := prepare_good env hq.good hi.good hb
  refine ⟨h4.imp (·.1) fun h => ⟨h.1, h.2.2⟩, fun y hy => h2.pixelsF hy, h3, ?_⟩
  rcases h4 with ⟨-, h⟩ | ⟨-, h, -⟩
  · exact h
  · rw [h]

/-- **C66** (any float arithmetic). Nothing happens if no dither map is wanted, or the image has one already. -/
theorem C66_nothing (env : RemapEnv F) (q : QuantizationResult F) (img : Image F) (buf : List (Option UInt8))
    (h : q.useDitherMap = .none ∨ img.ditherMap ≠ none) :
    (prepareForDithering env q img buf).res = .ok () ∧ (prepareForDithering env q img buf).quant = q ∧
      (prepareForDithering env q img buf).image = img := by
  unfold prepareForDithering generateDitherMap
  have := not_generates_of (img := img) h
  simp only
  rw [this]
  exact ⟨rfl, rfl, rfl⟩

/-- **C66**, the part that holds (any float arithmetic). Let an image of at least 4 x 4 pixels be dithered in front of a
background. If it was prepared before the background was set, the reported palette and the dither map are the same as
without preparation (with the same schedule). However, the reported error of the remap is then the error of the palette,
and not one that was measured on the image. -/
theorem C66_prepared_partial (env : RemapEnv F) {q : QuantizationResult F} (hq : UserResult q) {img bg : Image F} (hi : UserImage img)
    (hbg : UserImage bg) {buf : List (Option UInt8)} (hb : buf.length = img.width * img.height)
    (hl : eq q.ditherLevel (lit32 0) = false) (hd : img.ditherMap = none)
    (hm : q.useDitherMap = .always ∨ q.useDitherMap ≠ .none ∧ img.width * img.height ≤ 2000 * 2000)
    (hk : Image.skipsContrastMaps img.width img.height = false)
    (hok : (prepareForDithering env q img buf).res = .ok ())
    {direct prepared : Image F} (h1 : img.setBackground bg = .ok direct)
    (h2 : (prepareForDithering env q img buf).image.setBackground bg = .ok prepared)
    (buf1 buf2 : List (Option UInt8)) (log1 log2 : List F) (ok1 : (remapInto env q direct buf1 log1).res = .ok ())
    (ok2 : (remapInto env (prepareForDithering env q img buf).quant prepared buf2 log2).res = .ok ()) :
    (remapInto env (prepareForDithering env q img buf).quant prepared buf2 log2).quant.getPalette.2 =
      (remapInto env q direct buf1 log1).quant.getPalette.2 ∧
    (remapInto env (prepareForDithering env q img buf).quant prepared buf2 log2).image.ditherMap =
      (remapInto env q direct buf1 log1).image.ditherMap ∧
    (remapInto env (prepareForDithering env q img buf).quant prepared buf2 log2).quant.remappingError = q.quantizationError := by
  have hdir : UserImage direct := .background hi hbg h1
  obtain ⟨hpg, hps, -, hpc⟩ := prepare_good env hq.good hi.good hb
  -- the two images in front of the background
  have hdi : direct = { img with background := some bg.px } := by
    unfold Image.setBackground at h1
    split at h1
    · cases h1
    split at h1
    · cases h1
    · cases h1; rfl
  have hpr : prepared = { (prepareForDithering env q img buf).image with background := some bg.px } ∧
      bg.px.width = (prepareForDithering env q img buf).image.width ∧ bg.px.height = (prepareForDithering env q img buf).image.height := by
    unfold Image.setBackground at h2
    split at h2
    · cases h2
    split at h2
    · cases h2
    next hne => cases h2; exact ⟨rfl, by unfold Image.width; omega, by unfold Image.height; omega⟩
  have hpgood : prepared.Good := by
    rw [hpr.1]
    exact ⟨hpg.px, hpg.width_pos, hpg.height_pos, hpg.importance, hpg.edges, hpg.ditherMap, fun b hb => by
      cases hb; exact ⟨hbg.good.px, hpr.2.1, hpr.2.2⟩⟩
  have hw : img.width = img.px.width := rfl
  have hbuf : buf.length / img.width = img.height := by rw [hb, Nat.mul_div_cancel_left _ hi.good.width_pos]
  -- the preparation
  rcases prepare_cases env q hbuf hok with ⟨hg, -⟩ | ⟨-, e, r, k1, k2, k3⟩
  · rw [generates_of hd hm] at hg; cases hg
  -- the direct remap
  rcases remapInto_mapped env hq.good hdir.good buf1 log1 hl ok1 with ⟨hg, -⟩ | ⟨-, e', r', img', l1, l2, l3, l4⟩
  · rw [generates_of (by rw [hdi]; exact hd) (by rw [hdi]; exact hm)] at hg; cases hg
  have hfree : Rows.Same img.px direct.freeHistogramInputs.px := by rw [hdi]; exact Rows.free_same img.px
  rw [show direct.importanceMap = img.importanceMap by rw [hdi], show direct.height = img.px.height by rw [hdi]; rfl] at l1
  obtain ⟨-, m2, m3, m4, m5⟩ := remapToPalette_pixels env img.importanceMap hq.good.pos hq.good.le hi.good.px hfree k1 l1
  rw [m2, m3, show direct.background.isSome = true by rw [hdi]; rfl] at l2
  have hsame : Rows.Same r.px r'.px := by
    refine ⟨?_, ?_, ?_, ?_⟩
    · rw [m5.width, hfree.width, m4.width]
    · rw [m5.height, hfree.height, m4.height]
    · rw [m5.gamma, hfree.gamma, m4.gamma]
    · intro y hy
      rw [m4.height] at hy
      rw [m4.rowF y hy, m5.rowF y (by rw [hfree.height]; exact hy), hfree.rowF y hy]
  have hmap := updateDitherMap_same (a := { img with px := r.px }) (b := { direct with px := r'.px })
    (hi.good.change m4 (BgSame.refl _)) hsame (by rw [hdi])
    (by show Image.skipsContrastMaps r.px.width r.px.height = false; rw [m4.width, m4.height]; exact hk) k2 l2
  -- the remap after the preparation
  have hgood : (prepareForDithering env q img buf).quant.Good := by
    have hlen : (prepareForDithering env q img buf).quant.palette.length = q.palette.length := by
      rcases hpc with ⟨-, h⟩ | ⟨h, -⟩
      · exact h
      · rw [hok] at h; cases h
    have hg := hq.good
    refine ⟨by rw [hlen]; exact hg.pos, by rw [hlen]; exact hg.le, ?_, ?_⟩
    · rw [hlen, k3]; exact hg.int
    · rw [hlen, k3]; exact hg.rem
  have hng : generatesDitherMap q.useDitherMap prepared = false :=
    not_generates_of (.inr (by rw [hpr.1]; exact Option.isSome_iff_ne_none.mp hmap.2))
  have hudm : (prepareForDithering env q img buf).quant.useDitherMap = q.useDitherMap := by rw [k3]
  have hlev : (prepareForDithering env q img buf).quant.ditherLevel = q.ditherLevel := by rw [k3]
  obtain ⟨p, me, _, _, _, _, _, hp, -, -, n3, n4, -⟩ := remapInto_dithered env hgood hpgood buf2 log2 (by rw [hlev]; exact hl) ok2
  rcases hp with ⟨-, rfl, rfl⟩ | ⟨hg, -⟩
  · refine ⟨?_, ?_, ?_⟩
    · rw [n4, k3, l4, m3]; rfl
    · rcases remapInto_mapped env hgood hpgood buf2 log2 (by rw [hlev]; exact hl) ok2 with ⟨-, s⟩ | ⟨hg, -⟩
      · rw [s.1, l3.1, hpr.1, ← hmap.1]
      · rw [hudm, hng] at hg; cases hg
    · rw [n3, k3]
      unfold QuantizationResult.remappingError QuantizationResult.quantizationError
      cases q.paletteError <;> rfl
  · rw [hudm, hng] at hg; cases hg

end

/-! ### What is not redundant -/

/-- remapping with a good palette -/
theorem remapInto_succeeds (env : RemapEnv ℝ) {q : QuantizationResult ℝ} {img : Image ℝ} (hq : q.Good) (hi : img.Good)
    (buf : List (Option UInt8)) (log : List ℝ) (hb : img.width * img.height ≤ buf.length) (hcb : q.progressCallback = none) :
    (remapInto env q img buf log).res = .ok () := by
  obtain ⟨s, d, -, -, -, -, -, e6⟩ := (remapInto_spec env buf log hq hi).run hb
  rcases d.outcome with ⟨⟨x, h⟩, -⟩ | ⟨-, he⟩ | ⟨-, -, x, hx⟩
  · exact h
  · obtain ⟨f, hf, -⟩ := he.broke
    rw [show (remapStart q img buf log).quant.progressCallback = none from hcb] at hf
    cases hf
  · simp at hx

/-- **C66**, what preparation changes (exact arithmetic). If the image has no dither map yet and one is wanted, the palette of
the result itself is refined on the image. Even if the image is not dithered at all, the next remap reports the refined
palette, while without preparation it reports the palette that was found before (`C62_kept`). -/
theorem C66_refines (env : RemapEnv ℝ) {q : QuantizationResult ℝ} (hq : UserResult q) {img : Image ℝ} (hi : UserImage img)
    {f : ℕ → ℕ → RGBA} (hf : img.px.Shows f) {buf : List (Option UInt8)} (hb : buf.length = img.width * img.height)
    (hd : img.ditherMap = none) (hm : q.useDitherMap = .always ∨ q.useDitherMap ≠ .none ∧ img.width * img.height ≤ 2000 * 2000) :
    let r := prepareForDithering env q img buf
    r.res = .ok () ∧ ∃ (index : ℕ → ℕ → ℕ) (refined : List Slot),
      RefinedOn img.width img.height (fun y x => colorOf img.px.gamma (f y x)) (pixelWeight img.width img.importanceMap)
        (Kmeans.slots q.palette) index refined ∧
      Kmeans.slots r.quant.palette = refined ∧
      ∀ (img2 : Image ℝ) (buf2 : List (Option UInt8)) (log : List ℝ), img2 = r.image ∨ UserImage img2 → q.ditherLevel = 0 →
        (remapInto env r.quant img2 buf2 log).res = .ok () →
        ReportedAll q.gamma q.minPosterizationOutput refined ((remapInto env r.quant img2 buf2 log).quant.getPalette.2.map RGBA.bytes) := by
  intro r
  obtain ⟨hpg, -, -, hpc⟩ := prepare_good env hq.good hi.good hb
  have hok : r.res = .ok () ∧ r.quant.palette.length = q.palette.length := by
    rcases hpc with h | ⟨-, -, x, hx⟩
    · exact h
    · simp at hx
  have hbuf : buf.length / img.width = img.height := by rw [hb, Nat.mul_div_cancel_left _ hi.good.width_pos]
  rcases prepare_cases env q hbuf hok.1 with ⟨hg, -⟩ | ⟨-, e, o, k1, k2, k3⟩
  · rw [generates_of hd hm] at hg; cases hg
  obtain ⟨rows, -, -, -, k⟩ := remapToPalette_refined env hq.good.pos hq.good.le hi.good.px hf hi.good.importance k1
  have hg := hq.good
  have hgood : r.quant.Good := by
    refine ⟨by rw [hok.2]; exact hg.pos, by rw [hok.2]; exact hg.le, ?_, ?_⟩
    · rw [hok.2, show r.quant = _ from k3]; exact hg.int
    · rw [hok.2, show r.quant = _ from k3]; exact hg.rem
  refine ⟨hok.1, _, _, k, by rw [show r.quant = _ from k3], fun img2 buf2 log h2 hl hok2 => ?_⟩
  have h2 : img2.Good := by
    rcases h2 with rfl | h
    · exact hpg
    · exact h.good
  obtain ⟨n, -, -, h, -⟩ := remapInto_plain env hgood h2 buf2 log (by rw [show r.quant = _ from k3, real_eq, hl]; simp) hok2
  rw [h, show r.quant = _ from k3]
  exact initIntPalette_reported _ hq.post_le _

/-- **C66** does not hold: a palette is made for a black image, and dithering is switched off. A white image that is remapped
with it gets the palette black. If the white image is prepared before, it gets the palette white. -/
theorem C66_does_not_hold : ∃ (env : RemapEnv ℝ) (q : QuantizationResult ℝ) (img : Image ℝ), UserResult q ∧ UserImage img ∧
    (prepareForDithering env q img [none]).res = .ok () ∧
    (remapInto env q img [none] []).res = .ok () ∧ (remapInto env q img [none] []).quant.getPalette.2 = [⟨0, 0, 0, 255⟩] ∧
    (remapInto env (prepareForDithering env q img [none]).quant (prepareForDithering env q img [none]).image [none] []).res = .ok () ∧
    (remapInto env (prepareForDithering env q img [none]).quant (prepareForDithering env q img [none]).image [none] []).quant.getPalette.2 =
      [⟨255, 255, 255, 255⟩] := by
  have hnew : ∀ c : RGBA, ∃ img : Image ℝ, Image.newFn (fun _ _ => c) 1 1 0 = .ok img ∧ img.ditherMap = none := by
    intro c
    unfold Image.newFn Image.newInternal Image.toU32
    simp [Image.checkImageSize, Bind.bind, Except.bind]
    norm_num
  obtain ⟨black, eb, -⟩ := hnew ⟨0, 0, 0, 255⟩
  obtain ⟨img, ei, hd⟩ := hnew ⟨255, 255, 255, 255⟩
  have hmb : Made (fun _ _ => ⟨0, 0, 0, 255⟩) 1 1 0 black := .inl eb
  have hmi : MadeFacts _ 1 1 img := Made.facts (.inl ei)
  obtain ⟨q, black', log', -, huq, hub, hsb, -, -, -, hγ, hpo, hcb, -, -, -, hcol, hsome, hlen, ⟨hist, hin, hfin, hpop⟩, hudm⟩ :=
    quantizeImage_few_all Env.simple [] (by decide) (by decide) (by decide) hmb hmb.facts.user.good.mapPositive
      (by simpa using hmb.facts.user.gamma_pos.1) (by simp) (fun q _ => by
        rw [qualityToMse_spec]
        have := qualityLimit_nonneg q
        simp only [real_lit64, real_mul64, real_lt_false]
        push_cast
        positivity) [⟨0, 0, 0, 255⟩] (by decide) (fun y _ x _ => ⟨_, by simp, .inl rfl⟩) []
  obtain ⟨q0, hq0, hset⟩ : ∃ q0, q.setDitheringLevel 0 = .ok q0 ∧ q0 = { q with remapped := none, ditherLevel := 0 } := by
    refine ⟨_, ?_, rfl⟩
    unfold QuantizationResult.setDitheringLevel
    simp
  have hu0 : UserResult q0 := .level huq hq0
  obtain ⟨en, hen, d, hd1, hd2⟩ := hsome 0 (by omega) 0 (by omega)
  have hpal : q.palette = [en] := by
    match h : q.palette, hen, hlen with
    | [x], hen, _ => rw [List.mem_singleton] at hen; rw [hen]
    | x :: y :: l, _, hlen => simp at hlen
  have hγ0 : 0 < q.gamma := by rw [hγ]; exact hub.gamma_pos.1
  have hdb : en.color = FPixel.fromRgba (gammaLut q.gamma) ⟨0, 0, 0, 255⟩ := by
    rw [hd1, hγ]
    exact (C07_distinct hub.gamma_pos.1 d _).mpr hd2
  have hnf : en.pop.isFixed = false := by
    obtain ⟨x, hx, he⟩ := hpop en hen
    rw [he]
    unfold PalPop.isFixed PalPop.new
    have := (C44_weights _ _ _ _ hfin).2.2.2 x hx
    simpa using this
  have rep : ∀ (e : PalEntry ℝ) (c : RGBA), c.a = 255 → e.color = FPixel.fromRgba (gammaLut q.gamma) c →
      (PalF.initIntPalette [e] q.gamma (UInt8.ofNat q.minPosterizationOutput)).2 = [c] := by
    intro e c hc he
    have := (roundEntry_keeps (post := UInt8.ofNat q.minPosterizationOutput) hγ0 (by rw [hpo]; exact kept_zero _) e he).2
    rcases this with h | ⟨-, h⟩
    · simp [PalF.initIntPalette, h]
    · rw [hc] at h; cases h
  have hcb0 : q0.progressCallback = none := by rw [hset]; exact hcb
  have hsz : img.width * img.height = 1 := by rw [hmi.width_, hmi.height_]
  have hudm0 : q0.useDitherMap ≠ .none := by
    rw [hset]
    show q.useDitherMap ≠ .none
    rw [hudm]
    decide
  obtain ⟨hok, index, refined, href, hsl, -⟩ := C66_refines RemapEnv.simple hu0 hmi.user hmi.shows_ (buf := [none]) (by rw [hsz]; rfl) hd
    (.inr ⟨hudm0, by rw [hsz]; norm_num⟩)
  obtain ⟨hpg, hpsame, -, hpc⟩ := prepare_good RemapEnv.simple hu0.good hmi.user.good (buf := [none]) (by rw [hsz]; rfl)
  have hbuf : ([none] : List (Option UInt8)).length / img.width = img.height := by rw [hmi.width_, hmi.height_]; rfl
  obtain ⟨p, hp⟩ : ∃ p, (prepareForDithering RemapEnv.simple q0 img [none]).quant = { q0 with palette := p } := by
    rcases prepare_cases RemapEnv.simple q0 hbuf hok with ⟨-, h, -⟩ | ⟨-, e, r, -, -, h⟩
    · exact ⟨_, h⟩
    · exact ⟨_, h⟩
  generalize hr : prepareForDithering RemapEnv.simple q0 img [none] = r at *
  have hplen : p.length = 1 := by
    have : (Kmeans.slots p).length = (Kmeans.slots q0.palette).length := by
      rw [← href.length, ← hsl, hp]
    simpa [Kmeans.slots, hset, hpal] using this
  obtain ⟨en', rfl⟩ := List.length_eq_one_iff.mp hplen
  have hwhite : en'.color = FPixel.fromRgba (gammaLut q.gamma) ⟨255, 255, 255, 255⟩ := by
    have hs0 : (Kmeans.slots q0.palette)[0]? = some (Kmeans.slotOf en) := by rw [hset]; simp [Kmeans.slots, hpal]
    have hs1 : refined[0]? = some (Kmeans.slotOf en') := by rw [← hsl, hp]; simp [Kmeans.slots]
    have hidx : index 0 0 = 0 := by
      obtain ⟨c, hc, -⟩ := href.nearest 0 (by rw [hmi.height_]; omega) 0 (by rw [hmi.width_]; omega)
      have := (List.getElem?_eq_some_iff.mp hc).1
      rw [Kmeans.colorsOf_slots, hset] at this
      simp [hpal] at this
      exact this
    have hmov := (href.moved 0 _ _ hs0 hs1).2 hnf
    have hread : (reading img.width img.height).filter (fun z => decide (index z.1 z.2 = 0)) = [(0, 0)] := by
      rw [hmi.width_, hmi.height_]
      simp [reading, hidx]
    rw [hread, hmi.importance] at hmov
    have ha : (Kmeans.slotOf en).color.a ≠ 0 := by
      show en.color.spec.a ≠ 0
      rw [hdb, fromRgba_spec]
      norm_num [colorOf]
      decide
    have hmean := hmov.2.2.1 ⟨by simp [pixelWeight], ha⟩
    have hspec : en'.color.spec = (FPixel.fromRgba (gammaLut q.gamma) ⟨255, 255, 255, 255⟩).spec := by
      rw [fromRgba_spec]
      show (Kmeans.slotOf en').color = _
      rw [hmean]
      simp [meanColor, pixelWeight, colorOf]
    generalize FPixel.fromRgba (gammaLut q.gamma) ⟨255, 255, 255, 255⟩ = x at *
    obtain ⟨a1, a2, a3, a4⟩ := x
    generalize en'.color = x at *
    obtain ⟨b1, b2, b3, b4⟩ := x
    simp only [FPixel.spec, Color.mk.injEq] at hspec
    obtain ⟨rfl, rfl, rfl, rfl⟩ := hspec
    rfl
  have hg := hu0.good
  have hlen0 : q0.palette.length = 1 := by rw [hset]; simp [hpal]
  have hgood : r.quant.Good := by
    rw [hp]
    exact ⟨by simp, by simp, by simpa [hlen0] using hg.int, by simpa [hlen0] using hg.rem⟩
  have hsz' : r.image.width * r.image.height = 1 := by
    rw [show r.image.width = img.width from hpsame.width, show r.image.height = img.height from hpsame.height, hsz]
  have hok1 := C48_succeeds RemapEnv.simple hu0 hmi.user [none] [] (by rw [hsz]; simp) hcb0 (fun x => by simp)
  have hok2 := remapInto_succeeds RemapEnv.simple hgood hpg [none] [] (by rw [hsz']; simp) (by rw [hp]; exact hcb0)
  refine ⟨RemapEnv.simple, q0, img, hu0, hmi.user, by rw [hr]; exact hok, hok1, ?_, by rw [hr]; exact hok2, ?_⟩
  · obtain ⟨n, -, -, h, -⟩ := remapInto_plain RemapEnv.simple hu0.good hmi.user.good [none] [] (by rw [hset]; simp) hok1
    rw [h, hset]
    show (PalF.initIntPalette q.palette q.gamma (UInt8.ofNat q.minPosterizationOutput)).2 = _
    rw [hpal]
    exact rep _ _ rfl hdb
  · rw [hr]
    obtain ⟨n, -, -, h, -⟩ := remapInto_plain RemapEnv.simple hgood hpg [none] [] (by rw [hp, hset]; simp) hok2
    rw [h, hp, hset]
    exact rep _ _ rfl hwhite

/-! ### Examples -/

/-- the hypotheses of `C66_prepared_partial` can be met -/
example : ∃ (q : QuantizationResult ℝ) (img bg direct prepared : Image ℝ), UserResult q ∧ UserImage img ∧ UserImage bg ∧
    img.width * img.height = 100 ∧ q.ditherLevel ≠ 0 ∧ img.ditherMap = none ∧ q.useDitherMap ≠ .none ∧
    Image.skipsContrastMaps img.width img.height = false ∧
    (prepareForDithering RemapEnv.simple q img (List.replicate 100 none)).res = .ok () ∧ img.setBackground bg = .ok direct ∧
    (prepareForDithering RemapEnv.simple q img (List.replicate 100 none)).image.setBackground bg = .ok prepared ∧
    (remapInto RemapEnv.simple q direct (List.replicate 100 none) []).res = .ok () := by
  obtain ⟨q, hq, hcb, hl, hm, -⟩ := example_result (F := ℝ)
  obtain ⟨img, hi, w, h, -, -, hd, -⟩ := example_image (fun _ _ => ⟨1, 2, 3, 255⟩) (w := 10) (h := 10) (by omega) (by omega) (by omega) (by omega)
  obtain ⟨bg, hbg, wb, hb, -, -, -, nb⟩ := example_image (fun _ _ => ⟨1, 2, 3, 255⟩) (w := 10) (h := 10) (by omega) (by omega) (by omega) (by omega)
  obtain ⟨hpg, hps, -, hpc⟩ := prepare_good RemapEnv.simple hq.good hi.good (buf := List.replicate 100 none) (by rw [w, h]; simp)
  have hset : ∀ i : Image ℝ, i.px.width = 10 → i.px.height = 10 → i.setBackground bg = .ok { i with background := some bg.px } := by
    intro i h1 h2
    unfold Image.setBackground
    have wb' : bg.px.width = 10 := wb
    have hb' : bg.px.height = 10 := hb
    rw [nb]
    simp [h1, h2, wb', hb']
  have e := hset img w h
  refine ⟨q, img, bg, _, _, hq, hi, hbg, by rw [w, h], by rw [hl]; simp, hd, by rw [hm]; simp, by rw [w, h]; decide, ?_, e,
    hset _ (by rw [hps.width]; exact w) (by rw [hps.height]; exact h), ?_⟩
  · rcases hpc with hx | ⟨-, -, x, hx⟩
    · exact hx.1
    · simp at hx
  · exact C48_succeeds _ hq (.background hi hbg e) _ _ (by show img.width * img.height ≤ _; rw [w, h, List.length_replicate]) hcb (fun x => by simp)

end Verif
