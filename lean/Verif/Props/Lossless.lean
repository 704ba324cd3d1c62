import Verif.Lemmas.Lossless
import Verif.Lemmas.FewColors
import Verif.Props.Clusters
import Verif.Props.Convert
import Verif.Lemmas.QuantFew
import Verif.Props.Dither

/-! # C45 and C06: colours of the palette are shown as they are -/

set_option linter.unusedSectionVars false

namespace Verif
open Flt Spec

/-! ## C45 -/

/-- **C45** (exact arithmetic). If the palette has the colours of all pixels, then at every dithering level (whatever the
limit of the error, the dither map, the importance map, the number of CPUs, the schedule and the contents of the buffer
before) every byte of a successful remap names a reported colour equal to that of its pixel. (The output gamma is that of
the image, posterization keeps the colours of the pixels, and there is no background. Fully transparent colours are
equal.) -/
theorem C45_own_colour (env : RemapEnv ℝ) {q : QuantizationResult ℝ} {img : Image ℝ} (hq : UserResult q) (hi : UserImage img)
    {f : ℕ → ℕ → RGBA} (hf : img.px.Shows f) (hbg : img.background = none) (hγ : q.gamma = img.px.gamma)
    (hpost : ∀ y < img.height, ∀ x < img.width, (f y x).Kept (UInt8.ofNat q.minPosterizationOutput))
    (hall : ∀ y < img.height, ∀ x < img.width, ∃ e ∈ q.palette, e.color = FPixel.fromRgba (gammaLut img.px.gamma) (f y x))
    (buf : List (Option UInt8)) (log : List ℝ) (hok : (remapInto env q img buf log).res = .ok ()) :
    let r := remapInto env q img buf log
    ∀ y < img.height, ∀ x < img.width, ∃ (b : UInt8) (c : RGBA), r.buf[y * img.width + x]? = some (some b) ∧
      r.quant.getPalette.2[b.toNat]? = some c ∧ (c = f y x ∨ (c.a = 0 ∧ (f y x).a = 0)) := by
  intro r
  have hg := hi.gamma_pos.1
  -- the rounded palette has the colours too, and reports them
  have hround : ∀ (p : PalF ℝ), p.map (·.color) = q.palette.map (·.color) → ∀ y < img.height, ∀ c ∈ img.px.pixelsF y,
      PalF.Has (p.initIntPalette q.gamma (UInt8.ofNat q.minPosterizationOutput)).1 c := by
    intro p hp y hy c hc
    obtain ⟨x, hx, hcx⟩ := List.mem_iff_getElem?.mp hc |>.imp fun x hx => (⟨by
      have := (List.getElem?_eq_some_iff.mp hx).1
      rwa [(hi.good.px.rowF hy).2] at this, hx⟩ : x < img.width ∧ _)
    rw [hf.pixel hy hx] at hcx
    cases hcx
    obtain ⟨e, he, hec⟩ := hall y hy x hx
    have : e.color ∈ p.map (·.color) := by rw [hp]; exact List.mem_map_of_mem he
    obtain ⟨e', he', hee⟩ := List.mem_map.mp this
    refine ⟨(PalF.roundEntry q.gamma (UInt8.ofNat q.minPosterizationOutput) e').1, ?_, ?_⟩
    · unfold PalF.initIntPalette
      simp only [List.mem_map]
      exact ⟨e', he', rfl⟩
    · have := (roundEntry_keeps (γ := q.gamma) (by rw [hγ]; exact hg) (hpost y hy x hx) e' (by rw [hee, hec, hγ])).1
      rw [this, hγ]
  have hreport : ∀ (p : PalF ℝ) (e : PalEntry ℝ) (i : ℕ) (c : RGBA),
      (p.initIntPalette q.gamma (UInt8.ofNat q.minPosterizationOutput)).1[i]? = some e →
      e.color = FPixel.fromRgba (gammaLut img.px.gamma) c →
      ∃ c', (p.initIntPalette q.gamma (UInt8.ofNat q.minPosterizationOutput)).2[i]? = some c' ∧ (c' = c ∨ (c'.a = 0 ∧ c.a = 0)) := by
    intro p e i c he hec
    have hlen : i < p.length := by
      have := (List.getElem?_eq_some_iff.mp he).1
      simpa [PalF.initIntPalette] using this
    unfold PalF.initIntPalette at he ⊢
    rw [List.getElem?_map, List.getElem?_eq_getElem hlen] at he ⊢
    simp only [Option.map_some, Option.some.injEq] at he ⊢
    refine ⟨_, rfl, ?_⟩
    subst he
    unfold PalF.roundEntry at hec ⊢
    dsimp only at hec ⊢
    generalize (p[i].color.toRgb q.gamma).map (fun c => PalF.posterizeChannel c (UInt8.ofNat q.minPosterizationOutput)) = d at *
    rw [hγ] at hec
    rcases fromRgba_inj hg hec with h | ⟨h1, h2⟩
    · subst h
      split
      next hd =>
        exact .inr ⟨hd.1, hd.1⟩
      · exact .inl rfl
    · refine .inr ⟨?_, h2⟩
      split <;> exact h1
  intro y hy x hx
  by_cases hl : q.ditherLevel = 0
  · obtain ⟨n, hn, _, hpal, hbyte⟩ := remapInto_plain env hq.good hi.good buf log (by rw [hl]; simp) hok
    obtain ⟨hint, hh, hb⟩ := hbyte y hy x hx _ (hf.pixel hy hx)
    have hex := Nearest.search_exact hn (FPixel.fromRgba (gammaLut img.px.gamma) (f y x)) hint.toNat
      (hround q.palette rfl y hy _ (List.mem_of_getElem? (hf.pixel hy hx)))
    rw [hbg] at hb
    have hbb : plainByte n (pickBackground n (none : Option (Rows ℝ))).2 (bgPixel (pickBackground n (none : Option (Rows ℝ))).1 y x)
        (FPixel.fromRgba (gammaLut img.px.gamma) (f y x)) hint =
        UInt8.ofNat (n.search (FPixel.fromRgba (gammaLut img.px.gamma) (f y x)) hint.toNat).1 := rfl
    rw [hbb] at hb
    obtain ⟨c', hc', hlook⟩ := hreport q.palette _ _ (f y x) (palColor_get hex.1).1 (by rw [← (palColor_get hex.1).2]; exact hex.2.1)
    refine ⟨_, c', hb, ?_, hlook⟩
    show (remapInto env q img buf log).quant.getPalette.2[_]? = _
    rw [hpal, search_toNat hn]
    exact hc'
  · obtain ⟨p, mapErr, old, out, ctx, bg, dmap, hp, hplen, hfd, hquant, hpal, hrows⟩ :=
      remapInto_dithered env hq.good hi.good buf log (by simpa using hl) hok
    have hcols : p.map (·.color) = q.palette.map (·.color) := by
      rcases hp with ⟨_, _, rfl⟩ | ⟨_, px, e, r, hsame, hr, _, rfl⟩
      · rfl
      · refine remapToPalette_keeps env _ hq.good.pos hq.good.le (hsame.readable hi.good.px)
          (by rw [hsame.height]; exact le_refl _) (fun y hy c hc => ?_) hr
        rw [hsame.pixelsF hy] at hc
        obtain ⟨x, hx⟩ := List.mem_iff_getElem?.mp hc
        have hxl : x < img.width := by
          have := (List.getElem?_eq_some_iff.mp hx).1
          rwa [(hi.good.px.rowF hy).2] at this
        rw [hf.pixel hy hxl] at hx
        cases hx
        exact hall y hy x hxl
    obtain ⟨row, hrow, hbytes⟩ := hrows y hy
    obtain ⟨b, e, h1, h2, h3⟩ := hfd.clean hbg (hround p hcols) y hy row hrow x hx
    rw [hf.pixel hy hx] at h3
    simp only [Option.some.injEq] at h3
    obtain ⟨c', hc', hlook⟩ := hreport p e _ (f y x) h2 h3.symm
    refine ⟨b, c', ?_, ?_, hlook⟩
    · show (remapInto env q img buf log).buf[_]? = _
      rw [hbytes x hx]; exact h1
    · show (remapInto env q img buf log).quant.getPalette.2[_]? = _
      rw [hpal]; exact hc'

/-- **C45** (exact arithmetic), in terms of the palette the user sees: ask a new result for its palette; if that has the
colours of all pixels of an image, then remapping the image with the result, at any dithering level, shows every pixel
in its own colour. -/
theorem C45_reported (env : RemapEnv ℝ) {q : QuantizationResult ℝ} {img : Image ℝ} (hq : UserResult q) (hi : UserImage img)
    {f : ℕ → ℕ → RGBA} (hf : img.px.Shows f) (hbg : img.background = none) (hγ : q.gamma = img.px.gamma)
    (hpost : q.minPosterizationOutput = 0) (hnew : q.remapped = none ∧ q.intPalette = [])
    (hall : ∀ y < img.height, ∀ x < img.width, ∃ c ∈ q.getPalette.2, c = f y x ∨ (c.a = 0 ∧ (f y x).a = 0))
    {level : ℝ} {q' : QuantizationResult ℝ} (hlevel : q.getPalette.1.setDitheringLevel level = .ok q')
    (buf : List (Option UInt8)) (log : List ℝ) (hok : (remapInto env q' img buf log).res = .ok ()) :
    let r := remapInto env q' img buf log
    ∀ y < img.height, ∀ x < img.width, ∃ (b : UInt8) (c : RGBA), r.buf[y * img.width + x]? = some (some b) ∧
      r.quant.getPalette.2[b.toNat]? = some c ∧ (c = f y x ∨ (c.a = 0 ∧ (f y x).a = 0)) := by
  have hq' : UserResult q' := .level (.palette hq) hlevel
  have hgp : q.getPalette = ({ q with palette := (q.palette.initIntPalette q.gamma (UInt8.ofNat q.minPosterizationOutput)).1
                                      intPalette := (q.palette.initIntPalette q.gamma (UInt8.ofNat q.minPosterizationOutput)).2 },
      (q.palette.initIntPalette q.gamma (UInt8.ofNat q.minPosterizationOutput)).2) := by
    unfold QuantizationResult.getPalette
    rw [hnew.1, hnew.2]
    rfl
  have hfields : q'.gamma = q.gamma ∧ q'.minPosterizationOutput = 0 ∧
      q'.palette = (q.palette.initIntPalette q.gamma (UInt8.ofNat q.minPosterizationOutput)).1 := by
    unfold QuantizationResult.setDitheringLevel at hlevel
    rw [hgp] at hlevel
    split at hlevel
    · cases hlevel; exact ⟨rfl, hpost, rfl⟩
    · cases hlevel
  refine C45_own_colour env hq' hi hf hbg (hfields.1.trans hγ) (fun y _ x _ => by rw [hfields.2.1]; exact kept_zero _)
    (fun y hy x hx => ?_) buf log hok
  obtain ⟨c, hc, hcf⟩ := hall y hy x hx
  rw [hgp] at hc
  rw [hfields.2.2]
  obtain ⟨e, he, rfl⟩ : ∃ e ∈ q.palette, (PalF.roundEntry q.gamma (UInt8.ofNat q.minPosterizationOutput) e).2 = c := by
    unfold PalF.initIntPalette at hc
    simpa using hc
  refine ⟨(PalF.roundEntry q.gamma (UInt8.ofNat q.minPosterizationOutput) e).1, ?_, ?_⟩
  · unfold PalF.initIntPalette
    simp only [List.mem_map]
    exact ⟨e, he, rfl⟩
  · unfold PalF.roundEntry at hcf ⊢
    dsimp only at hcf ⊢
    rw [hγ] at hcf ⊢
    generalize (e.color.toRgb img.px.gamma).map (fun c => PalF.posterizeChannel c (UInt8.ofNat q.minPosterizationOutput)) = d at *
    split at hcf
    next hd =>
      have : (f y x).a = 0 := by
        rcases hcf with h | h
        · rw [← h]; exact hd.1
        · exact h.2
      rw [fromRgba_transparent _ _ hd.1, fromRgba_transparent _ _ this]
    · rcases hcf with h | h
      · rw [h]
      · rw [fromRgba_transparent _ _ h.1, fromRgba_transparent _ _ h.2]

/-- **C45** (exact arithmetic). Level 0 gives the undithered result: every byte names a nearest colour. -/
theorem C45_level_zero (env : RemapEnv ℝ) {q q' : QuantizationResult ℝ} {img : Image ℝ} (hq : UserResult q) (hi : UserImage img)
    {f : ℕ → ℕ → RGBA} (hf : img.px.Shows f) (hl : q.setDitheringLevel 0 = .ok q') (hbg : img.background = none)
    (buf : List (Option UInt8)) (log : List ℝ) (hok : (remapInto env q' img buf log).res = .ok ()) :
    let r := remapInto env q' img buf log
    ∀ y < img.height, ∀ x < img.width, ∃ b : UInt8, r.buf[y * img.width + x]? = some (some b) ∧
      IsNearest (r.quant.getPalette.2.map (colorOf q.gamma)) (colorOf img.px.gamma (f y x)) b.toNat := by
  have h : q'.ditherLevel = 0 ∧ q'.gamma = q.gamma := by
    unfold QuantizationResult.setDitheringLevel at hl
    split at hl
    · cases hl; exact ⟨rfl, rfl⟩
    · cases hl
  have := C04_nearest env (.level hq hl) hi hf h.1 hbg buf log hok
  rw [h.2] at this
  exact this

/-- **C45** (exact arithmetic). The dithering code itself agrees: level 0 means strength 0, and a row dithered with
strength 0 consists of nearest colours, whatever errors were carried into it. -/
theorem C45_strength_zero (hasMap : Bool) {ctx : DitherCtx ℝ} (hbase : ctx.base = baseDitherLevel 0 hasMap)
    (hctx : Nearest.new ctx.n.palette = .ok ctx.n) {row : List (FPixel ℝ)}
    {dmap : List UInt8} {d : Diffusion ℝ} {even : Bool} {out : List (Option UInt8)} {r : DitherOut ℝ (List (Option UInt8))}
    (hfar : ∀ px ∈ row, ∃ e ∈ ctx.n.palette, diff px.spec e.color.spec < 2 ^ 128)
    (h : ditherRow ctx row [] dmap d even out = .ok r) :
    ∀ x < ctx.width, ∃ (px : FPixel ℝ) (b : UInt8), row[x]? = some px ∧ r.out[x]? = some (some b) ∧
      IsNearest (ctx.n.palette.map fun e => e.color.spec) px.spec b.toNat := by
  have hb0 : ctx.base = 0 := by
    rw [hbase]
    unfold baseDitherLevel
    simp
  obtain ⟨S, target, shown, byte, hdone⟩ := ditherRow_done h
  intro x hx
  have hcc : ditherCol ctx.width even (ditherCol ctx.width even x) = x := by
    unfold ditherCol; split <;> omega
  have hx' := ditherCol_lt even hx
  have hs := hdone.step _ hx'
  have hb := hdone.byte_out hx'
  rw [hcc] at hs hb
  obtain ⟨px, hpx, ht⟩ := hs.searched
  have hlev : ditherLevelAt ctx dmap x = 0 := by
    unfold ditherLevelAt
    rw [hb0]
    split <;> simp
  have hpt : target (ditherCol ctx.width even x) = px := by
    rw [ht, hlev]
    unfold ditheredPixel
    dsimp only
    rw [if_pos]
    simp [FPixel.scale, FPixel.normSq]
  have hbyte := hs.search (by simp)
  refine ⟨px, _, hpx, hb, ?_⟩
  rw [hbyte, search_toNat hctx, hpt]
  have h01 := Nearest.new_ok hctx
  obtain ⟨n, hn, hnear, _⟩ := C04_search h01.1 h01.2.1 px (ditherGuess ctx (S (ditherCol ctx.width even x)) x).1.toNat
    (.inr (hfar px (List.mem_of_getElem? hpx)))
  rw [hctx] at hn
  cases hn
  exact hnear


/-! ## C06: images with few colours -/

/-- quantization of a new image with few colours, for any floats with the laws that are needed, and more about its palette -/
theorem quantizeImage_few_all {F : Type} [Flt F] [FltSign F] (env : Env F) (cs : List Call) (hspeed : (Settings.default.after cs).speed ≤ 7)
    (hpost : (Settings.default.after cs).minPosterization = 0) (hqual : (Settings.default.after cs).quality.2 = 100)
    {f : ℕ → ℕ → RGBA} {w h : ℕ} {γ : F} {img : Image F} (hm : Made f w h γ img)
    (hmap : img.MapPositive) (hγ0 : lt (lit64 0) img.px.gamma = true) (hz : eq (lit64 0 : F) (lit64 0) = true)
    (hmse : ∀ q ≤ 100, lt (qualityToMse q *₆ lit64 (33/100)) (lit64 0 : F) = false) (colors : List RGBA)
    (hlen : colors.length ≤ (Settings.default.after cs).maxColors)
    (hcol : ∀ y < h, ∀ x < w, ∃ c ∈ colors, f y x = c ∨ ((f y x).a = 0 ∧ c.a = 0)) (log : List F) :
    ∃ q img' log', quantizeImage env (userAttr cs none) img log = ((.ok q, img'), log') ∧
      UserResult q ∧ UserImage img' ∧ img'.px.Shows f ∧ img'.background = none ∧ img'.width = w ∧ img'.height = h ∧
      q.gamma = img'.px.gamma ∧ q.minPosterizationOutput = 0 ∧ q.progressCallback = none ∧
      q.ditherLevel = lit32 1 ∧ (q.remapped = none ∧ q.intPalette = []) ∧ img'.px.gamma = img.px.gamma ∧
      (∀ e ∈ q.palette, ∃ d, e.color = FPixel.fromRgba (gammaLut img'.px.gamma) d) ∧
      (∀ y < h, ∀ x < w, ∃ e ∈ q.palette, ∃ d : RGBA, e.color = FPixel.fromRgba (gammaLut img'.px.gamma) d ∧ d.Looks (f y x)) ∧
      q.palette.length ≤ colors.length ∧ (∃ hist hi, Histogram.finalizeBuilder env.ho hist img'.px.gamma = .ok hi ∧
        ∀ e ∈ q.palette, ∃ x ∈ hi.items, e.pop = PalPop.new x.perceptualWeight) ∧ q.useDitherMap = (userAttr (F := F) cs none).useDitherMap := by
  have hmf := hm.facts
  have hgood := hmf.user.good
  have hcol256 := (userAttr_range (F := F) cs none).2
  have hmc := userAttr_maxColors (F := F) cs none
  have hsp := userAttr_speedOK (F := F) cs none
  have hobs := C13_settings_registers_any_float (F := F) cs
  simp only [Attr.observeInt, Attr.getMaxColors, Attr.getSpeed, Attr.getMinPosterization, Prod.mk.injEq] at hobs
  have hs7 : (userAttr (F := F) cs none).speed ≤ 7 := by
    show ((Attr.new : Attr F).after cs).speed ≤ 7
    rw [hobs.2.1]; exact hspeed
  have hpo : (userAttr (F := F) cs none).minPosterizationOutput = 0 := by
    show ((Attr.new : Attr F).after cs).minPosterizationOutput = 0
    rw [hobs.2.2]; exact hpost
  have hpb : (userAttr (F := F) cs none).posterizeBits = 0 := by
    unfold Attr.posterizeBits
    rw [hpo, hsp.input, if_neg (by omega)]
    rfl
  have hent : 256 ≤ (userAttr (F := F) cs none).maxHistogramEntries := by
    rw [hsp.entries]
    have : (0:ℕ) ≤ 2 ^ 18 * (10 - (userAttr (F := F) cs none).speed) := Nat.zero_le _
    omega
  obtain ⟨hist, img', log', e1, hγ', hfix, hl, hne, -, hev⟩ :=
    few_histogram env.ho (attr := userAttr cs none) rfl hpb hent hmf (by omega) hcol hmap log
  have hins : hist.insertFixedColors env.ho = hist.hashmap := by
    unfold Histogram.insertFixedColors
    rw [hfix]
    have : env.ho.set [] = [] := List.Perm.eq_nil (env.ho.set_perm [])
    rw [this]; rfl
  -- the quality that was asked for
  have hq := userAttr_quality (F := F) cs none
  have hlast := after_quality_settings cs
  rw [hlast] at hqual
  have htarget : (userAttr (F := F) cs none).targetMse = lit64 0 := by
    rw [hq.2]
    cases hlq : lastQuality cs with
    | none => rfl
    | some p =>
      rw [hlq] at hqual
      dsimp only
      rw [show p.2 = 100 from hqual]
      rfl
  obtain ⟨hi, p, f1, f2, f3⟩ := quantize_few env (userAttr (F := F) cs none) hcol256 rfl hist false log' (.inl hne)
    (by rw [hins]; omega) (by rw [htarget]; exact hz) (by
      intro m hm'
      rw [hq.1] at hm'
      obtain ⟨qq, hqq, rfl⟩ := Option.map_eq_some_iff.mp hm'
      have := lastQuality_range cs qq hqq
      exact hmse _ (by omega))
  simp only [Bool.false_eq_true, if_false] at f3
  obtain ⟨hi', src, g1, g2, g3, -⟩ := C44_clusters env.ho hist (hist.gamma.getD (lit64 (45455/100000)))
  rw [f1] at g1
  cases g1
  have hfixed : hi.fixedColors = [] := by
    obtain ⟨r, k1, -, -, -, k5⟩ := hist.finalize_spec env.ho (hist.gamma.getD (lit64 (45455/100000)))
    rw [f1] at k1
    cases k1
    rw [k5, hfix, List.Perm.eq_nil (env.ho.set_perm [])]
    simp
  rw [hfixed] at f2
  have hp : p = hi.items.map fun x => (⟨x.color, PalPop.new x.perceptualWeight⟩ : PalEntry F) := by
    have : PalF.withFixedColors (hi.items.map fun x => (⟨x.color, PalPop.new x.perceptualWeight⟩ : PalEntry F))
      (userAttr (F := F) cs none).maxColors [] = .ok (hi.items.map fun x => (⟨x.color, PalPop.new x.perceptualWeight⟩ : PalEntry F)) := rfl
    rw [this] at f2
    cases f2; rfl
  -- the image afterwards
  have him : img' = ((Histogram.new (userAttr cs none)).addImage env.ho (userAttr cs none) img log).1.2.2 := by rw [e1]
  have hui : UserImage img' := him ▸ UserImage.histogram env.ho _ _ _ hmf.user
  have hsame := addImage_same env.ho (Histogram.new (userAttr cs none)) (userAttr cs none) log hgood
  rw [← him] at hsame
  have hshow : img'.px.Shows f := hsame.1.shows hmf.shows_
  have hbg : img'.background = none := hsame.2.trans hmf.background
  have hw : img'.width = w := (show img'.px.width = img.px.width from hsame.1.width).trans hmf.width_
  have hh : img'.height = h := (show img'.px.height = img.px.height from hsame.1.height).trans hmf.height_
  have hgi : img'.px.gamma = img.px.gamma := hsame.1.gamma
  have hgam : hist.gamma.getD (lit64 (45455/100000)) = img'.px.gamma := by
    rw [hγ']
    unfold Image.gamma
    rw [hgi, if_pos hγ0]
    rfl
  rw [hgam] at f3 g3
  have hback : ∀ c ∈ hi.items.map (·.color), ∃ d, c = FPixel.fromRgba (gammaLut img'.px.gamma) d := by
    intro c hc
    rw [g3] at hc
    obtain ⟨d, -, rfl⟩ := List.mem_map.mp hc
    exact ⟨d, rfl⟩
  refine ⟨_, img', log', ?_, .quantized env cs none hist false log' log' f3, hui, hshow, hbg, hw, hh, rfl, hpo, rfl, rfl, ⟨rfl, rfl⟩, hgi,
    ?_, ?_, ?_, ?_, rfl⟩
  · unfold quantizeImage
    rw [e1]
    dsimp only
    rw [f3]
  · intro e he
    rw [(sortPalette_perm _ p).mem_iff, hp] at he
    obtain ⟨it, hit, rfl⟩ := List.mem_map.mp he
    exact hback _ (List.mem_map_of_mem hit)
  · intro y hy x hx
    obtain ⟨e, he, hef⟩ := hev y hy x hx
    have h1 : e.2.2 ∈ src := by
      refine g2.mem_iff.mpr ?_
      rw [hins]
      exact List.mem_map_of_mem he
    have h2 : FPixel.fromRgba (gammaLut img'.px.gamma) e.2.2 ∈ hi.items.map (·.color) := by
      rw [g3]; exact List.mem_map_of_mem h1
    obtain ⟨it, hit, hic⟩ := List.mem_map.mp h2
    refine ⟨⟨it.color, PalPop.new it.perceptualWeight⟩, ?_, e.2.2, hic, hef⟩
    rw [(sortPalette_perm _ p).mem_iff, hp]
    exact List.mem_map.mpr ⟨it, hit, rfl⟩
  · rw [(sortPalette_perm _ p).length_eq, hp, List.length_map, ← List.length_map (f := (·.color)), g3, List.length_map, g2.length_eq, hins,
      List.length_map]
    exact hl
  · refine ⟨hist, hi, by rw [← hgam]; exact f1, fun e he => ?_⟩
    rw [(sortPalette_perm _ p).mem_iff, hp] at he
    obtain ⟨it, hit, rfl⟩ := List.mem_map.mp he
    exact ⟨it, hit, rfl⟩

/-- quantization of a new image with few colours, for any floats with the laws that are needed -/
theorem quantizeImage_few_any {F : Type} [Flt F] [FltSign F] (env : Env F) (cs : List Call) (hspeed : (Settings.default.after cs).speed ≤ 7)
    (hpost : (Settings.default.after cs).minPosterization = 0) (hqual : (Settings.default.after cs).quality.2 = 100)
    {f : ℕ → ℕ → RGBA} {w h : ℕ} {γ : F} {img : Image F} (hm : Made f w h γ img)
    (hmap : img.MapPositive) (hγ0 : lt (lit64 0) img.px.gamma = true) (hz : eq (lit64 0 : F) (lit64 0) = true)
    (hmse : ∀ q ≤ 100, lt (qualityToMse q *₆ lit64 (33/100)) (lit64 0 : F) = false) (colors : List RGBA)
    (hlen : colors.length ≤ (Settings.default.after cs).maxColors)
    (hcol : ∀ y < h, ∀ x < w, ∃ c ∈ colors, f y x = c ∨ ((f y x).a = 0 ∧ c.a = 0)) (log : List F) :
    ∃ q img' log', quantizeImage env (userAttr cs none) img log = ((.ok q, img'), log') ∧
      UserResult q ∧ UserImage img' ∧ img'.px.Shows f ∧ img'.background = none ∧ img'.width = w ∧ img'.height = h ∧
      q.gamma = img'.px.gamma ∧ q.minPosterizationOutput = 0 ∧ q.progressCallback = none ∧
      q.ditherLevel = lit32 1 ∧ (q.remapped = none ∧ q.intPalette = []) ∧ img'.px.gamma = img.px.gamma ∧
      (∀ e ∈ q.palette, ∃ d, e.color = FPixel.fromRgba (gammaLut img'.px.gamma) d) ∧
      ∀ y < h, ∀ x < w, ∃ e ∈ q.palette, ∃ d : RGBA, e.color = FPixel.fromRgba (gammaLut img'.px.gamma) d ∧ d.Looks (f y x) := by
  obtain ⟨q, img', log', e, h1, h2, h3, h4, h5, h6, h7, h8, h9, h10, h11, h12, h13, h14, -⟩ :=
    quantizeImage_few_all env cs hspeed hpost hqual hm hmap hγ0 hz hmse colors hlen hcol log
  exact ⟨q, img', log', e, h1, h2, h3, h4, h5, h6, h7, h8, h9, h10, h11, h12, h13, h14⟩

/-- quantization of a new image with few colours -/
theorem quantizeImage_few (env : Env ℝ) (cs : List Call) (hspeed : (Settings.default.after cs).speed ≤ 7)
    (hpost : (Settings.default.after cs).minPosterization = 0) (hqual : (Settings.default.after cs).quality.2 = 100)
    {f : ℕ → ℕ → RGBA} {w h : ℕ} {γ : ℝ} {img : Image ℝ} (hm : Made f w h γ img) (colors : List RGBA)
    (hlen : colors.length ≤ (Settings.default.after cs).maxColors)
    (hcol : ∀ y < h, ∀ x < w, ∃ c ∈ colors, f y x = c ∨ ((f y x).a = 0 ∧ c.a = 0)) (log : List ℝ) :
    ∃ q img' log', quantizeImage env (userAttr cs none) img log = ((.ok q, img'), log') ∧
      UserResult q ∧ UserImage img' ∧ img'.px.Shows f ∧ img'.background = none ∧ img'.width = w ∧ img'.height = h ∧
      q.gamma = img'.px.gamma ∧ q.minPosterizationOutput = 0 ∧ q.progressCallback = none ∧
      q.ditherLevel = 1 ∧ (q.remapped = none ∧ q.intPalette = []) ∧
      ∀ y < h, ∀ x < w, ∃ e ∈ q.palette, e.color = FPixel.fromRgba (gammaLut img'.px.gamma) (f y x) := by
  obtain ⟨q, img', log', e, h1, h2, h3, h4, h5, h6, h7, h8, h9, h10, h11, -, -, h12⟩ :=
    quantizeImage_few_any env cs hspeed hpost hqual hm hm.facts.user.good.mapPositive
      (by simpa using hm.facts.user.gamma_pos.1) (by simp) (fun q _ => by
        rw [qualityToMse_spec]
        have := qualityLimit_nonneg q
        simp only [real_lit64, real_mul64, real_lt_false]
        push_cast
        positivity) colors hlen hcol log
  refine ⟨q, img', log', e, h1, h2, h3, h4, h5, h6, h7, h8, h9, by rw [h10]; simp, h11, fun y hy x hx => ?_⟩
  obtain ⟨e, he, d, hd, hl⟩ := h12 y hy x hx
  refine ⟨e, he, ?_⟩
  rw [← (C07_distinct h2.gamma_pos.1 d (f y x)).mpr hl]
  exact hd

/-- **C06** (exact arithmetic). Take any settings (speed at most 7, posterization 0, target quality 100), a new image with
at most as many colours as the settings allow, any schedule and any hash order. Quantizing succeeds, and so does remapping
at every dithering level. Each byte's palette entry is its pixel's colour (fully transparent colours are all alike). -/
theorem C06_lossless (env : Env ℝ) (renv : RemapEnv ℝ) (cs : List Call) (hspeed : (Settings.default.after cs).speed ≤ 7)
    (hpost : (Settings.default.after cs).minPosterization = 0) (hqual : (Settings.default.after cs).quality.2 = 100)
    {f : ℕ → ℕ → RGBA} {w h : ℕ} {γ : ℝ} {img : Image ℝ} (hm : Made f w h γ img) (colors : List RGBA)
    (hlen : colors.length ≤ (Settings.default.after cs).maxColors)
    (hcol : ∀ y < h, ∀ x < w, ∃ c ∈ colors, f y x = c ∨ ((f y x).a = 0 ∧ c.a = 0)) (log : List ℝ) :
    ∃ q img' log', quantizeImage env (userAttr cs none) img log = ((.ok q, img'), log') ∧
      ∀ (v : ℝ) (q' : QuantizationResult ℝ), q.setDitheringLevel v = .ok q' →
      ∀ (buf : List (Option UInt8)) (log : List ℝ), w * h ≤ buf.length →
        let r := remapInto renv q' img' buf log
        r.res = .ok () ∧
        ∀ y < h, ∀ x < w, ∃ (b : UInt8) (c : RGBA), r.buf[y * w + x]? = some (some b) ∧
          r.quant.getPalette.2[b.toNat]? = some c ∧ (c = f y x ∨ (c.a = 0 ∧ (f y x).a = 0)) := by
  obtain ⟨q, img', log', e, huq, hui, hshow, hbg, hw, hh, hγ, hpo, hcb, -, -, hall⟩ :=
    quantizeImage_few env cs hspeed hpost hqual hm colors hlen hcol log
  refine ⟨q, img', log', e, ?_⟩
  intro v q' hv buf log2 hbuf r
  have huq' := UserResult.level huq hv
  have hq' : q'.progressCallback = none ∧ q'.gamma = img'.px.gamma ∧ q'.palette = q.palette ∧ q'.minPosterizationOutput = 0 := by
    unfold QuantizationResult.setDitheringLevel at hv
    split at hv
    · cases hv; exact ⟨hcb, hγ, rfl, hpo⟩
    · cases hv
  obtain ⟨q1, q2, q3, q4⟩ := hq'
  have hok : r.res = .ok () := C48_succeeds renv huq' hui buf log2 (by rw [hw, hh]; exact hbuf) q1 (fun x => by simp)
  refine ⟨hok, ?_⟩
  have hmain := C45_own_colour renv huq' hui hshow hbg q2 (fun y _ x _ => by rw [q4]; exact kept_zero _)
    (fun y hy x hx => by
      rw [q3]
      rw [hw] at hx
      rw [hh] at hy
      exact hall y hy x hx) buf log2 hok
  rw [hw, hh] at hmain
  exact hmain

/-- the number of colours of an image that can be told apart -/
def colorCount (f : ℕ → ℕ → RGBA) (w h : ℕ) : ℕ :=
  ((Finset.range h ×ˢ Finset.range w).image fun p => if (f p.1 p.2).a = 0 then ⟨0, 0, 0, 0⟩ else f p.1 p.2).card

/-- **C06** (exact arithmetic), in terms of the number of colours in the image. -/
theorem C06_color_count (env : Env ℝ) (renv : RemapEnv ℝ) (cs : List Call) (hspeed : (Settings.default.after cs).speed ≤ 7)
    (hpost : (Settings.default.after cs).minPosterization = 0) (hqual : (Settings.default.after cs).quality.2 = 100)
    {f : ℕ → ℕ → RGBA} {w h : ℕ} {γ : ℝ} {img : Image ℝ} (hm : Made f w h γ img)
    (hcount : colorCount f w h ≤ (Settings.default.after cs).maxColors) (log : List ℝ) :
    ∃ q img' log', quantizeImage env (userAttr cs none) img log = ((.ok q, img'), log') ∧
      ∀ (v : ℝ) (q' : QuantizationResult ℝ), q.setDitheringLevel v = .ok q' →
      ∀ (buf : List (Option UInt8)) (log : List ℝ), w * h ≤ buf.length →
        let r := remapInto renv q' img' buf log
        r.res = .ok () ∧
        ∀ y < h, ∀ x < w, ∃ (b : UInt8) (c : RGBA), r.buf[y * w + x]? = some (some b) ∧
          r.quant.getPalette.2[b.toNat]? = some c ∧ (c = f y x ∨ (c.a = 0 ∧ (f y x).a = 0)) := by
  refine C06_lossless env renv cs hspeed hpost hqual hm
    ((Finset.range h ×ˢ Finset.range w).image fun p => if (f p.1 p.2).a = 0 then ⟨0, 0, 0, 0⟩ else f p.1 p.2).toList
    (by rw [Finset.length_toList]; exact hcount) (fun y hy x hx => ?_) log
  refine ⟨if (f y x).a = 0 then ⟨0, 0, 0, 0⟩ else f y x, ?_, ?_⟩
  · rw [Finset.mem_toList, Finset.mem_image]
    exact ⟨(y, x), by simp [hy, hx], rfl⟩
  · split
    next h => exact .inr ⟨h, rfl⟩
    · exact .inl rfl

/-- settings and an image (three pixels, two colours that can be told apart) to which this applies -/
example : ∃ img : Image ℝ, Made (fun _ x => if x = 0 then ⟨10, 20, 30, 40⟩ else ⟨UInt8.ofNat x, 9, 9, 0⟩) 3 1 0 img ∧
    (Settings.default.after [.maxColors 2, .speed 7, .quality 30 100]).speed ≤ 7 ∧
    (Settings.default.after [.maxColors 2, .speed 7, .quality 30 100]).minPosterization = 0 ∧
    (Settings.default.after [.maxColors 2, .speed 7, .quality 30 100]).quality.2 = 100 ∧
    [(⟨10, 20, 30, 40⟩ : RGBA), ⟨0, 0, 0, 0⟩].length ≤ (Settings.default.after [.maxColors 2, .speed 7, .quality 30 100]).maxColors ∧
    ∀ y < 1, ∀ x < 3, ∃ c ∈ [(⟨10, 20, 30, 40⟩ : RGBA), ⟨0, 0, 0, 0⟩],
      (if x = 0 then (⟨10, 20, 30, 40⟩ : RGBA) else ⟨UInt8.ofNat x, 9, 9, 0⟩) = c ∨
      ((if x = 0 then (⟨10, 20, 30, 40⟩ : RGBA) else ⟨UInt8.ofNat x, 9, 9, 0⟩).a = 0 ∧ c.a = 0) := by
  have h : ∃ img : Image ℝ, Image.newFn (fun _ x => if x = 0 then ⟨10, 20, 30, 40⟩ else ⟨UInt8.ofNat x, 9, 9, 0⟩) 3 1 0 = .ok img := by
    unfold Image.newFn Image.newInternal Image.toU32
    simp [Image.checkImageSize, Bind.bind, Except.bind]
    norm_num
  obtain ⟨img, e⟩ := h
  refine ⟨img, .inl e, by decide, by decide, by decide, by decide, ?_⟩
  intro y _ x _
  by_cases hx : x = 0
  · exact ⟨⟨10, 20, 30, 40⟩, by simp, .inl (by rw [if_pos hx])⟩
  · exact ⟨⟨0, 0, 0, 0⟩, by simp, .inr ⟨by rw [if_neg hx], rfl⟩⟩

/-- The hypotheses of `C45_own_colour`, `C45_reported` and `C45_level_zero` can be met, by an image of two colours. -/
example : ∃ (q q' q'' : QuantizationResult ℝ) (img : Image ℝ) (f : ℕ → ℕ → RGBA), UserResult q ∧ UserImage img ∧ img.px.Shows f ∧
    img.background = none ∧ q.gamma = img.px.gamma ∧ q.minPosterizationOutput = 0 ∧ (q.remapped = none ∧ q.intPalette = []) ∧
    q.ditherLevel = 1 ∧ f 0 0 ≠ f 0 1 ∧ img.width = 2 ∧ img.height = 1 ∧
    (∀ y < img.height, ∀ x < img.width, ∃ e ∈ q.palette, e.color = FPixel.fromRgba (gammaLut img.px.gamma) (f y x)) ∧
    (∀ y < img.height, ∀ x < img.width, ∃ c ∈ q.getPalette.2, c = f y x ∨ (c.a = 0 ∧ (f y x).a = 0)) ∧
    q.setDitheringLevel 0 = .ok q' ∧ q.getPalette.1.setDitheringLevel (1/2) = .ok q'' ∧
    (remapInto RemapEnv.simple q img (List.replicate 2 none) []).res = .ok () ∧
    (remapInto RemapEnv.simple q' img (List.replicate 2 none) []).res = .ok () ∧
    (remapInto RemapEnv.simple q'' img (List.replicate 2 none) []).res = .ok () := by
  obtain ⟨img, e⟩ : ∃ img : Image ℝ, Image.newFn (fun _ x => if x = 0 then ⟨10, 20, 30, 40⟩ else ⟨50, 60, 70, 255⟩) 2 1 0 = .ok img := by
    unfold Image.newFn Image.newInternal Image.toU32
    simp [Image.checkImageSize, Bind.bind, Except.bind]
    norm_num
  obtain ⟨q, img', log', eq, huq, hui, hshow, hbg, hw, hh, hγ, hpo, hcb, hlev, hnew, hall⟩ :=
    quantizeImage_few Env.simple [] (by decide) (by decide) (by decide) (.inl e) [⟨10, 20, 30, 40⟩, ⟨50, 60, 70, 255⟩]
      (by decide) (fun y _ x _ => by
        by_cases hx : x = 0
        · exact ⟨⟨10, 20, 30, 40⟩, by simp, .inl (by rw [if_pos hx])⟩
        · exact ⟨⟨50, 60, 70, 255⟩, by simp, .inl (by rw [if_neg hx])⟩) []
  have hbuf : img'.width * img'.height ≤ (List.replicate 2 (none : Option UInt8)).length := by rw [hw, hh]; simp
  have hl1 : q.setDitheringLevel 0 = .ok { q with remapped := none, ditherLevel := 0 } := by
    unfold QuantizationResult.setDitheringLevel
    rw [if_pos (by simp)]
  have hl2 : q.getPalette.1.setDitheringLevel (1/2) = .ok { q.getPalette.1 with remapped := none, ditherLevel := 1/2 } := by
    unfold QuantizationResult.setDitheringLevel
    rw [if_pos (by norm_num)]
  have hgp : q.getPalette = ({ q with palette := (q.palette.initIntPalette q.gamma (UInt8.ofNat q.minPosterizationOutput)).1
                                      intPalette := (q.palette.initIntPalette q.gamma (UInt8.ofNat q.minPosterizationOutput)).2 },
      (q.palette.initIntPalette q.gamma (UInt8.ofNat q.minPosterizationOutput)).2) := by
    unfold QuantizationResult.getPalette
    rw [hnew.1, hnew.2]
    rfl
  refine ⟨q, _, _, img', _, huq, hui, hshow, hbg, hγ, hpo, hnew, hlev, by simp, hw, hh, ?_, ?_, hl1, hl2, ?_, ?_, ?_⟩
  · rw [hw, hh]; exact hall
  · rw [hw, hh]
    intro y hy x hx
    obtain ⟨en, h1, h2⟩ := hall y hy x hx
    have := (roundEntry_keeps (post := UInt8.ofNat q.minPosterizationOutput) hui.gamma_pos.1 (by rw [hpo]; exact kept_zero _) en h2).2
    rw [hgp]
    refine ⟨_, ?_, this⟩
    rw [← hγ]
    exact List.mem_map.mpr ⟨en, h1, rfl⟩
  · exact C48_succeeds _ huq hui _ _ hbuf hcb (fun x => by simp)
  · exact C48_succeeds _ (huq.level hl1) hui _ _ hbuf hcb (fun x => by simp)
  · exact C48_succeeds _ (huq.palette.level hl2) hui _ _ hbuf (by rw [hgp]; exact hcb) (fun x => by simp)

/-- the hypotheses of `C45_strength_zero` can be met, by a row into which an error is carried -/
example : ∃ (ctx : DitherCtx ℝ) (row : List (FPixel ℝ)) (d : Diffusion ℝ) (r : DitherOut ℝ (List (Option UInt8))),
    ctx.base = baseDitherLevel 0 false ∧ Nearest.new ctx.n.palette = .ok ctx.n ∧ ctx.width = 1 ∧
    (∃ c ∈ d.1, c.a ≠ 0) ∧ (∀ px ∈ row, ∃ e ∈ ctx.n.palette, diff px.spec e.color.spec < 2 ^ 128) ∧
    ditherRow ctx row [] [] d true [none] = .ok r := by
  obtain ⟨n, hn⟩ := Nearest.new_of_len (p := ([⟨⟨1, 1, 1, 1⟩, ⟨1⟩⟩, ⟨⟨1, 0, 0, 0⟩, ⟨1⟩⟩] : PalF ℝ)) (by simp) (by simp)
  have hnp : n.palette = [⟨⟨1, 1, 1, 1⟩, ⟨1⟩⟩, ⟨⟨1, 0, 0, 0⟩, ⟨1⟩⟩] := (Nearest.new_ok hn).2.2.1
  let ctx : DitherCtx ℝ := { n := n, width := 1, base := baseDitherLevel 0 false, maxErr := 1000, ti := 0, guess := false, garbage := fun _ => 0 }
  have hnn : Nearest.new ctx.n.palette = .ok ctx.n := by show Nearest.new n.palette = .ok n; rw [hnp]; exact hn
  have hgood : ctx.Good := ⟨hnn, by show (0 : UInt8).toNat < n.palette.length; rw [hnp]; simp⟩
  let d : Diffusion ℝ := (List.replicate 3 ⟨1, 1, 1, 1⟩, List.replicate 3 ⟨0, 0, 0, 0⟩)
  have hd : Diffusion.Len ctx.width d := ⟨rfl, rfl⟩
  let row : List (FPixel ℝ) := [⟨1, 0, 0, 0⟩]
  obtain ⟨r, hr, -⟩ := ditherRow_ok hgood (row := row) (bg := []) (dmap := []) (d := d) (even := true) (out := [none])
    rfl rfl (fun _ => rfl) hd
  refine ⟨ctx, row, d, r, rfl, hnn, rfl, ⟨⟨1, 1, 1, 1⟩, by simp [d], by norm_num⟩, ?_, hr⟩
  intro px hp
  simp only [row, List.mem_singleton] at hp
  subst hp
  refine ⟨⟨⟨1, 0, 0, 0⟩, ⟨1⟩⟩, by show _ ∈ n.palette; rw [hnp]; simp, ?_⟩
  rw [diff_self]
  positivity

end Verif
