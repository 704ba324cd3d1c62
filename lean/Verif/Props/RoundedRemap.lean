import Verif.Lemmas.RoundedMean
import Verif.Lemmas.RoundedNoise
import Verif.Lemmas.RoundedQuality
import Verif.Props.Lossless
import Verif.Spec.FloydUpTo

/-! # Remapping with rounding errors

C04: the colour found is nearest up to a small tolerance. C45: colours of the palette are shown as they are. C06: images of
few colours are reproduced. -/

set_option linter.unusedSectionVars false

namespace Verif
open Flt Spec
open FltRound (val fin)

variable {F : Type} [Flt F] [FltOrd F] [FltSign F]

theorem palColor_at {F : Type} [Flt F] {p : PalF F} {i : ℕ} (h : i < p.length) : p[i]? = some p[i] ∧ palColor p i = p[i].color := by
  simp [palColor, List.getElem?_eq_getElem h]

/-- **C04** (rounded). The search, for every palette of 1 to 256 colours, every colour (channels between -1/8 and 9/8) and
every hint, also one that is not an index: the colour found is at most 2·10⁻⁵ farther than the nearest one. -/
theorem C04_search_rounded {p : PalF F} (h0 : 0 < p.length) (h1 : p.length ≤ 256) (hp : p.Reach) {px : FPixel F}
    (hpx : px.Reach) (hint : ℕ) :
    ∃ n, Nearest.new p = .ok n ∧ IsNearestUpTo (2 / 10 ^ 5) (p.map fun e => e.color.vals) px.vals (n.search px hint).1 := by
  obtain ⟨n, hn⟩ := Nearest.new_of_len h0 h1
  obtain ⟨a1, -, a3⟩ := Nearest.search_rounded hn hp hpx hint
  refine ⟨n, hn, (palColor p (n.search px hint).1).vals, ?_, fun c' hc' => ?_⟩
  · rw [List.getElem?_map, (palColor_at a1).1, (palColor_at a1).2]; rfl
  · obtain ⟨e, he, rfl⟩ := List.mem_map.mp hc'
    obtain ⟨j, hj, rfl⟩ := List.getElem_of_mem he
    have := a3 j hj
    rw [(palColor_at hj).2] at this
    unfold fuzz FPixel.dist at this
    linarith

/-- entries of the rounded palette and the reported colours -/
theorem initIntPalette_get {F : Type} [Flt F] (p : PalF F) (γ : F) (post : UInt8) {i : ℕ} (hi : i < p.length) :
    ∃ d c : RGBA, palColor (p.initIntPalette γ post).1 i = FPixel.fromRgba (gammaLut γ) d ∧
      (p.initIntPalette γ post).2[i]? = some c ∧ (c = d ∨ (c.a = 0 ∧ d.a = 0)) ∧
      d = (p[i].color.toRgb γ).map (fun c => PalF.posterizeChannel c post) := by
  unfold PalF.initIntPalette
  simp only [palColor, List.getElem?_map, List.getElem?_eq_getElem hi, Option.map_some]
  unfold PalF.roundEntry
  dsimp only
  generalize (p[i].color.toRgb γ).map (fun c => PalF.posterizeChannel c post) = d
  refine ⟨d, _, rfl, rfl, ?_, rfl⟩
  split
  next h => exact .inr ⟨h.1, h.1⟩
  · exact .inl rfl

theorem colorOf_looks {g : ℝ} {c d : RGBA} (h : c = d ∨ (c.a = 0 ∧ d.a = 0)) : colorOf g c = colorOf g d := by
  rcases h with rfl | ⟨h1, h2⟩
  · rfl
  · unfold colorOf
    simp [h1, h2]

theorem initIntPalette_reach (p : PalF F) {γ : F} (hγ : UsualGamma γ) (post : UInt8) : (p.initIntPalette γ post).1.Reach := by
  intro e he
  obtain ⟨i, hi, rfl⟩ := List.getElem_of_mem he
  have hi' : i < p.length := by simpa [PalF.initIntPalette] using hi
  obtain ⟨d, c, h1, -⟩ := initIntPalette_get p γ post hi'
  rw [(palColor_at hi).2] at h1
  rw [h1]
  exact fromRgba_reach hγ d

/-- **C04** (rounded). With dithering off and no background every output byte names a colour of the reported palette that
is at most 4·10⁻⁴ farther from the pixel than the nearest one. -/
theorem C04_nearest_rounded (env : RemapEnv F) {q : QuantizationResult F} {img : Image F} (hq : UserResult q) (hi : UserImage img)
    (hγq : UsualGamma q.gamma) (hγi : UsualGamma img.px.gamma)
    {f : ℕ → ℕ → RGBA} (hf : img.px.Shows f) (hl : eq q.ditherLevel (lit32 0) = true) (hbg : img.background = none)
    (buf : List (Option UInt8)) (log : List F) (hok : (remapInto env q img buf log).res = .ok ()) :
    let r := remapInto env q img buf log
    ∀ y < img.height, ∀ x < img.width, ∃ b : UInt8, r.buf[y * img.width + x]? = some (some b) ∧
      IsNearestUpTo (4 / 10 ^ 4) (r.quant.getPalette.2.map (colorOf (val q.gamma))) (colorOf (val img.px.gamma) (f y x))
        b.toNat := by
  intro r y hy x hx
  obtain ⟨n, hn, _, hpal, hbyte⟩ := remapInto_plain env hq.good hi.good buf log hl hok
  obtain ⟨hint, hh, hb⟩ := hbyte y hy x hx _ (hf.pixel hy hx)
  refine ⟨_, hb, ?_⟩
  rw [hbg]
  show IsNearestUpTo _ _ _ (UInt8.ofNat (n.search (FPixel.fromRgba (gammaLut img.px.gamma) (f y x)) hint.toNat).1).toNat
  rw [search_toNat hn]
  have hreach := fromRgba_reach hγi (f y x)
  obtain ⟨a1, -, a3⟩ := Nearest.search_rounded hn (initIntPalette_reach _ hγq _) hreach hint.toNat
  have len : (q.palette.initIntPalette q.gamma (UInt8.ofNat q.minPosterizationOutput)).1.length = q.palette.length := by
    simp [PalF.initIntPalette]
  have len2 : (q.palette.initIntPalette q.gamma (UInt8.ofNat q.minPosterizationOutput)).2.length = q.palette.length := by
    simp [PalF.initIntPalette]
  obtain ⟨d, c, e1, e2, e3, -⟩ := initIntPalette_get q.palette q.gamma (UInt8.ofNat q.minPosterizationOutput) (len ▸ a1)
  have npx := fromRgba_near hγi (f y x)
  refine ⟨colorOf (val q.gamma) c, ?_, fun c' hc' => ?_⟩
  · show ((remapInto env q img buf log).quant.getPalette.2.map _)[_]? = _
    rw [hpal, List.getElem?_map, e2]
    rfl
  · rw [show r.quant.getPalette.2 = _ from hpal] at hc'
    obtain ⟨c1, hc1, rfl⟩ := List.mem_map.mp hc'
    obtain ⟨j, hj, rfl⟩ := List.getElem_of_mem hc1
    have hj' : j < q.palette.length := len2 ▸ hj
    obtain ⟨d', c2, f1, f2, f3, -⟩ := initIntPalette_get q.palette q.gamma (UInt8.ofNat q.minPosterizationOutput) hj'
    rw [List.getElem?_eq_getElem hj] at f2
    simp only [Option.some.injEq] at f2
    rw [f2, colorOf_looks e3, colorOf_looks f3]
    have main := a3 j (by rw [len]; exact hj')
    rw [e1, f1] at main
    unfold FPixel.dist fuzz at main
    have n1 := fromRgba_near hγq d
    have n2 := fromRgba_near hγq d'
    have t1 := Spec.dist_triangle (colorOf (val img.px.gamma) (f y x)) (FPixel.fromRgba (gammaLut img.px.gamma) (f y x)).vals
      (colorOf (val q.gamma) d)
    have t2 := Spec.dist_triangle (FPixel.fromRgba (gammaLut img.px.gamma) (f y x)).vals (FPixel.fromRgba (gammaLut q.gamma) d).vals
      (colorOf (val q.gamma) d)
    have t3 := Spec.dist_triangle (FPixel.fromRgba (gammaLut img.px.gamma) (f y x)).vals (colorOf (val img.px.gamma) (f y x))
      (FPixel.fromRgba (gammaLut q.gamma) d').vals
    have t4 := Spec.dist_triangle (colorOf (val img.px.gamma) (f y x)) (colorOf (val q.gamma) d')
      (FPixel.fromRgba (gammaLut q.gamma) d').vals
    have s1 := Spec.dist_comm (colorOf (val img.px.gamma) (f y x)) (FPixel.fromRgba (gammaLut img.px.gamma) (f y x)).vals
    have s2 := Spec.dist_comm (colorOf (val q.gamma) d') (FPixel.fromRgba (gammaLut q.gamma) d').vals
    linarith

/-! ## C45 -/

/-- a refined entry rounds to the colour it had -/
theorem toRgb_refined {γ : F} (h : UsualGamma γ) {d : RGBA} {x : FPixel F}
    (hx : x = FPixel.fromRgba (gammaLut γ) d ∨
      (eq (FPixel.fromRgba (gammaLut γ) d).a (lit32 0) = false ∧ x.Alike (3 * w32) (FPixel.fromRgba (gammaLut γ) d))) :
    (x.toRgb γ).Looks d := by
  rcases hx with rfl | ⟨h1, h2⟩
  · rw [C07_roundtrip_rounded h d]
    split
    next ha => exact .inr ⟨rfl, ha⟩
    · exact .inl rfl
  · refine .inl (toRgb_alike h ?_ h2)
    intro ha
    have hv := vals_transparent h ha
    unfold FPixel.vals at hv
    simp only [Color.mk.injEq] at hv
    have z := IsZero.lit32 (F := F)
    rw [(FltRound.eq _ _ (fromRgba_reach h d).a.1 z.fin).2 (by rw [hv.1, z.zero])] at h1
    cases h1

theorem kept_looks {post : UInt8} {c d : RGBA} (hd : d.Kept post) (h : c.Looks d) :
    (c.map (fun v => PalF.posterizeChannel v post)).Looks d := by
  rcases h with rfl | ⟨h1, h2⟩
  · rw [hd]; exact .inl rfl
  · refine .inr ⟨?_, h2⟩
    show PalF.posterizeChannel c.a post = 0
    rw [h1, posterize_zero_channel]

/-- **C45** (rounded). If the palette consists of 8-bit colours and has the colours of all pixels, then at every dithering
level every byte of a successful remap names a reported colour equal to that of its pixel, whatever rounding does to the
colours, their differences, the carried errors and the averages. (Pixels are fully transparent or have an alpha of at
least 16. The gamma is at least 0.45. The number of pixels and of threads together is at most 2²⁸.) -/
theorem C45_own_colour_rounded (env : RemapEnv F) {q : QuantizationResult F} {img : Image F} (hq : UserResult q) (hi : UserImage img)
    {f : ℕ → ℕ → RGBA} (hf : img.px.Shows f) (hbg : img.background = none) (hγ : q.gamma = img.px.gamma) (hbr : BrightGamma q.gamma)
    (hlev : fin q.ditherLevel ∧ 0 ≤ val q.ditherLevel ∧ val q.ditherLevel ≤ 2)
    (hsize : img.height * img.width + (env.sched img.height).workers ≤ 2 ^ 28)
    (hpost : ∀ y < img.height, ∀ x < img.width, (f y x).Kept (UInt8.ofNat q.minPosterizationOutput))
    (hsolid : ∀ y < img.height, ∀ x < img.width, (f y x).Solid)
    (hbytes : ∀ e ∈ q.palette, ∃ d, e.color = FPixel.fromRgba (gammaLut q.gamma) d)
    (hall : ∀ y < img.height, ∀ x < img.width, ∃ e ∈ q.palette, ∃ d, e.color = FPixel.fromRgba (gammaLut q.gamma) d ∧ d.Looks (f y x))
    (buf : List (Option UInt8)) (log : List F) (hok : (remapInto env q img buf log).res = .ok ()) :
    let r := remapInto env q img buf log
    ∀ y < img.height, ∀ x < img.width, ∃ (b : UInt8) (c : RGBA), r.buf[y * img.width + x]? = some (some b) ∧
      r.quant.getPalette.2[b.toNat]? = some c ∧ (c = f y x ∨ (c.a = 0 ∧ (f y x).a = 0)) := by
  intro r
  have hus := hbr.toUsualGamma
  -- the pixels
  have hpix : ∀ y < img.height, ∀ c ∈ img.px.pixelsF y, ∃ x < img.width, c = FPixel.fromRgba (gammaLut q.gamma) (f y x) := by
    intro y hy c hc
    obtain ⟨x, hx⟩ := List.mem_iff_getElem?.mp hc
    have hxl : x < img.width := by
      have := (List.getElem?_eq_some_iff.mp hx).1
      rwa [(hi.good.px.rowF hy).2] at this
    rw [hf.pixel hy hxl] at hx
    cases hx
    exact ⟨x, hxl, by rw [hγ]⟩
  have hpal : ∀ j < q.palette.length, ∃ d, palColor q.palette j = FPixel.fromRgba (gammaLut q.gamma) d := by
    intro j hj
    rw [(palColor_at hj).2]
    exact hbytes _ (List.getElem_mem hj)
  have hhas : ∀ y < img.height, ∀ x < img.width, ∃ j < q.palette.length, ∃ d,
      palColor q.palette j = FPixel.fromRgba (gammaLut q.gamma) d ∧ d.Looks (f y x) := by
    intro y hy x hx
    obtain ⟨e, he, d, hd, hl⟩ := hall y hy x hx
    obtain ⟨j, hj, rfl⟩ := List.getElem_of_mem he
    exact ⟨j, hj, d, by rw [(palColor_at hj).2, hd], hl⟩
  -- palettes that differ by rounding errors round to palettes with the pixels
  have hround : ∀ p : PalF F, p.length = q.palette.length → (∀ i x, p[i]? = some x → x.color = palColor q.palette i ∨
      (eq (palColor q.palette i).a (lit32 0) = false ∧ x.color.Alike (3 * w32) (palColor q.palette i))) →
      ∀ y < img.height, ∀ x < img.width,
        PalF.Own (p.initIntPalette q.gamma (UInt8.ofNat q.minPosterizationOutput)).1 (FPixel.fromRgba (gammaLut q.gamma) (f y x)) := by
    intro p hlen hp y hy x hx
    have len : (p.initIntPalette q.gamma (UInt8.ofNat q.minPosterizationOutput)).1.length = p.length := by
      simp [PalF.initIntPalette]
    refine PalF.own_of hbr (fun j hj => ?_) (hsolid y hy x hx) ?_
    · obtain ⟨d, c, e, -⟩ := initIntPalette_get p q.gamma (UInt8.ofNat q.minPosterizationOutput) (len ▸ hj)
      exact ⟨d, e⟩
    · obtain ⟨j, hj, d, hd, hl⟩ := hhas y hy x hx
      have hj' : j < p.length := by rw [hlen]; exact hj
      obtain ⟨d', c, e1, -, -, e4⟩ := initIntPalette_get p q.gamma (UInt8.ofNat q.minPosterizationOutput) hj'
      refine ⟨j, by rw [len]; exact hj', d', e1, ?_⟩
      rw [e4]
      refine kept_looks (hpost y hy x hx) ?_
      have h1 := toRgb_refined hus (x := p[j].color) (d := d) (by
        have := hp j _ (List.getElem?_eq_getElem hj')
        rw [hd] at this
        exact this)
      rcases h1 with h1 | ⟨h1, h2⟩
      · rw [h1]; exact hl
      · rcases hl with rfl | ⟨h3, h4⟩
        · exact .inr ⟨h1, h2⟩
        · exact .inr ⟨h1, h4⟩
  -- what the palette reports
  have hreport : ∀ (p : PalF F) (i : ℕ) (y x : ℕ), y < img.height → x < img.width → i < p.length →
      (palColor (p.initIntPalette q.gamma (UInt8.ofNat q.minPosterizationOutput)).1 i).vals =
        (FPixel.fromRgba (gammaLut q.gamma) (f y x)).vals →
      ∃ c, (p.initIntPalette q.gamma (UInt8.ofNat q.minPosterizationOutput)).2[i]? = some c ∧
        (c = f y x ∨ (c.a = 0 ∧ (f y x).a = 0)) := by
    intro p i y x hy hx hlt hv
    obtain ⟨d, c, e1, e2, e3, -⟩ := initIntPalette_get p q.gamma (UInt8.ofNat q.minPosterizationOutput) hlt
    refine ⟨c, e2, ?_⟩
    rw [e1] at hv
    rcases looks_of_vals hbr (hsolid y hy x hx) hv.symm with h | ⟨h1, h2⟩
    · rw [h]; exact e3
    · rcases e3 with rfl | ⟨h3, h4⟩
      · exact .inr ⟨h2, h1⟩
      · exact .inr ⟨h3, h1⟩
  intro y hy x hx
  cases hl : eq q.ditherLevel (lit32 0) with
  | true =>
    obtain ⟨n, hn, _, hpl, hbyte⟩ := remapInto_plain env hq.good hi.good buf log hl hok
    obtain ⟨hint, hh, hb⟩ := hbyte y hy x hx _ (hf.pixel hy hx)
    have hown := hround q.palette rfl (fun i x hx => .inl (by simp [palColor, hx])) y hy x hx
    rw [hγ] at hown
    rw [hγ] at hn
    have hex := Nearest.search_own hn (initIntPalette_reach _ (hγ ▸ hus) _) hown hint.toNat
    rw [hbg] at hb
    have hbb : plainByte n (pickBackground n (none : Option (Rows F))).2 (bgPixel (pickBackground n (none : Option (Rows F))).1 y x)
        (FPixel.fromRgba (gammaLut img.px.gamma) (f y x)) hint =
        UInt8.ofNat (n.search (FPixel.fromRgba (gammaLut img.px.gamma) (f y x)) hint.toNat).1 := rfl
    rw [hbb] at hb
    have h2 := hex.2
    have h1 := hex.1
    rw [← hγ] at h2
    obtain ⟨c', hc', hlook⟩ := hreport q.palette _ y x hy hx (by simpa [PalF.initIntPalette, hγ] using h1) h2
    refine ⟨_, c', hb, ?_, hlook⟩
    show (remapInto env q img buf log).quant.getPalette.2[_]? = _
    rw [hpl, search_toNat hn, ← hγ]
    exact hc'
  | false =>
    obtain ⟨p, mapErr, old, out, ctx, bg, dmap, hp, hplen, hfd, hquant, hpl, hrows⟩ :=
      remapInto_dithered env hq.good hi.good buf log hl hok
    have hnear : ∀ i x, p[i]? = some x → x.color = palColor q.palette i ∨
        (eq (palColor q.palette i).a (lit32 0) = false ∧ x.color.Alike (3 * w32) (palColor q.palette i)) := by
      rcases hp with ⟨_, _, rfl⟩ | ⟨_, px, e, r', hsame, hr, _, rfl⟩
      · intro i x hx
        exact .inl (by simp [palColor, hx])
      · intro i x hx
        refine remapToPalette_alike env _ hq.good.pos hq.good.le ?_ ?_ (hsame.readable hi.good.px)
          (by rw [hsame.height]; exact le_refl _) (fun y hy c hc => ?_) ?_ hr hx
        · intro e he
          obtain ⟨d, hd⟩ := hbytes e he
          rw [hd]; exact fromRgba_reach hus d
        · intro j hj
          obtain ⟨d, hd⟩ := hpal j hj
          rw [hd]; exact fromRgba_coarse hbr d
        · rw [hsame.pixelsF hy] at hc
          obtain ⟨x, hxl, rfl⟩ := hpix y hy c hc
          exact ⟨PalF.own_of hbr hpal (hsolid y hy x hxl) (hhas y hy x hxl), fromRgba_coarse hbr _⟩
        · rw [hsame.width]; exact hsize
    obtain ⟨row, hrow, hbts⟩ := hrows y hy
    obtain ⟨b, e, px, h1, h2, h3, h4⟩ := hfd.blank hlev.1 hlev.2.1 hlev.2.2 (initIntPalette_reach _ hus _) hbg (by
      intro y hy c hc
      obtain ⟨x, hxl, rfl⟩ := hpix y hy c hc
      exact hround p hplen hnear y hy x hxl) y hy row hrow x hx
    rw [hf.pixel hy hx] at h3
    simp only [Option.some.injEq] at h3
    subst h3
    obtain ⟨c', hc', hlook⟩ := hreport p b.toNat y x hy hx (by
      have := (List.getElem?_eq_some_iff.mp h2).1
      simpa [PalF.initIntPalette] using this) (by rw [hγ] at h2 ⊢; simpa [palColor, h2] using h4)
    refine ⟨b, c', ?_, ?_, hlook⟩
    · show (remapInto env q img buf log).buf[_]? = _
      rw [hbts x hx]; exact h1
    · show (remapInto env q img buf log).quant.getPalette.2[_]? = _
      rw [hpl]; exact hc'

/-! ## C06 -/

/-- the limit of no quality, scaled, is below zero -/
theorem limit_scaled {q : ℕ} (hq : q ≤ 100) : lt (qualityToMse q *₆ lit64 (33/100)) (lit64 0 : F) = false := by
  obtain ⟨z1, z2⟩ := FltRound.lit64 (F := F) 0 (by unfold Fits64; norm_num)
  have zv : val (lit64 0 : F) = 0 := z2.2 (by norm_num)
  have k := Approx.lit64 (F := F) (q := 33/100) (by push_cast; exact mid_of (by norm_num) (by norm_num))
  have kp := k.rel.pos (by norm_num)
  have h : fin (qualityToMse q : F) ∧ (val (qualityToMse q : F) = 0 ∨
      (1 / 10 ^ 7 ≤ val (qualityToMse q : F) ∧ val (qualityToMse q : F) ≤ 10 ^ 21)) := by
    rcases Nat.eq_zero_or_pos q with rfl | h0
    · have h := Approx.lit64 (F := F) (q := 10 ^ 20) (by
        unfold Mid
        constructor <;> norm_num)
      have h1 := h.rel.le (by norm_num) (by rw [w64_val]; norm_num)
      have h2 := h.rel.ge (by norm_num)
      rw [w64_val] at h1 h2
      refine ⟨h.fin, .inr ⟨?_, ?_⟩⟩
      · refine le_trans ?_ h2; norm_num
      · refine le_trans h1 ?_; norm_num
    · have hn := qualityToMse_near (F := F) h0 hq
      refine ⟨hn.fin, ?_⟩
      rcases Nat.lt_or_ge q 100 with h9 | h9
      · have ht := qualityLimit_lt (p := q) (q := 100) h9 (by norm_num)
        have hl := qualityLimit_nonneg 100
        have hu := qualityLimit_le h0
        have hb := abs_le.1 hn.near
        right
        constructor <;> linarith
      · left
        unfold qualityToMse
        rw [if_neg (by omega), if_pos h9]
        exact zv
  rw [← Bool.not_eq_true]
  rcases h with ⟨hf, h | ⟨h1, h2⟩⟩
  · have e : val (qualityToMse q : F) * val (lit64 (33/100) : F) = 0 := by rw [h, zero_mul]
    obtain ⟨m1, m2⟩ := FltRound.mul64 _ _ hf k.fin (by rw [e]; unfold Fits64; norm_num)
    rw [FltRound.lt _ _ m1 z1, zv, m2.2 e]
    exact lt_irrefl _
  · have kl := k.rel.le (by norm_num) (by rw [w64_val]; norm_num)
    have kg := k.rel.ge (by norm_num)
    rw [w64_val] at kl kg
    push_cast at kl kg
    have kl' : val (lit64 (33/100) : F) ≤ 1 := kl.trans (by norm_num)
    have kg' : 1 / 10 ≤ val (lit64 (33/100) : F) := le_trans (by norm_num) kg
    have p1 : 1 / 10 ^ 8 ≤ val (qualityToMse q : F) * val (lit64 (33/100) : F) :=
      le_trans (by norm_num) (mul_le_mul h1 kg' (by norm_num) (by linarith))
    have p2 : val (qualityToMse q : F) * val (lit64 (33/100) : F) ≤ 10 ^ 21 :=
      (mul_le_mul h2 kl' kp.le (by norm_num)).trans (by norm_num)
    have p3 : 0 ≤ val (qualityToMse q : F) * val (lit64 (33/100) : F) := by linarith
    obtain ⟨m1, m2, -⟩ := FltRound.mul64 _ _ hf k.fin (by
      unfold Fits64
      rw [abs_of_nonneg p3]
      exact p2.trans (le_trans (b := 2 ^ 100) (by norm_num) (pow_le_pow_right₀ (by norm_num) (by norm_num))))
    rw [FltRound.lt _ _ m1 z1, zv, not_lt]
    rw [abs_of_nonneg p3] at m2
    have := (abs_le.1 m2).1
    have hu : u64 ≤ 1 / 2 := by unfold u64; norm_num
    have ht : tiny64 ≤ 1 / 10 ^ 10 := by
      unfold tiny64
      exact le_trans (pow_le_pow_of_le_one (by norm_num) (by norm_num) (show 100 ≤ 1074 by norm_num)) (by norm_num)
    have := mul_le_mul_of_nonneg_right hu p3
    linarith

/-- **C06** (rounded). Take any settings (speed at most 7, posterization 0, target quality 100), a new image with at most as
many colours as the settings allow, any schedule and any hash order. Quantizing succeeds. When remapping at any dithering
level succeeds, each byte's palette entry is its pixel's colour, whatever the rounding errors are; it fails only if the
arithmetic has NaN. (Pixels are fully transparent or have an alpha of at least 16. The gamma is at least 0.45. The number of
pixels and of threads together is at most 2²⁸.) -/
theorem C06_lossless_rounded (env : Env F) (renv : RemapEnv F) (cs : List Call) (hspeed : (Settings.default.after cs).speed ≤ 7)
    (hpost : (Settings.default.after cs).minPosterization = 0) (hqual : (Settings.default.after cs).quality.2 = 100)
    {f : ℕ → ℕ → RGBA} {w h : ℕ} {γ : F} {img : Image F} (hm : Made f w h γ img) (hbr : BrightGamma img.px.gamma)
    (hsolid : ∀ y < h, ∀ x < w, (f y x).Solid) (hsize : h * w + (renv.sched h).workers ≤ 2 ^ 28) (colors : List RGBA)
    (hlen : colors.length ≤ (Settings.default.after cs).maxColors)
    (hcol : ∀ y < h, ∀ x < w, ∃ c ∈ colors, f y x = c ∨ ((f y x).a = 0 ∧ c.a = 0)) (log : List F) :
    ∃ q img' log', quantizeImage env (userAttr cs none) img log = ((.ok q, img'), log') ∧
      ∀ (v : F) (q' : QuantizationResult F), fin v → q.setDitheringLevel v = .ok q' →
      ∀ (buf : List (Option UInt8)) (log : List F), w * h ≤ buf.length →
        let r := remapInto renv q' img' buf log
        ((∀ x : F, isNan x = false) → r.res = .ok ()) ∧ (r.res = .ok () →
        ∀ y < h, ∀ x < w, ∃ (b : UInt8) (c : RGBA), r.buf[y * w + x]? = some (some b) ∧
          r.quant.getPalette.2[b.toNat]? = some c ∧ (c = f y x ∨ (c.a = 0 ∧ (f y x).a = 0))) := by
  have hmf := hm.facts
  obtain ⟨z1, z2⟩ := FltRound.lit64 (F := F) 0 (by unfold Fits64; norm_num)
  have zv : val (lit64 0 : F) = 0 := z2.2 (by norm_num)
  obtain ⟨q, img', log', e, huq, hui, hshow, hbg, hw, hh, hγ, hpo, hcb, -, -, hgi, hbytes, hall⟩ :=
    quantizeImage_few_any env cs hspeed hpost hqual hm (hmf.user.good.mapPositive_rounded hmf.shows_ hbr.toUsualGamma)
      ((FltRound.lt _ _ z1 hbr.fin).2 (by rw [zv]; linarith [hbr.bright])) ((FltRound.eq _ _ z1 z1).2 rfl)
      (fun _ => limit_scaled) colors hlen hcol log
  refine ⟨q, img', log', e, ?_⟩
  intro v q' hfv hv buf log2 hbuf r
  have huq' := UserResult.level huq hv
  have hq' : q'.progressCallback = none ∧ q'.gamma = img'.px.gamma ∧ q'.palette = q.palette ∧ q'.minPosterizationOutput = 0 ∧
      q'.ditherLevel = v ∧ le (lit32 0) v = true ∧ le v (lit32 1) = true := by
    unfold QuantizationResult.setDitheringLevel at hv
    split at hv
    next hc =>
      rw [Bool.and_eq_true] at hc
      cases hv; exact ⟨hcb, hγ, rfl, hpo, rfl, hc⟩
    · cases hv
  obtain ⟨q1, q2, q3, q4, q5, q6, q7⟩ := hq'
  refine ⟨fun hnan => C48_succeeds renv huq' hui buf log2 (by rw [hw, hh]; exact hbuf) q1 hnan, fun hok => ?_⟩
  have z := IsZero.lit32 (F := F)
  have one := Approx.lit32 (F := F) (q := 1) (by push_cast; exact mid_of (by norm_num) (by norm_num))
  have onele := one.rel.le (by norm_num) (by rw [w32_val]; norm_num)
  rw [w32_val] at onele
  push_cast at onele
  have l0 := (FltRound.le _ _ z.fin hfv).1 q6
  have l1 := (FltRound.le _ _ hfv one.fin).1 q7
  rw [z.zero] at l0
  have hmain := C45_own_colour_rounded renv huq' hui hshow hbg q2 (by rw [q2, hgi]; exact hbr)
    (by rw [q5]; exact ⟨hfv, l0, l1.trans (onele.trans (by norm_num))⟩) (by rw [hh, hw]; exact hsize)
    (fun y _ x _ => by rw [q4]; exact kept_zero _) (fun y hy x hx => by rw [hw] at hx; rw [hh] at hy; exact hsolid y hy x hx)
    (fun e he => by rw [q2]; rw [q3] at he; exact hbytes e he)
    (fun y hy x hx => by
      rw [q3, q2]
      rw [hw] at hx
      rw [hh] at hy
      exact hall y hy x hx) buf log2 hok
  rw [hw, hh] at hmain
  exact hmain

/-! ## Examples -/

noncomputable instance (ρ : Rounding) : FltSign (RoundedReal ρ) where
  neg_lt x h := by
    have z : ρ.r32 0 = 0 := (ρ.ok32 0 (by unfold Fits32; norm_num)).2 rfl
    have h : ρ.r32 ((0 : ℚ) : ℝ) < x.val := (real_lt _ _).1 h
    refine (real_lt _ _).2 ?_
    show -x.val < ρ.r32 ((0 : ℚ) : ℝ)
    rw [Rat.cast_zero, z] at *
    linarith
  neg_one_lt := by
    have z : ρ.r32 0 = 0 := (ρ.ok32 0 (by unfold Fits32; norm_num)).2 rfl
    refine (real_lt _ _).2 ?_
    show ρ.r32 ((-1 : ℚ) : ℝ) < ρ.r32 ((0 : ℚ) : ℝ)
    have h := (ρ.ok32 ((-1 : ℚ) : ℝ) (by unfold Fits32; norm_num)).1
    have := (abs_le.1 h).2
    have hu := u32_val
    have ht := tiny32_le
    have e : ((-1 : ℚ) : ℝ) = -1 := by norm_num
    rw [Rat.cast_zero, z, e]
    rw [hu, e] at this
    norm_num at this
    linarith

/-- floats of 25 and 54 significant bits -/
abbrev CutReal : Type := RoundedReal cutRounding.toRounding

/-- the default gamma is one of those considered -/
theorem BrightGamma.default : BrightGamma (lit64 (45455/100000) : F) := by
  have h := Approx.lit64 (F := F) (q := 45455/100000) (by push_cast; exact mid_of (by norm_num) (by norm_num))
  have h1 := h.rel.le (by norm_num) (by rw [w64_val]; norm_num)
  have h2 := h.rel.ge (by norm_num)
  rw [w64_val] at h1 h2
  push_cast at h1 h2
  exact ⟨⟨h.fin, le_trans (by norm_num) h2, h1.trans (by norm_num)⟩, le_trans (by norm_num) h2⟩

/-- two pixels -/
def inkPixels (_ x : ℕ) : RGBA := if x = 0 then ⟨10, 20, 30, 40⟩ else ⟨50, 60, 70, 255⟩

theorem inkPixels_made : ∃ img : Image F, Made inkPixels 2 1 (lit64 0) img ∧ BrightGamma img.px.gamma := by
  obtain ⟨z1, z2⟩ := FltRound.lit64 (F := F) 0 (by unfold Fits64; norm_num)
  have zv : val (lit64 0 : F) = 0 := z2.2 (by norm_num)
  have one := Approx.lit64 (F := F) (q := 1) (by push_cast; exact mid_of (by norm_num) (by norm_num))
  have h1 : le (lit64 0 : F) (lit64 0) = true := (FltRound.le _ _ z1 z1).2 le_rfl
  have h2 : le (lit64 0 : F) (lit64 1) = true := (FltRound.le _ _ z1 one.fin).2 (by rw [zv]; exact (one.rel.pos (by norm_num)).le)
  have h3 : lt (lit64 0 : F) (lit64 0) = false := by
    rw [← Bool.not_eq_true, FltRound.lt _ _ z1 z1]; exact lt_irrefl _
  have e : Image.newFn inkPixels 2 1 (lit64 0 : F) = .ok
      { px := { width := 2, height := 1, fPixels := none, source := .callback inkPixels, gamma := lit64 (45455/100000) }
        importanceMap := none, edges := none, ditherMap := none, background := none, fixedColors := [] } := by
    unfold Image.newFn Image.newInternal Image.toU32
    simp [Image.checkImageSize, Bind.bind, Except.bind, h1, h2, h3]
  exact ⟨_, .inl e, BrightGamma.default⟩

theorem inkPixels_solid (y x : ℕ) : (inkPixels y x).Solid := by
  unfold inkPixels RGBA.Solid
  split <;> right <;> decide

theorem inkPixels_colors (y x : ℕ) : ∃ c ∈ [(⟨10, 20, 30, 40⟩ : RGBA), ⟨50, 60, 70, 255⟩],
    inkPixels y x = c ∨ ((inkPixels y x).a = 0 ∧ c.a = 0) := by
  by_cases hx : x = 0
  · exact ⟨⟨10, 20, 30, 40⟩, by simp, .inl (by simp [inkPixels, hx])⟩
  · exact ⟨⟨50, 60, 70, 255⟩, by simp, .inl (by simp [inkPixels, hx])⟩

/-- the hypotheses of `C06_lossless_rounded` can be met, and the remap succeeds -/
example : ∃ (img img' : Image CutReal) (q q' : QuantizationResult CutReal) (log' : List CutReal), Made inkPixels 2 1 (lit64 0) img ∧
    quantizeImage Env.simple (userAttr [.maxColors 2] none) img [] = ((.ok q, img'), log') ∧
    q.setDitheringLevel (lit32 (1/2)) = .ok q' ∧
    let r := remapInto RemapEnv.simple q' img' [none, none] []
    r.res = .ok () ∧
    ∀ y < 1, ∀ x < 2, ∃ (b : UInt8) (c : RGBA), r.buf[y * 2 + x]? = some (some b) ∧
      r.quant.getPalette.2[b.toNat]? = some c ∧ (c = inkPixels y x ∨ (c.a = 0 ∧ (inkPixels y x).a = 0)) := by
  obtain ⟨img, hm, hbr⟩ := inkPixels_made (F := CutReal)
  obtain ⟨q, img', log', e, h⟩ := C06_lossless_rounded Env.simple RemapEnv.simple [.maxColors 2] (by decide) (by decide) (by decide)
    hm hbr (fun y _ x _ => inkPixels_solid y x) (by decide) [⟨10, 20, 30, 40⟩, ⟨50, 60, 70, 255⟩] (by decide)
    (fun y _ x _ => inkPixels_colors y x) []
  have half := Approx.lit32 (F := CutReal) (q := 1/2) (by push_cast; exact mid_of (by norm_num) (by norm_num))
  have one := Approx.lit32 (F := CutReal) (q := 1) (by push_cast; exact mid_of (by norm_num) (by norm_num))
  have z := IsZero.lit32 (F := CutReal)
  have hl := half.rel.le (by norm_num) (by rw [w32_val]; norm_num)
  have hg := one.rel.ge (by norm_num)
  rw [w32_val] at hl hg
  push_cast at hl hg
  have hset : q.setDitheringLevel (lit32 (1/2)) = .ok { q with remapped := none, ditherLevel := lit32 (1/2) } := by
    unfold QuantizationResult.setDitheringLevel
    rw [if_pos]
    rw [Bool.and_eq_true, FltRound.le _ _ z.fin half.fin, FltRound.le _ _ half.fin one.fin, z.zero]
    exact ⟨(half.rel.pos (by norm_num)).le, by linarith⟩
  obtain ⟨h1, h2⟩ := h _ _ half.fin hset [none, none] [] (by simp)
  have h1 := h1 (fun _ => rfl)
  exact ⟨img, img', q, _, log', hm, e, hset, h1, h2 h1⟩

/-- the hypotheses of `C45_own_colour_rounded` and `C04_nearest_rounded` can be met -/
example : ∃ (q q' : QuantizationResult CutReal) (img : Image CutReal), UserResult q ∧ UserImage img ∧ img.px.Shows inkPixels ∧
    img.background = none ∧ q.gamma = img.px.gamma ∧ BrightGamma q.gamma ∧ img.width = 2 ∧ img.height = 1 ∧
    (fin q.ditherLevel ∧ 0 ≤ val q.ditherLevel ∧ val q.ditherLevel ≤ 2) ∧ q.minPosterizationOutput = 0 ∧
    (∀ y < img.height, ∀ x < img.width, (inkPixels y x).Solid) ∧
    (∀ e ∈ q.palette, ∃ d, e.color = FPixel.fromRgba (gammaLut q.gamma) d) ∧
    (∀ y < img.height, ∀ x < img.width, ∃ e ∈ q.palette, ∃ d, e.color = FPixel.fromRgba (gammaLut q.gamma) d ∧ d.Looks (inkPixels y x)) ∧
    q.setDitheringLevel (lit32 0) = .ok q' ∧ eq q'.ditherLevel (lit32 0) = true ∧
    (remapInto RemapEnv.simple q img [none, none] []).res = .ok () ∧
    (remapInto RemapEnv.simple q' img [none, none] []).res = .ok () := by
  obtain ⟨img, hm, hbr⟩ := inkPixels_made (F := CutReal)
  have hmf := hm.facts
  obtain ⟨z1, z2⟩ := FltRound.lit64 (F := CutReal) 0 (by unfold Fits64; norm_num)
  have zv : val (lit64 0 : CutReal) = 0 := z2.2 (by norm_num)
  obtain ⟨q, img', log', e, huq, hui, hshow, hbg, hw, hh, hγ, hpo, hcb, hlv, -, hgi, hbytes, hall⟩ :=
    quantizeImage_few_any Env.simple [] (by decide) (by decide) (by decide) hm
      (hmf.user.good.mapPositive_rounded hmf.shows_ hbr.toUsualGamma)
      ((FltRound.lt _ _ z1 hbr.fin).2 (by rw [zv]; linarith [hbr.bright])) ((FltRound.eq _ _ z1 z1).2 rfl)
      (fun _ => limit_scaled) [⟨10, 20, 30, 40⟩, ⟨50, 60, 70, 255⟩] (by decide) (fun y _ x _ => inkPixels_colors y x) []
  have one := Approx.lit32 (F := CutReal) (q := 1) (by push_cast; exact mid_of (by norm_num) (by norm_num))
  have z := IsZero.lit32 (F := CutReal)
  have hl := one.rel.le (by norm_num) (by rw [w32_val]; norm_num)
  have hp := one.rel.pos (by norm_num)
  rw [w32_val] at hl
  push_cast at hl
  have hset : q.setDitheringLevel (lit32 0) = .ok { q with remapped := none, ditherLevel := lit32 0 } := by
    unfold QuantizationResult.setDitheringLevel
    rw [if_pos]
    rw [Bool.and_eq_true, FltRound.le _ _ z.fin z.fin, FltRound.le _ _ z.fin one.fin, z.zero]
    exact ⟨le_rfl, hp.le⟩
  refine ⟨q, _, img', huq, hui, hshow, hbg, hγ, ?_, hw, hh, ?_, hpo, fun y _ x _ => inkPixels_solid y x, ?_, ?_, hset, ?_, ?_, ?_⟩
  · rw [hγ, hgi]; exact hbr
  · rw [hlv]; exact ⟨one.fin, hp.le, hl.trans (by norm_num)⟩
  · rw [hγ]; exact hbytes
  · rw [hγ, hw, hh]; exact hall
  · exact (FltRound.eq _ _ z.fin z.fin).2 rfl
  · exact C48_succeeds _ huq hui _ _ (by rw [hw, hh]; simp) hcb (fun _ => rfl)
  · exact C48_succeeds _ (huq.level hset) hui _ _ (by rw [hw, hh]; simp) hcb (fun _ => rfl)

/-- the hypotheses of `C04_search_rounded` can be met -/
example : ∃ (p : PalF CutReal) (px : FPixel CutReal), p.length = 2 ∧ p.Reach ∧ px.Reach := by
  refine ⟨[⟨FPixel.fromRgba (gammaLut (lit64 (45455/100000))) ⟨1, 2, 3, 255⟩, ⟨lit32 1⟩⟩,
    ⟨FPixel.fromRgba (gammaLut (lit64 (45455/100000))) ⟨9, 2, 3, 7⟩, ⟨lit32 1⟩⟩],
    FPixel.fromRgba (gammaLut (lit64 (45455/100000))) ⟨8, 8, 8, 255⟩, rfl, ?_, fromRgba_reach BrightGamma.default.toUsualGamma _⟩
  intro e he
  simp only [List.mem_cons, List.not_mem_nil, or_false] at he
  rcases he with rfl | rfl <;> exact fromRgba_reach BrightGamma.default.toUsualGamma _

end Verif
