import Verif.Lemmas.Floyd
import Verif.Props.Dither

/-! # C60: dithering is Floyd-Steinberg error diffusion in serpentine order -/

set_option linter.unusedSectionVars false

namespace Verif
open Flt Spec

/-! ### Chunks -/

/-- Chunks are at least 65 rows tall, or there is only one. -/
theorem C60_chunks {F : Type} [Flt F] (env : RemapEnv F) (q : QuantizationResult F) (img : Image F) (hh : 0 < img.height) :
    0 < bandSize env q img ∧ (bandSize env q img = img.height ∨ 65 ≤ bandSize env q img) ∧
    (q.singleThreadedDithering = true ∨ img.height ≤ 128 ∨ env.cpus = 1 → bandSize env q img = img.height) := by
  have hpos := ditherChunks_pos q.singleThreadedDithering img.width img.height env.cpus env.cpus_pos
  have hone : ditherChunks q.singleThreadedDithering img.width img.height env.cpus = 1 → bandSize env q img = img.height := by
    intro h
    unfold bandSize
    rw [h]; simp
  refine ⟨?_, ?_, ?_⟩
  · unfold bandSize
    exact Nat.div_pos (by omega) hpos
  · by_cases h1 : ditherChunks q.singleThreadedDithering img.width img.height env.cpus = 1
    · exact .inl (hone h1)
    · right
      unfold bandSize
      dsimp only
      have hle : ditherChunks q.singleThreadedDithering img.width img.height env.cpus ≤ max (img.height / 128) 2 ∧ 128 < img.height := by
        unfold ditherChunks at h1 ⊢
        split at h1
        · exact absurd rfl h1
        next hs =>
          rw [if_neg hs]
          by_cases hgt : img.height > 128
          · rw [if_pos hgt] at h1 ⊢
            omega
          · rw [if_neg hgt] at h1
            have : img.height / 128 ≤ 1 := by omega
            have := env.cpus_pos
            omega
      generalize ditherChunks q.singleThreadedDithering img.width img.height env.cpus = n at *
      rw [Nat.le_div_iff_mul_le hpos]
      rcases le_total (img.height / 128) 2 with h2 | h2
      · have : n = 2 := by omega
        subst this
        omega
      · rw [max_eq_left h2] at hle
        have h3 : img.height / 128 * 128 ≤ img.height := Nat.div_mul_le_self _ _
        have h4 : n * 128 ≤ img.height := (Nat.mul_le_mul_right _ hle.1).trans h3
        omega
  · rintro (h | h | h)
    · exact hone (C22_single_chunk _ _ _ _ env.cpus_pos (.inl h))
    · exact hone (C22_single_chunk _ _ _ _ env.cpus_pos (.inr h))
    · apply hone
      unfold ditherChunks
      split
      · rfl
      · rw [h]
        split <;> omega

/-! ### Strength -/

theorem level_eq {ctx : DitherCtx ℝ} {level : ℝ} {m : List UInt8} {dmap : ℕ → List UInt8} {w h : ℕ}
    (hm : m = [] ∨ m.length = w * h) (hb : ctx.base = baseDitherLevel level (!m.isEmpty))
    (hd : ∀ y, dmap y = if y * w + w ≤ m.length then (m.drop (y * w)).take w else []) :
    ∃ map : ℕ → ℕ → ℕ, (∀ y < h, ∀ x < w, (m = [] → map y x = 255) ∧ (m ≠ [] → m[y * w + x]?.map UInt8.toNat = some (map y x))) ∧
      ∀ y < h, ∀ x < w, ditherLevelAt ctx (dmap y) x = (1 - (1 - level) ^ 2) * (15/16) * (map y x / 255) := by
  by_cases he : m = []
  · refine ⟨fun _ _ => 255, fun y _ x _ => ⟨fun _ => rfl, fun h => absurd he h⟩, fun y _ x hx => ?_⟩
    have : dmap y = [] := by
      rw [hd, he, if_neg (by simp; omega)]
    unfold ditherLevelAt
    rw [this, hb, he]
    simp [baseDitherLevel]
    ring
  · have hl : m.length = w * h := hm.resolve_left he
    have hlt : ∀ y < h, y * w + w ≤ w * h := by
      intro y hy
      calc y * w + w = w * (y + 1) := by ring
        _ ≤ w * h := Nat.mul_le_mul_left _ hy
    refine ⟨fun y x => (m[y * w + x]?.map UInt8.toNat).getD 0, fun y hy x hx => ⟨fun h => absurd h he, fun _ => ?_⟩, fun y hy x hx => ?_⟩
    · have := hlt y hy
      dsimp only
      rw [List.getElem?_eq_getElem (show y * w + x < m.length by omega)]
      rfl
    · have := hlt y hy
      have hbase : ctx.base = (1 - (1 - level) ^ 2) * (15/16) * (1/255) := by
        rw [hb]
        have : (!m.isEmpty) = true := by cases m with
          | nil => exact absurd rfl he
          | cons a l => rfl
        rw [this]
        simp [baseDitherLevel]
        ring
      have hget : (dmap y)[x]? = m[y * w + x]? := by
        rw [hd, if_pos (by omega), List.getElem?_take_of_lt hx, List.getElem?_drop]
      unfold ditherLevelAt
      dsimp only
      rw [hget, List.getElem?_eq_getElem (show y * w + x < m.length by omega), hbase]
      simp; ring

theorem boxed_diff {x y : FPixel ℝ} (hx : x.InBox) (hy : y.InUnit) : x.diff y < 2 ^ 128 := by
  rw [FPixel.diff_spec]
  obtain ⟨hr, hg, hb, ha⟩ := hx
  have h0 := hy 0; have h1 := hy 1; have h2 := hy 2; have h3 := hy 3
  simp [FPixel.chan] at h0 h1 h2 h3
  have key : ∀ c d : ℝ, -0.1 ≤ c → c ≤ 1.1 → 0 ≤ d → d ≤ 1 → chanDiff (c - d) (x.a - y.a) ≤ 9 := by
    intro c d c1 c2 d1 d2
    unfold chanDiff
    apply max_le <;> nlinarith
  have k1 := key x.r y.r hr.1 hr.2 h1.1 h1.2
  have k2 := key x.g y.g hg.1 hg.2 h2.1 h2.2
  have k3 := key x.b y.b hb.1 hb.2 h3.1 h3.2
  unfold Spec.diff FPixel.spec
  simp only
  have : (27 : ℝ) < 2 ^ 128 := by norm_num
  linarith

/-- no rounded palette colour has exactly the alpha at which a colour begins to count as visible -/
theorem rounded_ne_min {p pal : PalF ℝ} {γ : ℝ} {post : UInt8} (hp : pal = (p.initIntPalette γ post).1) {i : ℕ} (hi : i < pal.length) :
    (palColor pal i).a ≠ minOpaqueA := by
  have h1 : (pal.map fun e => e.color.spec)[i]? = some (palColor pal i).spec := by
    rw [List.getElem?_map, (palColor_get hi).1, (palColor_get hi).2]; rfl
  rw [hp, rounded_colors, List.getElem?_map, ← hp] at h1
  cases hc : (p.initIntPalette γ post).2[i]? with
  | none => rw [hc] at h1; cases h1
  | some c =>
    rw [hc] at h1
    simp only [Option.map_some, Option.some.injEq] at h1
    have h2 : (palColor pal i).a = (c.a.toNat : ℝ) / 255 * 0.625 := (congrArg Color.a h1).symm
    rw [h2]
    unfold minOpaqueA weightA
    simp only [real_mul32, real_div32, real_lit32]
    push_cast
    intro h
    have h3 : (c.a.toNat : ℝ) * 256 = 255 := by norm_num at h; linarith
    have h4 : c.a.toNat * 256 = 255 := by exact_mod_cast h3
    omega

/-! ### The theorem -/

/-- **C60** (exact arithmetic). Every dithered remap that succeeds is Floyd-Steinberg error diffusion in serpentine order,
chunk by chunk. The image is cut into chunks of `size` rows (one chunk for small images, on one CPU and at speed 1). For
the chunk beginning at row `s` error diffusion begins without any error two rows above (row `s - 2`, or row 0), and in all
rows of the chunk the byte written is that of the colour shown there. Without a background, or if the palette has no
transparent colour, that is a palette colour nearest to the colour wanted. The background shows through (by the byte `t` of a
transparent colour) if it is at least as near, and `Spec.InFront` says what happens in front of it. The strength is 15/16 of `1 - (1 - level)²`,
times the entry of the dither map for this pixel over 255, if dither maps are used and the image has one (or has edges,
which then take its place). -/
theorem C60_floyd_steinberg (env : RemapEnv ℝ) {q : QuantizationResult ℝ} {img : Image ℝ} (hq : UserResult q) (hi : UserImage img)
    {f : ℕ → ℕ → RGBA} (hf : img.px.Shows f) (hγ : 0 < q.gamma) (hl : q.ditherLevel ≠ 0) (buf : List (Option UInt8))
    (log : List ℝ) (hok : (remapInto env q img buf log).res = .ok ()) :
    let r := remapInto env q img buf log
    ∃ (size : ℕ) (map : ℕ → ℕ → ℕ) (limit : ℝ) (t : UInt8), 0 < size ∧ (size = img.height ∨ 65 ≤ size) ∧
      (q.singleThreadedDithering = true ∨ img.height ≤ 128 ∨ env.cpus = 1 → size = img.height) ∧
      (∀ y < img.height, ∀ x < img.width,
        (q.useDitherMap = .none ∨ r.image.ditherMap = none ∧ r.image.edges = none → map y x = 255) ∧
        ∀ m, q.useDitherMap ≠ .none → r.image.ditherMap = some m ∨ r.image.ditherMap = none ∧ r.image.edges = some m →
          m[y * img.width + x]?.map UInt8.toNat = some (map y x)) ∧
      (∃ e, r.quant.remapped.map (·.paletteError) = some e ∧
        limit = max (e.getD (qualityToMse 80) * 2.4) (qualityToMse 35)) ∧
      (img.background ≠ none → (∃ c ∈ r.quant.getPalette.2, c.a = 0) → ∃ c, r.quant.getPalette.2[t.toNat]? = some c ∧ c.a = 0) ∧
      ∀ s, s % size = 0 → s < img.height →
        ∃ (shown target : ℕ → ℕ → Color) (byte : ℕ → ℕ → UInt8) (err : ℤ → ℤ → Fin 4 → ℝ),
          Dithered img.width (s - 2) (min (s + size) img.height)
            (fun y x => (1 - (1 - q.ditherLevel) ^ 2) * (15/16) * (map y x / 255)) limit
            (fun y x => colorOf img.px.gamma (f y x)) shown target err ∧
          ∀ y x, s - 2 ≤ y → y < min (s + size) img.height → x < img.width →
            (s ≤ y → r.buf[y * img.width + x]? = some (some (byte y x))) ∧
            (img.background = none ∨ (∀ c ∈ r.quant.getPalette.2, c.a ≠ 0) →
              Plain (r.quant.getPalette.2.map (colorOf q.gamma)) (target y x) (shown y x) (byte y x).toNat) ∧
            ∀ b g, img.background = some b → b.Shows g → (∃ c ∈ r.quant.getPalette.2, c.a = 0) →
              InFront (r.quant.getPalette.2.map (colorOf q.gamma)) t.toNat (colorOf b.gamma (g y x))
                (colorOf img.px.gamma (f y x)) (target y x) (shown y x) (byte y x).toNat := by
  have hl' : eq q.ditherLevel (lit32 0) = false := by
    by_contra hc
    simp at hc
    exact hl hc
  obtain ⟨p, mapErr, old, out, ctx, bg, dmap, -, hpl, hfd, hquant, hpal, hrows⟩ :=
    remapInto_dithered env hq.good hi.good buf log hl' hok
  obtain ⟨-, hbgs⟩ := hi.shows
  obtain ⟨hγi, hγb⟩ := hi.gamma_pos
  have hhp : 0 < img.height := hi.good.height_pos
  obtain ⟨hs1, hs2, hs3⟩ := C60_chunks env q img hhp
  have hgood := ((remapInto_spec env buf log hq.good hi.good).good hq.good hi.good).2
  have hsize : (remapInto env q img buf log).image.width = img.width ∧ (remapInto env q img buf log).image.height = img.height := by
    by_cases hb : buf.length < img.width * img.height
    · rw [(remapInto_spec env buf log hq.good hi.good).small hb]
      exact ⟨rfl, rfl⟩
    · obtain ⟨s, d, -, e2, -⟩ := (remapInto_spec env buf log hq.good hi.good).run (by omega)
      rw [e2]
      exact ⟨d.samePx.width, d.samePx.height⟩
  have hed := hgood.edges
  have hdm := hgood.ditherMap
  rw [hsize.1, hsize.2] at hed hdm
  have hmlen : ditherMapOf (remapInto env q img buf log).image q.useDitherMap = [] ∨
      (ditherMapOf (remapInto env q img buf log).image q.useDitherMap).length = img.width * img.height := by
    unfold ditherMapOf
    split
    · cases h1 : (remapInto env q img buf log).image.ditherMap with
      | some m => right; exact hdm m h1
      | none =>
        cases h2 : (remapInto env q img buf log).image.edges with
        | some m => right; exact hed m h2
        | none => left; rfl
    · exact .inl rfl
  have hwh : 0 < img.width * img.height := Nat.mul_pos hi.good.width_pos hhp
  obtain ⟨map, hm1, hm3⟩ := level_eq hmlen hfd.base.1 hfd.base.2
  have hpalu : ∀ e ∈ ctx.n.palette, e.color.InUnit := by
    rw [hfd.palette]; exact rounded_unit p hγ _
  have hcolors : ctx.n.palette.map (fun e => e.color.spec) =
      (remapInto env q img buf log).quant.getPalette.2.map (colorOf q.gamma) := by
    rw [hpal, hfd.palette, rounded_colors]
  have hn : Nearest.new ctx.n.palette = .ok ctx.n := hfd.good.1
  intro r
  refine ⟨bandSize env q img, map, ctx.maxErr, ctx.ti, hs1, hs2, hs3, fun y hy x hx => ⟨fun h => (hm1 y hy x hx).1 ?_, fun m h1 h2 => ?_⟩, ⟨_, by
    show (remapInto env q img buf log).quant.remapped.map _ = _
    rw [hquant]; rfl, by
    rw [hfd.limit]
    unfold maxDitherError
    simp only [real_to32, real_max, real_mul64, real_lit64]
    norm_num⟩, ?_, ?_⟩
  · unfold ditherMapOf
    rcases h with h | ⟨h1, h2⟩
    · rw [if_neg (by simp [h])]
    · show (if _ then ((remapInto env q img buf log).image.ditherMap.or (remapInto env q img buf log).image.edges).getD [] else _) = _
      rw [show (remapInto env q img buf log).image.ditherMap = none from h1, show (remapInto env q img buf log).image.edges = none from h2]
      simp
  · have : ditherMapOf (remapInto env q img buf log).image q.useDitherMap = m ∧ m.length = img.width * img.height := by
      unfold ditherMapOf
      rw [if_pos h1]
      rcases h2 with h2 | ⟨h2, h3⟩
      · rw [show (remapInto env q img buf log).image.ditherMap = some m from h2]
        exact ⟨rfl, hdm m h2⟩
      · rw [show (remapInto env q img buf log).image.ditherMap = none from h2, show (remapInto env q img buf log).image.edges = some m from h3]
        exact ⟨rfl, hed m h3⟩
    have h4 := (hm1 y hy x hx).2
    rw [this.1] at h4
    exact h4 (fun h => by rw [h] at this; simp at this; omega)
  · intro hb
    rw [(hfd.used hb).1]
    show (∃ c ∈ (remapInto env q img buf log).quant.getPalette.2, _) → ∃ c, (remapInto env q img buf log).quant.getPalette.2[_]? = _ ∧ _
    rw [hpal]
    exact (background_used q.gamma (UInt8.ofNat q.minPosterizationOutput) (by rw [← hfd.palette]; exact hn)).2
  generalize hsz : bandSize env q img = size at *
  intro s hmod hlt
  obtain ⟨D, h0, hD⟩ := hfd.bands s hmod hlt
  have htop : bandTop s = s - 2 := by
    unfold bandTop
    rcases Nat.eq_zero_or_pos s with h | h
    · subst h; rfl
    · have : size ≤ s := Nat.le_of_dvd h (Nat.dvd_of_mod_eq_zero hmod)
      rw [if_pos (by omega)]
  rw [htop] at h0 hD
  have hex : ∀ y, ∃ o r, s - 2 ≤ y → y < min (s + size) img.height →
      ditherRow ctx (img.px.pixelsF y) (bgRowOf bg y) (dmap y) (D y) (decide (y % 2 = 0)) o = .ok r ∧ D (y + 1) = r.diffusion ∧
      (s ≤ y → out[y]? = some r.out) := by
    intro y
    by_cases hy : s - 2 ≤ y ∧ y < min (s + size) img.height
    · obtain ⟨o, r, h⟩ := hD y hy.1 (by omega) (by omega)
      exact ⟨o, r, fun _ _ => h⟩
    · exact ⟨[], ⟨D 0, [], false⟩, fun h1 h2 => absurd ⟨h1, h2⟩ hy⟩
  choose o R hR using hex
  have hrowu : ∀ y < img.height, ∀ p ∈ img.px.pixelsF y, p.InBox := fun y hy p hp => (shows_unit hf hγi hy p hp).box
  obtain ⟨target, shown, byte, err, hdith, hbyte⟩ := band_dithered (ctx := ctx) (row := img.px.pixelsF) (bg := bgRowOf bg) (dmap := dmap)
    (top := s - 2) (bottom := min (s + size) img.height) (D := D) (R := R) h0
    (fun y h1 h2 => ⟨o y, (hR y h1 h2).1, (hR y h1 h2).2.1⟩) (fun y _ h2 => hrowu y (by omega))
  rw [hfd.width] at hdith hbyte
  refine ⟨fun y x => (shown y x).spec, fun y x => (target y x).spec, byte, err, ⟨hdith.outside, ?_, hdith.error⟩, ?_⟩
  · intro y x h1 h2 hx
    have hw := hdith.wanted y x h1 h2 hx
    have hpx := hf.pixel (show y < img.px.height from (show y < img.height by omega)) (show x < img.px.width from hx)
    rw [List.getD_eq_getElem?_getD, hpx] at hw
    simp only [Option.getD_some, fromRgba_spec] at hw
    rw [hm3 y (by omega) x hx] at hw
    exact hw
  · intro y x h1 h2 hx
    obtain ⟨e1, e2, e3, e4, e5⟩ := hbyte y x h1 h2 hx
    have hp0 : 0 < ctx.n.palette.length := (Nearest.new_ok hn).1
    have hfar : ∃ j < ctx.n.palette.length, (target y x).diff (palColor ctx.n.palette j) < 2 ^ 128 :=
      ⟨0, hp0, boxed_diff e2 (by rw [(palColor_get hp0).2]; exact hpalu _ (List.getElem_mem _))⟩
    -- what a search finds
    have hsearch : ∀ hint, ∃ c, (ctx.n.palette.map (fun e => e.color.spec))[(ctx.n.search (target y x) hint).1]? = some c ∧
        (∃ e, ctx.n.palette[(ctx.n.search (target y x) hint).1]? = some e ∧ e.color.spec = c) ∧
        (ctx.n.search (target y x) hint).2 = diff (target y x).spec c ∧
        ∀ c' ∈ ctx.n.palette.map (fun e => e.color.spec), diff (target y x).spec c ≤ diff (target y x).spec c' := by
      intro hint
      obtain ⟨a1, a2, a3⟩ := Nearest.search_min hn (target y x) hint (.inr hfar)
      refine ⟨(palColor ctx.n.palette (ctx.n.search (target y x) hint).1).spec, ?_, ⟨_, (palColor_get a1).1, by rw [(palColor_get a1).2]⟩,
        by rw [a2, FPixel.diff_spec], fun c' hc' => ?_⟩
      · rw [List.getElem?_map, (palColor_get a1).1, (palColor_get a1).2]; rfl
      · obtain ⟨e, he, rfl⟩ := List.mem_map.mp hc'
        obtain ⟨j, hj, rfl⟩ := List.getElem_of_mem he
        have := a3 j hj
        rw [a2, (palColor_get hj).2, FPixel.diff_spec, FPixel.diff_spec] at this
        exact this
    have hbgu := background_used (p := p) q.gamma (UInt8.ofNat q.minPosterizationOutput) (n := ctx.n) (by rw [← hfd.palette]; exact hn)
    rw [← hpal] at hbgu
    refine ⟨fun hy => ?_, ?_, ?_⟩
    · obtain ⟨row, f1, f2⟩ := hrows y (by omega)
      show (remapInto env q img buf log).buf[_]? = _
      rw [f2 x hx]
      rw [(hR y h1 h2).2.2 hy] at f1
      cases f1
      exact e1
    · intro hb
      show Plain ((remapInto env q img buf log).quant.getPalette.2.map (colorOf q.gamma)) _ _ _
      have hb' : img.background = none ∨ ∀ c ∈ (remapInto env q img buf log).quant.getPalette.2, c.a ≠ 0 := hb
      have hbn : (bgRowOf bg y)[x]? = none := by
        have hbg : bg = none := by
          by_cases hi0 : img.background = none
          · rcases hfd.background with h | h
            · rw [hi0] at h
              cases bg with
              | none => rfl
              | some b => simp only [BgSame] at h
            · exact h
          · have hno := hb'.resolve_left hi0
            apply (hfd.used hi0).2.mpr
            have h3 : ¬ lt (palColor ctx.n.palette (transparentIndex ctx.n).toNat).a minOpaqueA = true := by
              rw [hbgu.1]
              rintro ⟨c, hc, ha⟩
              exact hno c hc ha
            rw [real_lt] at h3 ⊢
            exact lt_of_le_of_ne (not_lt.mp h3) (fun he => rounded_ne_min hfd.palette (transparentIndex_lt hn) he.symm)
        rw [hbg]; rfl
      obtain ⟨hint, hby⟩ := e4 hbn
      obtain ⟨c, c1, -, c3, c4⟩ := hsearch hint
      rw [← hcolors, hby, search_toNat hn]
      obtain ⟨e, g1, g2⟩ : ∃ e, ctx.n.palette[(ctx.n.search (target y x) hint).1]? = some e ∧ shown y x = e.color := by
        rcases e3 with ⟨e, g1, g2⟩ | ⟨-, g1⟩
        · rw [hby, search_toNat hn] at g1
          exact ⟨e, g1, g2⟩
        · rw [hbn] at g1; cases g1
      refine ⟨?_, c, c1, c4⟩
      dsimp only
      rw [List.getElem?_map, g1, g2]
      rfl
    · intro b g hb hg ht
      have ht' : ∃ c ∈ (remapInto env q img buf log).quant.getPalette.2, c.a = 0 := ht
      show InFront ((remapInto env q img buf log).quant.getPalette.2.map (colorOf q.gamma)) _ _ _ _ _ _
      rw [← hcolors]
      have hbg : bg ≠ none := by
        rw [Ne, (hfd.used (by rw [hb]; simp)).2, real_lt, not_lt]
        have := hbgu.1.mpr ht'
        rw [real_lt] at this
        exact this.le
      obtain ⟨b', hb'⟩ := Option.ne_none_iff_exists'.mp hbg
      have hsame : Rows.Same b b' := by
        rcases hfd.background with h | h
        · rw [hb, hb'] at h
          exact h
        · exact absurd h hbg
      have hb0 := hi.good.background b hb
      have hpx := (hsame.shows hg).pixel (show y < b'.height by rw [hsame.height, hb0.2.2]; exact (show y < img.height by omega))
        (show x < b'.width by rw [hsame.width, hb0.2.1]; exact hx)
      obtain ⟨hint, px, hrow, e, k1, k2⟩ := e5 _ (by rw [hb']; exact hpx)
      have hpxs : px.spec = colorOf img.px.gamma (f y x) := by
        have := hf.pixel (show y < img.px.height from (show y < img.height by omega)) (show x < img.px.width from hx)
        rw [this] at hrow
        cases hrow
        rw [fromRgba_spec]
      obtain ⟨c, c1, ⟨e', c2, rfl⟩, c3, c4⟩ := hsearch hint
      have hee : e = e' := by
        rw [search_toNat hn, c2] at k1
        cases k1; rfl
      subst hee
      rw [search_toNat hn] at k1
      have hback : (FPixel.fromRgba (gammaLut b'.gamma) (g y x)).spec = colorOf b.gamma (g y x) := by
        rw [fromRgba_spec, hsame.gamma]
      have hle : ∀ v : Bool, le (diff (target y x).spec (colorOf b.gamma (g y x))) (ctx.n.search (target y x) hint).2 = v →
          (v = true ↔ ∀ c ∈ ctx.n.palette.map (fun e => e.color.spec), diff (target y x).spec (colorOf b.gamma (g y x)) ≤ diff (target y x).spec c) := by
        rintro v rfl
        rw [real_le, c3]
        exact ⟨fun h c hc => h.trans (c4 c hc), fun h => h _ (List.mem_of_getElem? c1)⟩
      rw [FPixel.diff_spec, FPixel.diff_spec, FPixel.diff_spec, hpxs, hback] at k2
      rcases k2 with ⟨g1, g2, g3⟩ | ⟨g1, g2, g3⟩ | ⟨g1, e2, g2, g3, g4, g5⟩
      · have hall := (hle true g1).mp rfl
        refine ⟨fun _ => ⟨congrArg UInt8.toNat g2, by dsimp only; rw [g3]; exact hback⟩, ?_⟩
        rintro ⟨c, hc, hlt⟩
        exact absurd (hall c hc) (not_le.mpr hlt)
      · refine ⟨fun hall => absurd ((hle false g1).mpr hall) (by simp), fun _ => ⟨?_, .inl ?_⟩⟩
        · dsimp only
          rw [g2, search_toNat hn, List.getElem?_map, k1, g3]; rfl
        · rw [g2, search_toNat hn]
          exact ⟨_, c1, c4⟩
      · refine ⟨fun hall => absurd ((hle false g1).mpr hall) (by simp), fun _ => ⟨?_, .inr ⟨_, _, c1, ⟨_, c1, c4⟩, ?_, ?_⟩⟩⟩
        · dsimp only
          rw [List.getElem?_map, g2, g3]; rfl
        · rw [real_lt] at g4; exact g4
        · dsimp only
          rw [real_lt, FPixel.diff_spec, hpxs] at g5
          rw [g3]; exact g5

/-! ### The specification leaves no freedom -/

theorem Spec.Pushed.unique {limit : ℝ} {px s t t' : Fin 4 → ℝ} (h : Pushed limit px s t) (h' : Pushed limit px s t') : t = t' := by
  rcases h with ⟨h1, h2⟩ | ⟨h1, h2, u, h3, h4⟩ <;> rcases h' with ⟨k1, k2⟩ | ⟨k1, k2, u', k3, k4⟩
  · rw [h2, k2]
  · exact absurd h1 (not_lt.mpr k1)
  · exact absurd k1 (not_lt.mpr h1)
  · have : u = u' := h3.unique k3
    subst this
    funext i
    by_cases hi : i = 0
    · subst hi; rw [h2, k2]
    · rw [h4 i hi, k4 i hi]

/-- Given the image, the strengths, the limit and the colours shown, error diffusion is determined: there is one error and
one colour wanted for every pixel. -/
theorem C60_unique {w top bottom : ℕ} {strength : ℕ → ℕ → ℝ} {limit : ℝ} {px shown target target' : ℕ → ℕ → Color}
    {err err' : ℤ → ℤ → Fin 4 → ℝ} (h : Dithered w top bottom strength limit px shown target err)
    (h' : Dithered w top bottom strength limit px shown target' err') :
    ∀ y x : ℕ, top ≤ y → y < bottom → x < w → target y x = target' y x ∧ err y x = err' y x := by
  have hinj : ∀ c c' : Color, c.chans = c'.chans → c = c' := by
    intro c c' e
    have h0 := congrFun e 0; have h1 := congrFun e 1; have h2 := congrFun e 2; have h3 := congrFun e 3
    simp [Color.chans] at h0 h1 h2 h3
    cases c; cases c'; simp_all
  -- one pixel
  have pixel : ∀ y x : ℕ, top ≤ y → y < bottom → x < w → (∀ i, received err y x i = received err' y x i) →
      target y x = target' y x ∧ err y x = err' y x := by
    intro y x h1 h2 hx hr
    have hw := h.wanted y x h1 h2 hx
    have hs : (fun i => strength y x * received err y x i) = fun i => strength y x * received err' y x i := by
      funext i; rw [hr i]
    rw [hs] at hw
    have ht := hinj _ _ (hw.unique (h'.wanted y x h1 h2 hx))
    refine ⟨ht, ?_⟩
    funext i
    rw [h.error y x h1 h2 hx i, h'.error y x h1 h2 hx i, ht]
  -- one row after another
  have rows : ∀ k, top + k < bottom → (∀ x : ℤ, err ((top + k : ℕ) - 1) x = err' ((top + k : ℕ) - 1) x) →
      ∀ x < w, target (top + k) x = target' (top + k) x ∧ err (top + k : ℕ) x = err' (top + k : ℕ) x := by
    intro k hk hprev
    have pos : ∀ n ≤ w, ∀ j < n, ∀ x < w, (x = if (top + k) % 2 = 0 then j else w - 1 - j) →
        target (top + k) x = target' (top + k) x ∧ err (top + k : ℕ) x = err' (top + k : ℕ) x := by
      intro n
      induction n with
      | zero => intro _ j hj; omega
      | succ n ih =>
        intro hn j hj x hx hxj
        by_cases hjn : j < n
        · exact ih (by omega) j hjn x hx hxj
        have : j = n := by omega
        subst this
        refine pixel (top + k) x (by omega) hk hx fun i => ?_
        unfold received
        simp only [hprev]
        congr 4
        unfold direction
        by_cases hp : (top + k) % 2 = 0
        · rw [if_pos hp] at hxj
          rw [if_pos (by omega)]
          by_cases hj0 : j = 0
          · rw [h.outside _ _ (by omega), h'.outside _ _ (by omega)]
          · have := (ih (by omega) (j - 1) (by omega) (x - 1) (by omega) (by rw [if_pos hp]; omega)).2
            rw [show ((x - 1 : ℕ) : ℤ) = (x : ℤ) - 1 by omega] at this; exact congrFun this i
        · rw [if_neg hp] at hxj
          rw [if_neg (by omega)]
          by_cases hj0 : j = 0
          · rw [h.outside _ _ (by omega), h'.outside _ _ (by omega)]
          · have := (ih (by omega) (j - 1) (by omega) (x + 1) (by omega) (by rw [if_neg hp]; omega)).2
            rw [show ((x + 1 : ℕ) : ℤ) = (x : ℤ) - -1 by omega] at this; exact congrFun this i
    intro x hx
    by_cases hp : (top + k) % 2 = 0
    · exact pos w (le_refl _) x hx x hx (by rw [if_pos hp])
    · exact pos w (le_refl _) (w - 1 - x) (by omega) x hx (by rw [if_neg hp]; omega)
  have all : ∀ k, top + k < bottom → ∀ x < w, target (top + k) x = target' (top + k) x ∧
      err (top + k : ℕ) x = err' (top + k : ℕ) x := by
    intro k
    induction k with
    | zero =>
      intro hk
      refine rows 0 hk fun x => ?_
      rw [h.outside _ _ (by omega), h'.outside _ _ (by omega)]
    | succ k ih =>
      intro hk
      refine rows (k + 1) hk fun x => ?_
      by_cases hx : 0 ≤ x ∧ x < w
      · obtain ⟨n, rfl⟩ := Int.eq_ofNat_of_zero_le hx.1
        have := (ih (by omega) n (by omega)).2
        rwa [show ((top + (k + 1) : ℕ) : ℤ) - 1 = ((top + k : ℕ) : ℤ) by omega]
      · rw [h.outside _ _ (by omega), h'.outside _ _ (by omega)]
  intro y x h1 h2 hx
  have := all (y - top) (by omega) x hx
  rwa [show top + (y - top) = y by omega] at this

/-! ### Examples -/

/-- the hypotheses of `C60_floyd_steinberg` can be met, with several chunks: 2 x 200 pixels on 7 CPUs -/
example : ∃ (env : RemapEnv ℝ) (q : QuantizationResult ℝ) (img : Image ℝ) (f : ℕ → ℕ → RGBA), UserResult q ∧ UserImage img ∧
    img.px.Shows f ∧ 0 < q.gamma ∧ q.ditherLevel ≠ 0 ∧ (remapInto env q img (List.replicate 400 none) []).res = .ok () ∧
    bandSize env q img = 100 := by
  obtain ⟨q, hq, hcb, hl, -, hst⟩ := example_result (F := ℝ)
  obtain ⟨img, hi, _, w, h, _, hb, _⟩ := big_image ⟨1, 2, 3, 255⟩ (w := 2) (h := 200) (by omega) (by omega) (by omega) (by omega)
  have e : q.setOutputGamma (1/2) = .ok { q with remapped := none, gamma := 1/2 } := by
    unfold QuantizationResult.setOutputGamma
    rw [if_neg]
    simp only [real_lit64, Bool.or_eq_true, real_le]
    norm_num
  have hq' := hq.gamma e
  obtain ⟨⟨f, hf⟩, -⟩ := hi.shows
  refine ⟨{ (RemapEnv.simple : RemapEnv ℝ) with cpus := 7, cpus_pos := by omega }, _, img, f, hq', hi, hf, by norm_num,
    ?_, C48_succeeds _ hq' hi _ _ (by rw [w, h, List.length_replicate]) hcb (fun x => by simp), ?_⟩
  · show q.ditherLevel ≠ 0
    rw [hl]; simp
  · unfold bandSize
    have hs : ({ q with remapped := none, gamma := 1/2 } : QuantizationResult ℝ).singleThreadedDithering = false := hst
    rw [hs, w, h]
    show (200 + ditherChunks false 2 200 7 - 1) / ditherChunks false 2 200 7 = 100
    simp [ditherChunks]

/-- Two pixels, both grey (1/2), dithered with black and white at full strength: the first becomes white, the second gets
7/16 of its error and becomes black. -/
example : ∃ (shown target : ℕ → ℕ → Color) (err : ℤ → ℤ → Fin 4 → ℝ),
    Dithered 2 0 1 (fun _ _ => 1) 100 (fun _ _ => ⟨1, 1/2, 1/2, 1/2⟩) shown target err ∧
    shown 0 0 = ⟨1, 1, 1, 1⟩ ∧ shown 0 1 = ⟨1, 0, 0, 0⟩ ∧ target 0 1 = ⟨1, 9/32, 9/32, 9/32⟩ := by
  refine ⟨fun _ x => if x = 0 then ⟨1, 1, 1, 1⟩ else ⟨1, 0, 0, 0⟩,
    fun _ x => if x = 0 then ⟨1, 1/2, 1/2, 1/2⟩ else ⟨1, 9/32, 9/32, 9/32⟩,
    fun y x i => if y = 0 ∧ i ≠ 0 then (if x = 0 then -1/2 else if x = 1 then 9/32 else 0) else 0, ⟨?_, ?_, ?_⟩, rfl, rfl, rfl⟩
  · intro y x h
    funext i
    by_cases hy : y = 0
    · subst hy
      have h0 : x ≠ 0 := by omega
      have h1 : x ≠ 1 := by omega
      simp [h0, h1]
    · simp [hy]
  · intro y x _ hy hx
    have : y = 0 := by omega
    subst this
    rcases (by omega : x = 0 ∨ x = 1) with rfl | rfl
    · left
      refine ⟨?_, rfl⟩
      simp [normSq, received, direction]
    · right
      have hr : (fun i => (1 : ℝ) * received (fun y x i => if y = 0 ∧ i ≠ 0 then (if x = 0 then -1/2 else if x = 1 then 9/32 else 0) else 0) ((0 : ℕ) : ℤ) ((1 : ℕ) : ℤ) i) =
          (![0, -7/32, -7/32, -7/32] : Fin 4 → ℝ) := by
        funext i
        fin_cases i <;> simp [received, direction] <;> norm_num
      rw [hr]
      have hn : normSq (![0, -7/32, -7/32, -7/32] : Fin 4 → ℝ) = 147/1024 := by
        simp [normSq, Fin.sum_univ_four]; norm_num
      rw [hn]
      refine ⟨by norm_num, by simp [Color.chans], 1, ⟨⟨zero_le_one, le_refl _, ?_⟩, fun t ht => ht.2.1⟩, ?_⟩
      · intro i hi
        fin_cases i
        · simp at hi
        all_goals simp [Color.chans]; norm_num
      · intro i hi
        rw [if_neg (by norm_num)]
        fin_cases i
        · simp at hi
        all_goals simp [Color.chans]; norm_num
  · intro y x _ hy hx i e
    have : y = 0 := by omega
    subst this
    rcases (by omega : x = 0 ∨ x = 1) with rfl | rfl
    · have he : e = (![0, -1/2, -1/2, -1/2] : Fin 4 → ℝ) := by
        funext i
        fin_cases i <;> simp [e, Color.chans] <;> norm_num
      have hn : ¬ (100 : ℝ) < normSq (![0, -1/2, -1/2, -1/2] : Fin 4 → ℝ) := by
        simp [normSq, Fin.sum_univ_four]; norm_num
      rw [he]
      simp only [if_neg hn]
      fin_cases i <;> simp
    · have he : e = (![0, 9/32, 9/32, 9/32] : Fin 4 → ℝ) := by
        funext i
        fin_cases i <;> simp [e, Color.chans]
      have hn : ¬ (100 : ℝ) < normSq (![0, 9/32, 9/32, 9/32] : Fin 4 → ℝ) := by
        simp [normSq, Fin.sum_univ_four]; norm_num
      rw [he]
      simp only [if_neg hn]
      fin_cases i <;> simp

end Verif
