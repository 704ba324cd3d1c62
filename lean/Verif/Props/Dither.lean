import Verif.Lemmas.Diffuse
import Verif.Props.RemapFree

/-! # C23: the errors of dithering stay bounded -/

set_option linter.unusedSectionVars false

namespace Verif
open Flt Spec

/-- the gamma of images, and of their backgrounds, is positive -/
theorem UserImage.gamma_pos {img : Image ℝ} (h : UserImage img) :
    0 < img.px.gamma ∧ ∀ b, img.background = some b → 0 < b.gamma := by
  have hnew : ∀ {src : Source} {w h : ℕ} {γ : ℝ} {img : Image ℝ}, Image.newInternal src w h γ = .ok img →
      0 < img.px.gamma ∧ img.background = none := by
    intro src w h γ img e
    obtain ⟨_, _, rfl⟩ := newInternal_ok e
    refine ⟨?_, rfl⟩
    dsimp only
    split
    next hg => simpa using hg
    · simp
  induction h with
  | @fromPixels buf w h stride γ img e =>
    rw [newStride_eq] at e
    split at e
    · split at e
      · have := hnew e
        exact ⟨this.1, fun b hb => by rw [this.2] at hb; cases hb⟩
      · cases e
    · cases e
  | fromCallback e =>
    unfold Image.newFn at e
    rw [toU32_eq, toU32_eq] at e
    split at e
    · split at e
      · simp only [bind, Except.bind] at e
        have := hnew e
        exact ⟨this.1, fun b hb => by rw [this.2] at hb; cases hb⟩
      · cases e
    · cases e
  | importance _ e ih =>
    rw [C46_importance_map] at e
    split at e
    · cases e; exact ih
    · cases e
  | background _ _ e ih1 ih2 =>
    obtain ⟨h1, h2⟩ := setBackground_px e
    rw [h1, h2]
    exact ⟨ih1.1, fun b hb => by cases hb; exact ih2.1⟩
  | fixed _ e ih =>
    unfold Image.addFixedColor at e
    split at e
    · cases e
    · cases e; exact ih
  | histogram ho h attr log hi ih =>
    obtain ⟨s, b⟩ := addImage_same ho h attr log hi.good
    rw [b, s.gamma]
    exact ih
  | @remap img env q buf log hi hq ih =>
    obtain ⟨s, b⟩ := remapInto_same env buf log hq hi.good
    rw [s.gamma]
    refine ⟨ih.1, fun b' hb' => ?_⟩
    rw [hb'] at b
    cases hbg : img.background with
    | none => rw [hbg] at b; simp only [BgSame] at b
    | some b0 =>
      rw [hbg] at b
      simp only [BgSame] at b
      rw [b.gamma]
      exact ih.2 b0 hbg

/-- **C23** (exact arithmetic), range: whatever the error carried over to a pixel, the strength of dithering and the limit
of the error are, the colour that is searched for keeps its colour channels within [-0.1, 1.1] and its alpha within [0, 1]
if the pixel itself does. -/
theorem C23_range (level maxErr : ℝ) (e : FPixel ℝ) {px : FPixel ℝ} (h : px.InBox) :
    (ditheredPixel level maxErr e px).InBox :=
  ditheredPixel_box level maxErr e h

/-- How a row was dithered: before the `x`-th pixel in the direction of the scan the cells of this row held the errors
`this x` and those of the row below `next x`; the colour searched for was `target x` and its error was `err x`. -/
structure DitheredRow (ctx : DitherCtx ℝ) (even : Bool) (row bg : List (FPixel ℝ)) (bytes : List (Option UInt8))
    (this next : ℕ → List (FPixel ℝ)) (target err : ℕ → FPixel ℝ) : Prop where
  /-- nothing is known of the row below yet -/
  fresh : ∀ c ∈ next 0, ∀ i, c.chan i = 0
  lengths : ∀ k ≤ ctx.width, (this k).length = ctx.width + 2 ∧ (next k).length = ctx.width + 2
  /-- the colour searched for is made of the pixel and the error in its cell -/
  searched : ∀ x < ctx.width, ∃ px cell level, row[ditherCol ctx.width even x]? = some px ∧
    (this x)[ditherCol ctx.width even x + 1]? = some cell ∧ target x = ditheredPixel level ctx.maxErr cell px
  /-- the error is the difference (or, if large, 3/4 of it) between the colour searched for and the colour shown, which is
  the palette colour of the byte, or that of the background where the byte is the transparent index -/
  error : ∀ x < ctx.width, ∃ shown byte, bytes[ditherCol ctx.width even x]? = some (some byte) ∧
    ((∃ e, ctx.n.palette[byte.toNat]? = some e ∧ shown = e.color) ∨
      (byte = ctx.ti ∧ bg[ditherCol ctx.width even x]? = some shown)) ∧
    ((∀ i, (err x).chan i = (target x).chan i - shown.chan i) ∨
      ∀ i, (err x).chan i = 3/4 * ((target x).chan i - shown.chan i))
  /-- the error is distributed with weights 7, 3, 5 and 1 sixteenths -/
  spreads : ∀ x < ctx.width, Spreads ctx.width even (ditherCol ctx.width even x) (err x) (this x) (next x)
    (this (x + 1)) (next (x + 1))

theorem RowDone.dithered {ctx : DitherCtx ℝ} {row bg : List (FPixel ℝ)} {dmap : List UInt8} {d : Diffusion ℝ} {even : Bool}
    {out : List (Option UInt8)} {r : DitherOut ℝ (List (Option UInt8))} {S : ℕ → DitherState ℝ}
    {target shown : ℕ → FPixel ℝ} {byte : ℕ → UInt8} (h : RowDone ctx row bg dmap d even out r S target shown byte)
    (hd : Diffusion.Len ctx.width d) :
    DitheredRow ctx even row bg r.out (fun k => (S k).thiserr) (fun k => (S k).nexterr) target
      (rowError ctx target shown) where
  fresh := by
    intro c hc i
    rw [h.next0] at hc
    rw [List.eq_of_mem_replicate hc, chan_default]
  lengths k hk := ⟨(h.inv hd hk).lenA, (h.inv hd hk).lenB⟩
  searched x hx := by
    obtain ⟨px, h1, h2⟩ := (h.step x hx).searched
    have hlen := (h.inv hd hx.le).lenA
    have hcol := ditherCol_lt even hx
    refine ⟨px, (S x).thiserr[ditherCol ctx.width even x + 1]'(by omega), ditherLevelAt ctx dmap (ditherCol ctx.width even x), h1,
      List.getElem?_eq_getElem (by omega), ?_⟩
    rw [h2, List.getD_eq_getElem?_getD, List.getElem?_eq_getElem (by omega)]
    rfl
  error x hx := by
    refine ⟨shown x, byte x, h.byte_out hx, (h.step x hx).isShown, ?_⟩
    unfold rowError pixelError
    dsimp only
    split
    · refine .inr fun i => ?_
      rw [chan_scale, chan_sub]
      have : (lit32 (3/4) : ℝ) = 3/4 := by simp
      rw [this]; ring
    · exact .inl fun i => chan_sub _ _ _
  spreads x hx := by
    have := (h.inv hd hx.le).spreads hx
    rw [(h.step x hx).thiserr, (h.step x hx).nexterr]
    exact this

/-- **C23** (exact arithmetic), one row, with any palette, strengths, limit and background. If the pixels are in range,
the colours searched for are; the weights of the error are 7, 3, 5 and 1 sixteenths, so that the total of all cells grows by
exactly the error of the pixel; and errors do not accumulate: if no error of a pixel of this row exceeds `M` in any channel,
and the cells of this row began with at most 9/16 of `M`, then no cell ever exceeds `M`, and the cells of the row below
never exceed 9/16 of `M`, which is what the next row begins with. -/
theorem C23_row {ctx : DitherCtx ℝ} {row bg : List (FPixel ℝ)} {dmap : List UInt8} {d : Diffusion ℝ} {even : Bool}
    {out : List (Option UInt8)} {r : DitherOut ℝ (List (Option UInt8))}
    (h : ditherRow ctx row bg dmap d even out = .ok r) (hd : d.1.length = ctx.width + 2 ∧ d.2.length = ctx.width + 2)
    (hrow : ∀ p ∈ row, p.InBox) :
    ∃ this next target err, DitheredRow ctx even row bg r.out this next target err ∧
      (this 0 = if even then d.1 else d.2) ∧ (next ctx.width = if even then r.diffusion.2 else r.diffusion.1) ∧
      (∀ x < ctx.width, (target x).InBox) ∧
      (∀ k ≤ ctx.width, ∀ i, totalChan ctx.width (this k) i + totalChan ctx.width (next k) i =
        totalChan ctx.width (this 0) i + ∑ x ∈ Finset.range k, (err x).chan i) ∧
      ∀ M, 0 ≤ M → (∀ c ∈ this 0, c.Within (9/16 * M)) → (∀ x < ctx.width, (err x).Within M) →
        ∀ k ≤ ctx.width, (∀ c ∈ this k, c.Within M) ∧ ∀ c ∈ next k, c.Within (9/16 * M) := by
  obtain ⟨S, target, shown, byte, hdone⟩ := ditherRow_done h
  have hdr := hdone.dithered hd
  refine ⟨_, _, target, rowError ctx target shown, hdr, hdone.this0, ?_, ?_, ?_, ?_⟩
  · rw [hdone.diffusion]; cases even <;> simp
  · intro x hx
    obtain ⟨px, cell, level, h1, h2, h3⟩ := hdr.searched x hx
    rw [h3]
    exact C23_range _ _ _ (hrow _ (List.mem_of_getElem? h1))
  · intro k hk i
    induction k with
    | zero =>
      have : totalChan ctx.width (S 0).nexterr i = 0 := by
        unfold totalChan
        apply Finset.sum_eq_zero
        intro j hj
        rw [hdone.next0, cellChan_getD, List.getD_eq_getElem?_getD, List.getElem?_replicate]
        split <;> simp [chan_default]
      rw [this]; simp
    | succ k ih =>
      have := (hdr.spreads k (by omega)).total (ditherCol_lt even (by omega)) i
      rw [this, ih (by omega), Finset.sum_range_succ]
      ring
  · intro M hM h0 hE k hk
    have hlen : (S 0).thiserr.length = ctx.width + 2 := (hdone.inv hd (Nat.zero_le _)).lenA
    exact (hdone.inv hd hk).bounds hlen hM h0 (fun x hx => hE x (by omega))

/-- what the errors carried from row to row satisfy -/
def CarriedBound (w : ℕ) (y : ℕ) (d : Diffusion ℝ) : Prop :=
  Diffusion.Len w d ∧ ∀ c ∈ (if y % 2 = 0 then d.1 else d.2), c.Within (9/16 * 1.1)

theorem shows_unit {r : Rows ℝ} {f : ℕ → ℕ → RGBA} (h : r.Shows f) (hγ : 0 < r.gamma) {y : ℕ} (hy : y < r.height) :
    ∀ p ∈ r.pixelsF y, p.InUnit := by
  intro p hp
  unfold Rows.pixelsF at hp
  rw [h y hy] at hp
  simp only [List.mem_map] at hp
  obtain ⟨x, _, rfl⟩ := hp
  exact fromRgba_unit hγ _

theorem rounded_unit (p : PalF ℝ) {γ : ℝ} (hγ : 0 < γ) (post : UInt8) :
    ∀ e ∈ (p.initIntPalette γ post).1, e.color.InUnit := by
  intro e he
  unfold PalF.initIntPalette at he
  simp only [List.mem_map] at he
  obtain ⟨e', _, rfl⟩ := he
  exact fromRgba_unit hγ _

/-- **C23** (exact arithmetic), whole remaps: whatever the image, background, importance map, result and settings are, in
every dithered remap that succeeds every row was dithered so that all colours searched for were in range, the error of every
pixel was at most 1.1 in every channel, and so was the error in every cell at any time, however large the image. -/
theorem C23_image (env : RemapEnv ℝ) {q : QuantizationResult ℝ} {img : Image ℝ} (hq : UserResult q) (hi : UserImage img)
    (hγ : 0 < q.gamma) (hl : q.ditherLevel ≠ 0) (buf : List (Option UInt8)) (log : List ℝ)
    (hok : (remapInto env q img buf log).res = .ok ()) :
    ∃ (ctx : DitherCtx ℝ) (bg : ℕ → List (FPixel ℝ)), ctx.width = img.width ∧
      (∀ e ∈ ctx.n.palette, ∃ c ∈ (remapInto env q img buf log).quant.getPalette.2, e.color.spec = colorOf q.gamma c) ∧
      ∀ y < img.height, ∃ bytes this next target err,
        (∀ x < img.width, (remapInto env q img buf log).buf[y * img.width + x]? = bytes[x]?) ∧
        DitheredRow ctx (decide (y % 2 = 0)) (img.px.pixelsF y) (bg y) bytes this next target err ∧
        (∀ x < img.width, (target x).InBox ∧ (err x).Within 1.1) ∧
        ∀ k ≤ img.width, (∀ c ∈ this k, c.Within 1.1) ∧ ∀ c ∈ next k, c.Within 1.1 := by
  have hl' : eq q.ditherLevel (lit32 0) = false := by
    by_contra hc
    simp at hc
    exact hl hc
  obtain ⟨p, mapErr, old, out, ctx, bg, dmap, -, hpl, hfd, hquant, hpal, hrows⟩ :=
    remapInto_dithered env hq.good hi.good buf log hl' hok
  obtain ⟨⟨f, hf⟩, hbgs⟩ := hi.shows
  obtain ⟨hγi, hγb⟩ := hi.gamma_pos
  refine ⟨ctx, bgRowOf bg, hfd.width, ?_, ?_⟩
  · intro e he
    rw [hfd.palette] at he
    have : e.color.spec ∈ (p.initIntPalette q.gamma (UInt8.ofNat q.minPosterizationOutput)).1.map (fun e => e.color.spec) :=
      List.mem_map_of_mem he
    rw [rounded_colors] at this
    obtain ⟨c, hc, e'⟩ := List.mem_map.mp this
    rw [hpal]
    exact ⟨c, hc, e'.symm⟩
  · have hbg : ∀ y < img.height, ∀ px ∈ bgRowOf bg y, px.InUnit := by
      intro y hy px hpx
      rcases hfd.background with hb | hb
      · cases hbc : bg with
        | none => rw [hbc] at hpx; simp [bgRowOf] at hpx
        | some b =>
          rw [hbc] at hb hpx
          cases hbi : img.background with
          | none => rw [hbi] at hb; simp only [BgSame] at hb
          | some b0 =>
            rw [hbi] at hb
            simp only [BgSame] at hb
            obtain ⟨g, hg⟩ := hbgs b0 hbi
            have hb0 := hi.good.background b0 hbi
            refine shows_unit (hb.shows hg) (by rw [hb.gamma]; exact hγb b0 hbi) (y := y) ?_ px hpx
            rw [hb.height, hb0.2.2]; exact hy
      · rw [hb] at hpx; simp [bgRowOf] at hpx
    have hpalu : ∀ e ∈ ctx.n.palette, e.color.InUnit := by
      rw [hfd.palette]; exact rounded_unit p hγ _
    have hrowu : ∀ y < img.height, ∀ p ∈ img.px.pixelsF y, p.InBox :=
      fun y hy p hp => (shows_unit hf hγi hy p hp).box
    -- one row
    have key : ∀ y < img.height, ∀ d o r, CarriedBound ctx.width y d →
        ditherRow ctx (img.px.pixelsF y) (bgRowOf bg y) (dmap y) d (decide (y % 2 = 0)) o = .ok r →
        CarriedBound ctx.width (y + 1) r.diffusion ∧ ∃ this next target err,
        DitheredRow ctx (decide (y % 2 = 0)) (img.px.pixelsF y) (bgRowOf bg y) r.out this next target err ∧
        (∀ x < ctx.width, (target x).InBox ∧ (err x).Within 1.1) ∧
        ∀ k ≤ ctx.width, (∀ c ∈ this k, c.Within 1.1) ∧ ∀ c ∈ next k, c.Within (9/16 * 1.1) := by
      intro y hy d o r hd hr
      obtain ⟨this, next, target, err, hdr, h0, hn, hbox, -, hM⟩ := C23_row hr hd.1 (hrowu y hy)
      have herr : ∀ x < ctx.width, (err x).Within 1.1 := by
        intro x hx
        obtain ⟨shown, byte, -, hsh, he⟩ := hdr.error x hx
        have hsu : shown.InUnit := by
          rcases hsh with ⟨e, h1, h2⟩ | ⟨-, h1⟩
          · rw [h2]; exact hpalu e (List.mem_of_getElem? h1)
          · exact hbg y hy _ (List.mem_of_getElem? h1)
        intro i
        have h1 := (hbox x hx).chan i
        have h2 := hsu i
        rw [abs_le]
        rcases he with he | he <;> rw [he i] <;> constructor <;> linarith
      have hall := hM 1.1 (by norm_num) (by
        rw [h0]
        have := hd.2
        by_cases c : y % 2 = 0
        · simp only [c, if_true, decide_true] at this ⊢; exact this
        · simp only [c, if_false, decide_false, Bool.false_eq_true] at this ⊢; exact this) herr
      refine ⟨⟨?_, ?_⟩, this, next, target, err, hdr, fun x hx => ⟨hbox x hx, herr x hx⟩, hall⟩
      · obtain ⟨r', e, -, -, -, hlen⟩ := ditherRow_ok hfd.good (row := img.px.pixelsF y) (bg := bgRowOf bg y) (dmap := dmap y)
          (d := d) (even := decide (y % 2 = 0)) (out := o) (by
            obtain ⟨S, t, s, b, hdone⟩ := ditherRow_done hr
            exact hdone.lenRow) (by
            obtain ⟨S, t, s, b, hdone⟩ := ditherRow_done hr
            exact hdone.lenOut) (fun hg => by rw [hfd.guess hg]; rfl) hd.1
        rw [hr] at e
        cases e
        exact hlen
      · have := (hall ctx.width (le_refl _)).2
        rw [hn] at this
        by_cases c : y % 2 = 0
        · have c' : ¬ (y + 1) % 2 = 0 := by omega
          simp only [c, c', if_true, if_false, decide_true] at this ⊢
          exact this
        · have c' : (y + 1) % 2 = 0 := by omega
          simp only [c, c', if_true, if_false, decide_false, Bool.false_eq_true] at this ⊢
          exact this
    intro y hy
    obtain ⟨row, hrow, hbytes⟩ := hrows y hy
    have hylt : y < old.length := by rw [hfd.oldLength]; exact hy
    obtain ⟨d, r, hd, hr, hout⟩ := hfd.rows (CarriedBound ctx.width) (fun y => ⟨Diffusion.zero_len _, by
        intro c hc i
        have : c = FPixel.default := by
          unfold Diffusion.zero at hc
          split at hc <;> exact List.eq_of_mem_replicate hc
        rw [this, chan_default, abs_zero]; norm_num⟩)
      (fun y hy d o r hd hr => (key y hy d o r hd hr).1) y _ (List.getElem?_eq_getElem hylt)
    rw [hrow] at hout
    cases hout
    obtain ⟨-, this, next, target, err, h1, h2, h3⟩ := key y hy d _ r hd hr
    rw [hfd.width] at h2 h3
    refine ⟨r.out, this, next, target, err, hbytes, h1, h2, fun k hk => ⟨(h3 k hk).1, fun c hc i => ?_⟩⟩
    exact ((h3 k hk).2 c hc i).trans (by norm_num)

/-- the hypotheses of `C23_image` can be met: the default settings with full dithering, 3 x 2 pixels, 7 CPUs -/
example : ∃ (env : RemapEnv ℝ) (q : QuantizationResult ℝ) (img : Image ℝ), UserResult q ∧ UserImage img ∧ 0 < q.gamma ∧
    q.ditherLevel ≠ 0 ∧ (remapInto env q img (List.replicate 6 none) []).res = .ok () := by
  obtain ⟨q, hq, hcb, hl, _⟩ := example_result (F := ℝ)
  obtain ⟨img, hi, _, w, h, _, hb, _⟩ := big_image ⟨1, 2, 3, 255⟩ (w := 3) (h := 2) (by omega) (by omega) (by omega) (by omega)
  have e : q.setOutputGamma (1/2) = .ok { q with remapped := none, gamma := 1/2 } := by
    unfold QuantizationResult.setOutputGamma
    rw [if_neg]
    simp only [real_lit64, Bool.or_eq_true, real_le]
    norm_num
  have hq' := hq.gamma e
  refine ⟨{ (RemapEnv.simple : RemapEnv ℝ) with cpus := 7, cpus_pos := by omega }, _, img, hq', hi, by norm_num,
    ?_, C48_succeeds _ hq' hi _ _ (by rw [w, h]; simp) hcb (fun x => by simp)⟩
  show q.ditherLevel ≠ 0
  rw [hl]; simp

/-- the hypotheses of `C23_row` can be met, and rows that do spread an error exist: one black pixel with a white palette -/
example : ∃ (ctx : DitherCtx ℝ) (row : List (FPixel ℝ)) (d : Diffusion ℝ) (r : DitherOut ℝ (List (Option UInt8))),
    ditherRow ctx row [] [] d true [none] = .ok r ∧ (d.1.length = ctx.width + 2 ∧ d.2.length = ctx.width + 2) ∧
    (∀ p ∈ row, p.InBox) ∧ ∃ c ∈ r.diffusion.2, c.chan 1 ≠ 0 := by
  obtain ⟨n, hn⟩ := Nearest.new_of_len (p := ([⟨⟨1, 1, 1, 1⟩, ⟨1⟩⟩] : PalF ℝ)) (by simp) (by simp)
  have hnp : n.palette = [⟨⟨1, 1, 1, 1⟩, ⟨1⟩⟩] := (Nearest.new_ok hn).2.2.1
  let ctx : DitherCtx ℝ := { n := n, width := 1, base := 1, maxErr := 1000, ti := 0, guess := false, garbage := fun _ => 0 }
  have hgood : ctx.Good := ⟨by show Nearest.new n.palette = .ok n; rw [hnp]; exact hn, by show (0 : UInt8).toNat < n.palette.length; rw [hnp]; simp⟩
  let row : List (FPixel ℝ) := [⟨1, 0, 0, 0⟩]
  have hd : Diffusion.Len ctx.width (Diffusion.zero 1 : Diffusion ℝ) := Diffusion.zero_len 1
  obtain ⟨r, hr, -⟩ := ditherRow_ok hgood (row := row) (bg := []) (dmap := []) (d := Diffusion.zero 1) (even := true) (out := [none])
    rfl rfl (fun _ => rfl) hd
  refine ⟨ctx, row, _, r, hr, hd, ?_, ?_⟩
  · intro p hp
    simp only [row, List.mem_singleton] at hp
    subst hp
    refine ⟨?_, ?_, ?_, ?_⟩ <;> norm_num
  · obtain ⟨S, target, shown, byte, hdone⟩ := ditherRow_done hr
    have hinv := hdone.inv hd (k := 1) (le_refl _)
    have hcell := hinv.next 1 (show 1 ≤ ctx.width + 1 by show 1 ≤ 1 + 1; omega) 1
    rw [if_neg (by omega), if_pos (by omega), if_neg (by omega)] at hcell
    have hst := hdone.step 0 (by show 0 < 1; omega)
    have hcol : ditherCol ctx.width true 0 = 0 := rfl
    rw [hcol] at hst
    have hsh : shown 0 = ⟨1, 1, 1, 1⟩ := by
      rcases hst.isShown with ⟨e, h1, h2⟩ | ⟨_, h1⟩
      · have : e ∈ n.palette := List.mem_of_getElem? h1
        rw [hnp] at this
        simp only [List.mem_singleton] at this
        rw [h2, this]
      · simp at h1
    have htg : target 0 = ⟨1, 0, 0, 0⟩ := by
      obtain ⟨px, h1, h2⟩ := hst.searched
      have hpx : px = ⟨1, 0, 0, 0⟩ := by simp [row] at h1; exact h1.symm
      rw [h2, hpx, hdone.this0]
      have : (if true = true then (Diffusion.zero 1 : Diffusion ℝ).1 else (Diffusion.zero 1 : Diffusion ℝ).2).getD (0 + 1) FPixel.default = FPixel.default := rfl
      rw [this]
      unfold ditheredPixel
      dsimp only
      rw [if_pos]
      simp [FPixel.scale, FPixel.default, FPixel.normSq]
    refine ⟨cellAt ctx.width true (S 1).nexterr 1, ?_, ?_⟩
    · rw [hdone.diffusion]
      exact cellAt_mem true hinv.lenB (show 1 ≤ 1 + 1 by omega)
    · rw [hcell]
      unfold rowError pixelError
      rw [htg, hsh]
      dsimp only
      split
      · rw [chan_scale, chan_sub]; simp [FPixel.chan]
      · rw [chan_sub]; simp [FPixel.chan]

end Verif
