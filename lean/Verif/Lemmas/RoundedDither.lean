import Verif.Lemmas.RoundedColor
import Verif.Lemmas.DitherTrace

/-! Dithering with rounding errors: colours of the palette cause no error to be carried. -/

set_option linter.unusedSectionVars false

namespace Verif
open Flt Spec

variable {F : Type} [Flt F] [FltOrd F]
open FltRound (val fin)

/-! ### Zeros -/

theorem IsZero.of_rounds {u η r : ℝ} {x : F} (h : FltRound.fin x ∧ RoundsTo u η r (FltRound.val x)) (hr : r = 0) : IsZero x :=
  ⟨h.1, h.2.2 hr⟩

theorem IsZero.add32 {x y : F} (hx : IsZero x) (hy : IsZero y) : IsZero (x +₃ y) :=
  have e : FltRound.val x + FltRound.val y = 0 := by rw [hx.zero, hy.zero, add_zero]
  .of_rounds (FltRound.add32 x y hx.fin hy.fin (by rw [e]; exact IsZero.fits32)) e

theorem IsZero.sub32 {x y : F} (hx : FltRound.fin x) (hy : FltRound.fin y) (h : FltRound.val x = FltRound.val y) : IsZero (x -₃ y) :=
  have e : FltRound.val x - FltRound.val y = 0 := by rw [h, sub_self]
  .of_rounds (FltRound.sub32 x y hx hy (by rw [e]; exact IsZero.fits32)) e

theorem IsZero.fma32 {x y z : F} (hx : IsZero x) (hy : FltRound.fin y) (hz : IsZero z) : IsZero (Flt.fma32 x y z) :=
  have e : FltRound.val x * FltRound.val y + FltRound.val z = 0 := by rw [hx.zero, hz.zero, zero_mul, add_zero]
  .of_rounds (FltRound.fma32 x y z hx.fin hy hz.fin (by rw [e]; exact IsZero.fits32)) e

/-- a colour all of whose channels are zero -/
structure FPixel.Blank (c : FPixel F) : Prop where
  a : IsZero c.a
  r : IsZero c.r
  g : IsZero c.g
  b : IsZero c.b

theorem FPixel.blank_default : (FPixel.default : FPixel F).Blank := ⟨.lit32, .lit32, .lit32, .lit32⟩

theorem FPixel.Blank.add {c d : FPixel F} (hc : c.Blank) (hd : d.Blank) : (c.add d).Blank :=
  ⟨hc.a.add32 hd.a, hc.r.add32 hd.r, hc.g.add32 hd.g, hc.b.add32 hd.b⟩

theorem FPixel.Blank.scale {c : FPixel F} (hc : c.Blank) {k : F} (hk : fin k) : (c.scale k).Blank :=
  ⟨hc.a.mul32 hk, hc.r.mul32 hk, hc.g.mul32 hk, hc.b.mul32 hk⟩

theorem FPixel.Blank.normSq {c : FPixel F} (hc : c.Blank) : IsZero c.normSq :=
  (hc.r.fma32 hc.r.fin (hc.g.mul32 hc.g.fin)).add32 (hc.b.fma32 hc.b.fin (hc.a.mul32 hc.a.fin))

theorem FPixel.blank_sub {c d : FPixel F} (hc : c.Reach) (hd : d.Reach) (h : c.vals = d.vals) : (c.sub d).Blank := by
  unfold FPixel.vals at h
  simp only [Color.mk.injEq] at h
  exact ⟨.sub32 hc.a.1 hd.a.1 h.1, .sub32 hc.r.1 hd.r.1 h.2.1, .sub32 hc.g.1 hd.g.1 h.2.2.1, .sub32 hc.b.1 hd.b.1 h.2.2.2⟩

theorem fin_lit {q : ℚ} (h : |(q : ℝ)| ≤ 1000) : fin (lit32 q : F) ∧ |val (lit32 q : F)| ≤ 2 * |(q : ℝ)| + 1 := by
  obtain ⟨h1, h2, -⟩ := FltRound.lit32 (F := F) q (fits32_small h)
  refine ⟨h1, (abs_le_of_near h2).trans ?_⟩
  have := u32_val
  have := tiny32_le
  have := abs_nonneg (q : ℝ)
  nlinarith

/-! ### No errors are carried -/

/-- no error is carried -/
def AllBlank (l : List (FPixel F)) : Prop := ∀ c ∈ l, c.Blank

theorem AllBlank.modify {l : List (FPixel F)} (h : AllBlank l) (i : ℕ) {e : FPixel F} (he : e.Blank) :
    AllBlank (l.modify i fun x => x.add e) := by
  intro c hc
  obtain ⟨j, hj, rfl⟩ := List.getElem_of_mem hc
  rw [List.getElem_modify]
  have := h _ (List.getElem_mem (show j < l.length by simpa using hj))
  split
  · exact this.add he
  · exact this

theorem AllBlank.set {l : List (FPixel F)} (h : AllBlank l) (i : ℕ) {e : FPixel F} (he : e.Blank) :
    AllBlank (l.set i e) := by
  intro c hc
  rcases List.mem_or_eq_of_mem_set hc with hc | rfl
  · exact h c hc
  · exact he

theorem diffuse_blank (even : Bool) (col : ℕ) {e : FPixel F} (he : e.Blank) {a b : List (FPixel F)} (ha : AllBlank a)
    (hb : AllBlank b) : AllBlank (diffuse even col e a b).1 ∧ AllBlank (diffuse even col e a b).2 := by
  have hk : ∀ q : ℚ, |(q : ℝ)| ≤ 1000 → (e.scale (lit32 q)).Blank := fun q hq => he.scale (fin_lit hq).1
  have h7 := hk (7/16) (by norm_num [abs_le])
  have h3 := hk (3/16) (by norm_num [abs_le])
  have h5 := hk (5/16) (by norm_num [abs_le])
  have h1 := hk (1/16) (by norm_num [abs_le])
  unfold diffuse
  dsimp only
  split
  · exact ⟨ha.modify _ h7, ((hb.modify _ h3).modify _ h5).set _ h1⟩
  · exact ⟨ha.modify _ h7, ((hb.set _ h1).modify _ h5).modify _ h3⟩

theorem AllBlank.getD {l : List (FPixel F)} (h : AllBlank l) (i : ℕ) : (l.getD i FPixel.default).Blank := by
  rw [List.getD_eq_getElem?_getD]
  cases hi : l[i]? with
  | none => exact FPixel.blank_default
  | some c => exact h c (List.mem_of_getElem? hi)

theorem allBlank_replicate (n : ℕ) : AllBlank (List.replicate n (FPixel.default : FPixel F)) := fun _ hc => by
  rw [List.eq_of_mem_replicate hc]; exact FPixel.blank_default

theorem ditheredPixel_blank {level : F} (hl : fin level) (maxErr : F) {e : FPixel F} (he : e.Blank) (px : FPixel F) :
    ditheredPixel level maxErr e px = px := by
  unfold ditheredPixel
  dsimp only
  rw [if_pos]
  have h0 := (he.scale hl).normSq
  have h2 := Approx.lit32 (F := F) (q := 2 / 65536) (by push_cast; exact mid_of (by norm_num) (by norm_num))
  refine (FltRound.lt _ _ h0.fin h2.fin).2 ?_
  rw [h0.zero]
  exact h2.rel.pos (by norm_num)

theorem pixelError_blank (maxErr : F) {px shown : FPixel F} (hx : px.Reach) (hs : shown.Reach) (h : px.vals = shown.vals) :
    (pixelError maxErr px shown).Blank := by
  unfold pixelError
  dsimp only
  have hb := FPixel.blank_sub hx hs h
  split
  · exact hb.scale (fin_lit (by norm_num [abs_le])).1
  · exact hb

/-- strengths of dithering are finite -/
theorem ditherLevelAt_fin {ctx : DitherCtx F} {level : F} (hf : fin level) (h0 : 0 ≤ val level) (h1 : val level ≤ 2) {hasMap : Bool}
    (hb : ctx.base = baseDitherLevel level hasMap) (dmap : List UInt8) (col : ℕ) : fin (ditherLevelAt ctx dmap col) := by
  have hu := u32_val
  have hτ := tiny32_le
  have hτ0 := tiny32_nonneg
  have one := fin_lit (F := F) (q := 1) (by norm_num)
  have l15 := approx_nat (F := F) (n := 15) (by norm_num) (by norm_num)
  have l16 := approx_nat (F := F) (n := 16) (by norm_num) (by norm_num)
  have l1 := approx_nat (F := F) (n := 1) (by norm_num) (by norm_num)
  have l255 := approx_nat (F := F) (n := 255) (by norm_num) (by norm_num)
  push_cast at l15 l16 l1 l255
  have q := l15.div32 l16 (by norm_num) (mid_of (by norm_num) (by norm_num)) (by rw [w32_val]; norm_num)
  have q2 := l1.div32 l255 (by norm_num) (mid_of (by norm_num) (by norm_num)) (by rw [w32_val]; norm_num)
  have qv : |val (lit32 15 /₃ lit32 16 : F)| ≤ 2 := by
    have := q.rel.le (by norm_num) (by rw [w32_val]; norm_num)
    rw [abs_of_pos (q.rel.pos (by norm_num))]
    rw [w32_val] at this
    norm_num at this
    linarith
  have q2v : |val (lit32 1 /₃ lit32 255 : F)| ≤ 2 := by
    have := q2.rel.le (by norm_num) (by rw [w32_val]; norm_num)
    rw [abs_of_pos (q2.rel.pos (by norm_num))]
    rw [w32_val] at this
    norm_num at this
    linarith
  have one' : |val (lit32 1 : F)| ≤ 2 := by
    have := l1.rel.le (by norm_num) (by rw [w32_val]; norm_num)
    rw [abs_of_pos (l1.rel.pos (by norm_num))]
    rw [w32_val] at this
    norm_num at this
    linarith
  have hlev : |val level| ≤ 2 := abs_le.2 ⟨by linarith, h1⟩
  have d1 : |val (lit32 1 : F) - val level| ≤ 4 := (abs_sub _ _).trans (by linarith)
  obtain ⟨s1, s2⟩ := rounds_sub (F := F) one.1 hf (d1.trans (by norm_num))
  have s3 : |val (lit32 1 -₃ level : F)| ≤ 5 := (abs_le_of_near s2).trans (by
    have : u32 * |val (lit32 1 : F) - val level| ≤ u32 * 4 := mul_le_mul_of_nonneg_left d1 u32_nonneg
    linarith)
  obtain ⟨n1, n2⟩ := FltRound.neg (F := F) _ s1
  have f0 : |val (lit32 1 -₃ level : F) * val (fneg (lit32 1 -₃ level) : F) + val (lit32 1 : F)| ≤ 27 := by
    refine (abs_add_le _ _).trans ?_
    rw [n2, abs_mul, abs_neg]
    have : |val (lit32 1 -₃ level : F)| * |val (lit32 1 -₃ level : F)| ≤ 5 * 5 := mul_le_mul s3 s3 (abs_nonneg _) (by norm_num)
    linarith
  obtain ⟨g1, g2, -⟩ := FltRound.fma32 _ _ _ s1 n1 one.1 (fits32_small (f0.trans (by norm_num)))
  have g3 : |val (fma32 (lit32 1 -₃ level) (fneg (lit32 1 -₃ level)) (lit32 1) : F)| ≤ 28 := (abs_le_of_near g2).trans (by
    have := mul_le_mul_of_nonneg_left f0 u32_nonneg
    linarith)
  have p0 : |val (fma32 (lit32 1 -₃ level) (fneg (lit32 1 -₃ level)) (lit32 1) : F) * val (lit32 15 /₃ lit32 16 : F)| ≤ 56 := by
    rw [abs_mul]
    exact (mul_le_mul g3 qv (abs_nonneg _) (by norm_num)).trans (by norm_num)
  obtain ⟨p1, p2⟩ := rounds_mul g1 q.fin (p0.trans (by norm_num))
  have p3 := (abs_le_of_near p2).trans (c := 57) (by
    have := mul_le_mul_of_nonneg_left p0 u32_nonneg
    linarith)
  have base : fin ctx.base ∧ |val ctx.base| ≤ 120 := by
    rw [hb]
    unfold baseDitherLevel
    dsimp only
    split
    · have r0 : |val (fma32 (lit32 1 -₃ level) (fneg (lit32 1 -₃ level)) (lit32 1) *₃ (lit32 15 /₃ lit32 16) : F) *
          val (lit32 1 /₃ lit32 255 : F)| ≤ 114 := by
        rw [abs_mul]
        exact (mul_le_mul p3 q2v (abs_nonneg _) (by norm_num)).trans (by norm_num)
      obtain ⟨r1, r2⟩ := rounds_mul p1 q2.fin (r0.trans (by norm_num))
      refine ⟨r1, (abs_le_of_near r2).trans ?_⟩
      have := mul_le_mul_of_nonneg_left r0 u32_nonneg
      linarith
    · exact ⟨p1, p3.trans (by norm_num)⟩
  unfold ditherLevelAt
  split
  next l _ =>
    have hl : |((l.toNat : ℚ) : ℝ)| ≤ 255 := by
      have := l.toNat_lt
      push_cast
      rw [abs_of_nonneg (by positivity)]
      exact_mod_cast (by omega : l.toNat ≤ 255)
    obtain ⟨b1, b2⟩ := fin_lit (F := F) (q := l.toNat) (hl.trans (by norm_num))
    refine (FltRound.mul32 _ _ base.1 b1 ?_).1
    unfold Fits32
    rw [abs_mul]
    refine (mul_le_mul base.2 (b2.trans (add_le_add (mul_le_mul_of_nonneg_left hl (by norm_num)) le_rfl)) (abs_nonneg _) (by norm_num)).trans ?_
    norm_num
  · exact base.1

/-! ### Colours of the palette are found -/

/-- the colour is in the palette, and the other colours of the palette are farther away than rounding may hide -/
structure PalF.Own (p : PalF F) (c : FPixel F) : Prop where
  reach : c.Reach
  has : ∃ j < p.length, (palColor p j).vals = c.vals
  apart : ∀ j < p.length, (palColor p j).vals = c.vals ∨ 5 * fuzz < c.dist (palColor p j)

theorem Nearest.search_own {p : PalF F} {n : Nearest F} (hn : Nearest.new p = .ok n) (hp : p.Reach) {c : FPixel F}
    (hc : p.Own c) (likely : ℕ) : (n.search c likely).1 < p.length ∧ (palColor p (n.search c likely).1).vals = c.vals := by
  obtain ⟨h1, -, h3⟩ := Nearest.search_rounded hn hp hc.reach likely
  refine ⟨h1, ?_⟩
  obtain ⟨j, hj, hv⟩ := hc.has
  have h4 := h3 j hj
  have h0 : c.dist (palColor p j) = 0 := by
    unfold FPixel.dist
    rw [hv]
    exact FPixel.dist_self c
  rw [h0, zero_add] at h4
  exact (hc.apart _ h1).resolve_right (not_lt.2 h4)

/-- no error is carried from row to row -/
def BlankDiffusion (d : Diffusion F) : Prop := AllBlank d.1 ∧ AllBlank d.2

/-- a row of colours of the palette, without background and errors: the bytes name the pixels, and no errors arise -/
theorem RowDone.blank {ctx : DitherCtx F} {row : List (FPixel F)} {dmap : List UInt8} {d : Diffusion F} {even : Bool}
    {out : List (Option UInt8)} {r : DitherOut F (List (Option UInt8))} {S : ℕ → DitherState F}
    {target shown : ℕ → FPixel F} {byte : ℕ → UInt8} (h : RowDone ctx row [] dmap d even out r S target shown byte)
    (hctx : Nearest.new ctx.n.palette = .ok ctx.n) (hp : PalF.Reach ctx.n.palette)
    (hlev : ∀ col, fin (ditherLevelAt ctx dmap col))
    (hrow : ∀ c ∈ row, PalF.Own ctx.n.palette c) (hd : BlankDiffusion d) :
    BlankDiffusion r.diffusion ∧ ∀ x < ctx.width, ∃ e px, ctx.n.palette[(byte x).toNat]? = some e ∧
      row[ditherCol ctx.width even x]? = some px ∧ e.color.vals = px.vals := by
  have hstep : ∀ x < ctx.width, AllBlank (S x).thiserr → AllBlank (S x).nexterr →
      (AllBlank (S (x + 1)).thiserr ∧ AllBlank (S (x + 1)).nexterr) ∧ ∃ e px, ctx.n.palette[(byte x).toNat]? = some e ∧
      row[ditherCol ctx.width even x]? = some px ∧ e.color.vals = px.vals := by
    intro x hx ha hb
    have hs := h.step x hx
    obtain ⟨px, hpx, htarget⟩ := hs.searched
    rw [ditheredPixel_blank (hlev _) _ (ha.getD _)] at htarget
    have hbyte := hs.search (by simp)
    have hown := hrow _ (List.mem_of_getElem? hpx)
    have hex := Nearest.search_own hctx hp (c := target x) (by rw [htarget]; exact hown)
      (ditherGuess ctx (S x) (ditherCol ctx.width even x)).1.toNat
    have htn : (byte x).toNat = (ctx.n.search (target x) (ditherGuess ctx (S x) (ditherCol ctx.width even x)).1.toNat).1 := by
      rw [hbyte, search_toNat hctx]
    obtain ⟨e, he, hsh⟩ : ∃ e, ctx.n.palette[(byte x).toNat]? = some e ∧ shown x = e.color := by
      rcases hs.isShown with h | ⟨_, h⟩
      · exact h
      · simp at h
    have hcol : e.color.vals = px.vals := by
      rw [← htn] at hex
      have := hex.2
      rw [htarget] at this
      rw [← this]; simp [palColor, he]
    refine ⟨?_, e, px, he, hpx, hcol⟩
    rw [hs.thiserr, hs.nexterr, hsh, htarget]
    exact diffuse_blank _ _ (pixelError_blank _ hown.reach (hp _ (List.mem_of_getElem? he)) hcol.symm) ha hb
  have hall : ∀ k ≤ ctx.width, AllBlank (S k).thiserr ∧ AllBlank (S k).nexterr := by
    intro k
    induction k with
    | zero =>
      intro _
      rw [h.this0, h.next0]
      refine ⟨?_, allBlank_replicate _⟩
      split
      · exact hd.1
      · exact hd.2
    | succ k ih =>
      intro hk
      have := ih (by omega)
      exact (hstep k (by omega) this.1 this.2).1
  refine ⟨?_, fun x hx => (hstep x hx (hall x hx.le).1 (hall x hx.le).2).2⟩
  have := hall ctx.width (le_refl _)
  rw [h.diffusion]
  split
  · exact this
  · exact ⟨this.2, this.1⟩

/-- A dithered image all of whose pixels have colours of the palette: every byte names the colour of its pixel. -/
theorem FloydDone.blank {img : Image F} {p : PalF F} {maxErr level : F} {old out : List (List (Option UInt8))}
    {ctx : DitherCtx F} {bg : Option (Rows F)} {dmap : ℕ → List UInt8} {size : ℕ} {m : List UInt8}
    (h : FloydDone img p maxErr level old out ctx bg dmap size m)
    (hf : fin level) (h0 : 0 ≤ val level) (h1 : val level ≤ 2) (hp : p.Reach)
    (hbg : img.background = none) (hall : ∀ y < img.height, ∀ c ∈ img.px.pixelsF y, p.Own c) :
    ∀ y < img.height, ∀ row, out[y]? = some row → ∀ x < img.width, ∃ b : UInt8, ∃ e px, row[x]? = some (some b) ∧
      p[b.toNat]? = some e ∧ (img.px.pixelsF y)[x]? = some px ∧ e.color.vals = px.vals := by
  intro y hy row hrow x hx
  have hbgn : bg = none := by
    rcases h.background with hb | hb
    · rw [hbg] at hb
      cases bg with
      | none => rfl
      | some _ => simp only [BgSame] at hb
    · exact hb
  subst hbgn
  obtain ⟨hbase, -⟩ := h.base
  have hlev : ∀ dmap col, fin (ditherLevelAt ctx dmap col) := fun dmap col => ditherLevelAt_fin hf h0 h1 hbase dmap col
  have hctx : Nearest.new ctx.n.palette = .ok ctx.n := h.good.nearest
  have hb0 : ∀ y, bgRowOf (none : Option (Rows F)) y = [] := fun _ => rfl
  have hp' : PalF.Reach ctx.n.palette := by rw [h.palette]; exact hp
  obtain ⟨d, r, hinv, hr, ho⟩ := h.rows (fun _ d => BlankDiffusion d) (fun _ => ⟨allBlank_replicate _, allBlank_replicate _⟩)
    (fun y hy d out r hd hr => by
      rw [hb0] at hr
      obtain ⟨S, target, shown, byte, hdone⟩ := ditherRow_done hr
      exact (hdone.blank hctx hp' (hlev _) (by rw [h.palette]; exact hall y hy) hd).1)
    y (old[y]'(by rw [h.oldLength]; exact hy)) (List.getElem?_eq_getElem _)
  rw [hb0] at hr
  obtain ⟨S, target, shown, byte, hdone⟩ := ditherRow_done hr
  have hcl := (hdone.blank hctx hp' (hlev _) (by rw [h.palette]; exact hall y hy) hinv).2
  rw [hrow] at ho
  cases ho
  have hw : x < ctx.width := by rw [h.width]; exact hx
  have hcc : ditherCol ctx.width (decide (y % 2 = 0)) (ditherCol ctx.width (decide (y % 2 = 0)) x) = x := by
    unfold ditherCol; split <;> omega
  have hcl' := hcl _ (ditherCol_lt (decide (y % 2 = 0)) hw)
  have hb := hdone.byte_out (ditherCol_lt (decide (y % 2 = 0)) hw)
  rw [hcc] at hcl' hb
  obtain ⟨e, px, he, hrx, hv⟩ := hcl'
  exact ⟨_, e, px, hb, by rw [← h.palette]; exact he, hrx, hv⟩

end Verif
