import Verif.Lemmas.Diffuse
import Verif.Lemmas.RemapSum
import Verif.Lemmas.KmeansRange

/-! # Exact arithmetic: colours that are palette entries survive rounding, refinement and dithering -/

set_option linter.unusedSectionVars false

namespace Verif
open Flt Spec Kmeans

/-- the colour is that of an entry -/
def PalF.Has (p : PalF ℝ) (c : FPixel ℝ) : Prop := ∃ e ∈ p, e.color = c

/-! ### Rounding -/

/-- 8-bit colours that cannot be told apart: equal, or both fully transparent -/
def RGBA.Looks (c d : RGBA) : Prop := c = d ∨ (c.a = 0 ∧ d.a = 0)

/-- posterization does not change the colour -/
def RGBA.Kept (post : UInt8) (c : RGBA) : Prop := c.map (fun v => PalF.posterizeChannel v post) = c

theorem kept_zero (c : RGBA) : c.Kept 0 := by
  cases c
  simp [RGBA.Kept, RGBA.map, PalF.posterizeChannel]

theorem posterize_zero_channel (post : UInt8) : PalF.posterizeChannel 0 post = 0 := by
  unfold PalF.posterizeChannel
  split
  · rfl
  · simp

/-- rounding a colour that came from 8 bits gives these 8 bits back -/
theorem roundEntry_keeps {γ : ℝ} (hγ : 0 < γ) {post : UInt8} {c : RGBA} (hk : c.Kept post) (e : PalEntry ℝ)
    (he : e.color = FPixel.fromRgba (gammaLut γ) c) :
    (PalF.roundEntry γ post e).1.color = FPixel.fromRgba (gammaLut γ) c ∧ RGBA.Looks (PalF.roundEntry γ post e).2 c := by
  unfold PalF.roundEntry
  dsimp only
  rw [he]
  by_cases ha : c.a = 0
  · rw [fromRgba_transparent _ c ha, toRgb_transparent]
    have h0 : (⟨0, 0, 0, 0⟩ : RGBA).map (fun v => PalF.posterizeChannel v post) = ⟨0, 0, 0, 0⟩ := by
      simp [RGBA.map, posterize_zero_channel]
    rw [h0]
    refine ⟨fromRgba_transparent _ _ rfl, .inr ⟨?_, ha⟩⟩
    split <;> rfl
  · rw [toRgb_fromRgba hγ c ha, hk]
    refine ⟨rfl, .inl ?_⟩
    rw [if_neg]
    intro h
    simp [ha] at h

/-! ### The palette after a plain remap of an image whose colours it has -/

theorem gain_const {l : List (FPixel ℝ × ℝ × ℕ)} {j : ℕ} {c : FPixel ℝ} (h : ∀ u ∈ l, u.2.2 = j → u.1 = c) :
    ∃ w, gain l j = unitAvg c w := by
  induction l with
  | nil => exact ⟨0, by simp [gain, unitAvg, ColorAvg.zero_def]⟩
  | cons u l ih =>
    obtain ⟨w, hw⟩ := ih (fun v hv => h v (by simp [hv]))
    rw [gain_cons, hw]
    by_cases hu : u.2.2 = j
    · refine ⟨u.2.1 + w, ?_⟩
      rw [if_pos hu, h u (by simp) hu, ColorAvg.add_def]
      simp only [unitAvg]
      congr 1
      congr 1 <;> ring
    · exact ⟨w, by rw [if_neg hu, zero_add]⟩

theorem finalizeEntry_const (e : PalEntry ℝ) (w : ℝ) : (finalizeEntry (unitAvg e.color w) e).color = e.color := by
  unfold finalizeEntry
  split
  · rfl
  · dsimp only
    split
    next h =>
      have hw : 0 < w := by
        simp only [Bool.and_eq_true, real_lt, real_lit64] at h
        have := h.1
        simp only [unitAvg] at this
        simpa using this
      have hne : w ≠ 0 := hw.ne'
      cases hc : e.color with
      | mk a r g b =>
        simp only [unitAvg, real_div64, real_to32]
        congr 1 <;> field_simp
    · rfl

theorem finalizePalette_length (as : List (ColorAvg ℝ)) (p : PalF ℝ) : (finalizePalette as p).length = p.length := by
  induction as generalizing p with
  | nil => cases p <;> rfl
  | cons a as ih =>
    cases p with
    | nil => rfl
    | cons e p => simp [finalizePalette, ih]

/-- If the pixels have colours of the palette, the refined palette has the same colours. -/
theorem remapToPalette_keeps (env : RemapEnv ℝ) {px : Rows ℝ} (imp : Option (List UInt8)) {nrows : ℕ} {p : PalF ℝ}
    (h0 : 0 < p.length) (h1 : p.length ≤ 256)
    (hpx : px.Readable) (hn : nrows ≤ px.height) (hall : ∀ y < nrows, ∀ c ∈ px.pixelsF y, p.Has c)
    {e : ℝ} {r : RemapOut ℝ} (hok : remapToPalette env px none imp nrows p = (.ok e, r)) :
    r.palette.map (·.color) = p.map (·.color) := by
  obtain ⟨n, hnew⟩ := Nearest.new_of_len h0 h1
  have hn' : Nearest.new n.palette = .ok n := by rw [(Nearest.new_ok hnew).2.2.1]; exact hnew
  have hplen : n.palette = p := (Nearest.new_ok hnew).2.2.1
  obtain ⟨px', bg', _, _, heq⟩ := remapToPalette_eq (bg := none) imp hnew hpx (fun b hb => by cases hb) hn
  rw [heq env] at hok
  split at hok
  · cases hok
  · simp only [Prod.mk.injEq] at hok
    rw [← hok.2]
    dsimp only
    have hpick : pickBackground n (none : Option (Rows ℝ)) = (none, 0) := rfl
    have hups : ∀ r ∈ plainRows n px none imp nrows, ∀ u ∈ r.updates, u.2.2 < p.length ∧ palColor p u.2.2 = u.1 := by
      intro r hr u hu
      unfold plainRows at hr
      simp only [List.mem_map, List.mem_range] at hr
      obtain ⟨y, hy, rfl⟩ := hr
      unfold plainRow at hu
      obtain ⟨hmem, ⟨hint, hidx⟩, _⟩ := remapPixels_updates hn' _ _ _ _ _ _ u hu
      have := Nearest.search_exact hnew u.1 hint.toNat (hall y hy _ hmem)
      rw [hidx]
      exact ⟨this.1, this.2.1⟩
    rw [hpick]
    simp only [Option.isSome_none]
    rw [remapFinish_eq env _ _ _ _ (by simpa using h0) (fun r hr u hu => (hups r hr u hu).1)]
    apply List.ext_getElem?
    intro i
    rw [List.getElem?_map, List.getElem?_map]
    cases hi : p[i]? with
    | none =>
      rw [List.getElem?_eq_none (by rw [finalizePalette_length]; exact List.getElem?_eq_none_iff.mp hi)]
    | some en =>
      have hlt : i < p.length := (List.getElem?_eq_some_iff.mp hi).1
      rw [finalizePalette_get _ _ (by simp) i en hi]
      simp only [Option.map_some]
      have hget : ((List.range p.length).map (gain (allUpdates (plainRows n px none imp nrows) false 0))).getD i 0 =
          gain (allUpdates (plainRows n px none imp nrows) false 0) i := by
        simp [List.getD_eq_getElem?_getD, hlt]
      rw [hget]
      obtain ⟨w, hw⟩ := gain_const (l := allUpdates (plainRows n px none imp nrows) false 0) (j := i) (c := en.color) (by
        intro u hu hj
        unfold allUpdates rowUpdates at hu
        simp only [Bool.false_eq_true, if_false, List.nil_append, List.mem_flatMap, List.mem_range] at hu
        obtain ⟨y, _, hu⟩ := hu
        split at hu
        next r hr =>
          have := (hups r (List.mem_of_getElem? hr) u hu).2
          rw [← this, hj]
          simp [palColor, hi]
        · cases hu)
      rw [hw, finalizeEntry_const]

/-! ### Dithering without errors -/

/-- no error is carried -/
def Clean (l : List (FPixel ℝ)) : Prop := ∀ c ∈ l, c = FPixel.default

theorem Clean.modify {l : List (FPixel ℝ)} (h : Clean l) (i : ℕ) (k : ℝ) :
    Clean (l.modify i fun x => x.add ((FPixel.default : FPixel ℝ).scale k)) := by
  intro c hc
  obtain ⟨j, hj, rfl⟩ := List.getElem_of_mem hc
  rw [List.getElem_modify]
  have := h _ (List.getElem_mem (show j < l.length by simpa using hj))
  split
  · rw [this]; simp [FPixel.default, FPixel.add, FPixel.scale]
  · exact this

theorem Clean.set {l : List (FPixel ℝ)} (h : Clean l) (i : ℕ) (k : ℝ) :
    Clean (l.set i ((FPixel.default : FPixel ℝ).scale k)) := by
  intro c hc
  rcases List.mem_or_eq_of_mem_set hc with hc | rfl
  · exact h c hc
  · simp [FPixel.default, FPixel.scale]

theorem diffuse_clean (even : Bool) (col : ℕ) {a b : List (FPixel ℝ)} (ha : Clean a) (hb : Clean b) :
    Clean (diffuse even col FPixel.default a b).1 ∧ Clean (diffuse even col FPixel.default a b).2 := by
  unfold diffuse
  dsimp only
  split
  · exact ⟨ha.modify _ _, ((hb.modify _ _).modify _ _).set _ _⟩
  · exact ⟨ha.modify _ _, ((hb.set _ _).modify _ _).modify _ _⟩

theorem Clean.getD {l : List (FPixel ℝ)} (h : Clean l) (i : ℕ) : l.getD i FPixel.default = FPixel.default := by
  rw [List.getD_eq_getElem?_getD]
  cases hi : l[i]? with
  | none => rfl
  | some c => exact h c (List.mem_of_getElem? hi)

theorem clean_replicate (n : ℕ) : Clean (List.replicate n FPixel.default) := fun _ hc => List.eq_of_mem_replicate hc

theorem ditheredPixel_clean (level maxErr : ℝ) (px : FPixel ℝ) : ditheredPixel level maxErr FPixel.default px = px := by
  unfold ditheredPixel
  dsimp only
  rw [if_pos]
  simp [FPixel.default, FPixel.scale, FPixel.normSq]

theorem pixelError_self (maxErr : ℝ) (px : FPixel ℝ) : pixelError maxErr px px = FPixel.default := by
  unfold pixelError
  dsimp only
  have : px.sub px = FPixel.default := by simp [FPixel.sub, FPixel.default]
  rw [this]
  split
  · simp [FPixel.scale, FPixel.default]
  · rfl

/-- no error is carried from row to row -/
def CleanDiffusion (d : Diffusion ℝ) : Prop := Clean d.1 ∧ Clean d.2

/-- a row of colours of the palette, without background and errors: the bytes name the pixels, and no errors arise -/
theorem RowDone.clean {ctx : DitherCtx ℝ} {row : List (FPixel ℝ)} {dmap : List UInt8} {d : Diffusion ℝ} {even : Bool}
    {out : List (Option UInt8)} {r : DitherOut ℝ (List (Option UInt8))} {S : ℕ → DitherState ℝ}
    {target shown : ℕ → FPixel ℝ} {byte : ℕ → UInt8} (h : RowDone ctx row [] dmap d even out r S target shown byte)
    (hctx : Nearest.new ctx.n.palette = .ok ctx.n)
    (hrow : ∀ c ∈ row, PalF.Has ctx.n.palette c) (hd : CleanDiffusion d) :
    CleanDiffusion r.diffusion ∧ ∀ x < ctx.width, ∃ e, ctx.n.palette[(byte x).toNat]? = some e ∧
      row[ditherCol ctx.width even x]? = some e.color := by
  have hstep : ∀ x < ctx.width, Clean (S x).thiserr → Clean (S x).nexterr →
      (Clean (S (x + 1)).thiserr ∧ Clean (S (x + 1)).nexterr) ∧ ∃ e, ctx.n.palette[(byte x).toNat]? = some e ∧
      row[ditherCol ctx.width even x]? = some e.color := by
    intro x hx ha hb
    have hs := h.step x hx
    obtain ⟨px, hpx, htarget⟩ := hs.searched
    rw [ha.getD, ditheredPixel_clean] at htarget
    have hbyte := hs.search (by simp)
    have hex := Nearest.search_exact hctx (target x) (ditherGuess ctx (S x) (ditherCol ctx.width even x)).1.toNat
      (by rw [htarget]; exact hrow _ (List.mem_of_getElem? hpx))
    have htn : (byte x).toNat = (ctx.n.search (target x) (ditherGuess ctx (S x) (ditherCol ctx.width even x)).1.toNat).1 := by
      rw [hbyte, search_toNat hctx]
    obtain ⟨e, he, hsh⟩ : ∃ e, ctx.n.palette[(byte x).toNat]? = some e ∧ shown x = e.color := by
      rcases hs.isShown with h | ⟨_, h⟩
      · exact h
      · simp at h
    have hcol : e.color = px := by
      rw [← htn] at hex
      have := hex.2.1
      rw [htarget] at this
      rw [← this]; simp [palColor, he]
    refine ⟨?_, e, he, by rw [hcol]; exact hpx⟩
    rw [hs.thiserr, hs.nexterr, hsh, hcol, htarget, pixelError_self]
    exact diffuse_clean _ _ ha hb
  have hall : ∀ k ≤ ctx.width, Clean (S k).thiserr ∧ Clean (S k).nexterr := by
    intro k
    induction k with
    | zero =>
      intro _
      rw [h.this0, h.next0]
      refine ⟨?_, clean_replicate _⟩
      split
      · exact hd.1
      · exact hd.2
    | succ k ih =>
      intro hk
      have := ih (by omega)
      exact (hstep k (by omega) this.1 this.2).1
  refine ⟨?_, fun x hx => (hstep x hx (hall x hx.le).1 (hall x hx.le).2).2⟩
  have := hall ctx.width (le_refl _)
  rw [h.diffusion]
  split
  · exact this
  · exact ⟨this.2, this.1⟩

/-- A dithered image all of whose pixels have colours of the palette: every byte names the colour of its pixel. -/
theorem FloydDone.clean {img : Image ℝ} {p : PalF ℝ} {maxErr level : ℝ} {old out : List (List (Option UInt8))}
    {ctx : DitherCtx ℝ} {bg : Option (Rows ℝ)} {dmap : ℕ → List UInt8} {size : ℕ} {m : List UInt8}
    (h : FloydDone img p maxErr level old out ctx bg dmap size m)
    (hbg : img.background = none) (hall : ∀ y < img.height, ∀ c ∈ img.px.pixelsF y, p.Has c) :
    ∀ y < img.height, ∀ row, out[y]? = some row → ∀ x < img.width, ∃ b : UInt8, ∃ e, row[x]? = some (some b) ∧
      p[b.toNat]? = some e ∧ (img.px.pixelsF y)[x]? = some e.color := by
  intro y hy row hrow x hx
  have hbgn : bg = none := by
    rcases h.background with hb | hb
    · rw [hbg] at hb
      cases bg with
      | none => rfl
      | some _ => simp only [BgSame] at hb
    · exact hb
  subst hbgn
  have hctx : Nearest.new ctx.n.palette = .ok ctx.n := h.good.nearest
  have hb0 : ∀ y, bgRowOf (none : Option (Rows ℝ)) y = [] := fun _ => rfl
  obtain ⟨d, r, hinv, hr, ho⟩ := h.rows (fun _ d => CleanDiffusion d) (fun _ => ⟨clean_replicate _, clean_replicate _⟩)
    (fun y hy d out r hd hr => by
      rw [hb0] at hr
      obtain ⟨S, target, shown, byte, hdone⟩ := ditherRow_done hr
      exact (hdone.clean hctx (by rw [h.palette]; exact hall y hy) hd).1)
    y (old[y]'(by rw [h.oldLength]; exact hy)) (List.getElem?_eq_getElem _)
  rw [hb0] at hr
  obtain ⟨S, target, shown, byte, hdone⟩ := ditherRow_done hr
  have hcl := (hdone.clean hctx (by rw [h.palette]; exact hall y hy) hinv).2
  rw [hrow] at ho
  cases ho
  have hw : x < ctx.width := by rw [h.width]; exact hx
  have hcc : ditherCol ctx.width (decide (y % 2 = 0)) (ditherCol ctx.width (decide (y % 2 = 0)) x) = x := by
    unfold ditherCol; split <;> omega
  have hcl' := hcl _ (ditherCol_lt (decide (y % 2 = 0)) hw)
  have hb := hdone.byte_out (ditherCol_lt (decide (y % 2 = 0)) hw)
  rw [hcc] at hcl' hb
  obtain ⟨e, he, hrx⟩ := hcl'
  exact ⟨_, e, hb, by rw [← h.palette]; exact he, hrx⟩

end Verif
