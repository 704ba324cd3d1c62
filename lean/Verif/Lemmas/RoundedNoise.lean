import Verif.Lemmas.RoundedColor
import Verif.Lemmas.Contrast

/-! The importance map with rounding errors: it has no zeros. -/

set_option linter.unusedSectionVars false

namespace Verif
open Flt

variable {F : Type} [Flt F] [FltOrd F]
open FltRound (val fin)

/-- a finite number of bounded size -/
structure Bounded (b : ℝ) (x : F) : Prop where
  fin : FltRound.fin x
  le : |FltRound.val x| ≤ b

namespace Bounded

variable {a b c : ℝ} {x y z : F}

theorem mono (h : Bounded a x) (hab : a ≤ b) : Bounded b x := ⟨h.fin, h.le.trans hab⟩

theorem of_rounds {r : ℝ} (hb : |r| ≤ b) (hs : b ≤ 10 ^ 6) (h : FltRound.fin x ∧ RoundsTo u32 tiny32 r (FltRound.val x)) :
    Bounded (b + 1) x := by
  refine ⟨h.1, (abs_le_of_near h.2.1).trans ?_⟩
  have := u32_val
  have := tiny32_le
  have := abs_nonneg r
  have := mul_le_mul_of_nonneg_left (hb.trans hs) u32_nonneg
  linarith

theorem fits {r : ℝ} (h : |r| ≤ 10 ^ 6) : Fits32 r := h.trans (by norm_num)

theorem add (hx : Bounded a x) (hy : Bounded b y) (hs : a + b ≤ 10 ^ 6) : Bounded (a + b + 1) (x +₃ y) := by
  have h : |FltRound.val x + FltRound.val y| ≤ a + b := (abs_add_le _ _).trans (add_le_add hx.le hy.le)
  exact of_rounds h hs (FltRound.add32 _ _ hx.fin hy.fin (fits (h.trans hs)))

theorem sub (hx : Bounded a x) (hy : Bounded b y) (hs : a + b ≤ 10 ^ 6) : Bounded (a + b + 1) (x -₃ y) := by
  have h : |FltRound.val x - FltRound.val y| ≤ a + b := (abs_sub _ _).trans (add_le_add hx.le hy.le)
  exact of_rounds h hs (FltRound.sub32 _ _ hx.fin hy.fin (fits (h.trans hs)))

theorem mul (hx : Bounded a x) (hy : Bounded b y) (hs : a * b ≤ 10 ^ 6) : Bounded (a * b + 1) (x *₃ y) := by
  have h : |FltRound.val x * FltRound.val y| ≤ a * b := by
    rw [abs_mul]
    exact mul_le_mul hx.le hy.le (abs_nonneg _) ((abs_nonneg _).trans hx.le)
  exact of_rounds h hs (FltRound.mul32 _ _ hx.fin hy.fin (fits (h.trans hs)))

theorem fma (hx : Bounded a x) (hy : Bounded b y) (hz : Bounded c z) (hs : a * b + c ≤ 10 ^ 6) :
    Bounded (a * b + c + 1) (fma32 x y z) := by
  have h : |FltRound.val x * FltRound.val y + FltRound.val z| ≤ a * b + c := by
    refine (abs_add_le _ _).trans (add_le_add ?_ hz.le)
    rw [abs_mul]
    exact mul_le_mul hx.le hy.le (abs_nonneg _) ((abs_nonneg _).trans hx.le)
  exact of_rounds h hs (FltRound.fma32 _ _ _ hx.fin hy.fin hz.fin (fits (h.trans hs)))

theorem abs (hx : Bounded a x) : Bounded a (fabs x) := by
  obtain ⟨h1, h2⟩ := FltRound.abs x hx.fin
  exact ⟨h1, by rw [h2, abs_abs]; exact hx.le⟩

theorem max (hx : Bounded a x) (hy : Bounded a y) : Bounded a (Flt.fmax x y) := by
  obtain ⟨h1, h2⟩ := FltRound.max x y hx.fin hy.fin
  refine ⟨h1, ?_⟩
  rw [h2]
  rcases max_choice (FltRound.val x) (FltRound.val y) with h | h
  · rw [h]; exact hx.le
  · rw [h]; exact hy.le

theorem min (hx : Bounded a x) (hy : Bounded a y) : Bounded a (Flt.fmin x y) := by
  obtain ⟨h1, h2⟩ := FltRound.min x y hx.fin hy.fin
  refine ⟨h1, ?_⟩
  rw [h2]
  rcases min_choice (FltRound.val x) (FltRound.val y) with h | h
  · rw [h]; exact hx.le
  · rw [h]; exact hy.le

theorem lit {q : ℚ} (h : |(q : ℝ)| ≤ b) (hs : b ≤ 10 ^ 6) : Bounded (b + 1) (lit32 q : F) :=
  of_rounds h hs (FltRound.lit32 q (fits (h.trans hs)))

end Bounded

theorem contrast_bounded {a b c : FPixel F} (ha : a.Reach) (hb : b.Reach) (hc : c.Reach) : Bounded 9 (Image.contrast a b c) := by
  have ch : ∀ x y z : F, (fin x ∧ -1 / 8 ≤ val x ∧ val x ≤ 9 / 8) → (fin y ∧ -1 / 8 ≤ val y ∧ val y ≤ 9 / 8) →
      (fin z ∧ -1 / 8 ≤ val z ∧ val z ≤ 9 / 8) → Bounded 9 (fabs (x +₃ y -₃ z *₃ lit32 2)) := by
    intro x y z hx hy hz
    have b : ∀ x : F, (fin x ∧ -1 / 8 ≤ val x ∧ val x ≤ 9 / 8) → Bounded (9 / 8) x := fun x hx =>
      ⟨hx.1, abs_le.2 ⟨by linarith [hx.2.1], hx.2.2⟩⟩
    have h2 : Bounded 3 (lit32 2 : F) := (Bounded.lit (b := 2) (by norm_num) (by norm_num)).mono (by norm_num)
    exact (((b x hx).add (b y hy) (by norm_num)).sub ((b z hz).mul h2 (by norm_num)) (by norm_num)).abs.mono (by norm_num)
  unfold Image.contrast
  dsimp only
  exact ((ch _ _ _ ha.a hb.a hc.a).max (ch _ _ _ ha.r hb.r hc.r)).max ((ch _ _ _ ha.g hb.g hc.g).max (ch _ _ _ ha.b hb.b hc.b))

/-- with rounding errors the noise of a pixel is at least 79 -/
theorem noise_ge_rounded {a b c d e : FPixel F} (ha : a.Reach) (hb : b.Reach) (hc : c.Reach) (hd : d.Reach) (he : e.Reach) :
    79 ≤ (Image.noisePixel a b c d e).1.toNat := by
  unfold Image.noisePixel
  dsimp only
  have hh := contrast_bounded ha hc hb
  have hv := contrast_bounded hd he hb
  generalize Image.contrast a c b = h at *
  generalize Image.contrast d e b = v at *
  have hm : Bounded 2 (lit32 (-1/2) : F) := (Bounded.lit (b := 1) (by norm_num [abs_le]) (by norm_num)).mono (by norm_num)
  have h1 : Bounded 2 (lit32 1 : F) := (Bounded.lit (b := 1) (by norm_num) (by norm_num)).mono (by norm_num)
  have hz0 : Bounded 48 (fma32 (fabs (h -₃ v)) (lit32 (-1/2)) (Flt.fmax h v)) :=
    ((hh.sub hv (by norm_num)).abs.fma hm (hh.max hv) (by norm_num)).mono (by norm_num)
  have hz1 := (h1.sub (hz0.max ((hh.min hv).mono (by norm_num))) (by norm_num)).mono (b := 51) (by norm_num)
  generalize lit32 1 -₃ Flt.fmax (fma32 (fabs (h -₃ v)) (lit32 (-1/2)) (Flt.fmax h v)) (Flt.fmin h v) = z at *
  have hz2 := (hz1.mul hz1 (by norm_num)).mono (b := 2602) (by norm_num)
  have b3 : |val (z *₃ z) * val (z *₃ z)| ≤ 7 * 10 ^ 6 := by
    rw [abs_mul]
    exact (mul_le_mul hz2.le hz2.le (abs_nonneg _) (by norm_num)).trans (by norm_num)
  have f3 : Fits32 (val (z *₃ z) * val (z *₃ z)) := b3.trans (by norm_num)
  have n3 : 0 ≤ val (z *₃ z *₃ (z *₃ z)) := FltOrd.mul_nonneg _ _ hz2.fin hz2.fin f3 (mul_self_nonneg _)
  obtain ⟨i3, r3, -⟩ := FltRound.mul32 _ _ hz2.fin hz2.fin f3
  have u := u32_val
  have t := tiny32_le
  have t0 := tiny32_nonneg
  have l3 : val (z *₃ z *₃ (z *₃ z)) ≤ 8 * 10 ^ 6 := by
    have := (le_abs_self _).trans (abs_le_of_near r3)
    have := mul_le_mul_of_nonneg_left b3 u32_nonneg
    linarith
  obtain ⟨i4, r4, -⟩ := FltRound.lit32 (F := F) 176 (Bounded.fits (by norm_num))
  obtain ⟨i5, r5, -⟩ := FltRound.lit32 (F := F) 80 (Bounded.fits (by norm_num))
  rw [u] at r4 r5
  norm_num [abs_le] at r4 r5
  have hp : 0 ≤ val (z *₃ z *₃ (z *₃ z)) * val (lit32 176 : F) := mul_nonneg n3 (by linarith)
  have hq : val (z *₃ z *₃ (z *₃ z)) * val (lit32 176 : F) ≤ 8 * 10 ^ 6 * 177 :=
    mul_le_mul l3 (by linarith) (by linarith) (by norm_num)
  have hf : Fits32 (val (z *₃ z *₃ (z *₃ z)) * val (lit32 176 : F) + val (lit32 80 : F)) := by
    unfold Fits32
    rw [abs_of_nonneg (by linarith)]
    refine le_trans (b := 10 ^ 10) (by linarith) (by norm_num)
  obtain ⟨i6, r6, -⟩ := FltRound.fma32 _ _ _ i3 i4 i5 hf
  rw [abs_of_nonneg (show 0 ≤ val (z *₃ z *₃ (z *₃ z)) * val (lit32 176 : F) + val (lit32 80 : F) by linarith), u] at r6
  have h80 : (79 : ℝ) ≤ val (fma32 (z *₃ z *₃ (z *₃ z)) (lit32 176) (lit32 80)) := by
    have := (abs_le.1 r6).1
    linarith
  rw [FltRound.toU8 _ i6]
  have hfl : 79 ≤ ⌊val (fma32 (z *₃ z *₃ (z *₃ z)) (lit32 176) (lit32 80))⌋₊ := by
    apply Nat.le_floor; exact_mod_cast h80
  generalize ⌊val (fma32 (z *₃ z *₃ (z *₃ z)) (lit32 176) (lit32 80))⌋₊ = k at *
  have hk : Nat.min 255 k = min 255 k := rfl
  rw [hk, UInt8.toNat_ofNat_of_lt' (by simp only [UInt8.size]; omega)]
  omega

theorem FPixel.reach_default : (FPixel.default : FPixel F).Reach := by
  have h := IsZero.lit32 (F := F)
  have : fin (lit32 0 : F) ∧ -1 / 8 ≤ val (lit32 0 : F) ∧ val (lit32 0 : F) ≤ 9 / 8 := ⟨h.fin, by rw [h.zero]; norm_num, by rw [h.zero]; norm_num⟩
  exact ⟨this, this, this, this⟩

/-- the importance map made for an image of a usual gamma has large entries only -/
theorem Image.Good.mapLarge_rounded {img : Image F} (hg : img.Good) {f : ℕ → ℕ → RGBA} (hf : img.px.Shows f)
    (hγ : UsualGamma img.px.gamma) (hs : Image.skipsContrastMaps img.width img.height = false) {img' : Image F}
    (hok : img.contrastMaps = .ok img') : ∀ m, img'.importanceMap = some m → ∀ v ∈ m, 79 ≤ v.toNat :=
  contrastMaps_ge hg hs hok 79 FPixel.Reach FPixel.reach_default (fun y hy c hc => by
    obtain ⟨x, hx⟩ := List.mem_iff_getElem?.mp hc
    have hxl : x < img.width := by
      have := (List.getElem?_eq_some_iff.mp hx).1
      rwa [(hg.px.rowF hy).2] at this
    rw [hf.pixel hy hxl] at hx
    cases hx
    exact fromRgba_reach hγ _) (fun a b c d e ha hb hc hd he => noise_ge_rounded ha hb hc hd he)

/-- it has no zeros -/
theorem Image.Good.mapPositive_rounded {img : Image F} (hg : img.Good) {f : ℕ → ℕ → RGBA} (hf : img.px.Shows f)
    (hγ : UsualGamma img.px.gamma) : img.MapPositive := by
  intro hs img' hok m hm v hv
  have := hg.mapLarge_rounded hf hγ hs hok m hm v hv
  omega

end Verif
