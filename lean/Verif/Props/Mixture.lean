import Verif.Lemmas.HullUse
import Verif.Lemmas.FewColors
import Verif.Spec.Posterize

/-! # C49–C52: the palette is mixed from the colours of the input

Exact arithmetic. `OnlyGiven Q h`: every colour that was given to the histogram `h` has the property `Q`. `UsesOn G Q q q'`:
`q'` is `q` after any calls in which only images with pixels with `Q` were remapped, and with `G` true of all gammas. -/

set_option linter.unusedSectionVars false

namespace Verif
open Flt Spec

/-! ## C49 -/

/-- `c` is a weighted average of colours in `S` -/
def Spec.Mixture (S : Set (FPixel ℝ)) (c : FPixel ℝ) : Prop := vec c ∈ convexHull ℝ (vec '' S)

theorem mixture_mixes (S : Set (FPixel ℝ)) : Mixes (Mixture S) := mixes_convex (convex_convexHull ℝ _)

theorem mixture_of_mem {S : Set (FPixel ℝ)} {c : FPixel ℝ} (h : c ∈ S) : Mixture S c :=
  subset_convexHull ℝ _ ⟨c, h, rfl⟩

theorem quantize_facts {env : Env ℝ} {cs : List Call} {cb : Option (List ℝ → Bool)} {h : Histogram ℝ} {freeze : Bool}
    {log log' : List ℝ} {r : QuantizationResult ℝ} (e : h.quantizeInternal env (userAttr cs cb) freeze log = (.ok r, log')) :
    r.gamma = h.gamma.getD (45455/100000 : ℝ) := by
  rcases user_outcome env cs cb h freeze log with ⟨-, -, e'⟩ | ⟨-, e'⟩
  · rw [e] at e'; cases e'
  · rw [e] at e'
    cases e' with
    | ok _ _ _ _ hr => rw [hr.rest]; simp

theorem quantize_gamma_pos {Q : RGBA → Prop} {env : Env ℝ} {cs : List Call} {cb : Option (List ℝ → Bool)} {h : Histogram ℝ}
    {freeze : Bool} {log log' : List ℝ} {r : QuantizationResult ℝ} (hg : OnlyGiven Q h)
    (e : h.quantizeInternal env (userAttr cs cb) freeze log = (.ok r, log')) : 0 < r.gamma := by
  rw [quantize_facts e]
  cases hgm : h.gamma with
  | none => simp
  | some g => simpa using hg.gamma_pos g hgm

/-- **C49.** Every palette entry is a mixture of the colours given to the histogram: with settings from any calls, for
any progress callback, every order of hash maps, every way of sorting and every schedule of threads, whatever combination
of images, counted colours and fixed colours the histogram was filled with. -/
theorem C49_mixtures {Q : RGBA → Prop} {h : Histogram ℝ} (hg : OnlyGiven Q h) (env : Env ℝ) (cs : List Call)
    (cb : Option (List ℝ → Bool)) (freeze : Bool) (log log' : List ℝ) (r : QuantizationResult ℝ)
    (e : h.quantizeInternal env (userAttr cs cb) freeze log = (.ok r, log')) :
    ∀ x ∈ r.palette, Mixture {c | ∃ p, Q p ∧ c = FPixel.fromRgba (gammaLut r.gamma) p} x.color := by
  refine quantize_mixes (mixture_mixes _) hg.holds (fun c hc => ?_) e
  rw [← quantize_facts e]
  exact mixture_of_mem ⟨c, hc, rfl⟩

theorem quantizeImage_given {f : ℕ → ℕ → RGBA} {w h : ℕ} {gamma : ℝ} {img img' : Image ℝ} (hm : Made f w h gamma img)
    {env : Env ℝ} {attr : Attr ℝ} {log log' : List ℝ} {r : QuantizationResult ℝ}
    (e : quantizeImage env attr img log = ((.ok r, img'), log')) :
    ∃ (hist : Histogram ℝ) (l1 : List ℝ), OnlyGiven (fun c => ∃ y < h, ∃ x < w, c = f y x) hist ∧
      hist.quantizeInternal env attr false l1 = (.ok r, log') := by
  have hg : OnlyGiven (fun c => ∃ y < h, ∃ x < w, c = f y x) ((Histogram.new attr).addImage env.ho attr img log).1.2.1 := by
    refine .image env.ho attr log (.new attr) ?_ ?_
    · rw [hm.facts.rows]
      intro rows hrows row hrow c hc
      cases hrows
      obtain ⟨y, hy, rfl⟩ := List.mem_map.1 hrow
      obtain ⟨x, hx, rfl⟩ := List.mem_map.1 hc
      exact ⟨y, List.mem_range.1 hy, x, List.mem_range.1 hx, rfl⟩
    · rw [hm.facts.fixed]; simp
  unfold quantizeImage at e
  split at e
  · cases e
  next h' i' l1 heq =>
    rw [heq] at hg
    dsimp only at e
    simp only [Prod.mk.injEq] at e
    exact ⟨h', l1, hg, Prod.ext e.1.1 e.2⟩

/-- **C49 for one image.** The palette is mixed from the colours of its pixels. -/
theorem C49_image {f : ℕ → ℕ → RGBA} {w h : ℕ} {gamma : ℝ} {img img' : Image ℝ} (hm : Made f w h gamma img) (env : Env ℝ)
    (cs : List Call) (cb : Option (List ℝ → Bool)) (log log' : List ℝ) (r : QuantizationResult ℝ)
    (e : quantizeImage env (userAttr cs cb) img log = ((.ok r, img'), log')) :
    ∀ x ∈ r.palette, Mixture {c | ∃ y < h, ∃ x < w, c = FPixel.fromRgba (gammaLut r.gamma) (f y x)} x.color := by
  obtain ⟨hist, l1, hg, e'⟩ := quantizeImage_given hm e
  have := C49_mixtures hg env cs cb false l1 log' r e'
  intro x hx
  have hs : {c | ∃ p, (∃ y < h, ∃ x < w, p = f y x) ∧ c = FPixel.fromRgba (gammaLut r.gamma) p} =
      {c | ∃ y < h, ∃ x < w, c = FPixel.fromRgba (gammaLut r.gamma) (f y x)} := by
    ext c
    constructor
    · rintro ⟨p, ⟨y, hy, x, hx, rfl⟩, rfl⟩; exact ⟨y, hy, x, hx, rfl⟩
    · rintro ⟨y, hy, x, hx, rfl⟩; exact ⟨_, ⟨y, hy, x, hx, rfl⟩, rfl⟩
  rw [← hs]
  exact this x hx

/-! ## Rounding -/

theorem userAttr_post (cs : List Call) (cb : Option (List ℝ → Bool)) :
    (userAttr (F := ℝ) cs cb).minPosterizationOutput = (Settings.default.after cs).minPosterization := by
  have := C13_settings_registers_any_float (F := ℝ) cs
  simp only [Attr.observeInt, Attr.getMinPosterization, Prod.mk.injEq] at this
  exact this.2.2

theorem toU8_mono {x y : ℝ} (h : x ≤ y) : (toU8 x : UInt8).toNat ≤ (toU8 y : UInt8).toNat := by
  rw [real_toU8, real_toU8, UInt8.toNat_ofNat', UInt8.toNat_ofNat']
  have h1 : Nat.min 255 ⌊x⌋₊ ≤ 255 := Nat.min_le_left _ _
  have h2 : Nat.min 255 ⌊y⌋₊ ≤ 255 := Nat.min_le_left _ _
  rw [Nat.mod_eq_of_lt (by omega), Nat.mod_eq_of_lt (by omega)]
  exact min_le_min_left _ (Nat.floor_le_floor h)

theorem gammaLut_mono {γ : ℝ} (hγ : 0 < γ) {i j : UInt8} (h : i.toNat ≤ j.toNat) : gammaLut γ i ≤ gammaLut γ j := by
  rw [gammaLut_real, gammaLut_real]
  apply Real.rpow_le_rpow (by positivity) _ (by positivity)
  have : (i.toNat : ℝ) ≤ j.toNat := by exact_mod_cast h
  linarith

/-- a value between two table entries is rounded to a byte between theirs -/
theorem channel_between {γ : ℝ} (hγ : 0 < γ) {lo hi : UInt8} {x : ℝ} (h1 : gammaLut γ lo ≤ x) (h2 : x ≤ gammaLut γ hi) :
    lo.toNat ≤ (toU8 (x ^ (γ / (57 / 100 : ℝ)) * 256) : UInt8).toNat ∧
    (toU8 (x ^ (γ / (57 / 100 : ℝ)) * 256) : UInt8).toNat ≤ hi.toNat := by
  have h0 := gammaLut_nonneg γ lo
  have hp : 0 ≤ γ / (57 / 100 : ℝ) := by positivity
  constructor
  · conv_lhs => rw [← channel_back hγ lo]
    exact toU8_mono (mul_le_mul_of_nonneg_right (Real.rpow_le_rpow h0 h1 hp) (by norm_num))
  · conv_rhs => rw [← channel_back hγ hi]
    exact toU8_mono (mul_le_mul_of_nonneg_right (Real.rpow_le_rpow (h0.trans h1) h2 hp) (by norm_num))

theorem posterizeChannel_eq {b : ℕ} (hb : b ≤ 4) (c : UInt8) :
    (PalF.posterizeChannel c (UInt8.ofNat b)).toNat = posterize b c.toNat := by
  have h : ∀ b : Fin 5, ∀ i : Fin 256, (PalF.posterizeChannel (UInt8.ofNat i) (UInt8.ofNat b)).toNat = posterize b i := by
    decide +kernel
  have := h ⟨b, by omega⟩ ⟨c.toNat, c.toNat_lt⟩
  simpa using this

theorem posterize_mono (b : ℕ) {u v : ℕ} (h : u ≤ v) : posterize b u ≤ posterize b v := by
  unfold posterize
  exact Nat.add_le_add (Nat.mul_le_mul_right _ (Nat.div_le_div_right h)) (Nat.div_le_div_right h)

theorem posterize_lt {b : ℕ} (hb : b ≤ 4) {v : ℕ} (h : v < 256) : posterize b v < 256 := by
  have h' : ∀ b : Fin 5, ∀ i : Fin 256, posterize b i < 256 := by decide +kernel
  exact h' ⟨b, by omega⟩ ⟨v, h⟩

theorem posterize_idem {b : ℕ} (hb : b ≤ 4) {v : ℕ} (h : v < 256) : posterize b (posterize b v) = posterize b v := by
  have h' : ∀ b : Fin 5, ∀ i : Fin 256, posterize b (posterize b i) = posterize b i := by decide +kernel
  exact h' ⟨b, by omega⟩ ⟨v, h⟩

theorem posterize_zero_bits {v : ℕ} (h : v < 256) : posterize 0 v = v := by
  unfold posterize
  have : v / 2 ^ (8 - 0) = 0 := Nat.div_eq_of_lt h
  rw [this]; simp

/-- the smaller of a byte and its posterized value -/
def lowOf (b : ℕ) (c : UInt8) : UInt8 := UInt8.ofNat (min c.toNat (posterize b c.toNat))
/-- the larger of a byte and its posterized value -/
def highOf (b : ℕ) (c : UInt8) : UInt8 := UInt8.ofNat (max c.toNat (posterize b c.toNat))

theorem lowOf_toNat {b : ℕ} (c : UInt8) : (lowOf b c).toNat = min c.toNat (posterize b c.toNat) := by
  unfold lowOf
  rw [UInt8.toNat_ofNat', Nat.mod_eq_of_lt]
  have := c.toNat_lt
  omega

theorem highOf_toNat {b : ℕ} (hb : b ≤ 4) (c : UInt8) : (highOf b c).toNat = max c.toNat (posterize b c.toNat) := by
  unfold highOf
  rw [UInt8.toNat_ofNat', Nat.mod_eq_of_lt]
  have := c.toNat_lt
  have := posterize_lt hb c.toNat_lt
  omega

/-- what rounding and posterizing does to the range -/
theorem posterize_between {b : ℕ} (hb : b ≤ 4) {lo hi c : UInt8} (h1 : (lowOf b lo).toNat ≤ c.toNat) (h2 : c.toNat ≤ (highOf b hi).toNat) :
    posterize b lo.toNat ≤ (PalF.posterizeChannel c (UInt8.ofNat b)).toNat ∧
    (PalF.posterizeChannel c (UInt8.ofNat b)).toNat ≤ posterize b hi.toNat := by
  rw [posterizeChannel_eq hb]
  rw [lowOf_toNat] at h1
  rw [highOf_toNat hb] at h2
  have i1 := posterize_idem hb lo.toNat_lt
  have i2 := posterize_idem hb hi.toNat_lt
  constructor
  · refine le_trans ?_ (posterize_mono b h1)
    rcases min_choice lo.toNat (posterize b lo.toNat) with h | h <;> rw [h]
    exact i1.ge
  · refine (posterize_mono b h2).trans ?_
    rcases max_choice hi.toNat (posterize b hi.toNat) with h | h <;> rw [h]
    exact i2.le

/-! ## C50 -/

/-- visible colours of the box -/
def Spec.InBox (lo hi : RGBA) (c : RGBA) : Prop :=
  c.a = 0 ∨ ((lo.r ≤ c.r ∧ c.r ≤ hi.r) ∧ (lo.g ≤ c.g ∧ c.g ≤ hi.g) ∧ (lo.b ≤ c.b ∧ c.b ≤ hi.b))

/-- the same, of internal colours -/
def BoxF (γ : ℝ) (lo hi : RGBA) (c : FPixel ℝ) : Prop :=
  0 ≤ c.a ∧ (gammaLut γ lo.r * (1/2) * c.a ≤ 5/8 * c.r ∧ 5/8 * c.r ≤ gammaLut γ hi.r * (1/2) * c.a) ∧
  (gammaLut γ lo.g * c.a ≤ 5/8 * c.g ∧ 5/8 * c.g ≤ gammaLut γ hi.g * c.a) ∧
  (gammaLut γ lo.b * (45/100) * c.a ≤ 5/8 * c.b ∧ 5/8 * c.b ≤ gammaLut γ hi.b * (45/100) * c.a)

theorem boxF_mixes (γ : ℝ) (lo hi : RGBA) : Mixes (BoxF γ lo hi) := by
  have key := ((mixes_half 0 1 0 0 0).and <|
    (((mixes_half 0 (-(gammaLut γ lo.r * (1/2))) (5/8) 0 0).and (mixes_half 0 (gammaLut γ hi.r * (1/2)) (-(5/8)) 0 0)).and <|
    ((mixes_half 0 (-gammaLut γ lo.g) 0 (5/8) 0).and (mixes_half 0 (gammaLut γ hi.g) 0 (-(5/8)) 0)).and
    ((mixes_half 0 (-(gammaLut γ lo.b * (45/100))) 0 0 (5/8)).and (mixes_half 0 (gammaLut γ hi.b * (45/100)) 0 0 (-(5/8))))))
  refine key.congr fun c => ?_
  show BoxF γ lo hi c ↔ (0 ≤ 1 * c.a + 0 * c.r + 0 * c.g + 0 * c.b) ∧
    ((0 ≤ -(gammaLut γ lo.r * (1/2)) * c.a + 5/8 * c.r + 0 * c.g + 0 * c.b) ∧
      (0 ≤ gammaLut γ hi.r * (1/2) * c.a + -(5/8) * c.r + 0 * c.g + 0 * c.b)) ∧
    ((0 ≤ -gammaLut γ lo.g * c.a + 0 * c.r + 5/8 * c.g + 0 * c.b) ∧
      (0 ≤ gammaLut γ hi.g * c.a + 0 * c.r + -(5/8) * c.g + 0 * c.b)) ∧
    ((0 ≤ -(gammaLut γ lo.b * (45/100)) * c.a + 0 * c.r + 0 * c.g + 5/8 * c.b) ∧
      (0 ≤ gammaLut γ hi.b * (45/100) * c.a + 0 * c.r + 0 * c.g + -(5/8) * c.b))
  unfold BoxF
  constructor
  · rintro ⟨h0, ⟨h1, h2⟩, ⟨h3, h4⟩, h5, h6⟩
    refine ⟨?_, ⟨?_, ?_⟩, ⟨?_, ?_⟩, ?_, ?_⟩ <;> linarith
  · rintro ⟨h0, ⟨h1, h2⟩, ⟨h3, h4⟩, h5, h6⟩
    refine ⟨?_, ⟨?_, ?_⟩, ⟨?_, ?_⟩, ?_, ?_⟩ <;> linarith

theorem fromRgba_real (γ : ℝ) (c : RGBA) : FPixel.fromRgba (gammaLut γ) c =
    ⟨(c.a.toNat : ℝ) / 255 * (5/8), gammaLut γ c.r * (1/2) * ((c.a.toNat : ℝ) / 255), gammaLut γ c.g * ((c.a.toNat : ℝ) / 255),
      gammaLut γ c.b * (45/100) * ((c.a.toNat : ℝ) / 255)⟩ := by
  simp only [FPixel.fromRgba, weightA, weightR, weightG, weightB, real_lit32, real_mul32, real_div32]
  push_cast
  simp

/-- the bytes of a colour that is not nearly transparent -/
theorem toRgb_real {γ : ℝ} {c : FPixel ℝ} (h : ¬ c.a < 1/256 * (5/8)) : c.toRgb γ =
    { r := toU8 ((5/8 / (1/2) * c.r / c.a) ^ (γ / (57 / 100 : ℝ)) * 256)
      g := toU8 ((5/8 * c.g / c.a) ^ (γ / (57 / 100 : ℝ)) * 256)
      b := toU8 ((5/8 / (45/100) * c.b / c.a) ^ (γ / (57 / 100 : ℝ)) * 256)
      a := toU8 (256 / (5/8) * c.a) } := by
  unfold FPixel.toRgb
  rw [if_neg]
  · simp only [weightA, weightR, weightG, weightB, internalGamma, real_lit32, real_lit64, real_mul32, real_div32,
      real_div64, real_to32, real_pow32]
    push_cast
    simp
  · simp only [minOpaqueA, weightA, real_lit32, real_lt, real_mul32, real_div32]
    push_cast
    convert h using 2

theorem toRgb_nearly {γ : ℝ} {c : FPixel ℝ} (h : c.a < 1/256 * (5/8)) : c.toRgb γ = ⟨0, 0, 0, 0⟩ := by
  unfold FPixel.toRgb
  rw [if_pos]
  simp only [minOpaqueA, weightA, real_lit32, real_lt, real_mul32, real_div32]
  push_cast
  convert h using 2

theorem boxF_fromRgba {γ : ℝ} (hγ : 0 < γ) {lo hi c : RGBA} (h : c.a = 0 ∨
    ((lo.r.toNat ≤ c.r.toNat ∧ c.r.toNat ≤ hi.r.toNat) ∧ (lo.g.toNat ≤ c.g.toNat ∧ c.g.toNat ≤ hi.g.toNat) ∧
      (lo.b.toNat ≤ c.b.toNat ∧ c.b.toNat ≤ hi.b.toNat))) : BoxF γ lo hi (FPixel.fromRgba (gammaLut γ) c) := by
  rw [fromRgba_real]
  rcases h with h | ⟨⟨h1, h2⟩, ⟨h3, h4⟩, h5, h6⟩
  · simp [BoxF, h]
  · have ha : (0 : ℝ) ≤ (c.a.toNat : ℝ) / 255 := by positivity
    have key : ∀ {i j : UInt8}, i.toNat ≤ j.toNat → gammaLut γ i * ((c.a.toNat : ℝ) / 255) ≤ gammaLut γ j * ((c.a.toNat : ℝ) / 255) :=
      fun h => mul_le_mul_of_nonneg_right (gammaLut_mono hγ h) ha
    have k1 := key h1
    have k2 := key h2
    have k3 := key h3
    have k4 := key h4
    have k5 := key h5
    have k6 := key h6
    refine ⟨by positivity, ⟨?_, ?_⟩, ⟨?_, ?_⟩, ?_, ?_⟩ <;> dsimp only <;> linarith

theorem map_zero_post {b : ℕ} (hb : b ≤ 4) :
    RGBA.map (fun c => PalF.posterizeChannel c (UInt8.ofNat b)) ⟨0, 0, 0, 0⟩ = ⟨0, 0, 0, 0⟩ := by
  have h : ∀ b : Fin 5, RGBA.map (fun c => PalF.posterizeChannel c (UInt8.ofNat b)) ⟨0, 0, 0, 0⟩ = ⟨0, 0, 0, 0⟩ := by decide +kernel
  exact h ⟨b, by omega⟩

/-- rounding keeps a colour in the box -/
theorem box_round {γ : ℝ} (hγ : 0 < γ) {b : ℕ} (hb : b ≤ 4) {lo hi lo' hi' : RGBA}
    (hlo : lo' = lo.map (lowOf b)) (hhi : hi' = hi.map (highOf b)) {e : PalEntry ℝ} (h : BoxF γ lo' hi' e.color) :
    ((PalF.roundEntry γ (UInt8.ofNat b) e).2.a = 0 ∨
      ((posterize b lo.r.toNat ≤ (PalF.roundEntry γ (UInt8.ofNat b) e).2.r.toNat ∧
        (PalF.roundEntry γ (UInt8.ofNat b) e).2.r.toNat ≤ posterize b hi.r.toNat) ∧
       (posterize b lo.g.toNat ≤ (PalF.roundEntry γ (UInt8.ofNat b) e).2.g.toNat ∧
        (PalF.roundEntry γ (UInt8.ofNat b) e).2.g.toNat ≤ posterize b hi.g.toNat) ∧
       (posterize b lo.b.toNat ≤ (PalF.roundEntry γ (UInt8.ofNat b) e).2.b.toNat ∧
        (PalF.roundEntry γ (UInt8.ofNat b) e).2.b.toNat ≤ posterize b hi.b.toNat))) ∧
    BoxF γ lo' hi' (PalF.roundEntry γ (UInt8.ofNat b) e).1.color := by
  unfold PalF.roundEntry
  dsimp only
  by_cases ht : e.color.a < 1/256 * (5/8)
  · rw [toRgb_nearly ht, map_zero_post hb]
    refine ⟨.inl ?_, boxF_fromRgba hγ (.inl rfl)⟩
    split <;> rfl
  · have hpos : 0 < e.color.a := by push Not at ht; linarith
    obtain ⟨-, ⟨h1, h2⟩, ⟨h3, h4⟩, h5, h6⟩ := h
    have kr := channel_between hγ (lo := lo'.r) (hi := hi'.r) (x := 5/8 / (1/2) * e.color.r / e.color.a)
      (by rw [le_div_iff₀ hpos]; linarith) (by rw [div_le_iff₀ hpos]; linarith)
    have kg := channel_between hγ (lo := lo'.g) (hi := hi'.g) (x := 5/8 * e.color.g / e.color.a)
      (by rw [le_div_iff₀ hpos]; linarith) (by rw [div_le_iff₀ hpos]; linarith)
    have kb := channel_between hγ (lo := lo'.b) (hi := hi'.b) (x := 5/8 / (45/100) * e.color.b / e.color.a)
      (by rw [le_div_iff₀ hpos]; linarith) (by rw [div_le_iff₀ hpos]; linarith)
    rw [toRgb_real ht]
    subst hlo hhi
    have pr := posterize_between hb (lo := lo.r) (hi := hi.r) kr.1 kr.2
    have pg := posterize_between hb (lo := lo.g) (hi := hi.g) kg.1 kg.2
    have pb := posterize_between hb (lo := lo.b) (hi := hi.b) kb.1 kb.2
    constructor
    · split
      next hc => exact .inl hc.1
      · exact .inr ⟨pr, pg, pb⟩
    · apply boxF_fromRgba hγ
      right
      have hl : ∀ c : UInt8, (lowOf b c).toNat ≤ posterize b c.toNat := fun c => by rw [lowOf_toNat]; exact min_le_right _ _
      have hh : ∀ c : UInt8, posterize b c.toNat ≤ (highOf b c).toNat := fun c => by rw [highOf_toNat hb]; exact le_max_right _ _
      exact ⟨⟨(hl _).trans pr.1, pr.2.trans (hh _)⟩, ⟨(hl _).trans pg.1, pg.2.trans (hh _)⟩, (hl _).trans pb.1, pb.2.trans (hh _)⟩

/-- **C50.** If all visible colours given to the histogram, and all visible pixels of images remapped later, lie in a box
of 8-bit colours, then so do all visible colours that the result reports, at any time: without output posterization in the
same box, with it in the posterized box. (All gammas are the same here: other gammas stand for other colours.) -/
theorem C50_box (lo hi : RGBA) {h : Histogram ℝ} (hg : OnlyGiven (InBox lo hi) h) (env : Env ℝ) (cs : List Call)
    (cb : Option (List ℝ → Bool)) (freeze : Bool) (log log' : List ℝ) (r q : QuantizationResult ℝ)
    (e : h.quantizeInternal env (userAttr cs cb) freeze log = (.ok r, log')) (hu : UsesOn (r.gamma = ·) (InBox lo hi) r q) :
    ∀ c ∈ q.getPalette.2, c.a = 0 ∨
      ((posterize (Settings.default.after cs).minPosterization lo.r.toNat ≤ c.r.toNat ∧
        c.r.toNat ≤ posterize (Settings.default.after cs).minPosterization hi.r.toNat) ∧
       (posterize (Settings.default.after cs).minPosterization lo.g.toNat ≤ c.g.toNat ∧
        c.g.toNat ≤ posterize (Settings.default.after cs).minPosterization hi.g.toNat) ∧
       (posterize (Settings.default.after cs).minPosterization lo.b.toNat ≤ c.b.toNat ∧
        c.b.toNat ≤ posterize (Settings.default.after cs).minPosterization hi.b.toNat)) := by
  have hγ := quantize_gamma_pos hg e
  have hb : (Settings.default.after cs).minPosterization ≤ 4 := by
    rw [← userAttr_post cs cb]; exact userAttr_posterization cs cb
  generalize hbb : (Settings.default.after cs).minPosterization = b at hb ⊢
  refine mixes_report (P := BoxF r.gamma (lo.map (lowOf b)) (hi.map (highOf b))) (boxF_mixes _ _ _) ?_ ?_ hg.holds e rfl hu
  · rintro γ c rfl hc
    apply boxF_fromRgba hγ
    rcases hc with hc | ⟨⟨h1, h2⟩, ⟨h3, h4⟩, h5, h6⟩
    · exact .inl hc
    · right
      have hl : ∀ c : UInt8, (lowOf b c).toNat ≤ c.toNat := fun c => by rw [lowOf_toNat]; exact min_le_left _ _
      have hh : ∀ c : UInt8, c.toNat ≤ (highOf b c).toNat := fun c => by rw [highOf_toNat hb]; exact le_max_left _ _
      exact ⟨⟨(hl _).trans h1, le_trans h2 (hh _)⟩, ⟨(hl _).trans h3, le_trans h4 (hh _)⟩, (hl _).trans h5, le_trans h6 (hh _)⟩
  · rintro γ en rfl hen
    rw [userAttr_post, hbb]
    exact box_round hγ hb rfl rfl hen

/-- **C50 without posterization**: the same box. -/
theorem C50_box_exact (lo hi : RGBA) {h : Histogram ℝ} (hg : OnlyGiven (InBox lo hi) h) (env : Env ℝ) (cs : List Call)
    (cb : Option (List ℝ → Bool)) (freeze : Bool) (log log' : List ℝ) (r q : QuantizationResult ℝ)
    (hpost : (Settings.default.after cs).minPosterization = 0)
    (e : h.quantizeInternal env (userAttr cs cb) freeze log = (.ok r, log')) (hu : UsesOn (r.gamma = ·) (InBox lo hi) r q) :
    ∀ c ∈ q.getPalette.2, InBox lo hi c := by
  intro c hc
  have := C50_box lo hi hg env cs cb freeze log log' r q e hu c hc
  rw [hpost] at this
  simp only [posterize_zero_bits (UInt8.toNat_lt _)] at this
  exact this

/-! ## C51 -/

/-- the alpha of an internal colour lies between those of two bytes -/
def AlphaF (lo hi : UInt8) (c : FPixel ℝ) : Prop :=
  (lo.toNat : ℝ) / 255 * (5/8) ≤ c.a ∧ c.a ≤ (hi.toNat : ℝ) / 255 * (5/8)

theorem alphaF_mixes (lo hi : UInt8) : Mixes (AlphaF lo hi) := by
  have key := (mixes_half ((lo.toNat : ℝ) / 255 * (5/8)) 1 0 0 0).and (mixes_half (-((hi.toNat : ℝ) / 255 * (5/8))) (-1) 0 0 0)
  refine key.congr fun c => ?_
  show AlphaF lo hi c ↔ ((lo.toNat : ℝ) / 255 * (5/8) ≤ 1 * c.a + 0 * c.r + 0 * c.g + 0 * c.b) ∧
    (-((hi.toNat : ℝ) / 255 * (5/8)) ≤ -1 * c.a + 0 * c.r + 0 * c.g + 0 * c.b)
  unfold AlphaF
  constructor
  · rintro ⟨h1, h2⟩; constructor <;> linarith
  · rintro ⟨h1, h2⟩; constructor <;> linarith

theorem alphaF_fromRgba (γ : ℝ) {lo hi : UInt8} {c : RGBA} (h : lo.toNat ≤ c.a.toNat ∧ c.a.toNat ≤ hi.toNat) :
    AlphaF lo hi (FPixel.fromRgba (gammaLut γ) c) := by
  rw [fromRgba_real]
  have h1 : (lo.toNat : ℝ) ≤ c.a.toNat := by exact_mod_cast h.1
  have h2 : (c.a.toNat : ℝ) ≤ hi.toNat := by exact_mod_cast h.2
  constructor <;> dsimp only <;> linarith

theorem alpha_round {γ : ℝ} {b : ℕ} (hb : b ≤ 4) {lo hi : UInt8} {e : PalEntry ℝ} (h : AlphaF (lowOf b lo) (highOf b hi) e.color) :
    (posterize b lo.toNat ≤ (PalF.roundEntry γ (UInt8.ofNat b) e).2.a.toNat ∧
      (PalF.roundEntry γ (UInt8.ofNat b) e).2.a.toNat ≤ posterize b hi.toNat) ∧
    AlphaF (lowOf b lo) (highOf b hi) (PalF.roundEntry γ (UInt8.ofNat b) e).1.color := by
  have hbyte : (lowOf b lo).toNat ≤ (e.color.toRgb γ).a.toNat ∧ (e.color.toRgb γ).a.toNat ≤ (highOf b hi).toNat := by
    obtain ⟨h1, h2⟩ := h
    by_cases ht : e.color.a < 1/256 * (5/8)
    · rw [toRgb_nearly ht]
      refine ⟨?_, Nat.zero_le _⟩
      have : ((lowOf b lo).toNat : ℝ) < 1 := by linarith
      have : (lowOf b lo).toNat < 1 := by exact_mod_cast this
      show (lowOf b lo).toNat ≤ 0
      omega
    · rw [toRgb_real ht]
      dsimp only
      constructor
      · conv_lhs => rw [← toU8_scaled (lowOf b lo)]
        apply toU8_mono; linarith
      · conv_rhs => rw [← toU8_scaled (highOf b hi)]
        apply toU8_mono; linarith
  have hp := posterize_between hb hbyte.1 hbyte.2
  constructor
  · have : (PalF.roundEntry γ (UInt8.ofNat b) e).2.a = PalF.posterizeChannel (e.color.toRgb γ).a (UInt8.ofNat b) := by
      unfold PalF.roundEntry
      dsimp only
      split <;> rfl
    rw [this]
    exact hp
  · refine alphaF_fromRgba γ (c := (e.color.toRgb γ).map (fun c => PalF.posterizeChannel c (UInt8.ofNat b))) ⟨?_, ?_⟩
    · exact le_trans (by rw [lowOf_toNat]; exact min_le_right _ _) hp.1
    · exact hp.2.trans (by rw [highOf_toNat hb]; exact le_max_right _ _)

/-- **C51.** If the alpha of all given colours and of all pixels remapped later lies in a range, so does the alpha of
every colour that is reported, whatever gammas are used (up to the output posterization). -/
theorem C51_alpha (lo hi : UInt8) {h : Histogram ℝ} (hg : OnlyGiven (fun c => lo ≤ c.a ∧ c.a ≤ hi) h) (env : Env ℝ) (cs : List Call)
    (cb : Option (List ℝ → Bool)) (freeze : Bool) (log log' : List ℝ) (r q : QuantizationResult ℝ)
    (e : h.quantizeInternal env (userAttr cs cb) freeze log = (.ok r, log'))
    (hu : UsesOn (fun _ => True) (fun c => lo ≤ c.a ∧ c.a ≤ hi) r q) :
    ∀ c ∈ q.getPalette.2, posterize (Settings.default.after cs).minPosterization lo.toNat ≤ c.a.toNat ∧
      c.a.toNat ≤ posterize (Settings.default.after cs).minPosterization hi.toNat := by
  have hb : (Settings.default.after cs).minPosterization ≤ 4 := by
    rw [← userAttr_post cs cb]; exact userAttr_posterization cs cb
  generalize hbb : (Settings.default.after cs).minPosterization = b at hb ⊢
  refine mixes_report (P := AlphaF (lowOf b lo) (highOf b hi)) (alphaF_mixes _ _) ?_ ?_ hg.holds e trivial hu
  · intro γ c _ hc
    apply alphaF_fromRgba γ
    exact ⟨le_trans (by rw [lowOf_toNat]; exact min_le_left _ _) hc.1,
      le_trans hc.2 (by rw [highOf_toNat hb]; exact le_max_left _ _)⟩
  · intro γ en _ hen
    rw [userAttr_post, hbb]
    exact alpha_round hb hen

/-- **C51, opaque.** Opaque input gives an opaque palette, posterized or not. -/
theorem C51_opaque {h : Histogram ℝ} (hg : OnlyGiven (fun c => c.a = 255) h) (env : Env ℝ) (cs : List Call)
    (cb : Option (List ℝ → Bool)) (freeze : Bool) (log log' : List ℝ) (r q : QuantizationResult ℝ)
    (e : h.quantizeInternal env (userAttr cs cb) freeze log = (.ok r, log'))
    (hu : UsesOn (fun _ => True) (fun c => c.a = 255) r q) : ∀ c ∈ q.getPalette.2, c.a = 255 := by
  have hQ : (fun c : RGBA => c.a = 255) = fun c => (255 : UInt8) ≤ c.a ∧ c.a ≤ 255 := by
    funext c
    apply propext
    rw [← UInt8.toNat_inj, UInt8.le_iff_toNat_le, UInt8.le_iff_toNat_le]
    omega
  have hb : (Settings.default.after cs).minPosterization ≤ 4 := by
    rw [← userAttr_post cs cb]; exact userAttr_posterization cs cb
  have hall : ∀ b : Fin 5, posterize b 255 = 255 := by decide
  intro c hc
  have := C51_alpha 255 255 (hQ ▸ hg) env cs cb freeze log log' r q e (hQ ▸ hu) c hc
  have h2 : posterize (Settings.default.after cs).minPosterization (255 : UInt8).toNat = 255 := hall ⟨_, Nat.lt_succ_of_le hb⟩
  rw [h2] at this
  rw [← UInt8.toNat_inj]
  show c.a.toNat = 255
  omega

/-! ## C52 -/

/-- grey, as an internal colour -/
def GreyF (c : FPixel ℝ) : Prop := 2 * c.r = c.g ∧ c.b = 45/100 * c.g

theorem greyF_mixes : Mixes GreyF := by
  have key := ((mixes_half 0 0 2 (-1) 0).and (mixes_half 0 0 (-2) 1 0)).and
    ((mixes_half 0 0 0 (-(45/100)) 1).and (mixes_half 0 0 0 (45/100) (-1)))
  refine key.congr fun c => ?_
  show GreyF c ↔ ((0 ≤ 0 * c.a + 2 * c.r + -1 * c.g + 0 * c.b) ∧ (0 ≤ 0 * c.a + -2 * c.r + 1 * c.g + 0 * c.b)) ∧
    ((0 ≤ 0 * c.a + 0 * c.r + -(45/100) * c.g + 1 * c.b) ∧ (0 ≤ 0 * c.a + 0 * c.r + 45/100 * c.g + -1 * c.b))
  unfold GreyF
  constructor
  · rintro ⟨h1, h2⟩; refine ⟨⟨?_, ?_⟩, ?_, ?_⟩ <;> linarith
  · rintro ⟨⟨h1, h2⟩, h3, h4⟩; constructor <;> linarith

theorem greyF_fromRgba (γ : ℝ) {c : RGBA} (h : c.a = 0 ∨ (c.r = c.g ∧ c.g = c.b)) : GreyF (FPixel.fromRgba (gammaLut γ) c) := by
  rw [fromRgba_real]
  unfold GreyF
  rcases h with h | ⟨h1, h2⟩
  · simp [h]
  · rw [h1, h2]; constructor <;> dsimp only <;> ring

theorem grey_round {γ : ℝ} {b : ℕ} (hb : b ≤ 4) {e : PalEntry ℝ} (h : GreyF e.color) :
    ((PalF.roundEntry γ (UInt8.ofNat b) e).2.a = 0 ∨ ((PalF.roundEntry γ (UInt8.ofNat b) e).2.r = (PalF.roundEntry γ (UInt8.ofNat b) e).2.g ∧
      (PalF.roundEntry γ (UInt8.ofNat b) e).2.g = (PalF.roundEntry γ (UInt8.ofNat b) e).2.b)) ∧
    GreyF (PalF.roundEntry γ (UInt8.ofNat b) e).1.color := by
  unfold PalF.roundEntry
  dsimp only
  by_cases ht : e.color.a < 1/256 * (5/8)
  · rw [toRgb_nearly ht, map_zero_post hb]
    refine ⟨.inl ?_, greyF_fromRgba γ (.inl rfl)⟩
    split <;> rfl
  · obtain ⟨h1, h2⟩ := h
    have e1 : 5/8 / (1/2) * e.color.r / e.color.a = 5/8 * e.color.g / e.color.a := by rw [← h1]; ring
    have e2 : 5/8 / (45/100) * e.color.b / e.color.a = 5/8 * e.color.g / e.color.a := by rw [h2]; ring
    rw [toRgb_real ht, e1, e2]
    constructor
    · split
      next hc => exact .inl hc.1
      · exact .inr ⟨rfl, rfl⟩
    · exact greyF_fromRgba γ (.inr ⟨rfl, rfl⟩)

/-- **C52.** Grey input (visible colours with equal channels) gives a grey palette, whatever gammas and posterization
are used. -/
theorem C52_grey {h : Histogram ℝ} (hg : OnlyGiven (fun c => c.a = 0 ∨ (c.r = c.g ∧ c.g = c.b)) h) (env : Env ℝ) (cs : List Call)
    (cb : Option (List ℝ → Bool)) (freeze : Bool) (log log' : List ℝ) (r q : QuantizationResult ℝ)
    (e : h.quantizeInternal env (userAttr cs cb) freeze log = (.ok r, log'))
    (hu : UsesOn (fun _ => True) (fun c => c.a = 0 ∨ (c.r = c.g ∧ c.g = c.b)) r q) :
    ∀ c ∈ q.getPalette.2, c.a = 0 ∨ (c.r = c.g ∧ c.g = c.b) := by
  refine mixes_report (P := GreyF) greyF_mixes (fun γ c _ hc => greyF_fromRgba γ hc) ?_ hg.holds e trivial hu
  intro γ en _ hen
  exact grey_round (userAttr_posterization cs cb) hen

/-! ## The hypotheses can be met -/

theorem Spec.OnlyGiven.mono {Q R : RGBA → Prop} (hQR : ∀ c, Q c → R c) {h : Histogram ℝ} (hg : OnlyGiven Q h) : OnlyGiven R h := by
  induction hg with
  | new attr => exact .new attr
  | image ho attr log _ hpx hf ih =>
    exact .image ho attr log ih (fun rows hr row hrow c hc => hQR _ (hpx rows hr row hrow c hc)) (fun c hc => hQR _ (hf c hc))
  | colors _ hc e ih => exact .colors ih (fun x hx => hQR _ (hc x hx)) e
  | fixed _ hc e ih => exact .fixed ih (hQR _ hc) e

/-- an image with two opaque greys is quantized, remapped with dithering, looked at and given another output gamma -/
example : ∃ (f : ℕ → ℕ → RGBA) (img img' : Image ℝ) (hist : Histogram ℝ) (r q q' : QuantizationResult ℝ) (l1 log' : List ℝ),
    Made f 2 1 0 img ∧ quantizeImage Env.simple (userAttr [] none) img [] = ((.ok r, img'), log') ∧
    hist.quantizeInternal Env.simple (userAttr [] none) false l1 = (.ok r, log') ∧
    OnlyGiven (fun c => c.a = 255) hist ∧ OnlyGiven (fun c => c.a = 0 ∨ (c.r = c.g ∧ c.g = c.b)) hist ∧
    OnlyGiven (InBox ⟨10, 10, 10, 0⟩ ⟨200, 200, 200, 0⟩) hist ∧
    UsesOn (r.gamma = ·) (InBox ⟨10, 10, 10, 0⟩ ⟨200, 200, 200, 0⟩) r q ∧
    q.setOutputGamma (1/2) = .ok q' ∧ UsesOn (fun _ => True) (fun c => c.a = 255) r q' ∧
    UsesOn (fun _ => True) (fun c => c.a = 0 ∨ (c.r = c.g ∧ c.g = c.b)) r q' ∧ q.remapped ≠ none := by
  obtain ⟨img, e⟩ : ∃ img : Image ℝ, Image.newFn (fun _ x => if x = 0 then ⟨10, 10, 10, 255⟩ else ⟨200, 200, 200, 255⟩) 2 1 0 = .ok img := by
    unfold Image.newFn Image.newInternal Image.toU32
    simp [Image.checkImageSize, Bind.bind, Except.bind]
    norm_num
  obtain ⟨r, img', log', eq, huq, hui, hshow, hbg, hw, hh, hγ, hpo, hcb, hlev, hnew, hall⟩ :=
    quantizeImage_few Env.simple [] (by decide) (by decide) (by decide) (.inl e) [⟨10, 10, 10, 255⟩, ⟨200, 200, 200, 255⟩]
      (by decide) (fun y _ x _ => by
        by_cases hx : x = 0
        · exact ⟨⟨10, 10, 10, 255⟩, by simp, .inl (by rw [if_pos hx])⟩
        · exact ⟨⟨200, 200, 200, 255⟩, by simp, .inl (by rw [if_neg hx])⟩) []
  obtain ⟨hist, l1, hg, e'⟩ := quantizeImage_given (.inl e) eq
  have hbuf : img'.width * img'.height ≤ (List.replicate 2 (none : Option UInt8)).length := by rw [hw, hh]; simp
  have hdone := C48_succeeds RemapEnv.simple huq hui (List.replicate 2 none) [] hbuf hcb (fun x => by simp)
  have hpx : ∀ x : ℕ, (if x = 0 then (⟨10, 10, 10, 255⟩ : RGBA) else ⟨200, 200, 200, 255⟩) = ⟨10, 10, 10, 255⟩ ∨
      (if x = 0 then (⟨10, 10, 10, 255⟩ : RGBA) else ⟨200, 200, 200, 255⟩) = ⟨200, 200, 200, 255⟩ := by
    intro x; split
    · exact .inl rfl
    · exact .inr rfl
  have hex : ∀ {R : RGBA → Prop}, R ⟨10, 10, 10, 255⟩ → R ⟨200, 200, 200, 255⟩ →
      ∀ x : ℕ, R (if x = 0 then (⟨10, 10, 10, 255⟩ : RGBA) else ⟨200, 200, 200, 255⟩) := by
    intro R h1 h2 x
    rcases hpx x with h | h <;> rw [h] <;> assumption
  have hgiven : ∀ {R : RGBA → Prop}, R ⟨10, 10, 10, 255⟩ → R ⟨200, 200, 200, 255⟩ → OnlyGiven R hist := by
    intro R h1 h2
    refine hg.mono ?_
    rintro c ⟨y, -, x, -, rfl⟩
    exact hex h1 h2 x
  have huse : ∀ {G : ℝ → Prop} {R : RGBA → Prop}, G img'.px.gamma → R ⟨10, 10, 10, 255⟩ → R ⟨200, 200, 200, 255⟩ →
      UsesOn G R r (remapInto RemapEnv.simple r img' (List.replicate 2 none) []).quant.getPalette.1 := by
    intro G R h0 h1 h2
    exact .palette (.remap RemapEnv.simple _ _ .start hui h0 hshow (fun y _ x _ => hex h1 h2 x))
  obtain ⟨q', hq'⟩ : ∃ q', (remapInto RemapEnv.simple r img' (List.replicate 2 none) []).quant.getPalette.1.setOutputGamma (1/2) = .ok q' := by
    unfold QuantizationResult.setOutputGamma
    rw [if_neg (by norm_num)]
    exact ⟨_, rfl⟩
  refine ⟨_, img, img', hist, r, (remapInto RemapEnv.simple r img' (List.replicate 2 none) []).quant.getPalette.1, q', l1, log',
    .inl e, eq, e', hgiven rfl rfl, hgiven (.inr ⟨rfl, rfl⟩) (.inr ⟨rfl, rfl⟩), hgiven (.inr (by decide)) (.inr (by decide)),
    huse hγ (.inr (by decide)) (.inr (by decide)), hq', .gamma (huse trivial rfl rfl) trivial hq',
    .gamma (huse trivial (.inr ⟨rfl, rfl⟩) (.inr ⟨rfl, rfl⟩)) trivial hq', ?_⟩
  rcases remapInto_quant RemapEnv.simple huq.good hui.good (List.replicate 2 none) [] with ⟨h, -⟩ | ⟨-, p, err, -, h⟩
  · exact absurd hdone h
  · rw [h]
    simp [QuantizationResult.getPalette]

end Verif
