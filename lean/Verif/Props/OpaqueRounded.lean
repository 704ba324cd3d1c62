import Verif.Props.Finite
import Verif.Props.Mixture

/-!
# C78: opaque pictures get opaque palettes, with rounding

C51 says so for exact arithmetic. With rounding the average of equal numbers is no longer that number: the palette has
an alpha near the alpha of the colours, and the conversion to bytes hides the difference as long as it is small. It is
small for up to 2¹⁴ colours; the sum of many weights in single precision loses so much that it is not small in general
(`C78_average_does_not_hold`).
-/

set_option linter.unusedSectionVars false

namespace Verif
open Flt Spec

section rounded
variable {F : Type} [Flt F] [FltMin F]
open FltRound

theorem minOpaque_small : fin (minOpaqueA : F) ∧ val (minOpaqueA : F) ≤ 1 / 2 := by
  obtain ⟨hq, -⟩ := lit32_256th (F := F)
  have hl := lit32_unit (F := F) (q := 5/8) (by norm_num) (by norm_num)
  have h1 : NN 1 (lit32 1 : F) := lit32_unit (by norm_num) (by norm_num)
  have hf : Fits32 ((256 : ℚ) : ℝ) := fits32_nn (b := 256) (by norm_num) (by norm_num) (by norm_num)
  have f2 := (FltRound.lit32 (F := F) 256 hf).1
  have e2 : val (lit32 256 : F) = 256 := by
    rw [FltCorrect.lit32_eq _ hf]
    have := FltCorrect.r32_nat (F := F) 256 (by norm_num)
    push_cast at this ⊢; exact this
  have hd0 : 0 ≤ val (lit32 1 : F) / val (lit32 256 : F) := by rw [e2]; exact div_nonneg h1.lo (by norm_num)
  have hd : val (lit32 1 : F) / val (lit32 256 : F) ≤ 1 / 256 := by
    rw [e2]; exact div_le_div_of_nonneg_right h1.hi (by norm_num)
  obtain ⟨-, rd⟩ := FltRound.div32 (lit32 1 : F) (lit32 256) h1.fin f2 (by rw [e2]; norm_num) (fits32_nn hd0 hd (by norm_num))
  have hq2 := rounds32_le rd hd0 hd
  have p0 := mul_nonneg hq.lo hl.lo
  have p1 : val (lit32 1 /₃ lit32 256 : F) * val (lit32 (5/8) : F) ≤ 1 / 256 * 1.0001 := by
    calc _ ≤ val (lit32 1 /₃ lit32 256 : F) * 1 := mul_le_mul_of_nonneg_left hl.hi hq.lo
      _ ≤ _ := by linarith
  obtain ⟨f, rm⟩ := FltRound.mul32 _ _ hq.fin hl.fin (fits32_nn p0 p1 (by norm_num))
  refine ⟨f, ?_⟩
  have := rounds32_le rm p0 p1
  show val ((lit32 1 /₃ lit32 256 : F) *₃ lit32 (5/8)) ≤ 1 / 2
  linarith

/-- the byte of an alpha that is nearly the largest -/
theorem toRgb_solid {c : FPixel F} (hc : c.UnitFin) (ha : palLo ≤ val c.a) (γ : F) : (c.toRgb γ).a = 255 := by
  have hA := hc.a
  have ha' : (0.6234 : ℝ) ≤ val c.a := ha
  have hA1 := hA.hi
  obtain ⟨fo, ho⟩ := minOpaque_small (F := F)
  have hlt : ¬ (Flt.lt c.a minOpaqueA = true) := by
    rw [FltRound.lt _ _ hA.fin fo]
    intro h; linarith
  have e : (c.toRgb γ).a = Flt.toU8 ((lit32 256 /₃ weightA) *₃ c.a : F) := by
    unfold FPixel.toRgb
    rw [if_neg hlt]
  have hf : Fits32 ((256 : ℚ) : ℝ) := fits32_nn (b := 256) (by norm_num) (by norm_num) (by norm_num)
  have f2 := (FltRound.lit32 (F := F) 256 hf).1
  have e2 : val (lit32 256 : F) = 256 := by
    rw [FltCorrect.lit32_eq _ hf]
    have := FltCorrect.r32_nat (F := F) 256 (by norm_num)
    push_cast at this ⊢; exact this
  have hl := lit32_unit (F := F) (q := 5/8) (by norm_num) (by norm_num)
  obtain ⟨-, rl⟩ := FltRound.lit32 (F := F) (5/8) (by unfold Fits32; norm_num)
  push_cast at rl
  have g1 := rounds_ge rl (by norm_num)
  have g1' := rounds32_le rl (by norm_num) le_rfl
  have t := tiny32_le
  rw [u32_val] at g1
  set w : F := lit32 (5/8) with hw
  have w0 : (0.6249 : ℝ) ≤ val w := by norm_num at g1 t ⊢; linarith
  have w1 : val w ≤ 0.625001 := by norm_num at g1' ⊢; linarith
  have d0 : (409.59 : ℝ) ≤ val (lit32 256 : F) / val w := by rw [e2, le_div_iff₀ (by linarith)]; linarith
  have d1 : val (lit32 256 : F) / val w ≤ 410 := by rw [e2, div_le_iff₀ (by linarith)]; linarith
  obtain ⟨fd, rd⟩ := FltRound.div32 (lit32 256 : F) w f2 hl.fin (by linarith) (fits32_nn (by linarith) d1 (by norm_num))
  have h1 := rounds_ge rd (by linarith)
  have h1' := rounds32_le rd (by linarith) d1
  rw [u32_val] at h1
  have q0 : (409.58 : ℝ) ≤ val (lit32 256 /₃ w : F) := by norm_num at h1 t ⊢; linarith
  have q1 : val (lit32 256 /₃ w : F) ≤ 411 := by norm_num at h1' ⊢; linarith
  have p0 : (255.3 : ℝ) ≤ val (lit32 256 /₃ w : F) * val c.a := by
    calc (255.3 : ℝ) ≤ 409.58 * 0.6234 := by norm_num
      _ ≤ _ := mul_le_mul q0 ha' (by norm_num) (by linarith)
  have p1 : val (lit32 256 /₃ w : F) * val c.a ≤ 411 := by
    calc _ ≤ (411 : ℝ) * 1 := mul_le_mul q1 hA.hi hA.lo (by norm_num)
      _ = _ := by ring
  obtain ⟨fm, rm⟩ := FltRound.mul32 _ _ fd hA.fin (fits32_nn (by linarith) p1 (by norm_num))
  have m0 := rounds_ge rm (by linarith)
  rw [u32_val] at m0
  have m : (255 : ℝ) ≤ val ((lit32 256 /₃ w) *₃ c.a : F) := by norm_num at m0 t ⊢; linarith
  rw [e, show (weightA : F) = w from rfl, FltRound.toU8 _ fm]
  have hfl : 255 ≤ ⌊val ((lit32 256 /₃ w) *₃ c.a : F)⌋₊ := Nat.le_floor (by exact_mod_cast m)
  rw [show Nat.min 255 ⌊val ((lit32 256 /₃ w) *₃ c.a : F)⌋₊ = 255 from min_eq_left hfl]
  rfl

theorem roundEntry_solid {e : PalEntry F} (hc : e.color.UnitFin) (ha : palLo ≤ val e.color.a) (γ : F) {b : ℕ} (hb : b ≤ 4) :
    (PalF.roundEntry γ (UInt8.ofNat b) e).2.a = 255 := by
  have h255 : ∀ b : Fin 5, PalF.posterizeChannel 255 (UInt8.ofNat b) = 255 := by decide +kernel
  have : (PalF.roundEntry γ (UInt8.ofNat b) e).2.a = PalF.posterizeChannel (e.color.toRgb γ).a (UInt8.ofNat b) := by
    unfold PalF.roundEntry
    dsimp only
    split <;> rfl
  rw [this, toRgb_solid hc ha]
  exact h255 ⟨b, by omega⟩

/-- **C78** (arithmetic with rounding). If all colours given to a histogram are opaque, there are at most 2¹⁴ of them, some
colour that is not fixed has a count, and the speed is 5 or above, or 4 (the default) with counts that add up to at most 2²⁸,
then the palette that is reported after quantization has opaque colours only, whatever output gamma is chosen. The full claim has neither the limit on the colours nor the one on the
speed, and speaks about palettes after remapping too. -/
theorem C78_opaque_partial [FltSign F] {h : Histogram F} (hg : OnlyGiven (fun c => c.a = 255) h) (hu : UserHistogram h)
    (hs : UsualSize h) (hc : HasCount h) (hn : (coloursOf h).card ≤ 2 ^ 14) (env : Env F) (cs : List Call)
    (cb : Option (List F → Bool)) (hspeed : FastEnough h cs) (freeze : Bool)
    {log log' : List F} {r : QuantizationResult F} (e : h.quantizeInternal env (userAttr cs cb) freeze log = (.ok r, log')) :
    (∀ c ∈ r.getPalette.2, c.a = 255) ∧ ∀ v q, r.setOutputGamma v = .ok q → ∀ c ∈ q.getPalette.2, c.a = 255 := by
  have hh := hg.holds
  obtain ⟨hp, -⟩ := quantized_fin (op := True) hu hs env cs cb (rounds_of_speed hspeed cb) freeze e
    fun _ => ⟨hc, hn, (insertFixedColors_holds hh env.ho).1, hh.fixed⟩
  have hb : r.minPosterizationOutput ≤ 4 := by
    have : r.minPosterizationOutput = (userAttr (F := F) cs cb).minPosterizationOutput := by
      rcases user_outcome env cs cb h freeze log with ⟨-, -, e'⟩ | ⟨-, e'⟩
      · rw [e] at e'; cases e'
      · rw [e] at e'
        cases e' with
        | ok _ _ _ _ hr => rw [hr.rest]
    rw [this]
    exact userAttr_posterization cs cb
  obtain ⟨-, h1, h2⟩ := quantize_good env cs cb h freeze log log' e
  have key : ∀ γ : F, ∀ c ∈ (r.palette.initIntPalette γ (UInt8.ofNat r.minPosterizationOutput)).2, c.a = 255 := by
    intro γ c hc
    obtain ⟨x, hx, rfl⟩ := List.mem_map.1 hc
    obtain ⟨⟨hx1, -⟩, hx2⟩ := hp x hx
    exact roundEntry_solid hx1 (hx2 trivial) γ hb
  refine ⟨?_, ?_⟩
  · unfold QuantizationResult.getPalette
    rw [h1, h2]
    exact key _
  · intro v q hq
    unfold QuantizationResult.setOutputGamma at hq
    split at hq
    · cases hq
    · cases hq
      unfold QuantizationResult.getPalette
      dsimp only
      rw [h2]
      exact key _

/-- one opaque and one other opaque colour, and a fixed one, quantized to two -/
theorem opaque_case [FltSign F] : ∃ h : Histogram F, OnlyGiven (fun c => c.a = 255) h ∧ UserHistogram h ∧ UsualSize h ∧ MediumSize h ∧
    (coloursOf h).card = 3 ∧ ∀ s, ∃ r log, h.quantizeInternal Env.simple (userAttr [.speed s, .maxColors 2] none) true [] = (.ok r, log) := by
  have z := nn_zero64 (F := F)
  have hz : val (lit64 0 : F) = 0 := le_antisymm z.hi z.lo
  have hf1 : Fits64 ((1 : ℚ) : ℝ) := fits64_nn (b := 1) (by norm_num) (by norm_num) (by norm_num)
  have o := (FltRound.lit64 (F := F) 1 hf1).1
  have ho : val (lit64 1 : F) = 1 := by
    rw [FltFull.lit64_eq _ hf1]
    have := FltFull.r64_nat (F := F) 1 (by norm_num)
    push_cast at this ⊢; exact this
  obtain ⟨h, e1, hh, hf, hg⟩ : ∃ h : Histogram F, (Histogram.new (userAttr [] none)).addColors
      [(⟨255, 0, 0, 255⟩, 3), (⟨0, 255, 0, 255⟩, 5), (⟨0, 0, 255, 255⟩, 9)] (lit64 0) = .ok h ∧
      h.hashmap = [(⟨255, 0, 0, 255⟩, 3, ⟨255, 0, 0, 255⟩), (⟨0, 255, 0, 255⟩, 5, ⟨0, 255, 0, 255⟩), (⟨0, 0, 255, 255⟩, 9, ⟨0, 0, 255, 255⟩)] ∧
      h.fixedColors = [] ∧ h.gamma = none := by
    unfold Histogram.addColors
    rw [if_neg (by simp), if_neg (by
      rw [not_not, FltRound.le _ _ z.fin z.fin, FltRound.lt _ _ z.fin o, hz, ho]; norm_num)]
    refine ⟨_, rfl, ?_⟩
    dsimp only
    rw [if_neg (by rw [FltRound.lt _ _ z.fin z.fin]; simp)]
    refine ⟨?_, rfl, rfl⟩
    have hb : (userAttr [] (none : Option (List F → Bool))).posterizeBits = 0 := rfl
    have k1 : maskColor 0 ⟨255, 0, 0, 255⟩ = ⟨255, 0, 0, 255⟩ := by decide
    have k2 : maskColor 0 ⟨0, 255, 0, 255⟩ = ⟨0, 255, 0, 255⟩ := by decide
    have k3 : maskColor 0 ⟨0, 0, 255, 255⟩ = ⟨0, 0, 255, 255⟩ := by decide
    simp [Histogram.new, Histogram.addColor, hb, k1, k2, k3, ColorMap.upsert]
  have hc : (coloursOf h).card = 3 := by unfold coloursOf; rw [hh, hf]; decide
  refine ⟨h, .colors (.new _) (by decide) e1, .colors (.new _ _) e1,
    ⟨by rw [hc]; norm_num, by rw [hh]; decide, by rw [hg]; exact usualGamma_default⟩, ?_, hc, ?_⟩
  · exact ⟨⟨_, by rw [hh]; exact List.mem_cons_self, by decide, by rw [hf]; simp⟩, by rw [hc]; norm_num, by rw [hh]; decide⟩
  · intro s
    exact C42_succeeds Env.simple _ h true [] rfl (.inl (by rw [hh]; simp))

end rounded

/-- hypotheses of the theorems about opaque colours, for an arithmetic in which operations round and overflow -/
example : ∃ (h : Histogram Over) (r : _) (log : _), OnlyGiven (fun c => c.a = 255) h ∧ UserHistogram h ∧ UsualSize h ∧ HasCount h ∧
    (coloursOf h).card ≤ 2 ^ 14 ∧ FastEnough h [.speed 4, .maxColors 2] ∧
    h.quantizeInternal Env.simple (userAttr [.speed 4, .maxColors 2] none) true [] = (.ok r, log) := by
  obtain ⟨h, hg, hu, hs, hc, h3, key⟩ := opaque_case (F := Over)
  obtain ⟨r, log, e⟩ := key 4
  exact ⟨h, r, log, hg, hu, hs, hc.counted, by rw [h3]; norm_num, .inr ⟨by decide, hc.counted, hc.counts⟩, e⟩

/-! ## Many colours -/

section near
open FltRound FltCorrect

/-- What single precision does with numbers between 2²³ and 2²⁴, which are represented if they are whole numbers, and with
three small fractions, which are represented. -/
structure Spec.NearestAbove (F : Type) [Flt F] [FltCorrect F] : Prop where
  whole : ∀ n : ℕ, 2 ^ 23 < n → n < 2 ^ 24 → ∀ x : ℝ, |x - n| < 1 / 2 → r32 F x = n
  weight : r32 F (3 / 4) = 3 / 4
  alpha : r32 F (5 / 8) = 5 / 8
  product : r32 F (15 / 32) = 15 / 32

variable {F : Type} [Flt F] [FltCorrect F]

theorem lit32_exact {q : ℚ} {b : ℝ} (h0 : (0 : ℝ) ≤ q) (h1 : (q : ℝ) ≤ b) (hb : b ≤ 2 ^ 127) (e : r32 F q = q) :
    fin (lit32 q : F) ∧ val (lit32 q : F) = q := by
  have hf := fits32_nn h0 h1 hb
  exact ⟨(FltRound.lit32 (F := F) q hf).1, by rw [FltCorrect.lit32_eq _ hf, e]⟩

theorem opaque_exact (hN : NearestAbove F) {lut : UInt8 → F} {c : RGBA} (hc : c.a = 255) :
    fin (FPixel.fromRgba lut c).a ∧ val (FPixel.fromRgba lut c).a = 5 / 8 := by
  have e255 : r32 F ((255 : ℚ) : ℝ) = ((255 : ℚ) : ℝ) := by
    have := r32_nat (F := F) 255 (by norm_num)
    push_cast at this ⊢; exact this
  have e58 : r32 F ((5/8 : ℚ) : ℝ) = ((5/8 : ℚ) : ℝ) := by
    have := hN.alpha
    push_cast; exact this
  obtain ⟨f, v⟩ := lit32_exact (F := F) (q := 255) (b := 255) (by norm_num) (by norm_num) (by norm_num) e255
  obtain ⟨f2, v2⟩ := lit32_exact (F := F) (q := 5/8) (b := 1) (by norm_num) (by norm_num) (by norm_num) e58
  have hq : val (lit32 255 : F) / val (lit32 255 : F) = 1 := by rw [v]; norm_num
  have hne : val (lit32 255 : F) ≠ 0 := by rw [v]; norm_num
  have hfd : Fits32 (val (lit32 255 : F) / val (lit32 255 : F)) := by
    rw [hq]; exact fits32_nn (b := 1) (by norm_num) (by norm_num) (by norm_num)
  have fd := (FltRound.div32 (lit32 255 : F) (lit32 255) f f hne hfd).1
  have ed := FltCorrect.div32_eq (lit32 255 : F) (lit32 255) f f hne hfd
  rw [hq] at ed
  have e1 : val (lit32 255 /₃ lit32 255 : F) = 1 := by
    rw [ed]
    have := r32_nat (F := F) 1 (by norm_num)
    push_cast at this; exact this
  have hp : Fits32 (val (lit32 255 /₃ lit32 255 : F) * val (lit32 (5/8) : F)) := by
    rw [e1, v2]; exact fits32_nn (b := 1) (by norm_num) (by norm_num) (by norm_num)
  have fm := (FltRound.mul32 _ _ fd f2 hp).1
  have em := FltCorrect.mul32_eq _ _ fd f2 hp
  have hx : (FPixel.fromRgba lut c).a = ((lit32 255 /₃ lit32 255 : F) *₃ lit32 (5/8)) := by
    unfold FPixel.fromRgba
    rw [hc]
    rfl
  rw [hx]
  refine ⟨fm, ?_⟩
  rw [em, e1, v2, one_mul, e58]
  push_cast; rfl

/-- items of an opaque colour with a weight -/
def Spec.OpaqueItem (lut : UInt8 → F) (w : ℝ) (x : HistItem F) : Prop :=
  (∃ c : RGBA, c.a = 255 ∧ x.color = FPixel.fromRgba lut c) ∧ fin x.adjustedWeight ∧ val x.adjustedWeight = w

theorem add_near (hN : NearestAbove F) {x y : F} (hx : fin x) (hy : fin y) (n : ℕ) (h1 : 2 ^ 23 < n) (h2 : n < 2 ^ 24)
    (h : |val x + val y - n| < 1 / 2) : fin (x +₃ y) ∧ val (x +₃ y) = n := by
  have hn : (n : ℝ) ≤ 2 ^ 24 := by exact_mod_cast h2.le
  have hn0 : (0 : ℝ) ≤ n := by positivity
  have hf : Fits32 (val x + val y) := by
    obtain ⟨a, b⟩ := abs_lt.1 h
    have hn1 : (2 ^ 23 : ℝ) ≤ n := by exact_mod_cast h1.le
    exact fits32_nn (b := 2 ^ 25) (by linarith) (by linarith) (by norm_num)
  exact ⟨(FltRound.add32 _ _ hx hy hf).1, by rw [FltCorrect.add32_eq _ _ hx hy hf]; exact hN.whole n h1 h2 _ h⟩

theorem light_steps (hN : NearestAbove F) {lut : UInt8 → F} (ls : List (HistItem F)) (hls : ∀ l ∈ ls, OpaqueItem lut (3/4) l)
    (k : ℕ) (hk : k + ls.length ≤ 65536) (s : F × FPixel F) (h1 : fin s.1) (h2 : val s.1 = 13421776 + k) (h3 : fin s.2.a)
    (h4 : val s.2.a = 8388610) : let t := ls.foldl avgStep s
    fin t.1 ∧ val t.1 = 13421776 + (k + ls.length : ℕ) ∧ fin t.2.a ∧ val t.2.a = 8388610 := by
  induction ls generalizing k s with
  | nil => simpa using ⟨h1, h2, h3, h4⟩
  | cons l ls ih =>
    rw [List.length_cons] at hk ⊢
    obtain ⟨⟨c, hc, hl⟩, fw, vw⟩ := hls l (by simp)
    obtain ⟨fa, va⟩ := opaque_exact hN (lut := lut) hc
    rw [← hl] at fa va
    have hp : Fits32 (val l.color.a * val l.adjustedWeight) := by
      rw [va, vw]; exact fits32_nn (b := 1) (by norm_num) (by norm_num) (by norm_num)
    have fp := (FltRound.mul32 _ _ fa fw hp).1
    have ep := FltCorrect.mul32_eq _ _ fa fw hp
    rw [va, vw, show (5 / 8 * (3 / 4) : ℝ) = 15 / 32 by norm_num, hN.product] at ep
    obtain ⟨fs, vs⟩ := add_near hN h1 fw (13421776 + (k + 1)) (by norm_num; omega) (by norm_num; omega)
      (by rw [h2, vw]; push_cast; rw [abs_lt]; constructor <;> linarith)
    obtain ⟨ft, vt⟩ := add_near hN h3 fp 8388610 (by norm_num) (by norm_num) (by rw [h4, ep]; push_cast; rw [abs_lt]; constructor <;> linarith)
    rw [List.foldl_cons, show k + (ls.length + 1) = k + 1 + ls.length by omega]
    exact ih (fun x hx => hls x (by simp [hx])) (k + 1) (by omega) (avgStep s l) fs (by rw [← Nat.cast_ofNat (R := ℝ)]; push_cast at vs ⊢; exact vs) ft
      (by push_cast at vt; exact vt)

/-- **C78** does not hold for the average of many colours (`mediancut.rs:316-328`): with rounding to the nearest number,
the average of 65537 opaque colours, of which one is heavy, becomes a palette entry with alpha 254. -/
theorem C78_average_does_not_hold (hN : NearestAbove F) (lut : UInt8 → F) (heavy : HistItem F) (light : List (HistItem F))
    (hh : OpaqueItem lut 13421776 heavy) (hl : ∀ l ∈ light, OpaqueItem lut (3/4) l) (hn : light.length = 65536) (γ : F) :
    ((weighedAverageColor (heavy :: light)).toRgb γ).a = 254 := by
  have e256 : r32 F ((256 : ℚ) : ℝ) = ((256 : ℚ) : ℝ) := by
    have := r32_nat (F := F) 256 (by norm_num)
    push_cast at this ⊢; exact this
  have e58 : r32 F ((5/8 : ℚ) : ℝ) = ((5/8 : ℚ) : ℝ) := by
    have := hN.alpha
    push_cast; exact this
  have e0 : r32 F ((0 : ℚ) : ℝ) = ((0 : ℚ) : ℝ) := by
    have := r32_nat (F := F) 0 (by norm_num)
    push_cast at this ⊢; exact this
  have e1 : r32 F ((1 : ℚ) : ℝ) = ((1 : ℚ) : ℝ) := by
    have := r32_nat (F := F) 1 (by norm_num)
    push_cast at this ⊢; exact this
  obtain ⟨fz, vz⟩ := lit32_exact (F := F) (q := 0) (b := 1) (by norm_num) (by norm_num) (by norm_num) e0
  obtain ⟨fo, vo⟩ := lit32_exact (F := F) (q := 1) (b := 1) (by norm_num) (by norm_num) (by norm_num) e1
  obtain ⟨f2, v2⟩ := lit32_exact (F := F) (q := 256) (b := 256) (by norm_num) (by norm_num) (by norm_num) e256
  obtain ⟨fA, vA⟩ := lit32_exact (F := F) (q := 5/8) (b := 1) (by norm_num) (by norm_num) (by norm_num) e58
  push_cast at vz vo v2 vA
  have t := tiny32_le
  -- the sums
  obtain ⟨⟨c, hc, hcol⟩, fw, vw⟩ := hh
  obtain ⟨fa, va⟩ := opaque_exact hN (lut := lut) hc
  rw [← hcol] at fa va
  have hp : Fits32 (val heavy.color.a * val heavy.adjustedWeight) := by
    rw [va, vw]; exact fits32_nn (b := 2 ^ 24) (by norm_num) (by norm_num) (by norm_num)
  have fp := (FltRound.mul32 _ _ fa fw hp).1
  have ep := FltCorrect.mul32_eq _ _ fa fw hp
  rw [va, vw, show (5 / 8 * 13421776 : ℝ) = ((8388610 : ℕ) : ℝ) by norm_num, r32_nat (F := F) 8388610 (by norm_num)] at ep
  obtain ⟨fs, vs⟩ := add_near hN fz fw 13421776 (by norm_num) (by norm_num) (by rw [vz, vw]; norm_num)
  obtain ⟨ft, vt⟩ := add_near hN fz fp 8388610 (by norm_num) (by norm_num) (by rw [vz, ep]; norm_num)
  obtain ⟨g1, g2, g3, g4⟩ := light_steps hN light hl 0 (by omega) (avgStep (lit32 0, FPixel.default) heavy) fs
    (by show val (lit32 0 +₃ heavy.adjustedWeight) = _; rw [vs]; push_cast; norm_num) ft
    (by show val (lit32 0 +₃ heavy.color.a *₃ heavy.adjustedWeight) = _; rw [vt]; push_cast; norm_num)
  rw [← List.foldl_cons] at g1 g2 g3 g4
  set u := (heavy :: light).foldl avgStep (lit32 0, FPixel.default) with hu
  rw [hn] at g2
  push_cast at g2
  have hS : val u.1 = 13487312 := by rw [g2]; norm_num
  have hne : ¬ (Flt.eq u.1 (lit32 0) = true) := by
    rw [FltRound.eq _ _ g1 fz, hS, vz]; norm_num
  have hav : weighedAverageColor (heavy :: light) = ⟨u.2.a /₃ u.1, u.2.r /₃ u.1, u.2.g /₃ u.1, u.2.b /₃ u.1⟩ := by
    unfold weighedAverageColor
    rw [← hu]
    simp only [Bool.not_eq_true] at hne
    simp [hne]
  -- the average
  have q0 : (0.6219 : ℝ) ≤ val u.2.a / val u.1 := by rw [g4, hS]; norm_num
  have q1 : val u.2.a / val u.1 ≤ 0.622 := by rw [g4, hS]; norm_num
  obtain ⟨fq, rq⟩ := FltRound.div32 _ _ g3 g1 (by rw [hS]; norm_num) (fits32_nn (by linarith) q1 (by norm_num))
  have a0 := rounds_ge rq (by linarith)
  have a1 := rounds32_le rq (by linarith) q1
  rw [u32_val] at a0
  set a := u.2.a /₃ u.1 with ha
  have a0' : (0.6218 : ℝ) ≤ val a := by norm_num at a0 t q0 ⊢; linarith
  have a1' : val a ≤ 0.6221 := by norm_num at a1 ⊢; linarith
  -- not transparent
  obtain ⟨f3, r3⟩ := FltRound.div32 (lit32 1 : F) (lit32 256) fo f2 (by rw [v2]; norm_num)
    (by rw [vo, v2]; exact fits32_nn (b := 1) (by norm_num) (by norm_num) (by norm_num))
  rw [vo, v2] at r3
  have b0 := rounds_ge r3 (by norm_num)
  have b1 := rounds32_le r3 (by norm_num) le_rfl
  rw [u32_val] at b0
  have b0' : 0 ≤ val (lit32 1 /₃ lit32 256 : F) := by norm_num at b0 t ⊢; linarith
  have b1' : val (lit32 1 /₃ lit32 256 : F) ≤ 1 / 10 := by norm_num at b1 ⊢; linarith
  have hfm := fits32_nn (mul_nonneg b0' (by norm_num : (0:ℝ) ≤ 5 / 8)) (b := 1) (by linarith) (by norm_num)
  rw [← vA] at hfm
  obtain ⟨f4, r4⟩ := FltRound.mul32 _ _ f3 fA hfm
  rw [vA] at r4
  have c1 := rounds32_le r4 (mul_nonneg b0' (by norm_num)) (show _ ≤ (1 / 10 : ℝ) by linarith)
  have hlt : ¬ (Flt.lt a minOpaqueA = true) := by
    rw [show (minOpaqueA : F) = (lit32 1 /₃ lit32 256) *₃ lit32 (5/8) from rfl, FltRound.lt _ _ fq f4]
    intro h; norm_num at c1; linarith
  rw [hav]
  have e : (FPixel.toRgb ⟨a, u.2.r /₃ u.1, u.2.g /₃ u.1, u.2.b /₃ u.1⟩ γ).a = Flt.toU8 ((lit32 256 /₃ weightA) *₃ a : F) := by
    unfold FPixel.toRgb
    rw [if_neg hlt]
  rw [e, show (weightA : F) = Flt.lit32 (5/8) from rfl]
  -- the byte
  have d0 : val (lit32 256 : F) / val (lit32 (5/8) : F) = 409.6 := by rw [v2, vA]; norm_num
  obtain ⟨f5, r5⟩ := FltRound.div32 (lit32 256 : F) (lit32 (5/8)) f2 fA (by rw [vA]; norm_num)
    (by rw [d0]; exact fits32_nn (b := 512) (by norm_num) (by norm_num) (by norm_num))
  rw [d0] at r5
  have h0 := rounds_ge r5 (by norm_num)
  have h1 := rounds32_le r5 (by norm_num) le_rfl
  rw [u32_val] at h0
  have h0' : (409.59 : ℝ) ≤ val (lit32 256 /₃ lit32 (5/8) : F) := by norm_num at h0 t ⊢; linarith
  have h1' : val (lit32 256 /₃ lit32 (5/8) : F) ≤ 409.61 := by norm_num at h1 ⊢; linarith
  have p0 : (254.6 : ℝ) ≤ val (lit32 256 /₃ lit32 (5/8) : F) * val a := by
    calc (254.6 : ℝ) ≤ 409.59 * 0.6218 := by norm_num
      _ ≤ _ := mul_le_mul h0' a0' (by norm_num) (by linarith)
  have p1 : val (lit32 256 /₃ lit32 (5/8) : F) * val a ≤ 254.9 := by
    calc _ ≤ (409.61 : ℝ) * 0.6221 := mul_le_mul h1' a1' (by linarith) (by norm_num)
      _ ≤ _ := by norm_num
  obtain ⟨f6, r6⟩ := FltRound.mul32 _ _ f5 fq (fits32_nn (by linarith) p1 (by norm_num))
  have m0 := rounds_ge r6 (by linarith)
  have m1 := rounds32_le r6 (by linarith) p1
  rw [u32_val] at m0
  rw [FltRound.toU8 _ f6]
  have hfl : ⌊val ((lit32 256 /₃ lit32 (5/8)) *₃ a : F)⌋₊ = 254 := by
    rw [Nat.floor_eq_iff (by norm_num at m0 t ⊢; linarith)]
    push_cast
    constructor
    · norm_num at m0 t ⊢; linarith
    · norm_num at m1 ⊢; linarith
  rw [hfl]
  rfl

end near

/-- between 2²³ and 2²⁴ to the nearest whole number, otherwise exact -/
noncomputable def nearWhole (x : ℝ) : ℝ := if 2 ^ 23 ≤ x ∧ x ≤ 2 ^ 24 then (round x : ℝ) else x

theorem nearWhole_mono : Monotone nearWhole := by
  have hr : ∀ {x y : ℝ}, x ≤ y → ((round x : ℤ) : ℝ) ≤ round y := by
    intro x y h
    rw [round_eq, round_eq]
    exact_mod_cast Int.floor_le_floor (by linarith)
  have e23 : ((round (2 ^ 23 : ℝ) : ℤ) : ℝ) = 2 ^ 23 := by
    have := round_natCast (α := ℝ) (2 ^ 23)
    norm_num at this ⊢
  have e24 : ((round (2 ^ 24 : ℝ) : ℤ) : ℝ) = 2 ^ 24 := by
    have := round_natCast (α := ℝ) (2 ^ 24)
    norm_num at this ⊢
  intro x y h
  unfold nearWhole
  split <;> split
  · exact hr h
  next h1 h2 =>
    have : (2:ℝ) ^ 24 ≤ y := by
      by_contra hn
      exact h2 ⟨h1.1.trans h, by linarith⟩
    exact ((hr h1.2).trans_eq e24).trans this
  next h1 h2 =>
    have : x ≤ (2:ℝ) ^ 23 := by
      by_contra hn
      exact h1 ⟨by linarith, h.trans h2.2⟩
    exact this.trans (e23.symm.trans_le (hr h2.1))
  · exact h

noncomputable def nearRounding : Rounding where
  r32 := nearWhole
  r64 := id
  ok32 r _ := by
    unfold nearWhole
    split
    next h =>
      refine ⟨?_, fun h0 => ?_⟩
      · have h1 := abs_sub_round r
        rw [abs_sub_comm] at h1
        rw [abs_of_nonneg (by linarith [h.1] : (0:ℝ) ≤ r), u32_val]
        have : 0 ≤ tiny32 := by unfold tiny32; positivity
        linarith [h.1]
      · rw [h0] at h; norm_num at h
    · refine ⟨?_, id⟩
      rw [sub_self, abs_zero]
      unfold u32 tiny32
      positivity
  ok64 r _ := by
    refine ⟨?_, id⟩
    rw [id, sub_self, abs_zero]
    unfold u64 tiny64
    positivity

noncomputable instance : FltCorrect (RoundedReal nearRounding) where
  r32 := nearRounding.r32
  r32_mono := nearWhole_mono
  r32_nat n h := by
    show nearWhole n = n
    unfold nearWhole
    rw [round_natCast]
    split <;> simp
  lit32_eq _ _ := rfl
  add32_eq _ _ _ _ _ := rfl
  sub32_eq _ _ _ _ _ := rfl
  mul32_eq _ _ _ _ _ := rfl
  div32_eq _ _ _ _ _ _ := rfl
  fma32_eq _ _ _ _ _ _ _ := rfl

theorem nearWhole_above : NearestAbove (RoundedReal nearRounding) where
  whole n h1 h2 x hx := by
    show nearWhole x = n
    obtain ⟨a, b⟩ := abs_lt.1 hx
    have h1' : (2 ^ 23 + 1 : ℝ) ≤ n := by exact_mod_cast h1
    have h2' : (n : ℝ) + 1 ≤ 2 ^ 24 := by exact_mod_cast h2
    unfold nearWhole
    rw [if_pos ⟨by linarith, by linarith⟩]
    have : round x = (n : ℤ) := by
      rw [round_eq, Int.floor_eq_iff]
      push_cast
      constructor <;> linarith
    rw [this]; simp
  weight := by show nearWhole _ = _; unfold nearWhole; norm_num
  alpha := by show nearWhole _ = _; unfold nearWhole; norm_num
  product := by show nearWhole _ = _; unfold nearWhole; norm_num

/-- hypotheses of `C78_average_does_not_hold` -/
example : ∃ (heavy : HistItem (RoundedReal nearRounding)) (light : List (HistItem (RoundedReal nearRounding))),
    NearestAbove (RoundedReal nearRounding) ∧ OpaqueItem (gammaLut (lit64 (45455/100000))) 13421776 heavy ∧
    (∀ l ∈ light, OpaqueItem (gammaLut (lit64 (45455/100000))) (3/4) l) ∧ light.length = 65536 := by
  refine ⟨⟨FPixel.fromRgba (gammaLut (lit64 (45455/100000))) ⟨0, 0, 0, 255⟩, ⟨13421776⟩, ⟨13421776⟩, ⟨0⟩, 0⟩,
    (List.range 65536).map fun n => ⟨FPixel.fromRgba (gammaLut (lit64 (45455/100000))) ⟨UInt8.ofNat n, UInt8.ofNat (n / 256), 1, 255⟩, ⟨3/4⟩, ⟨3/4⟩, ⟨0⟩, 0⟩,
    nearWhole_above, ⟨⟨_, rfl, rfl⟩, trivial, rfl⟩, ?_, by simp⟩
  intro l hl
  obtain ⟨n, -, rfl⟩ := List.mem_map.1 hl
  exact ⟨⟨⟨UInt8.ofNat n, UInt8.ofNat (n / 256), 1, 255⟩, rfl, rfl⟩, trivial, rfl⟩

end Verif
