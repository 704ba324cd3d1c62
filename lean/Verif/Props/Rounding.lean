import Verif.Props.Mixture
import Verif.Props.Gamma
import Verif.Props.Posterize
import Verif.Lemmas.KmeansPass
import Verif.Lemmas.ContrastSpec
import Verif.Spec.Rounding

/-! # C65: how the palette is reported -/

set_option linter.unusedSectionVars false

namespace Verif
open Flt Spec Kmeans

/-- the bytes of a colour -/
def RGBA.bytes (c : RGBA) : ℕ × ℕ × ℕ × ℕ := (c.r.toNat, c.g.toNat, c.b.toNat, c.a.toNat)

theorem toNat_posterize_toU8 {b : ℕ} (hb : b ≤ 4) (v : ℝ) :
    (PalF.posterizeChannel (toU8 (v * 256)) (UInt8.ofNat b)).toNat = shownByte b v := by
  rw [posterizeChannel_eq hb, byteOf_real, shownByte, mul_comm]

/-- the 8-bit entry made from a float entry -/
theorem roundEntry_reported (γ : ℝ) {b : ℕ} (hb : b ≤ 4) (e : PalEntry ℝ) :
    let c := (PalF.roundEntry γ (UInt8.ofNat b) e).2
    Reported γ b (slotOf e) c.r.toNat c.g.toNat c.b.toNat c.a.toNat := by
  intro c
  have hop : opacity (slotOf e).color = e.color.a / 0.625 := rfl
  have hz : PalF.posterizeChannel 0 (UInt8.ofNat b) = 0 := by
    rw [← UInt8.toNat_inj, posterizeChannel_eq hb]
    simp [posterize]
  by_cases h : e.color.a < 1/256 * (5/8)
  · have hlt : opacity (slotOf e).color < 1/256 := by
      rw [hop, div_lt_iff₀ (by norm_num)]
      calc _ < _ := h
        _ = _ := by norm_num
    have hc : c = if e.pop.isFixed = true then ⟨0, 0, 0, 0⟩ else ⟨71, 112, 76, 0⟩ := by
      show (PalF.roundEntry γ (UInt8.ofNat b) e).2 = _
      unfold PalF.roundEntry
      rw [toRgb_nearly h]
      simp only [RGBA.map, hz]
      by_cases hf : e.pop.isFixed = true
      · simp [hf]
      · simp [hf]
    have hfx : (slotOf e).fixed = e.pop.isFixed := rfl
    refine ⟨fun _ => ?_, fun h' => absurd hlt (not_lt.mpr h'), fun _ hn => ?_, fun _ hf => ?_, fun h' => absurd hlt (not_lt.mpr h')⟩
    · rw [hc]; split <;> rfl
    · rw [hfx] at hn
      rw [hc, hn]; exact ⟨rfl, rfl, rfl⟩
    · rw [hfx] at hf
      rw [hc, hf]; exact ⟨rfl, rfl, rfl⟩
  · have hge : ¬ opacity (slotOf e).color < 1/256 := by
      rw [hop, div_lt_iff₀ (by norm_num)]
      intro h'
      apply h
      calc _ < _ := h'
        _ = _ := by norm_num
    have ha0 : e.color.a ≠ 0 := by
      rintro h0
      rw [h0] at h; norm_num at h
    generalize hp : (e.color.toRgb γ).map (fun c => PalF.posterizeChannel c (UInt8.ofNat b)) = px
    have hc : c = if px.a = 0 ∧ ¬ e.pop.isFixed = true then { px with r := 71, g := 112, b := 76 } else px := by
      show (PalF.roundEntry γ (UInt8.ofNat b) e).2 = _
      unfold PalF.roundEntry
      rw [← hp]
    have hca : c.a = px.a := by rw [hc]; split <;> rfl
    have hpa : px.a.toNat = shownByte b (opacity (slotOf e).color) := by
      rw [← hp, toRgb_real h, hop]
      simp only [RGBA.map]
      rw [show (256 / (5/8) * e.color.a : ℝ) = e.color.a / 0.625 * 256 by ring, toNat_posterize_toU8 hb]
    have hfx : (slotOf e).fixed = e.pop.isFixed := rfl
    refine ⟨fun h' => absurd h' hge, fun _ => by rw [hca, hpa], fun h0 hn => ?_, fun h' => absurd h' hge, fun _ hv => ?_⟩
    · rw [hfx] at hn
      rw [hc, if_pos ⟨by rw [← UInt8.toNat_inj, ← hca]; exact h0, by simp [hn]⟩]
      exact ⟨rfl, rfl, rfl⟩
    · have hne : ¬ (px.a = 0 ∧ ¬ e.pop.isFixed = true) := by
        rintro ⟨k1, k2⟩
        rcases hv with hv | hv
        · exact hv (by rw [hca, k1]; rfl)
        · exact k2 hv
      rw [hc, if_neg hne, ← hp, toRgb_real h, hop]
      have hs : (slotOf e).color = e.color.spec := rfl
      simp only [RGBA.map, toNat_posterize_toU8 hb]
      have h57 : (57 / 100 : ℝ) = 0.57 := by norm_num
      rw [h57]
      refine ⟨?_, ?_, ?_⟩
      · congr 2
        rw [hs]; simp only [FPixel.spec]; field_simp; ring
      · congr 2
        rw [hs]; simp only [FPixel.spec]; field_simp; norm_num; ring
      · congr 2
        rw [hs]; simp only [FPixel.spec]; field_simp; norm_num; ring

theorem initIntPalette_reported (γ : ℝ) {b : ℕ} (hb : b ≤ 4) (p : PalF ℝ) :
    ReportedAll γ b (slots p) ((p.initIntPalette γ (UInt8.ofNat b)).2.map RGBA.bytes) := by
  refine ⟨by simp [PalF.initIntPalette, slots], fun i s c hs hc => ?_⟩
  simp only [slots, List.getElem?_map, PalF.initIntPalette, Option.map_eq_some_iff] at hs hc
  obtain ⟨e, he, rfl⟩ := hs
  obtain ⟨c', ⟨e', he', rfl⟩, rfl⟩ := hc
  rw [he] at he'
  cases he'
  exact roundEntry_reported γ hb e

/-- results have accepted posterizations -/
theorem UserResult.post_le {F : Type} [Flt F] [FltSign F] {q : QuantizationResult F} (h : UserResult q) : q.minPosterizationOutput ≤ 4 := by
  induction h with
  | quantized env cs cb h freeze log log' e => rw [quantized_post e]; exact userAttr_post_le cs
  | level _ h ih =>
    unfold QuantizationResult.setDitheringLevel at h
    split at h
    · cases h; exact ih
    · cases h
  | gamma _ h ih =>
    unfold QuantizationResult.setOutputGamma at h
    split at h
    · cases h
    · cases h; exact ih
  | callback _ _ ih => exact ih
  | palette _ ih =>
    unfold QuantizationResult.getPalette
    split
    · exact ih
    · split <;> exact ih
  | clone _ ih => exact ih
  | remap env buf log hq hi ih =>
    rcases remapInto_quant env hq.good hi.good buf log with ⟨-, h⟩ | ⟨-, p, err, -, h⟩ <;> rw [h] <;> exact ih

/-- **C65** (exact arithmetic). The palette that a fresh result reports is the rounded palette: with the given gamma, in
order, and posterized as asked for. -/
theorem C65_fresh {q : QuantizationResult ℝ} (hq : UserResult q) (h1 : q.remapped = none) (h2 : q.intPalette = []) :
    ReportedAll q.gamma q.minPosterizationOutput (slots q.palette) (q.getPalette.2.map RGBA.bytes) := by
  unfold QuantizationResult.getPalette
  rw [h1, h2]
  exact initIntPalette_reported _ hq.post_le _

/-- The same after a remap without dithering. -/
theorem C65_remapped (env : RemapEnv ℝ) {q : QuantizationResult ℝ} (hq : UserResult q) {img : Image ℝ} (hi : UserImage img)
    (buf : List (Option UInt8)) (log : List ℝ) (hl : q.ditherLevel = 0) (hok : (remapInto env q img buf log).res = .ok ()) :
    ReportedAll q.gamma q.minPosterizationOutput (slots q.palette)
      ((remapInto env q img buf log).quant.getPalette.2.map RGBA.bytes) := by
  obtain ⟨n, -, -, h, -⟩ := remapInto_plain env hq.good hi.good buf log (by rw [real_eq, hl]; simp) hok
  rw [h]
  exact initIntPalette_reported _ hq.post_le _

/-- Every reported byte is less than one step away from the exact value, if there is no posterization. -/
theorem C65_error {v : ℝ} (h0 : 0 ≤ v) (h1 : v ≤ 1) : |(shownByte 0 v : ℝ) - 255 * v| < 1 := by
  have hp : ∀ n ≤ 255, posterize 0 n = n := by
    intro n hn
    simp only [posterize, pow_zero, Nat.div_one, mul_one]
    omega
  unfold shownByte
  rw [hp _ (by unfold byteOf; omega)]
  unfold byteOf
  have hf := Nat.floor_le (show 0 ≤ 256 * v by positivity)
  have hlt := Nat.lt_floor_add_one (256 * v)
  rw [abs_lt]
  by_cases hc : ⌊256 * v⌋₊ ≤ 255
  · rw [min_eq_right hc]
    have hv : v < 1 := by
      by_contra hv
      have : v = 1 := le_antisymm h1 (not_lt.mp hv)
      rw [this, mul_one] at hc
      have : ⌊(256 : ℝ)⌋₊ = 256 := by exact_mod_cast Nat.floor_natCast (R := ℝ) 256
      omega
    constructor <;> linarith
  · rw [min_eq_left (by omega)]
    have : (256 : ℝ) ≤ ⌊256 * v⌋₊ := by exact_mod_cast (show 256 ≤ ⌊256 * v⌋₊ by omega)
    push_cast
    constructor <;> linarith

/-- What is reported is determined by the entry. -/
theorem C65_unique {γ : ℝ} {bits : ℕ} {s : Slot} {r g b a r' g' b' a' : ℕ} (h : Reported γ bits s r g b a)
    (h' : Reported γ bits s r' g' b' a') : r = r' ∧ g = g' ∧ b = b' ∧ a = a' := by
  have ha : a = a' := by
    by_cases hc : opacity s.color < 1/256
    · rw [h.faint hc, h'.faint hc]
    · rw [h.alpha (not_lt.mp hc), h'.alpha (not_lt.mp hc)]
  subst ha
  by_cases h0 : a = 0 ∧ s.fixed = false
  · obtain ⟨k1, k2, k3⟩ := h.hidden h0.1 h0.2
    obtain ⟨l1, l2, l3⟩ := h'.hidden h0.1 h0.2
    exact ⟨by rw [k1, l1], by rw [k2, l2], by rw [k3, l3], rfl⟩
  · have hv : a ≠ 0 ∨ s.fixed = true := by
      by_cases hz : a = 0
      · right
        cases hf : s.fixed with
        | true => rfl
        | false => exact absurd ⟨hz, hf⟩ h0
      · exact .inl hz
    by_cases hc : opacity s.color < 1/256
    · have hf : s.fixed = true := by
        rcases hv with hv | hv
        · exact absurd (h.faint hc) hv
        · exact hv
      obtain ⟨k1, k2, k3⟩ := h.black hc hf
      obtain ⟨l1, l2, l3⟩ := h'.black hc hf
      exact ⟨by rw [k1, l1], by rw [k2, l2], by rw [k3, l3], rfl⟩
    · obtain ⟨k1, k2, k3⟩ := h.channels (not_lt.mp hc) hv
      obtain ⟨l1, l2, l3⟩ := h'.channels (not_lt.mp hc) hv
      exact ⟨by rw [k1, l1], by rw [k2, l2], by rw [k3, l3], rfl⟩

/-! ### Examples -/

/-- a fresh result with at least one colour -/
example : ∃ q : QuantizationResult ℝ, UserResult q ∧ q.remapped = none ∧ q.intPalette = [] ∧ 0 < q.palette.length := by
  obtain ⟨r, log', e⟩ := C42_succeeds (F := ℝ) Env.simple [] exampleHistogram true [] rfl (Or.inl (by simp [exampleHistogram]))
  have hr : UserResult r := .quantized _ _ _ _ _ _ _ e
  refine ⟨r, hr, ?_, ?_, hr.good.pos⟩ <;>
  · rcases user_outcome Env.simple [] (none : Option (List ℝ → Bool)) exampleHistogram true [] with ⟨-, -, e'⟩ | ⟨-, e'⟩
    · rw [e] at e'; cases e'
    · rw [e] at e'
      cases e' with
      | ok _ _ _ _ hr => rw [hr.rest]

/-- half opaque: white, the internal gamma, is reported with opacity 128 -/
example : Reported 0.57 0 ⟨⟨0.3125, 0.25, 0.5, 0.225⟩, 1, false⟩ 255 255 255 128 := by
  have hf : ∀ n : ℕ, ⌊(n : ℝ)⌋₊ = n := fun n => Nat.floor_natCast n
  have h1 : shownByte 0 1 = 255 := by
    unfold shownByte byteOf
    rw [show (256 * 1 : ℝ) = ((256 : ℕ) : ℝ) by norm_num, hf]; decide
  have h2 : shownByte 0 (1/2) = 128 := by
    unfold shownByte byteOf
    rw [show (256 * (1/2) : ℝ) = ((128 : ℕ) : ℝ) by norm_num, hf]; decide
  have ho : opacity ⟨0.3125, 0.25, 0.5, 0.225⟩ = 1/2 := by unfold opacity; norm_num
  refine ⟨fun h => ?_, fun _ => ?_, (fun h => by cases h), (fun _ h => by cases h), fun _ _ => ?_⟩
  · rw [ho] at h; norm_num at h
  · rw [ho, h2]
  · rw [ho]
    norm_num
    rw [h1]

end Verif
