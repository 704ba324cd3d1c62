import Verif.Props.Frozen

/-! # C29: the gamma of the reported palette -/

set_option linter.unusedSectionVars false

namespace Verif
open Flt Spec

section
variable {F : Type} [Flt F]

/-- Everything a caller can do with a result `q0` of quantization, together with two notes: the output gamma accepted last
(the result's own at first), and the gamma at the time of the first look at the palette that was not just after a remap. -/
inductive Called (q0 : QuantizationResult F) : F → Option F → QuantizationResult F → Prop
  | start : Called q0 q0.gamma none q0
  | remap {g : F} {s : Option F} {q : QuantizationResult F} {img : Image F} (env : RemapEnv F) (buf : List (Option UInt8)) (log : List F) :
      Called q0 g s q → UserImage img → Called q0 g s (remapInto env q img buf log).quant
  | level {g : F} {s : Option F} {q q' : QuantizationResult F} {v : F} :
      Called q0 g s q → q.setDitheringLevel v = .ok q' → Called q0 g s q'
  | gamma {g : F} {s : Option F} {q q' : QuantizationResult F} {v : F} :
      Called q0 g s q → q.setOutputGamma v = .ok q' → Called q0 v s q'
  | callback {g : F} {s : Option F} {q : QuantizationResult F} (cb : Option (List F → Bool)) :
      Called q0 g s q → Called q0 g s { q with progressCallback := cb }
  | clone {g : F} {s : Option F} {q : QuantizationResult F} : Called q0 g s q → Called q0 g s q.clone
  | paletteRemapped {g : F} {s : Option F} {q : QuantizationResult F} : Called q0 g s q → q.remapped ≠ none →
      Called q0 g s q.getPalette.1
  | palette {g : F} {s : Option F} {q : QuantizationResult F} : Called q0 g s q → q.remapped = none →
      Called q0 g (s.or (some g)) q.getPalette.1

theorem Called.user [FltSign F] {q0 q : QuantizationResult F} {g : F} {s : Option F} (hq : UserResult q0) (h : Called q0 g s q) :
    UserResult q := by
  induction h with
  | start => exact hq
  | remap env buf log _ hi ih => exact .remap env buf log ih hi
  | level _ e ih => exact .level ih e
  | gamma _ e ih => exact .gamma ih e
  | callback cb _ ih => exact .callback cb ih
  | clone _ ih => exact .clone ih
  | paletteRemapped _ _ ih => exact .palette ih
  | palette _ _ ih => exact .palette ih

/-- what a remap does to a result -/
theorem remapInto_quant (env : RemapEnv F) {q : QuantizationResult F} {img : Image F} (hq : q.Good) (hi : img.Good)
    (buf : List (Option UInt8)) (log : List F) :
    ((remapInto env q img buf log).res ≠ .ok () ∧ (remapInto env q img buf log).quant = q) ∨
    ((remapInto env q img buf log).res = .ok () ∧ ∃ (p : PalF F) (err : Option F),
      (p = q.palette ∨ eq q.ditherLevel (lit32 0) = false ∧ ∃ (px : Rows F), Rows.Same img.px px ∧
        p = (remapToPalette env px none img.importanceMap img.height q.palette).2.palette) ∧
      (remapInto env q img buf log).quant = { q with remapped := some ⟨p.conv q.gamma q.minPosterizationOutput, err⟩ }) := by
  by_cases hok : (remapInto env q img buf log).res = .ok ()
  · refine .inr ⟨hok, ?_⟩
    cases hl : eq q.ditherLevel (lit32 0) with
    | true =>
      obtain ⟨n, _, h, _⟩ := remapInto_plain env hq hi buf log hl hok
      exact ⟨_, _, .inl rfl, h⟩
    | false =>
      obtain ⟨p, mapErr, _, _, _, _, _, hp, _, _, h, _⟩ := remapInto_dithered env hq hi buf log hl hok
      refine ⟨p, _, ?_, h⟩
      rcases hp with ⟨_, _, h⟩ | ⟨_, px, e, r, hs, hr, _, h⟩
      · exact .inl h
      · exact .inr ⟨rfl, px, hs, by rw [hr]; exact h⟩
  · refine .inl ⟨hok, ?_⟩
    have spec := remapInto_spec env buf log hq hi
    by_cases hb : buf.length < img.width * img.height
    · rw [spec.small hb]
    · obtain ⟨s, d, e1, _⟩ := spec.run (by omega)
      rw [e1]
      exact d.failed hok

/-- the state of a result after calls -/
structure CalledState (q0 : QuantizationResult F) (g : F) (s : Option F) (q : QuantizationResult F) : Prop where
  gamma_ : q.gamma = g
  post_ : q.minPosterizationOutput = q0.minPosterizationOutput
  unseen_ : s = none → q.palette = q0.palette ∧ q.intPalette = []
  seen_ : ∀ g0, s = some g0 → q.palette = q0.palette.rounded g0 q0.minPosterizationOutput ∧
    q.intPalette = q0.palette.conv g0 q0.minPosterizationOutput

theorem Called.state [FltSign F] {q0 q : QuantizationResult F} {g : F} {s : Option F} (hq : UserResult q0) (hint : q0.intPalette = [])
    (h : Called q0 g s q) : CalledState q0 g s q := by
  induction h with
  | start => exact ⟨rfl, rfl, fun _ => ⟨rfl, hint⟩, fun g0 h => by cases h⟩
  | remap env buf log hc hi ih =>
    rcases remapInto_quant env (hc.user hq).good hi.good buf log with ⟨_, e⟩ | ⟨_, p, err, _, e⟩ <;> rw [e]
    · exact ih
    · exact ⟨ih.1, ih.2, ih.3, ih.4⟩
  | level _ e ih =>
    unfold QuantizationResult.setDitheringLevel at e
    split at e <;> cases e
    exact ⟨ih.1, ih.2, ih.3, ih.4⟩
  | gamma _ e ih =>
    unfold QuantizationResult.setOutputGamma at e
    split at e <;> cases e
    exact ⟨rfl, ih.2, ih.3, ih.4⟩
  | callback cb _ ih => exact ⟨ih.1, ih.2, ih.3, ih.4⟩
  | clone _ ih => exact ⟨ih.1, ih.2, ih.3, ih.4⟩
  | @paletteRemapped g s q _ hr ih =>
    have : q.getPalette.1 = q := by
      unfold QuantizationResult.getPalette
      cases hre : q.remapped with
      | none => exact absurd hre hr
      | some re => rfl
    rw [this]
    exact ih
  | @palette g s q hc hr ih =>
    have hne : q0.palette ≠ [] := List.ne_nil_of_length_pos hq.good.pos
    unfold QuantizationResult.getPalette
    rw [hr]
    dsimp only
    cases hs : s with
    | none =>
      obtain ⟨h1, h2⟩ := ih.unseen_ hs
      rw [if_pos (by rw [h2]; rfl), h1, ih.gamma_, ih.post_]
      refine ⟨rfl, rfl, (fun h => by cases h), fun g0 h => ?_⟩
      cases h
      exact ⟨rfl, rfl⟩
    | some g0 =>
      obtain ⟨h1, h2⟩ := ih.seen_ g0 hs
      rw [if_neg (by rw [h2]; simp [PalF.conv, PalF.initIntPalette, hne])]
      subst hs
      exact ih

/-- what is reported unless the last thing done was a remap -/
theorem Called.report [FltSign F] {q0 q : QuantizationResult F} {g : F} {s : Option F} (hq : UserResult q0) (hint : q0.intPalette = [])
    (h : Called q0 g s q) (hr : q.remapped = none) :
    q.getPalette.2 = q0.palette.conv (s.getD g) q0.minPosterizationOutput := by
  have hne : q0.palette ≠ [] := List.ne_nil_of_length_pos hq.good.pos
  have hst := h.state hq hint
  unfold QuantizationResult.getPalette
  rw [hr]
  dsimp only
  cases hs : s with
  | none =>
    obtain ⟨h1, h2⟩ := hst.unseen_ hs
    rw [if_pos (by rw [h2]; rfl), h1, hst.gamma_, hst.post_]
    rfl
  | some g0 =>
    obtain ⟨h1, h2⟩ := hst.seen_ g0 hs
    rw [if_neg (by rw [h2]; simp [PalF.conv, PalF.initIntPalette, hne])]
    exact h2

end

/-! ### Exact arithmetic -/

namespace Spec

/-- An 8-bit level for a linear channel value `v` with gamma `g`: the working space has gamma 0.57. -/
noncomputable def displayLevel (g v : ℝ) : UInt8 := UInt8.ofNat (min 255 ⌊v ^ (g / 0.57) * 256⌋₊)

/-- An internal colour converted to 8 bits with gamma `g`: channels are weighted by 0.5, 1 and 0.45, alpha by 0.625, and
premultiplied; less than 1/256 of opacity is nothing. -/
noncomputable def display (g : ℝ) (x : Color) : RGBA :=
  if x.a / 0.625 < 1 / 256 then ⟨0, 0, 0, 0⟩
  else ⟨displayLevel g (x.r / 0.5 / (x.a / 0.625)), displayLevel g (x.g / (x.a / 0.625)), displayLevel g (x.b / 0.45 / (x.a / 0.625)),
    UInt8.ofNat (min 255 ⌊x.a / 0.625 * 256⌋₊)⟩

end Spec

theorem toRgb_display (g : ℝ) (x : FPixel ℝ) : x.toRgb g = Spec.display g x.spec := by
  unfold FPixel.toRgb Spec.display Spec.displayLevel
  have hc : lt x.a minOpaqueA = true ↔ x.spec.a / 0.625 < 1 / 256 := by
    simp only [minOpaqueA, weightA, real_lit32, real_mul32, real_div32, real_lt, FPixel.spec]
    push_cast
    constructor <;> intro h <;> norm_num at h ⊢ <;> linarith
  by_cases h : lt x.a minOpaqueA = true
  · rw [if_pos h, if_pos (hc.mp h)]
  · rw [if_neg h, if_neg (fun h' => h (hc.mpr h'))]
    have hm : ∀ a b : ℕ, Nat.min a b = min a b := fun _ _ => rfl
    simp only [weightA, weightR, weightG, weightB, internalGamma, real_lit32, real_lit64, real_mul32, real_div32, real_div64,
      real_to32, real_pow32, real_toU8, FPixel.spec, hm]
    have e1 : ∀ w : ℝ, w ≠ 0 → ∀ v : ℝ, (5/8 : ℝ) / w * v / x.a = v / w / (x.a / 0.625) := by
      intro w hw v
      by_cases ha : x.a = 0
      · simp [ha]
      · field_simp; norm_num; ring
    have r1 := e1 (1/2) (by norm_num) x.r
    have r2 := e1 1 (by norm_num) x.g
    have r3 := e1 (45/100) (by norm_num) x.b
    push_cast
    rw [r1, r2, r3]
    have e4 : (256 : ℝ) / (5/8) * x.a = x.a / 0.625 * 256 := by ring
    rw [e4]
    norm_num

/-- the 8-bit colour reported for a palette entry: converted with gamma `g` and posterized by `b` bits, with a fixed
choice of RGB for entries that are fully transparent and not the user's own -/
noncomputable def shownEntry (g : ℝ) (b : ℕ) (e : PalEntry ℝ) : RGBA :=
  let c := (Spec.display g e.color.spec).map fun v => PalF.posterizeChannel v (UInt8.ofNat b)
  if c.a = 0 ∧ ¬ e.pop.isFixed then ⟨71, 112, 76, 0⟩ else c

theorem conv_shown (p : PalF ℝ) (g : ℝ) (b : ℕ) : p.conv g b = p.map (shownEntry g b) := by
  unfold PalF.conv PalF.initIntPalette
  refine List.map_congr_left fun e _ => ?_
  unfold PalF.roundEntry shownEntry
  dsimp only
  rw [toRgb_display]
  split
  next h => simp [h.1]
  · rfl

/-- **C29** (exact arithmetic), `_partial`. After any calls the palette is reported as converted with the output gamma
accepted last, if the palette was not looked at before (other than right after remaps) or the gamma is still the one of
that look. Missing: the case that the gamma was changed after the palette was looked at, where it does not hold
(`C29_stale`, `C29_does_not_hold`). -/
theorem C29_current_partial {q0 q : QuantizationResult ℝ} {g : ℝ} {s : Option ℝ} (hq : UserResult q0) (hnew : q0.intPalette = [])
    (h : Called q0 g s q) (hr : q.remapped = none) (hs : s = none ∨ s = some g) :
    q.getPalette.2 = q0.palette.map (shownEntry g q0.minPosterizationOutput) := by
  rw [h.report hq hnew hr, conv_shown]
  rcases hs with rfl | rfl <;> rfl

/-- **C29** (exact arithmetic), `_partial`. Right after a remap the palette is always reported as converted with the
output gamma accepted last: it is the palette that was remapped with, which is the result's own, or that improved while
the dither map was made. -/
theorem C29_remapped_partial {q0 q : QuantizationResult ℝ} {g : ℝ} {s : Option ℝ} (hq : UserResult q0) (hnew : q0.intPalette = [])
    (h : Called q0 g s q) (env : RemapEnv ℝ) {img : Image ℝ} (hi : UserImage img) (buf : List (Option UInt8)) (log : List ℝ)
    (hok : (remapInto env q img buf log).res = .ok ()) :
    ∃ p : PalF ℝ, (p = q.palette ∨ q.ditherLevel ≠ 0 ∧ ∃ (px : Rows ℝ), Rows.Same img.px px ∧
        p = (remapToPalette env px none img.importanceMap img.height q.palette).2.palette) ∧
      (remapInto env q img buf log).quant.getPalette.2 = p.map (shownEntry g q0.minPosterizationOutput) := by
  rcases remapInto_quant env (h.user hq).good hi.good buf log with ⟨h1, _⟩ | ⟨_, p, err, hp, e⟩
  · exact absurd hok h1
  · refine ⟨p, ?_, ?_⟩
    · rcases hp with h | ⟨h1, h2⟩
      · exact .inl h
      · exact .inr ⟨by simpa using h1, h2⟩
    · rw [e, ← conv_shown, ← (h.state hq hnew).gamma_, ← (h.state hq hnew).post_]
      rfl

/-- **C29** (exact arithmetic): what happens instead. Once the palette was looked at with gamma `g0`, it is reported as
converted with `g0`, whatever gamma is accepted later. -/
theorem C29_stale {q0 q : QuantizationResult ℝ} {g g0 : ℝ} (hq : UserResult q0) (hnew : q0.intPalette = [])
    (h : Called q0 g (some g0) q) (hr : q.remapped = none) :
    q.getPalette.2 = q0.palette.map (shownEntry g0 q0.minPosterizationOutput) := by
  rw [h.report hq hnew hr, conv_shown]
  rfl

/-- **C29** does not hold: a palette of one colour is looked at, the gamma is doubled, the call succeeds, and the same
colour is reported again, although the new gamma makes it much darker. -/
theorem C29_does_not_hold : ∃ (q0 q q' : QuantizationResult ℝ), UserResult q0 ∧ q0.intPalette = [] ∧ q0.remapped = none ∧
    q = q0.getPalette.1 ∧ q.setOutputGamma (90910/100000) = .ok q' ∧ q'.gamma = 90910/100000 ∧
    q'.getPalette.2 = [⟨51, 51, 51, 255⟩] ∧
    q0.palette.map (shownEntry q'.gamma q0.minPosterizationOutput) = [⟨10, 10, 10, 255⟩] := by
  obtain ⟨h, eh⟩ : ∃ h, (Histogram.new (userAttr (F := ℝ) [] none)).addColors [(⟨51, 51, 51, 255⟩, 1)] 0 = .ok h := by
    unfold Histogram.addColors
    simp
  have hh : h.gamma = none ∧ h.fixedColors = [] ∧ ∃ k, h.hashmap = [(k, 1, ⟨51, 51, 51, 255⟩)] := by
    unfold Histogram.addColors at eh
    rw [if_neg (by simp), if_neg (by simp)] at eh
    dsimp only at eh
    rw [if_neg (by simp)] at eh
    cases eh
    exact ⟨rfl, rfl, _, rfl⟩
  obtain ⟨hg, hfx, k, hmap⟩ := hh
  obtain ⟨q, e, hpal, hγ, hpost, hcb, hl, hrem, hint⟩ := quantize_few_colors Env.simple [] (by decide) h
    (by rw [hmap]; simp) hfx (by rw [hmap]; show 1 ≤ _; decide) true []
  have huq : UserResult q := .quantized _ [] none h true _ _ e
  rw [hg] at hγ
  simp only [Option.getD_none] at hγ
  rw [hmap] at hpal
  simp only [List.map_cons, List.map_nil] at hpal
  have hpal' := List.perm_singleton.mp hpal
  obtain ⟨en, hen⟩ : ∃ en, q.palette = [en] := List.length_eq_one_iff.mp (by simpa using congrArg List.length hpal')
  rw [hen] at hpal'
  simp only [List.map_cons, List.map_nil, List.cons.injEq, and_true] at hpal'
  have hset : (Settings.default.after []).minPosterization = 0 := by decide
  rw [hset] at hpost
  have hcall : q.getPalette.1.setOutputGamma (90910/100000) =
      .ok { q.getPalette.1 with remapped := none, gamma := 90910/100000 } := by
    unfold QuantizationResult.setOutputGamma
    rw [if_neg (by simp; norm_num)]
  refine ⟨q, _, _, huq, hint, hrem, rfl, hcall, rfl, ?_, ?_⟩
  · have hc := Called.gamma (Called.palette Called.start hrem) hcall
    rw [C29_stale huq hint hc rfl, ← conv_shown, hen, hpost]
    simp only [PalF.conv, PalF.initIntPalette, List.map_cons, List.map_nil]
    unfold PalF.roundEntry
    dsimp only
    rw [hpal', toRgb_fromRgba (by rw [hγ]; norm_num) _ (by decide)]
    have : (⟨51, 51, 51, 255⟩ : RGBA).map (fun c => PalF.posterizeChannel c (UInt8.ofNat 0)) = ⟨51, 51, 51, 255⟩ := by decide
    rw [this, if_neg (by simp)]
  · rw [hen, hpost]
    simp only [List.map_cons, List.map_nil]
    have hd : Spec.display (90910/100000) en.color.spec = ⟨10, 10, 10, 255⟩ := by
      rw [hpal', hγ]
      have hx : (gammaLut (45455/100000 : ℝ) 51) ^ ((90910/100000 : ℝ) / 0.57) = 1 / 25 := by
        rw [gammaLut_real, ← Real.rpow_mul (by positivity)]
        have : (57 / 100 : ℝ) / (45455/100000) * ((90910/100000) / 0.57) = ((2 : ℕ) : ℝ) := by norm_num
        rw [this, Real.rpow_natCast, show UInt8.toNat 51 = 51 from rfl]
        norm_num
      have hlev : ∀ v : ℝ, v = gammaLut (45455/100000 : ℝ) 51 → Spec.displayLevel (90910/100000) v = 10 := by
        intro v hv
        unfold Spec.displayLevel
        rw [hv, hx]
        have : ⌊(1 / 25 : ℝ) * 256⌋₊ = 10 := by
          rw [Nat.floor_eq_iff (by norm_num)]; norm_num
        rw [this]; rfl
      unfold Spec.display
      have ha : (FPixel.fromRgba (gammaLut (45455/100000 : ℝ)) ⟨51, 51, 51, 255⟩).spec.a = 0.625 := by
        simp [FPixel.fromRgba, FPixel.spec, weightA]; norm_num
      rw [ha, if_neg (by norm_num)]
      have e1 : (⌊(0.625 : ℝ) / 0.625 * 256⌋₊) = 256 := by
        have : (0.625 : ℝ) / 0.625 * 256 = ((256 : ℕ) : ℝ) := by norm_num
        rw [this, Nat.floor_natCast]
      rw [e1, hlev, hlev, hlev]
      · rfl
      all_goals
        simp [FPixel.fromRgba, FPixel.spec, weightA, weightR, weightG, weightB]
        try norm_num
        try ring
    unfold shownEntry
    dsimp only
    rw [hd, if_neg (fun h => absurd h.1 (by decide))]
    decide

end Verif
