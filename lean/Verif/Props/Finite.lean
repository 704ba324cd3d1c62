import Verif.Model.Overflow
import Verif.Lemmas.FiniteHist
import Verif.Props.NoWeight
import Verif.Lemmas.Machine
import Verif.Props.RoundedRemap

/-!
# C77: only finite values

`lib.rs:285-287` compares numbers with `partial_cmp().unwrap_or(Equal)` and says "This library uses only finite values,
so they're sortable". The palette of a successful quantization does have finite numbers only (arithmetic with rounding);
the error of a palette does as well if some colour has a count, and does not otherwise.
-/

set_option linter.unusedSectionVars false

namespace Verif
open Flt Spec

section rounded
variable {F : Type} [Flt F] [FltMin F]
open FltRound

/-- a finite number between 0 and 1 -/
def Spec.Share (x : F) : Prop := fin x ∧ 0 ≤ val x ∧ val x ≤ 1

/-- Sizes for which sums of weights stay in range: at most 2²¹ colours, and counts that add up to at most 2³⁵. -/
structure Spec.UsualSize (h : Histogram F) : Prop where
  colours : (coloursOf h).card ≤ 2 ^ 21
  counts : (h.hashmap.map (·.2.1)).sum ≤ 2 ^ 35
  gamma : UsualGamma (h.gamma.getD (lit64 (45455/100000)))

/-- Speed 5 and above, or speed 4, which is the default, if a colour that is not fixed has a count, and counts add up to at
most 2²⁸. -/
def Spec.FastEnough (h : Histogram F) (cs : List Call) : Prop :=
  5 ≤ (Settings.default.after cs).speed ∨
    4 ≤ (Settings.default.after cs).speed ∧ HasCount h ∧ (h.hashmap.map (·.2.1)).sum ≤ 2 ^ 28

/-- sizes for which the growth of weights is bounded better -/
structure MediumSize (h : Histogram F) : Prop where
  counted : HasCount h
  colours : (coloursOf h).card ≤ 50000
  counts : (h.hashmap.map (·.2.1)).sum ≤ 2 ^ 28

theorem quantized_fin {op : Prop} {h : Histogram F} (hu : UserHistogram h) (hs : UsualSize h) (env : Env F) (cs : List Call)
    (cb : Option (List F → Bool)) (ht : (userAttr cs cb).feedbackTrials (coloursOf h).card ≤ maxRounds (MediumSize h)) (freeze : Bool)
    {log log' : List F} {r : QuantizationResult F} (e : h.quantizeInternal env (userAttr cs cb) freeze log = (.ok r, log'))
    (hop : op → HasCount h ∧ (coloursOf h).card ≤ 2 ^ 14 ∧ (∀ x ∈ h.insertFixedColors env.ho, x.2.2.a = 255) ∧
      (∀ f ∈ h.fixedColors, f.1.a = 255)) :
    PalFin op r.palette ∧ (HasCount h → ∀ err, r.paletteError = some err → fin err ∧ 0 ≤ val err) := by
  unfold Histogram.quantizeInternal at e
  split at e
  · cases e
  next hne =>
    rw [PM.bind_ok (progress_eq _ _ _)] at e
    split at e
    · cases e
    · rw [PM.bind_ok (progress_eq _ _ _)] at e
      split at e
      · cases e
      · dsimp only at e
        obtain ⟨hist, l1, e1, e2⟩ := PM.bind_ok_inv e
        obtain ⟨e1', -⟩ := PM.lift_ok_inv e1
        obtain ⟨w, hT, hpos⟩ := finalized_fin hu.distinct hs.counts hs.colours hs.gamma e1' hop
          (fun h : MediumSize h => ⟨h.counted, h.colours, h.counts⟩)
        have hmax := userAttr_range (F := F) cs cb
        have hl : hist.items.length = (coloursOf h).card := by
          obtain ⟨r1, e3, -, hl⟩ := h.finalize_ok env.ho (h.gamma.getD (lit64 (45455/100000)))
          rw [e1'] at e3; cases e3
          rw [hl, colours_card hu.distinct]
        obtain ⟨hp, he⟩ := new_fin hmax.1 hmax.2 w (by rw [hl]; exact ht) e2
        refine ⟨hp, ?_⟩
        · intro hc err herr
          rcases he err herr with rfl | ⟨d, hd, rfl⟩
          · exact ⟨nn_zero64.fin, nn_zero64.lo⟩
          · have h5 := (hpos hc).1
            have hT0 : 0 < val hist.totalPerceptualWeight := lt_of_lt_of_le (by norm_num) h5
            have h0 : 0 ≤ val d / val hist.totalPerceptualWeight := div_nonneg hd.lo hT0.le
            have h1 : val d / val hist.totalPerceptualWeight ≤ 2 ^ 1023 := by
              calc _ ≤ (2:ℝ) ^ 127 / (1 / 5000) := div_le_div₀ (by norm_num) hd.hi (by norm_num) h5
                _ ≤ 2 ^ 140 := by norm_num
                _ ≤ 2 ^ 1023 := pow_le_pow_right₀ (by norm_num) (by norm_num)
            have hf : Fits64 (val d / val hist.totalPerceptualWeight) := by
              unfold Fits64; rw [abs_of_nonneg h0]; exact h1
            refine ⟨(FltRound.div64 _ _ hd.fin hT.fin hT0.ne' hf).1, ?_⟩
            rw [FltFull.div64_eq _ _ hd.fin hT.fin hT0.ne' hf]
            exact r64_nonneg h0

theorem finite_of_rounds {h : Histogram F} (hu : UserHistogram h) (hs : UsualSize h) (env : Env F) (cs : List Call)
    (cb : Option (List F → Bool)) (ht : (userAttr cs cb).feedbackTrials (coloursOf h).card ≤ maxRounds (MediumSize h)) (freeze : Bool)
    {log log' : List F} {r : QuantizationResult F} (e : h.quantizeInternal env (userAttr cs cb) freeze log = (.ok r, log')) :
    (∀ x ∈ r.palette, Share x.color.a ∧ Share x.color.r ∧ Share x.color.g ∧ Share x.color.b ∧ fin x.pop.val) ∧
    (HasCount h → ∀ err, r.paletteError = some err → fin err ∧ 0 ≤ val err) := by
  obtain ⟨hp, he⟩ := quantized_fin (op := False) hu hs env cs cb ht freeze e False.elim
  refine ⟨fun x hx => ?_, he⟩
  obtain ⟨⟨⟨a, r, g, b⟩, f⟩, -⟩ := hp x hx
  exact ⟨⟨a.fin, a.lo, a.hi⟩, ⟨r.fin, r.lo, r.hi⟩, ⟨g.fin, g.lo, g.hi⟩, ⟨b.fin, b.lo, b.hi⟩, f⟩

/-- **C77** (arithmetic with rounding). If the search takes at most eleven rounds, the colours and the popularities of the
palette of a successful quantization are finite numbers, colours between 0 and 1. The error is a finite number that is not
negative if some colour that is not fixed has a count. Without such a colour the error can be NaN (`C77_does_not_hold`). -/
theorem C77_finite_partial {h : Histogram F} (hu : UserHistogram h) (hs : UsualSize h) (env : Env F) (cs : List Call)
    (cb : Option (List F → Bool)) (ht : (userAttr cs cb).feedbackTrials (coloursOf h).card ≤ 11) (freeze : Bool)
    {log log' : List F} {r : QuantizationResult F} (e : h.quantizeInternal env (userAttr cs cb) freeze log = (.ok r, log')) :
    (∀ x ∈ r.palette, Share x.color.a ∧ Share x.color.r ∧ Share x.color.g ∧ Share x.color.b ∧ fin x.pop.val) ∧
    (HasCount h → ∀ err, r.paletteError = some err → fin err ∧ 0 ≤ val err) :=
  finite_of_rounds hu hs env cs cb (ht.trans eleven_le) freeze e

theorem userAttr_speed (cs : List Call) (cb : Option (List F → Bool)) : (userAttr cs cb).speed = (Settings.default.after cs).speed := by
  have := C13_settings_registers_any_float (F := F) cs
  simp only [Attr.observeInt, Attr.getSpeed, Prod.mk.injEq] at this
  exact this.2.1

/-- at most eleven rounds at speed 5 and above -/
theorem fast_trials {cs : List Call} (hs : 5 ≤ (Settings.default.after cs).speed) (cb : Option (List F → Bool)) (n : ℕ) :
    (userAttr cs cb).feedbackTrials n ≤ 11 := by
  refine (Attr.reduceBySize_le _ _).trans ?_
  rw [(userAttr_speedOK cs cb).trials, userAttr_speed]
  omega

theorem rounds_of_speed {h : Histogram F} {cs : List Call} (hs : FastEnough h cs) (cb : Option (List F → Bool)) :
    (userAttr cs cb).feedbackTrials (coloursOf h).card ≤ maxRounds (MediumSize h) := by
  rcases hs with h5 | ⟨h4, hc, hn⟩
  · exact (fast_trials h5 cb _).trans eleven_le
  · have ht : (userAttr cs cb).feedbackLoopTrials ≤ 20 := by
      rw [(userAttr_speedOK cs cb).trials, userAttr_speed]
      omega
    by_cases hm : (coloursOf h).card ≤ 50000
    · rw [maxRounds_true ⟨hc, hm, hn⟩]
      exact (Attr.reduceBySize_le _ _).trans ht
    · refine le_trans ?_ eleven_le
      unfold Attr.feedbackTrials Attr.reduceBySize Attr.reduce
      dsimp only
      split_ifs <;> omega

/-- **C77** for the settings of a user: at speed 5 and above, and at speed 4, the default, if a colour that
is not fixed has a count and counts add up to at most 2²⁸. The full claim has no limit on the speed. -/
theorem C77_finite_fast_partial {h : Histogram F} (hu : UserHistogram h) (hs : UsualSize h) (env : Env F) (cs : List Call)
    (cb : Option (List F → Bool)) (hspeed : FastEnough h cs) (freeze : Bool)
    {log log' : List F} {r : QuantizationResult F} (e : h.quantizeInternal env (userAttr cs cb) freeze log = (.ok r, log')) :
    (∀ x ∈ r.palette, Share x.color.a ∧ Share x.color.r ∧ Share x.color.g ∧ Share x.color.b ∧ fin x.pop.val) ∧
    (HasCount h → ∀ err, r.paletteError = some err → fin err ∧ 0 ≤ val err) :=
  finite_of_rounds hu hs env cs cb (rounds_of_speed hspeed cb) freeze e

/-- **C11** (arithmetic with rounding). If some colour that is not fixed has a count, a successful quantization at speed 5
and above, or at the default speed 4 (see `FastEnough`), whose callback did not stop it has at least the minimum quality: nothing has to be assumed about the error. -/
theorem C11_minimum_quality_counted_partial [FltSign F] {h : Histogram F} (hu : UserHistogram h) (hs : UsualSize h) (hc : HasCount h)
    (env : Env F) (cs : List Call) (cb : Option (List F → Bool)) (hspeed : FastEnough h cs) (freeze : Bool)
    {log log' : List F} {r : QuantizationResult F} (e : h.quantizeInternal env (userAttr cs cb) freeze log = (.ok r, log'))
    {m t : ℕ} (hm : lastQuality cs = some (m, t))
    (hcb : ∀ f, cb = some f → ∀ l, log <+: l → l ≠ log → l <+: log' → f l = false) :
    ∃ q, r.quantizationQuality = some q ∧ m ≤ q ∧ q ≤ 100 :=
  C11_minimum_quality_rounded_partial env cs cb h freeze log log' r e hm hcb fun err he =>
    ((C77_finite_fast_partial hu hs env cs cb hspeed freeze e).2 hc err he).1

/-- the gamma used when none is given -/
theorem usualGamma_default : UsualGamma (lit64 (45455/100000) : F) := by
  have hf : Fits64 ((45455/100000 : ℚ) : ℝ) := fits64_nn (b := 1) (by norm_num) (by norm_num) (by norm_num)
  obtain ⟨f, r⟩ := FltRound.lit64 (F := F) _ hf
  push_cast at r
  have h1 := rounds64_le r (by norm_num) le_rfl
  have h2 := rounds_ge r (by norm_num)
  have := tiny64_le
  have e64 : u64 = 1 / 2 ^ 53 := by unfold u64; norm_num
  rw [e64] at h2
  norm_num at h1 h2 this
  exact ⟨f, by linarith, by linarith⟩

/-- three colours with counts, quantized to two -/
theorem finite_case [FltSign F] : ∃ h : Histogram F, UserHistogram h ∧ UsualSize h ∧ MediumSize h ∧ (coloursOf h).card = 3 ∧
    ∀ s, ∃ r log, h.quantizeInternal Env.simple (userAttr [.speed s, .maxColors 2] none) true [] = (.ok r, log) := by
  have z := nn_zero64 (F := F)
  have hz : val (lit64 0 : F) = 0 := le_antisymm z.hi z.lo
  have hf1 : Fits64 ((1 : ℚ) : ℝ) := fits64_nn (b := 1) (by norm_num) (by norm_num) (by norm_num)
  have o := (FltRound.lit64 (F := F) 1 hf1).1
  have ho : val (lit64 1 : F) = 1 := by
    rw [FltFull.lit64_eq _ hf1]
    have := FltFull.r64_nat (F := F) 1 (by norm_num)
    push_cast at this ⊢; exact this
  obtain ⟨h, e1, hh, hf, hg⟩ : ∃ h : Histogram F, (Histogram.new (userAttr [] none)).addColors
      [(⟨255, 0, 0, 255⟩, 3), (⟨0, 255, 0, 255⟩, 5), (⟨0, 0, 255, 7⟩, 9)] (lit64 0) = .ok h ∧
      h.hashmap = [(⟨255, 0, 0, 255⟩, 3, ⟨255, 0, 0, 255⟩), (⟨0, 255, 0, 255⟩, 5, ⟨0, 255, 0, 255⟩), (⟨0, 0, 255, 7⟩, 9, ⟨0, 0, 255, 7⟩)] ∧
      h.fixedColors = [] ∧ h.gamma = none := by
    unfold Histogram.addColors
    rw [if_neg (by simp), if_neg (by
      rw [not_not, FltRound.le _ _ z.fin z.fin, FltRound.lt _ _ z.fin o, hz, ho]; norm_num)]
    refine ⟨_, rfl, ?_⟩
    dsimp only
    rw [if_neg (by rw [FltRound.lt _ _ z.fin z.fin]; simp)]
    refine ⟨?_, rfl, rfl⟩
    have hb : (userAttr [] (none : Option (List F → Bool))).posterizeBits = 0 := rfl
    have k1 : maskColor 0 ⟨255, 0, 0, 255⟩ = ⟨255, 0, 0, 255⟩ := by decide
    have k2 : maskColor 0 ⟨0, 255, 0, 255⟩ = ⟨0, 255, 0, 255⟩ := by decide
    have k3 : maskColor 0 ⟨0, 0, 255, 7⟩ = ⟨0, 0, 255, 7⟩ := by decide
    simp [Histogram.new, Histogram.addColor, hb, k1, k2, k3, ColorMap.upsert]
  have hc : (coloursOf h).card = 3 := by unfold coloursOf; rw [hh, hf]; decide
  refine ⟨h, .colors (.new _ _) e1, ⟨by rw [hc]; norm_num, by rw [hh]; decide, by rw [hg]; exact usualGamma_default⟩, ?_, hc, ?_⟩
  · exact ⟨⟨_, by rw [hh]; exact List.mem_cons_self, by decide, by rw [hf]; simp⟩, by rw [hc]; norm_num, by rw [hh]; decide⟩
  · intro s
    exact C42_succeeds Env.simple _ h true [] rfl (.inl (by rw [hh]; simp))

end rounded

/-- hypotheses of `C77_finite_partial`, for an arithmetic in which operations do overflow -/
example : ∃ (h : Histogram Over) (r : _) (log : _), UserHistogram h ∧ UsualSize h ∧ HasCount h ∧
    (userAttr [.speed 7, .maxColors 2] (none : Option (List Over → Bool))).feedbackTrials (coloursOf h).card ≤ 11 ∧
    h.quantizeInternal Env.simple (userAttr [.speed 7, .maxColors 2] none) true [] = (.ok r, log) := by
  obtain ⟨h, hu, hs, hc, -, key⟩ := finite_case (F := Over)
  obtain ⟨r, log, e⟩ := key 7
  exact ⟨h, r, log, hu, hs, hc.counted, fast_trials (by decide) _ _, e⟩

/-- hypotheses of `C77_finite_fast_partial` and `C11_minimum_quality_counted_partial` at the default speed -/
example : ∃ (h : Histogram Over) (r : _) (log : _), UserHistogram h ∧ UsualSize h ∧ HasCount h ∧
    FastEnough h [.speed 4, .maxColors 2] ∧ (Settings.default.after [.speed 4, .maxColors 2]).speed = Settings.default.speed ∧
    h.quantizeInternal Env.simple (userAttr [.speed 4, .maxColors 2] none) true [] = (.ok r, log) := by
  obtain ⟨h, hu, hs, hc, -, key⟩ := finite_case (F := Over)
  obtain ⟨r, log, e⟩ := key 4
  exact ⟨h, r, log, hu, hs, hc.counted, .inr ⟨by decide, hc.counted, hc.counts⟩, by decide, e⟩

/-- **C77** does not hold (arithmetic with NaN): with three fixed colours and a palette of two, quantization succeeds and the
error of its palette is not a number. -/
theorem C77_does_not_hold : ∃ h : Histogram Ext, UserHistogram h ∧
    ∃ r e log, h.quantizeInternal Env.simple (userAttr [.maxColors 2, .quality 70 90] none) true [] = (.ok r, log) ∧
      r.paletteError = some e ∧ isNan e = true := by
  obtain ⟨h, hu, hm, hf⟩ := three_fixed (F := Ext)
  refine ⟨h, hu, ?_⟩
  have hc : ¬ HasCount h := by
    rintro ⟨e, he, -⟩
    rw [hm] at he; simp at he
  have hmany : (Settings.default.after [.maxColors 2, .quality 70 90]).maxColors < (coloursOf h).card := by
    unfold coloursOf
    rw [hm, hf]
    decide
  obtain ⟨r, e, log, hr, he, hn, -⟩ := C11_weightless hu hc Env.simple _ hmany (m := 70) (t := 90) rfl true []
  exact ⟨r, e, log, hr, he, hn⟩

end Verif
