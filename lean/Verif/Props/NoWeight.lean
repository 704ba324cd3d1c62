import Verif.Lemmas.NoWeight
import Verif.Props.Rounded

/-!
# C11: minimum quality with rounding, and without weights

If all the colours of a histogram are fixed ones, every weight is zero and the error of a palette is `0 / 0`
(`kmeans.rs:82`). Exact arithmetic cannot show what happens then; the rules of IEEE arithmetic for zeros and NaN can.
-/

set_option linter.unusedSectionVars false

namespace Verif
open Flt Spec

section nan
variable {F : Type} [Flt F] [FltSign F] [FltZero F]

theorem nan_quality {e : F} (h : FltVal.val e = none) : mseToQuality e = 0 := by
  have main : ∀ n, mseToQualityFrom e n = 0 := by
    intro n
    induction n with
    | zero => rfl
    | succ n ih =>
      unfold mseToQualityFrom
      rw [if_neg, ih]
      intro hle
      obtain ⟨x, y, hx, -⟩ := (FltVal.le_iff _ _).1 hle
      rw [h] at hx; cases hx
  exact main 100

/-- **C11** (IEEE rules for zeros and NaN). If no colour that is not fixed has a count and there are more colours than the
palette has room for, quantization without a callback succeeds whatever minimum quality was set, the error is NaN, and the
quality reported is 0. -/
theorem C11_weightless {h : Histogram F} (hu : UserHistogram h) (hc : ¬ HasCount h) (env : Env F) (cs : List Call)
    (hmany : (Settings.default.after cs).maxColors < (coloursOf h).card) {m t : ℕ} (hq : lastQuality cs = some (m, t))
    (freeze : Bool) (log : List F) :
    ∃ r e log', h.quantizeInternal env (userAttr cs none) freeze log = (.ok r, log') ∧ r.paletteError = some e ∧
      isNan e = true ∧ r.quantizationQuality = some 0 := by
  have hne : h.hashmap ≠ [] ∨ h.fixedColors ≠ [] := by
    by_contra hn
    rw [not_or, not_not, not_not] at hn
    unfold coloursOf at hmany
    rw [hn.1, hn.2] at hmany
    simp at hmany
  have hmax := userAttr_range (F := F) cs none
  obtain ⟨hist, e1, ht, hl⟩ := h.finalize_ok env.ho (h.gamma.getD (lit64 (45455/100000)))
  have hpos : hist.items ≠ [] := by
    apply List.ne_nil_of_length_pos
    rw [hl]
    exact List.length_pos_iff.2 (h.insertFixedColors_ne_nil env.ho hne)
  obtain ⟨hw, htot⟩ := finalized_weightless hu.distinct hc e1
  have hlen : ¬ hist.items.length ≤ (userAttr cs (none : Option (List F → Bool))).maxColors := by
    rw [hl, colours_card hu.distinct env.ho, userAttr_maxColors]
    omega
  obtain ⟨p, err, log', e2, -, -, herr⟩ := findBestPalette_ok env (userAttr (F := F) cs none) hmax.1 hmax.2
    ((userAttr (F := F) cs none).targetMseFor hist.items.length).2.1 ((userAttr (F := F) cs none).targetMseFor hist.items.length).2.2
    ((userAttr (F := F) cs none).targetMseFor hist.items.length).1 hist ht hpos log
  have hnan : ∀ e, err = some e → FltVal.val e = none := by
    refine findBestPalette_errors (E := fun e => FltVal.val e = none) (histOK_kept env hmax.2 hist) ?_ hmax.1
      ⟨ht, hpos, .refl _, rfl, rfl⟩ (fun hx => hlen hx.1) e2
    intro t h' p adj h'' p' e hh hp he
    refine Kmeans.iteration_nan (env.sched_valid _ _) hh.pos ?_ (by rw [hh.total]; exact htot) he
    intro x hx
    obtain ⟨y, hy, he⟩ := List.mem_map.1 (hh.perm.mem_iff.1 (List.mem_map_of_mem hx))
    simp only [Prod.mk.injEq] at he
    rw [← he.2]
    exact hw y hy
  obtain ⟨e, he⟩ : ∃ e, err = some e := by
    rcases herr with h | h | ⟨l, -, -, -, h⟩
    · exact Option.isSome_iff_exists.1 h
    · rw [(userAttr_quality cs none).1, hq] at h; cases h
    · cases h
  subst he
  have hn := hnan e rfl
  have hlow : qualityTooLow (some e) ((userAttr cs none).targetMseFor hist.items.length).1 = false := by
    unfold qualityTooLow
    split
    next e' m he hm =>
      cases he
      rw [Bool.eq_false_iff]
      intro hlt
      obtain ⟨x, y, -, hy, -⟩ := (FltVal.lt_iff _ _).1 hlt
      rw [hn] at hy; cases hy
    · rfl
  have hrun : ∃ r, h.quantizeInternal env (userAttr cs none) freeze log = (.ok r, log') ∧ r.paletteError = some e := by
    unfold Histogram.quantizeInternal
    rw [if_neg (by simp only [Bool.and_eq_true, List.isEmpty_iff]; tauto)]
    rw [PM.bind_ok (m := progress (userAttr cs none).progressCallback _) (a := false) (log' := log) rfl, if_neg (by simp)]
    rw [PM.bind_ok (m := progress (userAttr cs none).progressCallback _) (a := false) (log' := log) rfl, if_neg (by simp)]
    rw [PM.bind_ok (a := hist) (log' := log) (by rw [PM.lift, e1])]
    unfold QuantizationResult.new
    rw [PM.bind_ok (m := progress (userAttr cs none).progressCallback _) (a := false) (log' := log) rfl, if_neg (by simp)]
    dsimp only
    rw [PM.bind_ok e2]
    dsimp only
    rw [PM.bind_ok (m := progress (userAttr cs none).progressCallback _) (a := false) (log' := log') rfl, if_neg (by simp)]
    rw [hlow, if_neg (by simp)]
    exact ⟨_, rfl, rfl⟩
  obtain ⟨r, hr, hre⟩ := hrun
  refine ⟨r, e, log', hr, hre, (FltVal.isNan_iff e).2 hn, ?_⟩
  rw [QuantizationResult.quantizationQuality, hre, Option.map_some, nan_quality hn]

end nan

/-- **C11** does not hold (arithmetic with NaN): with three fixed colours, a palette of two and `set_quality(70, 90)`,
quantization succeeds and reports quality 0. -/
theorem C11_does_not_hold : ∃ h : Histogram Ext, UserHistogram h ∧
    ∃ r log, h.quantizeInternal Env.simple (userAttr [.maxColors 2, .quality 70 90] none) true [] = (.ok r, log) ∧
      r.quantizationQuality = some 0 := by
  obtain ⟨h, hu, hm, hf⟩ := three_fixed (F := Ext)
  refine ⟨h, hu, ?_⟩
  have hc : ¬ HasCount h := by
    rintro ⟨e, he, -⟩
    rw [hm] at he; simp at he
  have hmany : (Settings.default.after [.maxColors 2, .quality 70 90]).maxColors < (coloursOf h).card := by
    unfold coloursOf
    rw [hm, hf]
    decide
  obtain ⟨r, e, log, hr, -, -, hq⟩ := C11_weightless hu hc Env.simple _ hmany (m := 70) (t := 90) rfl true []
  exact ⟨r, log, hr, hq⟩

section rounded
variable {F : Type} [Flt F] [FltSign F] [FltRound F]
open FltRound

/-- **C11** (rounded), as far as it holds: if a minimum quality is in force, the callback never asks to stop and the error is a
number (neither infinite nor NaN), then the quality reported is at least the minimum. The full statement has no condition on the
error; see `C11_does_not_hold`. -/
theorem C11_minimum_quality_rounded_partial (env : Env F) (cs : List Call) (cb : Option (List F → Bool)) (h : Histogram F)
    (freeze : Bool) (log log' : List F) (r : QuantizationResult F)
    (hq : h.quantizeInternal env (userAttr cs cb) freeze log = (.ok r, log')) {m t : ℕ} (hm : lastQuality cs = some (m, t))
    (hcb : ∀ f, cb = some f → ∀ l, log <+: l → l ≠ log → l <+: log' → f l = false)
    (hfin : ∀ e, r.paletteError = some e → fin e) :
    ∃ q, r.quantizationQuality = some q ∧ m ≤ q ∧ q ≤ 100 := by
  obtain ⟨e, he, hle⟩ := C11_limit_checked env cs cb h freeze log log' r hq hm hcb
  have hmr := lastQuality_range cs (m, t) (by rw [hm]; rfl)
  dsimp only at hmr
  obtain ⟨c1, -, c3⟩ := C12_quality_of_error_rounded e (hfin e he)
  refine ⟨mseToQuality e, by rw [QuantizationResult.quantizationQuality, he]; rfl, ?_, c1⟩
  by_contra hlt
  rw [not_le] at hlt
  have h1 := c3 m hlt (by omega)
  have hm1 : 1 ≤ m := by omega
  have a := qualityToMse_near (F := F) hm1 (by omega)
  have h2 := qualityLimit_le hm1
  have h3 := qualityLimit_nonneg m
  have ha := abs_le.1 a.near
  have key : ∀ (c : F) (q : ℝ), Near ppt c q → 0 ≤ q → q ≤ 1 → fin (qualityToMse m *₆ c) ∧ val (qualityToMse m *₆ c) ≤ qualityLimit m + 5 / 10000000 := by
    intro c q hc h0 h1
    have hcn := abs_le.1 hc.near
    have hx : |val (qualityToMse m : F) * val c| ≤ 1000 := by
      rw [abs_mul]
      have b1 : |val (qualityToMse m : F)| ≤ 101 := abs_le.2 ⟨by linarith, by linarith⟩
      have b2 : |val c| ≤ 2 := abs_le.2 ⟨by unfold ppt at hcn; linarith, by unfold ppt at hcn; linarith⟩
      calc _ ≤ 101 * 2 := mul_le_mul b1 b2 (abs_nonneg _) (by norm_num)
        _ ≤ 1000 := by norm_num
    obtain ⟨f1, f2⟩ := FltRound.mul64 _ _ a.fin hc.fin (fits64_small (hx.trans (by norm_num)))
    have f3 := abs_le.1 (rounds64_abs f2 hx)
    refine ⟨f1, ?_⟩
    have h4 : val (qualityToMse m : F) * val c ≤ (qualityLimit m + 1 / 100000000) * (1 + ppt) := by
      rcases le_total 0 (val c) with h | h
      · exact mul_le_mul (by linarith) (by linarith) h (by linarith)
      · have e1 : val (qualityToMse m : F) * val c ≤ (1 / 100000000) * ppt := by
          have : -(val c) ≤ ppt := by linarith
          nlinarith
        have : (0:ℝ) ≤ ppt := by unfold ppt; norm_num
        nlinarith
    have h5 : (qualityLimit m + 1 / 100000000) * (1 + ppt) ≤ qualityLimit m + 2 / 10000000 := by
      unfold ppt; nlinarith
    unfold ppt at f3
    linarith
  obtain ⟨g1, g2⟩ : fin (qualityToMse m *₆ (if (h.insertFixedColors env.ho).length ≤ 256 then lit64 (33/100) else lit64 1 : F)) ∧
      val (qualityToMse m *₆ (if (h.insertFixedColors env.ho).length ≤ 256 then lit64 (33/100) else lit64 1 : F)) ≤ qualityLimit m + 5 / 10000000 := by
    split
    · exact key _ (33/100) (Near.lit (by norm_num) (by rw [abs_of_pos (by norm_num)]; norm_num)) (by norm_num) (by norm_num)
    · exact key _ 1 (Near.lit (by norm_num) (by rw [abs_of_pos (by norm_num)]; norm_num)) (by norm_num) (by norm_num)
  rw [Bool.eq_false_iff, Ne, FltRound.lt _ _ g1 (hfin e he), not_lt] at hle
  linarith

end rounded

/-- The hypotheses of the rounded theorem are met: two colours with `set_quality(70, 100)`. -/
example : ∃ (r : QuantizationResult ℝ), exampleHistogram.quantizeInternal Env.simple (userAttr [.quality 70 100] none) true [] = (.ok r, []) ∧
    lastQuality [.quality 70 100] = some (70, 100) ∧ ∀ e, r.paletteError = some e → FltRound.fin e := by
  have hq := userAttr_quality (F := ℝ) [.quality 70 100] none
  have hl : lastQuality [.quality 70 100] = some (70, 100) := rfl
  rw [hl] at hq
  obtain ⟨hi, p, -, -, e⟩ := quantize_few (F := ℝ) Env.simple (userAttr [.quality 70 100] none) (userAttr_range _ _).2 rfl
    exampleHistogram true [] (Or.inl (by simp [exampleHistogram])) (by rw [userAttr_maxColors]; decide)
    (by rw [hq.2]; simp [qualityToMse]) (by
      intro m hm
      rw [hq.1] at hm
      simp only [Option.map_some, Option.some.injEq] at hm
      have := qualityLimit_nonneg 70
      simp only [real_lt_false, real_mul64, real_lit64, ← hm, qualityToMse_spec]
      push_cast; linarith)
  exact ⟨_, e, hl, fun _ _ => trivial⟩

end Verif
