import Verif.Lemmas.DebugExact
import Verif.Lemmas.HistDistinct
import Verif.Lemmas.FewColors
import Verif.Lemmas.Quality
import Verif.Props.Quantize

/-! Debug builds quantize like release builds, except for pictures that consist of fixed colours (C70). -/

set_option linter.unusedSectionVars false

namespace Verif
open Flt Spec

section anyFloat
variable {F : Type} [Flt F] [FltSign F]

/-- **C70** (any float): none of the assertions about the structure of the data fails: clusters tile the histogram,
boxes and trees of nearest colours are not empty, positions are in bounds, vectors have room, fixed colours are where they
belong; and what uninitialised histogram items are filled with does not show. This is for every histogram, setting,
callback, hash order, sort and schedule. -/
theorem C70_structure_any_float (blank : HistItem F) (env : Env F) (h : Histogram F) (cs : List Call)
    (cb : Option (List F → Bool)) (freeze : Bool) (log : List F) :
    h.quantizeInternalD false blank env (userAttr cs cb) freeze log = h.quantizeInternal env (userAttr cs cb) freeze log := by
  apply quantizeInternalD_checked blank env h freeze log (by intro h; cases h)
  intro hist hne e log
  obtain ⟨r, e1, ht, hl⟩ := Histogram.finalize_ok env.ho h (h.gamma.getD (lit64 (45455/100000)))
  rw [e] at e1; cases e1
  have hpos : hist.items ≠ [] := by
    apply List.ne_nil_of_length_pos
    rw [hl]; exact List.length_pos_iff.2 (Histogram.insertFixedColors_ne_nil env.ho h hne)
  have hmax := userAttr_range (F := F) cs cb
  exact newD_checked Sound.off (checked_structure env hmax.2 hist) hmax.1 hmax.2 (h0 := ⟨ht, hpos, .refl _, rfl, rfl⟩)
    (by intro h; cases h) freeze _ log

end anyFloat

/-- some colour that is not fixed has a count -/
def Spec.HasCount {F : Type} [Flt F] (h : Histogram F) : Prop := ∃ e ∈ h.hashmap, 0 < e.2.1 ∧ ∀ f ∈ h.fixedColors, fixedKey f.1 ≠ e.1

/-- all the colours fit in the palette, and quality 100 is asked for -/
def Spec.AllKept {F : Type} [Flt F] (h : Histogram F) (cs : List Call) : Prop :=
  (coloursOf h).card ≤ (Settings.default.after cs).maxColors ∧ (Settings.default.after cs).quality.2 = 100

theorem target_zero_iff (cs : List Call) (cb : Option (List ℝ → Bool)) :
    eq (userAttr cs cb).targetMse (lit64 0 : ℝ) = true ↔ (Settings.default.after cs).quality.2 = 100 := by
  rw [after_quality_settings, (userAttr_quality cs cb).2]
  cases hl : lastQuality cs with
  | none => simp
  | some q =>
    have hq := (lastQuality_range cs q hl).2
    dsimp only [Option.getD_some]
    rw [qualityToMse_spec]
    simp only [real_eq, real_lit64, Rat.cast_zero]
    constructor
    · intro h0
      by_contra hc
      have := qualityLimit_lt (p := q.2) (q := 100) (by omega) le_rfl
      have h100 : qualityLimit 100 = 0 := by simp [qualityLimit]
      rw [h100, h0] at this
      norm_num at this
    · intro h; rw [h]; simp [qualityLimit]

theorem user_gamma {h : Histogram ℝ} (hu : UserHistogram h) : 0 < h.gamma.getD (lit64 (45455/100000)) := by
  cases hg : h.gamma with
  | none => simp
  | some g => simpa using hu.gamma_pos g hg

/-- items of the histogram that the search starts with -/
theorem finalized_exact {ho : HashOrder} {h : Histogram ℝ} (hd : ColorMap.Distinct h.hashmap) {gamma : ℝ} (hγ : 0 < gamma) (hne : h.hashmap ≠ [] ∨ h.fixedColors ≠ [])
    {r : HistogramInternal ℝ} (e : h.finalizeBuilder ho gamma = .ok r) :
    r.Tiled ∧ r.items ≠ [] ∧ r.items.length = (h.insertFixedColors ho).length ∧ (∀ x ∈ r.items, 0 ≤ x.perceptualWeight) ∧
      r.totalPerceptualWeight = (r.items.map (·.perceptualWeight)).sum ∧
      (HasCount h → HeavyHist r r) ∧ (¬ HasCount h → ∀ x ∈ r.items, x.adjustedWeight = 0) := by
  have hcount : HasCount h ↔ ∃ e ∈ h.insertFixedColors ho, 0 < e.2.1 := (counted_iff hd ho).symm
  rw [hcount]
  obtain ⟨r', e1, ht, hl⟩ := Histogram.finalize_ok ho h gamma
  rw [e] at e1; cases e1
  obtain ⟨r', e1, -, -, -, e5⟩ := Histogram.finalize_spec ho h gamma
  rw [e] at e1; cases e1
  obtain ⟨w1, w2, w3, w4⟩ := C44_weights ho h gamma r e
  have hpos : r.items ≠ [] := by
    apply List.ne_nil_of_length_pos
    rw [hl]; exact List.length_pos_iff.2 (Histogram.insertFixedColors_ne_nil ho h hne)
  set m := h.insertFixedColors ho with hm
  set T : ℝ := ((m.map fun e => (e.2.1 : ℝ)).sum) / 256 with hT
  have hitem : ∀ x ∈ r.items, ∃ y ∈ m, x.color = FPixel.fromRgba (gammaLut gamma) y.2.2 ∧
      x.perceptualWeight = if y.2.1 = 0 then T else min ((y.2.1 : ℝ) / 256) (T / 10) := by
    intro x hx
    obtain ⟨y, hy, he⟩ := List.mem_map.1 (w3.mem_iff.1 (List.mem_map_of_mem hx))
    simp only [Prod.mk.injEq] at he
    exact ⟨y, hy, he.1.symm, he.2.symm⟩
  refine ⟨ht, hpos, hl, w4, w1, ?_, ?_⟩
  · rintro ⟨y, hy, hy0⟩
    have hTpos : 0 < T := by
      have : ((y.2.1 : ℕ) : ℝ) ≤ (m.map fun e => (e.2.1 : ℝ)).sum := by
        apply List.single_le_sum _ _ (List.mem_map.2 ⟨y, hy, rfl⟩)
        intro z hz
        obtain ⟨u, -, rfl⟩ := List.mem_map.1 hz
        positivity
      have h1 : (0 : ℝ) < (y.2.1 : ℕ) := by exact_mod_cast hy0
      rw [hT]
      apply div_pos (by linarith) (by norm_num)
    have hw : ∀ x ∈ r.items, 0 < x.adjustedWeight := by
      intro x hx
      rw [w2 x hx]
      obtain ⟨z, -, -, hz⟩ := hitem x hx
      rw [hz]
      split
      · exact hTpos
      next hz0 =>
        have : (0 : ℝ) < (z.2.1 : ℕ) := by exact_mod_cast Nat.pos_of_ne_zero hz0
        exact lt_min (by positivity) (by positivity)
    refine ⟨⟨⟨ht, hpos, ?_, ?_, ?_, .inl hw⟩, ⟨ht, hpos, .refl _, rfl, rfl⟩⟩, hw⟩
    · intro x hx
      obtain ⟨z, -, hz, -⟩ := hitem x hx
      rw [hz]; exact fromRgba_unit hγ _
    · intro c hc
      rw [e5] at hc
      obtain ⟨f, -, rfl⟩ := List.mem_map.1 hc
      exact fromRgba_unit hγ _
    · intro x hx
      exact ⟨(hw x hx).le, w4 x hx⟩
  · intro hc
    have hz : ∀ y ∈ m, y.2.1 = 0 := by
      intro y hy
      by_contra h0
      exact hc ⟨y, hy, Nat.pos_of_ne_zero h0⟩
    have hT0 : T = 0 := by
      rw [hT]
      have : (m.map fun e => (e.2.1 : ℝ)).sum = 0 := by
        apply List.sum_eq_zero
        intro z hz'
        obtain ⟨u, hu, rfl⟩ := List.mem_map.1 hz'
        rw [hz u hu]; simp
      rw [this]; simp
    intro x hx
    rw [w2 x hx]
    obtain ⟨z, hz', -, hzw⟩ := hitem x hx
    rw [hzw, if_pos (hz z hz'), hT0]

/-- **C70** (exact), the part that holds: if some colour has a count, or all the colours fit in the palette and are to be
kept, no assertion fails: what a debug build does is what a release build does. The assertions that values are finite
hold by nature in exact arithmetic. -/
theorem C70_same_partial {h : Histogram ℝ} (hu : UserHistogram h) (blank : HistItem ℝ) (env : Env ℝ) (cs : List Call)
    (cb : Option (List ℝ → Bool)) (freeze : Bool) (log : List ℝ) (hc : HasCount h ∨ AllKept h cs) :
    h.quantizeInternalD true blank env (userAttr cs cb) freeze log = h.quantizeInternal env (userAttr cs cb) freeze log := by
  have hγ := user_gamma hu
  apply quantizeInternalD_checked blank env h freeze log (fun _ => by simpa using hγ)
  intro hist hne e log
  obtain ⟨-, -, hl, hw, ht, hheavy, -⟩ := finalized_exact hu.distinct hγ hne e
  have hmax := userAttr_range (F := ℝ) cs cb
  have hw' : true = true → ∀ x ∈ hist.items, le (lit32 0) x.perceptualWeight = true := fun _ x hx => by simpa using hw x hx
  rcases hc with hc | ⟨hle, hq⟩
  · exact newD_checked sound_real (checked_exact env hmax.2 ht) hmax.1 hmax.2 (h0 := hheavy hc) hw' freeze _ log
  · refine newD_kept sound_real hmax.2 ?_ ((target_zero_iff cs cb).2 hq) hw' freeze _ log
    rw [hl, userAttr_maxColors, colours_card hu.distinct]; exact hle

theorem newD_weightless {start : ℕ} {l : List (HistItem ℝ)} (hne : l ≠ []) (h : ∀ x ∈ l, x.adjustedWeight = 0) :
    MBox.newD true start l = .error .panic := by
  obtain ⟨x, hx⟩ := List.exists_mem_of_ne_nil l hne
  have h2 : (l.all fun c => lt (lit32 0) c.adjustedWeight) = false := by
    rw [List.all_eq_false]
    exact ⟨x, hx, by simp [h x hx]⟩
  have h1 : (l.all fun c : HistItem ℝ => isFinite c.adjustedWeight) = true := by
    rw [List.all_eq_true]; intro y _; simp [isFinite]
  unfold MBox.newD
  rw [h1, h2]
  rfl

theorem ClusterChain.filter_ne {s n : ℕ} {cs : List (ℕ × ℕ)} (h : ClusterChain s n cs) (hlt : s < n) :
    cs.filter (fun c => decide (c.1 ≠ c.2)) ≠ [] := by
  induction cs generalizing s with
  | nil => have : s = n := h; omega
  | cons c cs ih =>
    obtain ⟨b, e⟩ := c
    obtain ⟨rfl, h2, h3⟩ := h
    by_cases hbe : b = e
    · subst hbe
      rw [List.filter_cons_of_neg (by simp)]
      exact ih h3 hlt
    · rw [List.filter_cons_of_pos (by simpa using hbe)]
      simp

theorem initialBoxesD_weightless {hist : HistogramInternal ℝ} {target : ℕ} (ht : hist.Tiled) (hne : hist.items ≠ [])
    (h : ∀ x ∈ hist.items, x.adjustedWeight = 0) : initialBoxesD true hist target = .error .panic := by
  have hpos : 0 < hist.items.length := List.length_pos_iff.2 hne
  have hcl : hist.clusters ≠ [] := by
    intro hc
    unfold HistogramInternal.Tiled at ht
    rw [hc] at ht
    have : 0 = hist.items.length := ht
    omega
  obtain ⟨⟨c, hc, hc0⟩, d, hd, hd0⟩ := ClusterChain.ends ht hcl
  unfold initialBoxesD
  rw [hc, hd]
  dsimp only
  rw [dbg_true (by simpa using hc0), dbg_true (by simpa using hd0), Res.ok_bind, Res.ok_bind]
  split
  · have hused := ht.filter_ne hpos
    have hch := ht.filter
    have hbe : ∀ c ∈ hist.clusters.filter (fun c => decide (c.1 ≠ c.2)), c.1 ≠ c.2 := fun c hc => by
      simpa using (List.mem_filter.1 hc).2
    generalize hist.clusters.filter (fun c => decide (c.1 ≠ c.2)) = used at hused hch hbe
    cases used with
    | nil => exact absurd rfl hused
    | cons c cs =>
      obtain ⟨b, e⟩ := c
      obtain ⟨rfl, h2, h3⟩ := hch
      have h4 := h3.le
      have hne' : (0 : ℕ) ≠ e := hbe (0, e) (by simp)
      rw [clusterBoxesD, dbg_true (by simp), Res.ok_bind, if_pos ⟨h2, by omega⟩, newD_weightless (by
        apply List.ne_nil_of_length_pos; rw [List.length_take]; omega) (fun x hx => h x (List.mem_of_mem_take hx))]
      rfl
  · rw [newD_weightless hne h]; rfl


/-- **C70** (exact), the rest: if no colour has a count and the colours do not all fit or quality 100 is not asked for, an
assertion of median cut fails in a debug build (`mediancut.rs:32`), while the release build does not panic. -/
theorem C70_only_fixed {h : Histogram ℝ} (hu : UserHistogram h) (hne : h.hashmap ≠ [] ∨ h.fixedColors ≠ []) (blank : HistItem ℝ)
    (env : Env ℝ) (cs : List Call) (freeze : Bool) (log : List ℝ) (hc : ¬ HasCount h) (hk : ¬ AllKept h cs) :
    h.quantizeInternalD true blank env (userAttr cs none) freeze log = (.error .panic, log) ∧
      (h.quantizeInternal env (userAttr cs none) freeze log).1 ≠ .error .panic := by
  constructor
  · have hγ := user_gamma hu
    obtain ⟨hist, e, -⟩ := Histogram.finalize_ok env.ho h (h.gamma.getD (lit64 (45455/100000)))
    obtain ⟨ht, hpos, hl, -, -, -, hzero⟩ := finalized_exact hu.distinct hγ hne e
    have hcond : (decide (hist.items.length ≤ (userAttr cs (none : Option (List ℝ → Bool))).maxColors) &&
        ((userAttr cs (none : Option (List ℝ → Bool))).targetMseFor hist.items.length).2.2) ≠ true := by
      rw [Ne, Bool.and_eq_true]
      rintro ⟨h1, h2⟩
      apply hk
      refine ⟨?_, (target_zero_iff cs none).1 h2⟩
      rw [← colours_card hu.distinct env.ho, ← hl, ← userAttr_maxColors (F := ℝ) cs none]
      simpa using h1
    unfold Histogram.quantizeInternalD
    rw [if_neg (by
      rw [Bool.and_eq_true, List.isEmpty_iff, List.isEmpty_iff]
      rintro ⟨h1, h2⟩
      rcases hne with h | h <;> contradiction)]
    rw [PM.bind_ok (m := progress (userAttr cs none).progressCallback _) (a := false) (log' := log) rfl, if_neg (by simp)]
    rw [PM.bind_ok (m := progress (userAttr cs none).progressCallback _) (a := false) (log' := log) rfl, if_neg (by simp)]
    rw [finalizeBuilderD_eq blank env.ho h _ (fun _ => by simpa using hγ), e]
    rw [PM.bind_ok (m := PM.lift (Except.ok hist)) (a := hist) (log' := log) rfl]
    unfold QuantizationResult.newD
    rw [PM.bind_ok (m := progress (userAttr cs none).progressCallback _) (a := false) (log' := log) rfl, if_neg (by simp)]
    dsimp only
    have hfind : ∀ a b, findBestPaletteD true env (userAttr cs none) a
        ((userAttr cs (none : Option (List ℝ → Bool))).targetMseFor hist.items.length).2.2 b hist log = (.error .panic, log) := by
      intro a b
      unfold findBestPaletteD
      rw [if_neg hcond, PM.bind_apply, findLoopD, PM.bind_apply]
      have : mediancutD true env.so (FindState.init (userAttr cs none) hist).hist
          (FindState.init (userAttr cs none) hist).maxColors (a *₆ (FindState.init (userAttr cs none) hist).overshoot)
          (maxMsePerColor a (FindState.init (userAttr cs none) hist).paletteError) = .error .panic := by
        unfold mediancutD
        dsimp only
        rw [show (FindState.init (userAttr cs none) hist).hist = hist from rfl, initialBoxesD_weightless ht hpos (hzero hc)]
        rfl
      rw [this]
      rfl
    rw [PM.bind_apply, hfind]
  · rcases user_outcome env cs none h freeze log with ⟨-, -, e⟩ | ⟨-, e⟩
    · rw [e]; simp
    · generalize h.quantizeInternal env (userAttr cs none) freeze log = x at e
      cases e <;> simp

/-- red, green and blue as fixed colours, and nothing else -/
theorem three_fixed {F : Type} [Flt F] : ∃ h : Histogram F, UserHistogram h ∧ h.hashmap = [] ∧
    h.fixedColors = [(⟨255, 0, 0, 255⟩, 0), (⟨0, 255, 0, 255⟩, 1), (⟨0, 0, 255, 255⟩, 2)] := by
  have hadd : ∀ (h : Histogram F) (c : RGBA), UserHistogram h → h.fixedColors.length < 3 → (c, h.fixedColors.length % 256) ∉ h.fixedColors →
      ∃ h' : Histogram F, UserHistogram h' ∧ h'.hashmap = h.hashmap ∧ h'.fixedColors = h.fixedColors ++ [(c, h.fixedColors.length % 256)] := by
    intro h c hu hl hn
    obtain ⟨h', e, h1, h2⟩ : ∃ h', h.addFixedColor c (lit64 0) = .ok h' ∧ h'.hashmap = h.hashmap ∧
        h'.fixedColors = h.fixedColors ++ [(c, h.fixedColors.length % 256)] := by
      unfold Histogram.addFixedColor
      rw [if_neg (by unfold maxColorsCap; omega)]
      refine ⟨_, rfl, ?_⟩
      dsimp only
      refine ⟨by split <;> rfl, ?_⟩
      have hi : ∀ x : Histogram F, x.fixedColors = h.fixedColors →
          Histogram.insertFixed x.fixedColors (c, x.fixedColors.length % 256) = h.fixedColors ++ [(c, h.fixedColors.length % 256)] := by
        intro x hx
        rw [hx, Histogram.insertFixed, if_neg hn]
      exact hi _ (by split <;> rfl)
    exact ⟨h', .fixed hu e, h1, h2⟩
  obtain ⟨h1, u1, m1, f1⟩ := hadd _ ⟨255, 0, 0, 255⟩ (.new [] none) (by simp [Histogram.new]) (by simp [Histogram.new])
  have f1' : h1.fixedColors = [(⟨255, 0, 0, 255⟩, 0)] := by rw [f1]; rfl
  obtain ⟨h2, u2, m2, f2⟩ := hadd h1 ⟨0, 255, 0, 255⟩ u1 (by rw [f1']; decide) (by rw [f1']; decide)
  rw [f1'] at f2
  obtain ⟨h3, u3, m3, f3⟩ := hadd h2 ⟨0, 0, 255, 255⟩ u2 (by rw [f2]; decide) (by rw [f2]; decide)
  rw [f2] at f3
  exact ⟨h3, u3, by rw [m3, m2, m1]; rfl, f3⟩

/-- **C70** does not hold (exact): with three fixed colours, no pixels, a palette of two colours and otherwise default
settings, the debug build panics where the release build succeeds. -/
theorem C70_does_not_hold : ∃ h : Histogram ℝ, UserHistogram h ∧ ∀ (blank : HistItem ℝ) (env : Env ℝ) (freeze : Bool) (log : List ℝ),
    h.quantizeInternalD true blank env (userAttr [.maxColors 2] none) freeze log = (.error .panic, log) ∧
    ∃ r log', h.quantizeInternal env (userAttr [.maxColors 2] none) freeze log = (.ok r, log') := by
  obtain ⟨h, hu, hm, hf⟩ := three_fixed (F := ℝ)
  refine ⟨h, hu, fun blank env freeze log => ⟨?_, C42_succeeds env _ h freeze log rfl (.inr (by rw [hf]; simp))⟩⟩
  refine (C70_only_fixed hu (.inr (by rw [hf]; simp)) blank env _ freeze log ?_ ?_).1
  · rintro ⟨e, he, -⟩
    rw [hm] at he; simp at he
  · rintro ⟨hc, -⟩
    unfold coloursOf at hc
    rw [hm, hf] at hc
    revert hc
    decide

/-- hypotheses of `C70_same_partial`, both cases -/
example : ∃ h : Histogram ℝ, UserHistogram h ∧ ¬ HasCount h ∧ AllKept h [] := by
  obtain ⟨h, hu, hm, hf⟩ := three_fixed (F := ℝ)
  refine ⟨h, hu, ?_, ?_⟩
  · rintro ⟨e, he, -⟩
    rw [hm] at he; simp at he
  · unfold AllKept coloursOf
    rw [hm, hf]
    decide

example : ∃ h h' : Histogram ℝ, (Histogram.new (userAttr [] none)).addColors [(⟨255, 0, 0, 255⟩, 1)] 0 = .ok h ∧
    h.addFixedColor ⟨0, 0, 0, 255⟩ 0 = .ok h' ∧ UserHistogram h' ∧ HasCount h' ∧ ¬ AllKept h' [.quality 0 90] := by
  obtain ⟨h, e1, hh, hf⟩ : ∃ h : Histogram ℝ, (Histogram.new (userAttr [] none)).addColors [(⟨255, 0, 0, 255⟩, 1)] 0 = .ok h ∧
      h.hashmap = [(⟨255, 0, 0, 255⟩, 1, ⟨255, 0, 0, 255⟩)] ∧ h.fixedColors = [] := by
    unfold Histogram.addColors
    rw [if_neg (by simp), if_neg (by simp)]
    refine ⟨_, rfl, ?_⟩
    dsimp only
    rw [if_neg (by simp)]
    exact ⟨rfl, rfl⟩
  obtain ⟨h', e2, hh', hf'⟩ : ∃ h', h.addFixedColor ⟨0, 0, 0, 255⟩ 0 = .ok h' ∧ h'.hashmap = h.hashmap ∧
      h'.fixedColors = [(⟨0, 0, 0, 255⟩, 0)] := by
    unfold Histogram.addFixedColor
    rw [if_neg (by simp [hf, maxColorsCap])]
    refine ⟨_, rfl, ?_⟩
    dsimp only
    rw [if_neg (by simp), hf]
    exact ⟨rfl, rfl⟩
  refine ⟨h, h', e1, e2, .fixed (.colors (.new _ _) e1) e2, ?_, ?_⟩
  · refine ⟨(⟨255, 0, 0, 255⟩, 1, ⟨255, 0, 0, 255⟩), by rw [hh', hh]; simp, by decide, ?_⟩
    rw [hf']
    decide
  · rintro ⟨-, hq⟩
    revert hq
    decide

end Verif
