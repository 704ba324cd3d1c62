import Verif.Props.Quantize
import Verif.Props.Convert
import Verif.Lemmas.HistAdd

/-! # Properties C08, C34: fixed colours -/

set_option linter.unusedSectionVars false

namespace Verif
open Flt Spec

section
variable {F : Type} [Flt F]

/-- a call on a histogram: a fixed colour or pixels -/
inductive HistCall (F : Type) where
  | fixed (c : RGBA) (gamma : F)
  | add (a : Addition F)

/-- one call, as the library does it -/
def Histogram.callOn (ho : HashOrder) (h : Histogram F) : HistCall F → Res (Histogram F)
  | .fixed c g => h.addFixedColor c g
  | .add a => h.apply ho a

/-- any history of calls; a call that fails leaves the histogram as it was -/
def Histogram.afterCalls (ho : HashOrder) (h : Histogram F) (cs : List (HistCall F)) : Histogram F :=
  cs.foldl (fun h c => match h.callOn ho c with | .ok h' => h' | .error _ => h) h

/-- the fixed colours among the calls, in order -/
def fixedCalls (cs : List (HistCall F)) : List RGBA := cs.filterMap fun c => match c with | .fixed c _ => some c | .add _ => none

theorem finishRows_fixed (ho : HashOrder) (h : Histogram F) (b : ℕ) : (h.finishRows ho b).fixedColors = h.fixedColors := by
  have hi : ∀ (h : Histogram F) (b : ℕ), (h.initPosterizeBits ho b).fixedColors = h.fixedColors := by
    intro h b; unfold Histogram.initPosterizeBits; split <;> rfl
  unfold Histogram.finishRows
  dsimp only
  split <;> simp only [hi]

theorem addRows_fixed (h : Histogram F) (w : ℕ) (rows : List (List RGBA)) (imp : List ℕ) :
    (h.addRows w rows imp).fixedColors = h.fixedColors := by
  have hrow : ∀ (r : List RGBA) (h : Histogram F) (imp : List ℕ), (h.addRow r imp).fixedColors = h.fixedColors := by
    intro r
    induction r with
    | nil => intro h imp; rw [Histogram.addRow]
    | cons c cs ih =>
      intro h imp
      cases imp with
      | nil => rw [Histogram.addRow, ih, (h.addColor_rest _ _).2.2.1]
      | cons b bs => rw [Histogram.addRow, ih, (h.addColor_rest _ _).2.2.1]
  induction rows generalizing h imp with
  | nil => rw [Histogram.addRows]
  | cons r rs ih => rw [Histogram.addRows]; split <;> rw [ih, hrow]

theorem apply_fixed (ho : HashOrder) (h h' : Histogram F) (a : Addition F) (e : h.apply ho a = .ok h') :
    h'.fixedColors = h.fixedColors := by
  cases a with
  | colors es g =>
    obtain ⟨g', rfl⟩ := Histogram.addColors_eq h h' es g e
    exact (Histogram.addAll_rest _ _).2.2.1
  | image w rows imp bits =>
    cases e
    show (Histogram.finishRows ho _ bits).fixedColors = _
    rw [finishRows_fixed, addRows_fixed]

/-- the fixed colours of a histogram after any calls: the first 256 that were added, numbered in order -/
theorem afterCalls_fixed (ho : HashOrder) (h : Histogram F) (cs : List (HistCall F)) (h0 : h.fixedColors = []) :
    (h.afterCalls ho cs).fixedColors = ((fixedCalls cs).take 256).zipIdx := by
  have key : ∀ (cs : List (HistCall F)) (h : Histogram F) (done : List RGBA), done.length ≤ 256 → h.fixedColors = done.zipIdx →
      (h.afterCalls ho cs).fixedColors = ((done ++ fixedCalls cs).take 256).zipIdx := by
    intro cs
    induction cs with
    | nil => intro h done hl hd; simpa [fixedCalls, Histogram.afterCalls, List.take_of_length_le hl] using hd
    | cons c cs ih =>
      intro h done hl hd
      have hstep : h.afterCalls ho (c :: cs) =
          (match h.callOn ho c with | .ok h' => h' | .error _ => h).afterCalls ho cs := rfl
      rw [hstep]
      cases c with
      | add a =>
        have hf : fixedCalls (HistCall.add a :: cs) = fixedCalls cs := rfl
        rw [hf]
        cases e : h.callOn ho (.add a) with
        | error x => exact ih h done hl hd
        | ok h' => exact ih h' done hl (by rw [apply_fixed ho h h' a e, hd])
      | fixed c g =>
        have hf : fixedCalls (HistCall.fixed c g :: cs) = c :: fixedCalls cs := rfl
        rw [hf]
        by_cases hfull : h.fixedColors.length ≥ maxColorsCap
        · have e : h.callOn ho (.fixed c g) = .error (.err .unsupported) := by
            simp only [Histogram.callOn, Histogram.addFixedColor]; rw [if_pos hfull]
          rw [e]
          have hlen : done.length = 256 := by
            rw [hd, List.length_zipIdx] at hfull
            have : 256 ≤ done.length := hfull
            omega
          have := ih h done hl hd
          rw [List.take_left' hlen] at this ⊢
          exact this
        · have hlt : done.length < 256 := by
            rw [hd, List.length_zipIdx] at hfull
            have : ¬ 256 ≤ done.length := hfull
            omega
          have hnew : (c, done.length) ∉ done.zipIdx := by
            intro hm
            have := List.snd_lt_of_mem_zipIdx hm
            simp at this
          obtain ⟨h', e, hf'⟩ : ∃ h', h.callOn ho (.fixed c g) = .ok h' ∧ h'.fixedColors = (done ++ [c]).zipIdx := by
            simp only [Histogram.callOn, Histogram.addFixedColor]
            rw [if_neg hfull]
            refine ⟨_, rfl, ?_⟩
            have : (if h.gamma.isNone = true ∧ lt (lit64 0) g = true then { h with gamma := some g } else h).fixedColors =
                done.zipIdx := by split <;> exact hd
            dsimp only
            rw [this, List.length_zipIdx, Nat.mod_eq_of_lt hlt, Histogram.insertFixed, if_neg hnew, List.zipIdx_append]
            simp
          rw [e]
          have := ih h' (done ++ [c]) (by simp; omega) hf'
          simpa using this
  simpa using key cs h [] (by simp) (by simpa using h0)

theorem zipIdx_increasing (cs : List RGBA) (k : ℕ) : (cs.zipIdx k).Pairwise (fun x y : HashColor => x.2 < y.2) := by
  induction cs generalizing k with
  | nil => simp
  | cons c cs ih =>
    rw [List.zipIdx_cons, List.pairwise_cons]
    refine ⟨?_, ih (k + 1)⟩
    intro y hy
    have := List.le_snd_of_mem_zipIdx hy
    show k < y.2
    omega

theorem fixedList_zipIdx (ho : HashOrder) (h : Histogram F) (gamma : F) (cs : List RGBA) (hf : h.fixedColors = cs.zipIdx) :
    h.fixedList ho gamma = cs.map (FPixel.fromRgba (gammaLut gamma)) := by
  unfold Histogram.fixedList
  rw [mergeSort_increasing h.fixedColors (ho.set h.fixedColors) (by rw [hf]; exact zipIdx_increasing cs 0) (ho.set_perm _), hf]
  have : (fun c : HashColor => FPixel.fromRgba (gammaLut gamma) c.1) = FPixel.fromRgba (gammaLut gamma) ∘ Prod.fst := rfl
  rw [this, ← List.map_map, List.zipIdx_map_fst]

theorem FixedPrefix.take_eq {fs : List (FPixel F)} {p : PalF F} (h : FixedPrefix fs p) :
    (p.take fs.length).map (·.color) = fs ∧ ∀ e ∈ p.take fs.length, e.pop.isFixed = true := by
  have hl := h.length_le
  constructor
  · apply List.ext_getElem?
    intro i
    rw [List.getElem?_map, List.getElem?_take]
    by_cases hi : i < fs.length
    · rw [if_pos hi]
      obtain ⟨e, he, hc, -⟩ := h i (fs[i]) (by simp [hi])
      rw [he]; simp [hi, hc]
    · rw [if_neg hi, List.getElem?_eq_none (by omega)]; rfl
  · intro e he
    obtain ⟨i, hi, rfl⟩ := List.mem_iff_getElem.1 he
    rw [List.length_take] at hi
    obtain ⟨e', he', -, hf⟩ := h i (fs[i]'(by omega)) (by simp)
    rw [List.getElem_take]
    have := (List.getElem?_eq_some_iff.1 he').2
    rw [this]; exact hf
end

section
variable {F : Type} [Flt F] [FltSign F]

/-- **C08** (any float arithmetic). Any calls on a new histogram, any settings, any callback: after a successful
quantization the palette contains the first `max_colors` of the fixed colours, in the internal form, as a sub-multiset
(so a colour added twice occurs twice), and all these entries are marked as fixed. -/
theorem C08_fixed_in_palette (env : Env F) (ss : List Call) (cb : Option (List F → Bool)) (h0 : Histogram F)
    (hnew : h0.fixedColors = []) (calls : List (HistCall F)) (freeze : Bool) (log log' : List F) (r : QuantizationResult F)
    (hq : (h0.afterCalls env.ho calls).quantizeInternal env (userAttr ss cb) freeze log = (.ok r, log')) :
    ∃ es : List (PalEntry F), es.Subperm r.palette ∧ (∀ e ∈ es, e.pop.isFixed = true) ∧
      es.map (·.color) = (((fixedCalls calls).take 256).take (Settings.default.after ss).maxColors).map
        (FPixel.fromRgba (gammaLut r.gamma)) := by
  rcases user_outcome env ss cb (h0.afterCalls env.ho calls) freeze log with ⟨-, -, e⟩ | ⟨-, e⟩
  · rw [hq] at e; cases e
  · rw [hq] at e
    cases e with
    | ok _ _ _ _ hr =>
      obtain ⟨p, hp, hperm⟩ := hr.pal
      have hg : r.gamma = (h0.afterCalls env.ho calls).gamma.getD (lit64 (45455/100000)) := by rw [hr.rest]
      have hfix := hp.fixed
      rw [fixedList_zipIdx env.ho _ _ _ (afterCalls_fixed env.ho h0 calls hnew), ← hg, ← List.map_take, userAttr_maxColors] at hfix
      obtain ⟨h1, h2⟩ := hfix.take_eq
      rw [List.length_map] at h1 h2
      set n := (List.take (Settings.default.after ss).maxColors ((fixedCalls calls).take 256)).length
      cases freeze with
      | false =>
        refine ⟨p.take n, ?_, h2, h1⟩
        exact (List.take_sublist n p).subperm.trans (by simpa using hperm.symm.subperm)
      | true =>
        refine ⟨(p.take n).map fun e => { e with pop := e.pop.toFixed }, ?_, ?_, ?_⟩
        · refine List.Subperm.trans ?_ hperm.symm.subperm
          simp only [if_true]
          exact ((List.take_sublist n p).map _).subperm
        · intro e he
          obtain ⟨y, -, rfl⟩ := List.mem_map.1 he
          exact PalPop.toFixed_isFixed _
        · rw [List.map_map]; exact h1
end

/-- **C08** (exact). Without posterization the reported palette contains the first `max_colors` fixed colours exactly as
they were given (a fully transparent one as transparent black). -/
theorem C08_fixed_reported (env : Env ℝ) (ss : List Call) (cb : Option (List ℝ → Bool)) (h0 : Histogram ℝ)
    (hnew : h0.fixedColors = []) (calls : List (HistCall ℝ)) (freeze : Bool) (log log' : List ℝ) (r : QuantizationResult ℝ)
    (hq : (h0.afterCalls env.ho calls).quantizeInternal env (userAttr ss cb) freeze log = (.ok r, log'))
    (hpost : r.minPosterizationOutput = 0) (hgam : 0 < r.gamma) :
    ((((fixedCalls calls).take 256).take (Settings.default.after ss).maxColors).map
      fun c => if c.a = 0 then (⟨0, 0, 0, 0⟩ : RGBA) else c).Subperm r.getPalette.2 := by
  obtain ⟨es, h1, h2, h3⟩ := C08_fixed_in_palette env ss cb h0 hnew calls freeze log log' r hq
  have hrest : r.remapped = none ∧ r.intPalette = [] := by
    rcases user_outcome env ss cb (h0.afterCalls env.ho calls) freeze log with ⟨-, -, e⟩ | ⟨-, e⟩
    · rw [hq] at e; cases e
    · rw [hq] at e
      cases e with
      | ok _ _ _ _ hr => rw [hr.rest]; exact ⟨rfl, rfl⟩
  have hpal : r.getPalette.2 = r.palette.map fun e => (PalF.roundEntry r.gamma 0 e).2 := by
    unfold QuantizationResult.getPalette
    rw [hrest.1, hrest.2, hpost]
    rfl
  rw [hpal]
  have hes : es.map (fun e => (PalF.roundEntry r.gamma 0 e).2) =
      (((fixedCalls calls).take 256).take (Settings.default.after ss).maxColors).map
        fun c => if c.a = 0 then (⟨0, 0, 0, 0⟩ : RGBA) else c := by
    have hround : ∀ e ∈ es, (PalF.roundEntry r.gamma 0 e).2 = e.color.toRgb r.gamma := by
      intro e he
      unfold PalF.roundEntry
      have hid : ∀ c, PalF.posterizeChannel c 0 = c := fun c => by simp [PalF.posterizeChannel]
      dsimp only
      rw [if_neg (by rintro ⟨-, h⟩; exact h (h2 e he))]
      simp only [RGBA.map, hid]
    rw [List.map_congr_left hround]
    have : es.map (fun e => e.color.toRgb r.gamma) = (es.map (·.color)).map (fun c => c.toRgb r.gamma) := by
      rw [List.map_map]; rfl
    rw [this, h3, List.map_map]
    apply List.map_congr_left
    intro c _
    exact C07_roundtrip hgam c
  rw [← hes]
  obtain ⟨l, hl1, hl2⟩ := h1
  exact ⟨l.map _, hl1.map _, hl2.map _⟩

/-! ## C34 -/

section
variable {F : Type} [Flt F]

/-- **C34** (histogram; any float arithmetic). `add_fixed_color` is accepted exactly while fewer than 256 fixed colours are
stored; otherwise it reports `Unsupported`. After any calls at most 256 fixed colours are stored: the first 256. -/
theorem C34_histogram_limit (h : Histogram F) (c : RGBA) (g : F) :
    (h.addFixedColor c g = .error (.err .unsupported) ↔ 256 ≤ h.fixedColors.length) ∧
    (h.fixedColors.length < 256 → ∃ h', h.addFixedColor c g = .ok h') ∧
    (∀ (ho : HashOrder) (calls : List (HistCall F)), h.fixedColors = [] →
      (h.afterCalls ho calls).fixedColors.map (·.1) = (fixedCalls calls).take 256) := by
  refine ⟨?_, ?_, ?_⟩
  · unfold Histogram.addFixedColor
    by_cases hf : h.fixedColors.length ≥ maxColorsCap
    · rw [if_pos hf]; exact ⟨fun _ => hf, fun _ => rfl⟩
    · rw [if_neg hf]; exact ⟨fun e => (by cases e), fun e => absurd e hf⟩
  · intro hl
    unfold Histogram.addFixedColor
    have : ¬ h.fixedColors.length ≥ maxColorsCap := by show ¬ 256 ≤ _; omega
    rw [if_neg this]
    exact ⟨_, rfl⟩
  · intro ho calls h0
    rw [afterCalls_fixed ho h calls h0]
    exact List.zipIdx_map_fst ..

/-- **C34 fails** for `add_image`: the fixed colours of an image are added without any check, so a histogram with 256
fixed colours plus an image with another one (with an index of its own) has 257, and nothing is reported. -/
theorem C34_add_image_unchecked (h : Histogram F) (c : RGBA) (hl : h.fixedColors.length = 256)
    (hnew : (c, 0) ∉ h.fixedColors) : (h.extendFixed [c]).fixedColors.length = 257 := by
  simp only [Histogram.extendFixed, List.zipIdx_cons, List.zipIdx_nil, List.foldl_cons, List.foldl_nil]
  rw [Histogram.insertFixed, if_neg (by simpa using hnew), List.length_append, hl]
  rfl

/-- the hypotheses of the counterexample are met by 256 different fixed colours -/
example : ∃ h : Histogram F, h.fixedColors.length = 256 ∧ (⟨1, 1, 1, 255⟩, 0) ∉ h.fixedColors :=
  ⟨{ gamma := none, hashmap := [], posterizeBits := 0, maxHistogramEntries := 1000
     fixedColors := ((List.range 256).map fun n => (⟨UInt8.ofNat n, 0, 0, 255⟩ : RGBA)).zipIdx }, by simp, by
    intro h
    have := List.fst_mem_of_mem_zipIdx h
    obtain ⟨n, -, e⟩ := List.mem_map.1 this
    have : (0 : UInt8) = 1 := congrArg RGBA.g e
    exact absurd this (by decide)⟩
end

section
variable {F : Type} [Flt F] [FltSign F]

/-- The hypotheses of C08 are met: three fixed colours, one of them twice, and a limit of 2. -/
example : ∃ (r : QuantizationResult F) (log' : List F),
    (({ gamma := none, fixedColors := [], hashmap := [], posterizeBits := 0, maxHistogramEntries := 1000 } : Histogram F).afterCalls
      (Env.simple : Env F).ho [.fixed ⟨1, 2, 3, 255⟩ (lit64 0), .fixed ⟨1, 2, 3, 255⟩ (lit64 0),
        .fixed ⟨9, 9, 9, 255⟩ (lit64 0)]).quantizeInternal Env.simple (userAttr [.maxColors 2] none) true [] = (.ok r, log') := by
  apply C42_succeeds
  · rfl
  · right
    rw [afterCalls_fixed _ _ _ rfl]
    exact List.ne_nil_of_length_pos (by show 0 < 3; decide)
end

end Verif
