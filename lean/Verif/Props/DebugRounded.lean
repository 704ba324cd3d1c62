import Verif.Props.OpaqueRounded
import Verif.Lemmas.DebugSearch
import Verif.Props.Finite
import Verif.Props.Debug

/-! Debug builds quantize like release builds when arithmetic rounds and overflows (C70). -/

set_option linter.unusedSectionVars false

namespace Verif
open Flt Spec

section rounded
variable {F : Type} [Flt F] [FltMin F] [FltSign F]
open FltRound

theorem target_zero_rounded {cs : List Call} (cb : Option (List F → Bool)) (h : (Settings.default.after cs).quality.2 = 100) :
    Flt.eq (userAttr cs cb).targetMse (lit64 0 : F) = true := by
  have hz := nn_zero64 (F := F)
  have h0 : Flt.eq (lit64 0 : F) (lit64 0) = true := (FltRound.eq _ _ hz.fin hz.fin).2 rfl
  rw [after_quality_settings] at h
  rw [(userAttr_quality cs cb).2]
  cases hl : lastQuality cs with
  | none => exact h0
  | some q =>
    rw [hl] at h
    dsimp only [Option.getD_some] at h ⊢
    rw [h]
    exact h0

theorem same_rounded {op : Prop} {h : Histogram F} (hu : UserHistogram h) (hs : UsualSize h) (blank : HistItem F) (env : Env F)
    (cs : List Call) (cb : Option (List F → Bool)) (ht : (userAttr cs cb).feedbackTrials (coloursOf h).card ≤ maxRounds (MediumSize h)) (freeze : Bool)
    (log : List F) (hc : HasCount h ∨ AllKept h cs)
    (hop : op → HasCount h ∧ (coloursOf h).card ≤ 2 ^ 14 ∧ (∀ x ∈ h.insertFixedColors env.ho, x.2.2.a = 255) ∧
      (∀ f ∈ h.fixedColors, f.1.a = 255)) :
    h.quantizeInternalD true blank env (userAttr cs cb) freeze log = h.quantizeInternal env (userAttr cs cb) freeze log := by
  apply quantizeInternalD_checked blank env h freeze log
  · intro _
    have hz := nn_zero64 (F := F)
    rw [FltRound.lt _ _ hz.fin hs.gamma.fin, le_antisymm hz.hi hz.lo]
    exact lt_of_lt_of_le (by norm_num) hs.gamma.lo
  · intro hist hne e log
    obtain ⟨w, hT, hpos⟩ := finalized_fin (op := op) hu.distinct hs.counts hs.colours hs.gamma e hop
      (fun h : MediumSize h => ⟨h.counted, h.colours, h.counts⟩)
    have hmax := userAttr_range (F := F) cs cb
    have hl : hist.items.length = (h.insertFixedColors env.ho).length := by
      obtain ⟨r1, e3, -, hl⟩ := h.finalize_ok env.ho (h.gamma.getD (lit64 (45455/100000)))
      rw [e] at e3; cases e3
      exact hl
    have hcard : hist.items.length = (coloursOf h).card := by rw [hl, colours_card hu.distinct]
    refine newD_fin hmax.1 hmax.2 w (by rw [hcard]; exact ht) (target_size cs cb (userAttr_posterization cs cb) _) ?_ freeze _ log
    rcases hc with hc | ⟨hle, hq⟩
    · refine .inl ⟨?_, hT, (hpos hc).2⟩
      apply List.ne_nil_of_length_pos
      rw [hl]; exact List.length_pos_iff.2 (Histogram.insertFixedColors_ne_nil env.ho h hne)
    · exact .inr ⟨by rw [hcard, userAttr_maxColors]; exact hle, target_zero_rounded cb hq⟩

/-- **C70** (arithmetic with rounding), the part that holds. If some colour has a count, or all the colours fit in the palette
and are to be kept, and the search takes at most eleven rounds, no assertion fails: those about finite numbers, about weights
that are positive and about errors below `MAX_DIFF` included. What a debug build does is what a release build does. -/
theorem C70_same_rounded_partial {h : Histogram F} (hu : UserHistogram h) (hs : UsualSize h) (blank : HistItem F) (env : Env F)
    (cs : List Call) (cb : Option (List F → Bool)) (ht : (userAttr cs cb).feedbackTrials (coloursOf h).card ≤ 11) (freeze : Bool)
    (log : List F) (hc : HasCount h ∨ AllKept h cs) :
    h.quantizeInternalD true blank env (userAttr cs cb) freeze log = h.quantizeInternal env (userAttr cs cb) freeze log :=
  same_rounded (op := False) hu hs blank env cs cb (ht.trans eleven_le) freeze log hc False.elim

/-- **C70** for the settings of a user: at speed 5 and above, and at speed 4, the default, if a colour that
is not fixed has a count and counts add up to at most 2²⁸. -/
theorem C70_same_fast_partial {h : Histogram F} (hu : UserHistogram h) (hs : UsualSize h) (blank : HistItem F) (env : Env F)
    (cs : List Call) (cb : Option (List F → Bool)) (hspeed : FastEnough h cs) (freeze : Bool)
    (log : List F) (hc : HasCount h ∨ AllKept h cs) :
    h.quantizeInternalD true blank env (userAttr cs cb) freeze log = h.quantizeInternal env (userAttr cs cb) freeze log :=
  same_rounded (op := False) hu hs blank env cs cb (rounds_of_speed hspeed cb) freeze log hc False.elim

end rounded

/-- hypotheses of `C70_same_fast_partial` at the default speed -/
example : ∃ (h : Histogram Over), UserHistogram h ∧ UsualSize h ∧ HasCount h ∧ FastEnough h [.speed 4, .maxColors 2] ∧
    ∃ r log, h.quantizeInternal Env.simple (userAttr [.speed 4, .maxColors 2] none) true [] = (.ok r, log) := by
  obtain ⟨h, hu, hs, hc, -, key⟩ := finite_case (F := Over)
  exact ⟨h, hu, hs, hc.counted, .inr ⟨by decide, hc.counted, hc.counts⟩, key 4⟩

/-- hypotheses of `C70_same_rounded_partial`, for an arithmetic in which operations do overflow; the search runs -/
example : ∃ (h : Histogram Over), UserHistogram h ∧ UsualSize h ∧ HasCount h ∧ ¬ AllKept h [.speed 7, .maxColors 2] ∧
    (userAttr [.speed 7, .maxColors 2] (none : Option (List Over → Bool))).feedbackTrials (coloursOf h).card ≤ 11 ∧
    ∃ r log, h.quantizeInternal Env.simple (userAttr [.speed 7, .maxColors 2] none) true [] = (.ok r, log) := by
  obtain ⟨h, hu, hs, hc, h3, key⟩ := finite_case (F := Over)
  obtain ⟨r, log, e⟩ := key 7
  refine ⟨h, hu, hs, hc.counted, ?_, fast_trials (by decide) _ _, r, log, e⟩
  rintro ⟨h1, -⟩
  rw [h3] at h1
  revert h1
  decide

end Verif
