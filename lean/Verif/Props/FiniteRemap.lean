import Verif.Lemmas.FiniteRemap
import Verif.Props.Finite
import Verif.Props.Remap

/-! # C48 and C77: remapping with rounding works with finite numbers, so it does not run out of memory -/

set_option linter.unusedSectionVars false

namespace Verif
open Flt Spec

section rounded
variable {F : Type} [Flt F] [FltMin F] [FltSign F]
open FltRound

/-- the channels of all colours of the palette are finite numbers between 0 and 1 -/
def Spec.UnitColours (p : PalF F) : Prop :=
  ∀ x ∈ p, Share x.color.a ∧ Share x.color.r ∧ Share x.color.g ∧ Share x.color.b

/-- gamma of the image and its background between 1/16 and 1, and fewer than 2³² pixels -/
structure Spec.UsualImage (img : Image F) : Prop where
  gamma : UsualGamma img.px.gamma
  background : ∀ b, img.background = some b → UsualGamma b.gamma
  area : img.width * img.height < 2 ^ 32

theorem UnitColours.unitFin {p : PalF F} (h : UnitColours p) : ∀ x ∈ p, x.color.UnitFin := by
  intro x hx
  obtain ⟨a, r, g, b⟩ := h x hx
  exact ⟨⟨a.1, a.2.1, a.2.2⟩, ⟨r.1, r.2.1, r.2.2⟩, ⟨g.1, g.2.1, g.2.2⟩, ⟨b.1, b.2.1, b.2.2⟩⟩

theorem remapStart_good {q : QuantizationResult F} {img : Image F} (hi : img.Good) {buf : List (Option UInt8)} (log : List F)
    (hb : img.width * img.height ≤ buf.length) : OutGood (remapStart q img buf log).image (remapStart q img buf log).out := by
  obtain ⟨c1, c2, _⟩ := chunksExact_rows (h := img.height) hi.width_pos (buf.take (img.width * img.height))
    (by rw [List.length_take]; omega)
  exact ⟨c1, c2⟩


/-- **C48** (arithmetic with rounding). With a large enough buffer a remap of an image of usual gamma and size succeeds or is
aborted, nothing else. It is aborted exactly when the callback answers a report with "break", which then is the last one. If
dithering is on, the colours of the palette have to be finite numbers; `C77_finite_partial` shows that they are. -/
theorem C48_outcomes_rounded (env : RemapEnv F) {q : QuantizationResult F} {img : Image F} (hq : UserResult q)
    (hi : UserImage img) (hu : UsualImage img) (hγ : UsualGamma q.gamma)
    (hp : Flt.eq q.ditherLevel (Flt.lit32 0) = true ∨ UnitColours q.palette)
    (buf : List (Option UInt8)) (log : List F) (hb : img.width * img.height ≤ buf.length) :
    let r := remapInto env q img buf log
    ∃ new, r.log = log ++ new ∧
      ((r.res = .ok () ∧ ∀ f, q.progressCallback = some f → ∀ k < new.length, f (log ++ new.take (k + 1)) = false) ∨
       (r.res = .error (.err .aborted) ∧ new ≠ [] ∧ ∃ f, q.progressCallback = some f ∧ f r.log = true ∧
        ∀ k < new.length - 1, f (log ++ new.take (k + 1)) = false)) := by
  intro r
  obtain ⟨new, h1, h⟩ := C48_outcomes env hq hi buf log hb
  refine ⟨new, h1, ?_⟩
  rcases h with h | h | ⟨h, -⟩
  · exact .inl h
  · exact .inr h
  · obtain ⟨s, d, _, _, _, _, _, e⟩ := (user_spec env hq hi buf log).run hb
    have hf := (writeRemapped_fin env (s := remapStart q img buf log) hi.good (remapStart_good hi.good log hb) hq.good.pos hq.good.le
      (hi.fin hu.gamma hu.background hu.area) hγ (hp.imp_right UnitColours.unitFin)).1
    rw [e] at hf
    exact absurd h hf

/-- **C77** (arithmetic with rounding). The error that a remap measures is a finite number between 0 and 100; if it measures
none (dithering without making a dither map) the error is that of the palette. -/
theorem C77_remap_error (env : RemapEnv F) {q : QuantizationResult F} {img : Image F} (hq : UserResult q)
    (hi : UserImage img) (hu : UsualImage img) (hγ : UsualGamma q.gamma)
    (hp : Flt.eq q.ditherLevel (Flt.lit32 0) = true ∨ UnitColours q.palette)
    (buf : List (Option UInt8)) (log : List F) (hok : (remapInto env q img buf log).res = .ok ()) :
    ∃ re, (remapInto env q img buf log).quant.remapped = some re ∧ ∀ e, re.paletteError = some e →
      (fin e ∧ 0 ≤ val e ∧ val e ≤ 100) ∨ (Flt.eq q.ditherLevel (Flt.lit32 0) = false ∧ q.paletteError = some e) := by
  have spec := user_spec env hq hi buf log
  have hb := spec.big hok
  obtain ⟨re, h1, -⟩ := C36_succeeded env hq hi buf log hok
  obtain ⟨s, d, e1, _, _, _, _, e⟩ := spec.run hb
  have hf := (writeRemapped_fin env (s := remapStart q img buf log) hi.good (remapStart_good hi.good log hb) hq.good.pos hq.good.le
      (hi.fin hu.gamma hu.background hu.area) hγ (hp.imp_right UnitColours.unitFin)).2
  rw [e] at hf
  refine ⟨re, by rw [h1], fun x hx => ?_⟩
  rcases hf re (by show s.quant.remapped = _; rw [← e1, h1]) hok x hx with h | h
  · exact .inl ⟨h.fin, h.lo, h.hi⟩
  · exact .inr h

theorem quantized_gamma {h : Histogram F} {env : Env F} {cs : List Call} {cb : Option (List F → Bool)} {freeze : Bool}
    {log log' : List F} {r : QuantizationResult F} (e : h.quantizeInternal env (userAttr cs cb) freeze log = (.ok r, log')) :
    r.gamma = h.gamma.getD (Flt.lit64 (45455/100000)) ∧ r.progressCallback = none := by
  rcases user_outcome env cs cb h freeze log with ⟨-, -, e'⟩ | ⟨-, e'⟩
  · rw [e] at e'; cases e'
  · rw [e] at e'
    cases e' with
    | ok _ _ _ _ hr => rw [hr.rest]; exact ⟨rfl, rfl⟩

/-- **C48**, **C77** (arithmetic with rounding). What was quantized at speed 5 or above, or at
speed 4, the default (see `FastEnough`), can be remapped: without a callback
every remap of a usual image into a large enough buffer succeeds, whatever the dithering level and also if the output gamma was
changed to another usual one. -/
theorem C48_quantized_rounded {h : Histogram F} (hu : UserHistogram h) (hs : UsualSize h) (env : Env F) (cs : List Call)
    (cb : Option (List F → Bool)) (hspeed : FastEnough h cs) (freeze : Bool)
    {log log' : List F} {r : QuantizationResult F} (e : h.quantizeInternal env (userAttr cs cb) freeze log = (.ok r, log'))
    {q : QuantizationResult F} (hq : UserResult q) (hpal : q.palette = r.palette) (hcb : q.progressCallback = none)
    (hγ : UsualGamma q.gamma) {img : Image F} (hi : UserImage img) (hui : UsualImage img) (renv : RemapEnv F)
    (buf : List (Option UInt8)) (log2 : List F) (hb : img.width * img.height ≤ buf.length) :
    (remapInto renv q img buf log2).res = .ok () := by
  have hp : UnitColours q.palette := by
    intro x hx
    rw [hpal] at hx
    obtain ⟨a, b, c, d, -⟩ := (C77_finite_fast_partial hu hs env cs cb hspeed freeze e).1 x hx
    exact ⟨a, b, c, d⟩
  obtain ⟨new, -, h | ⟨-, -, f, hf, -⟩⟩ := C48_outcomes_rounded renv hq hi hui hγ (.inr hp) buf log2 hb
  · exact h.1
  · rw [hcb] at hf; cases hf

theorem usual_image (f : ℕ → ℕ → RGBA) : ∃ img : Image F, UserImage img ∧ UsualImage img ∧ img.width = 3 ∧ img.height = 2 ∧
    img.background = none ∧ img.px.Shows f := by
  have z := nn_zero64 (F := F)
  have hz : val (Flt.lit64 0 : F) = 0 := le_antisymm z.hi z.lo
  obtain ⟨o, ho⟩ := lit64_nat (F := F) (n := 1) (by norm_num)
  push_cast at o ho
  have e : ∃ img : Image F, Image.newFn f 3 2 (Flt.lit64 0) = .ok img ∧ img.px.gamma = Flt.lit64 (45455/100000) ∧ img.background = none := by
    unfold Image.newFn Image.toU32
    rw [if_pos (by omega), if_pos (by omega)]
    simp only [bind, Except.bind]
    unfold Image.newInternal
    rw [if_neg (by decide), if_neg (by
      rw [Bool.not_eq_true', Bool.and_eq_false_iff, not_or]
      simp only [Bool.not_eq_false]
      rw [FltRound.le _ _ z.fin z.fin, FltRound.le _ _ z.fin o, hz, ho]; norm_num)]
    refine ⟨_, rfl, ?_, rfl⟩
    dsimp only
    rw [if_neg (by rw [FltRound.lt _ _ z.fin z.fin]; simp)]
  obtain ⟨img, e, hg, hb⟩ := e
  obtain ⟨-, hw, hh, -⟩ := newFn_good e
  exact ⟨img, .fromCallback e, ⟨by rw [hg]; exact usualGamma_default, (fun b h => by rw [hb] at h; cases h), by rw [hw, hh]; norm_num⟩, hw, hh, hb, (newFn_shows e).1⟩

end rounded

/-- hypotheses of the theorems above, for an arithmetic in which operations do overflow: a palette of three colours reduced to
two, dithered -/
example : ∃ (h : Histogram Over) (r : _) (log : _) (img : Image Over), UserHistogram h ∧ UsualSize h ∧
    h.quantizeInternal Env.simple (userAttr [.speed 7, .maxColors 2] none) true [] = (.ok r, log) ∧ UserResult r ∧
    UsualGamma r.gamma ∧ UnitColours r.palette ∧ r.progressCallback = none ∧ UserImage img ∧ UsualImage img ∧ img.width = 3 := by
  obtain ⟨h, hu, hs, hc, h3, key⟩ := finite_case (F := Over)
  obtain ⟨r, log, e⟩ := key 7
  obtain ⟨img, i1, i2, i3, -⟩ := usual_image (F := Over) fun _ _ => ⟨10, 20, 30, 40⟩
  obtain ⟨g1, g2⟩ := quantized_gamma e
  refine ⟨h, r, log, img, hu, hs, e, .quantized _ _ _ _ _ _ _ e, by rw [g1]; exact hs.gamma, ?_, g2, i1, i2, i3⟩
  intro x hx
  obtain ⟨a, b, c, d, -⟩ := (C77_finite_fast_partial hu hs Env.simple _ none (.inl (by decide)) true e).1 x hx
  exact ⟨a, b, c, d⟩

end Verif
