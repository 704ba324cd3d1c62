import Verif.Lemmas.DitherTrace
import Verif.Lemmas.DitherRuns

/-!
# What happens before an image is dithered

When a dither map is wanted and the image has none, an undithered remap is made first. Its indices become the dither map
and its palette the palette of the result.
-/

namespace Verif
open Flt Image
variable {F : Type} [Flt F]
set_option linter.unusedSectionVars false

theorem generateDitherMap_made (env : RemapEnv F) {s s1 : RemapState F} {ub : Bool} {p p' : PalF F} {e : Option F}
    (ho : s.out.length = s.image.height) (h : generateDitherMap env s ub p = (.ok (e, p'), s1)) :
    generatesDitherMap s.quant.useDitherMap s.image = false ∧ e = none ∧ p' = p ∧ s1 = s ∨
    generatesDitherMap s.quant.useDitherMap s.image = true ∧ ∃ (err : F) (r : RemapOut F),
      remapToPalette env s.image.px none s.image.importanceMap s.image.height p = (.ok err, r) ∧ e = some err ∧
      p' = r.palette ∧
      ({ s.image with px := r.px } : Image F).updateDitherMap (r.rows.getD []) r.palette ub = .ok s1.image := by
  unfold generateDitherMap at h
  cases hgen : generatesDitherMap s.quant.useDitherMap s.image with
  | false =>
    rw [if_pos (by simp [hgen])] at h
    simp only [Prod.mk.injEq, Except.ok.injEq] at h
    exact .inl ⟨rfl, h.1.1.symm, h.1.2.symm, h.2.symm⟩
  | true =>
    rw [if_neg (by simp [hgen]), ho] at h
    generalize hx : remapToPalette env s.image.px none s.image.importanceMap s.image.height p = x at h
    obtain ⟨res, r⟩ := x
    cases res with
    | error er => simp at h
    | ok err =>
      simp only at h
      split at h
      · simp at h
      next img hu =>
        simp only [Prod.mk.injEq, Except.ok.injEq] at h
        exact .inr ⟨rfl, err, r, rfl, h.1.1.symm, h.1.2.symm, by rw [← h.2]; exact hu⟩

/-- the maps of two images are the same -/
def SameMaps (a b : Image F) : Prop :=
  a.ditherMap = b.ditherMap ∧ a.edges = b.edges ∧ a.importanceMap = b.importanceMap

theorem writeRemapped_mapped (env : RemapEnv F) {s : RemapState F} (hl : eq s.quant.ditherLevel (lit32 0) = false)
    (hg : s.image.Good) (ho : OutGood s.image s.out) (hp0 : 0 < s.quant.palette.length) (hp : s.quant.palette.length ≤ 256)
    (hok : (writeRemapped env s).1 = .ok ()) :
    generatesDitherMap s.quant.useDitherMap s.image = false ∧ SameMaps (writeRemapped env s).2.image s.image ∨
    generatesDitherMap s.quant.useDitherMap s.image = true ∧ ∃ (err : F) (r : RemapOut F) (img : Image F),
      remapToPalette env s.image.freeHistogramInputs.px none s.image.importanceMap s.image.height s.quant.palette = (.ok err, r) ∧
      ({ s.image with px := r.px } : Image F).updateDitherMap (r.rows.getD []) r.palette s.image.background.isSome = .ok img ∧
      SameMaps (writeRemapped env s).2.image img ∧
      (writeRemapped env s).2.quant = { s.quant with
        remapped := some ⟨(r.palette.initIntPalette s.quant.gamma (UInt8.ofNat s.quant.minPosterizationOutput)).2, some err⟩ } := by
  unfold writeRemapped at hok ⊢
  rw [progress_eq] at hok ⊢
  cases hans : answered s.quant.progressCallback
      (reported s.quant.progressCallback s.log (lit32 ↑(remapStage1 s.quant.useDitherMap) *₃ lit32 (1/4))) with
  | true => rw [hans] at hok; simp at hok
  | false =>
    rw [hans] at hok
    simp only [hl, Bool.false_eq_true, if_false] at hok ⊢
    have hsame : Rows.Same s.image.px s.image.freeHistogramInputs.px := Rows.free_same s.image.px
    have hgen0 : generatesDitherMap s.quant.useDitherMap s.image.freeHistogramInputs = generatesDitherMap s.quant.useDitherMap s.image := by
      unfold generatesDitherMap
      rw [hsame.width, hsame.height]; rfl
    have hg0 : s.image.freeHistogramInputs.Good := hg.free
    have ho0 : OutGood s.image.freeHistogramInputs s.out := ho.same hsame
    generalize reported s.quant.progressCallback s.log (lit32 ↑(remapStage1 s.quant.useDitherMap) *₃ lit32 (1/4)) = log1 at hok ⊢
    generalize hs0 : ({ quant := s.quant, image := s.image.freeHistogramInputs, out := s.out, log := log1, uninit := s.uninit } : RemapState F) = s0 at hok ⊢
    have hq0 : s0.quant = s.quant := by rw [← hs0]
    have hi0 : s0.image = s.image.freeHistogramInputs := by rw [← hs0]
    have hout0 : s0.out = s.out := by rw [← hs0]
    unfold remapDithered at hok ⊢
    obtain ⟨g1, g2, g3, g4, g5, g7, g6⟩ := generateDitherMap_spec env (s := s0) s0.image.background.isSome (p := s0.quant.palette)
      (by rw [hi0]; exact hg0) (by rw [hi0, hout0]; exact ho0) (by rw [hq0]; exact hp0) (by rw [hq0]; exact hp)
    have hdone : ∀ e p' s1, generateDitherMap env s0 s0.image.background.isSome s0.quant.palette = (.ok (e, p'), s1) → _ :=
      fun e p' s1 h => generateDitherMap_made env (by rw [hi0, hout0]; exact ho0.1) h
    generalize generateDitherMap env s0 s0.image.background.isSome s0.quant.palette = x at *
    obtain ⟨res, s1⟩ := x
    simp only at g1 g6
    rcases g6 with ⟨e, p', rfl, hpl, hall, -, -⟩ | ⟨rfl, -⟩
    · simp only at hok ⊢
      have hd := hdone e p' s1 rfl
      rw [progress_eq] at hok ⊢
      generalize hlg : reported s1.quant.progressCallback s1.log (lit32 ↑(remapStage1 s1.quant.useDitherMap) *₃ lit32 (1/2))
        = log' at hok ⊢
      cases hans' : answered s1.quant.progressCallback log' with
      | true => rw [hans'] at hok; simp at hok
      | false =>
        rw [hans'] at hok
        simp only at hok ⊢
        have hq1 : s1.quant = s.quant := g1.quant.trans hq0
        obtain ⟨f1, -, -, f4, f5, f6, -⟩ := remapFloyd_spec env (s := { s1 with log := log' })
          (p := (p'.initIntPalette s1.quant.gamma (UInt8.ofNat s1.quant.minPosterizationOutput)).1)
          (maxDitherError (e.or s1.quant.paletteError)) e.isSome g1.good g1.out
          (by rw [(initIntPalette_length _ _ _).1, hpl, hq0]; exact hp0) (by rw [(initIntPalette_length _ _ _).1, hpl, hq0]; exact hp)
          (fun h => by rw [(initIntPalette_length _ _ _).1, hpl]; exact (hall h).1)
        generalize remapFloyd env { s1 with log := log' }
          (p'.initIntPalette s1.quant.gamma (UInt8.ofNat s1.quant.minPosterizationOutput)).1
          (maxDitherError (e.or s1.quant.paletteError)) e.isSome = y at *
        obtain ⟨res2, s2⟩ := y
        cases res2 with
        | error er => simp at hok
        | ok u =>
          simp only at f1 f4 f5 f6 ⊢
          have hq2 : s2.quant = s.quant := f1.quant.trans hq1
          rw [hq0, hi0, hgen0] at hd
          rcases hd with ⟨h1, -, -, h4⟩ | ⟨h1, err, r, h2, h3, h4, h5⟩
          · refine .inl ⟨h1, ?_⟩
            rw [h4, hi0] at f4 f5 f6
            exact ⟨f6, f5, f4⟩
          · refine .inr ⟨h1, err, r, s1.image, ?_, h5, ⟨f6, f5, f4⟩, ?_⟩
            · rw [show s.image.freeHistogramInputs.height = s.image.height from hsame.height] at h2
              exact h2
            · rw [hq1, hq2, h3, h4]
              rfl
    · simp at hok

/-- What a successful dithered remap did to the maps of the image: nothing if no dither map was made, and otherwise an
undithered remap was made, which also gave the palette of the result. -/
theorem remapInto_mapped (env : RemapEnv F) {q : QuantizationResult F} {img : Image F} (hq : q.Good)
    (hi : img.Good) (buf : List (Option UInt8)) (log : List F) (hl : eq q.ditherLevel (lit32 0) = false)
    (hok : (remapInto env q img buf log).res = .ok ()) :
    generatesDitherMap q.useDitherMap img = false ∧ SameMaps (remapInto env q img buf log).image img ∨
    generatesDitherMap q.useDitherMap img = true ∧ ∃ (err : F) (r : RemapOut F) (img' : Image F),
      remapToPalette env img.freeHistogramInputs.px none img.importanceMap img.height q.palette = (.ok err, r) ∧
      ({ img with px := r.px } : Image F).updateDitherMap (r.rows.getD []) r.palette img.background.isSome = .ok img' ∧
      SameMaps (remapInto env q img buf log).image img' ∧
      (remapInto env q img buf log).quant = { q with
        remapped := some ⟨(r.palette.initIntPalette q.gamma (UInt8.ofNat q.minPosterizationOutput)).2, some err⟩ } := by
  have spec := remapInto_spec env buf log hq hi
  have hbig : img.width * img.height ≤ buf.length := by
    by_contra hlt
    rw [spec.small (by omega)] at hok
    cases hok
  obtain ⟨s, d, e1, e2, e3, e4, e5, e6⟩ := spec.run hbig
  obtain ⟨c1, c2, _⟩ := chunksExact_rows (h := img.height) hi.width_pos (buf.take (img.width * img.height))
    (by rw [List.length_take]; omega)
  have hw := writeRemapped_mapped env (s := remapStart q img buf log) hl hi ⟨c1, c2⟩ hq.pos hq.le (by rw [e6]; exact hok)
  rw [e6] at hw
  rw [e1, e2]
  exact hw

end Verif
