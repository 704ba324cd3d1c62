import Verif.Props.Rounding
import Verif.Lemmas.PlainPass

/-! # C62: the palette is refined on the image before it is dithered -/

set_option linter.unusedSectionVars false

namespace Verif
open Flt Spec Kmeans

/-- for images that are not huge the product cannot wrap -/
theorem generates_of {F : Type} [Flt F] {mode : DitherMapMode} {img : Image F} (hd : img.ditherMap = none)
    (h : mode = .always ∨ mode ≠ .none ∧ img.width * img.height ≤ 2000 * 2000) : generatesDitherMap mode img = true := by
  unfold generatesDitherMap
  rcases h with h | ⟨h, hs⟩
  · simp [h, hd]
  · have : img.px.width * img.px.height % 2 ^ 32 ≤ 2000 * 2000 := (Nat.mod_le _ _).trans hs
    have hm : (mode != .none) = true := by simpa using h
    simp only [hm, hd, Bool.and_true, Option.isNone_none, Bool.or_eq_true, Bool.not_eq_true', decide_eq_false_iff_not, not_lt]
    exact .inr this

theorem not_generates_of {F : Type} [Flt F] {mode : DitherMapMode} {img : Image F} (h : mode = .none ∨ img.ditherMap ≠ none) :
    generatesDitherMap mode img = false := by
  unfold generatesDitherMap
  rcases h with h | h
  · simp [h]
  · have : img.ditherMap.isNone = false := by simpa [Option.isSome_iff_ne_none] using h
    simp [this]

theorem free_shows {img : Image ℝ} {f : ℕ → ℕ → RGBA} (hf : img.px.Shows f) : img.freeHistogramInputs.px.Shows f :=
  (Rows.free_same img.px).shows hf

/-- the undithered pass before dithering -/
theorem refined_before (env : RemapEnv ℝ) {q : QuantizationResult ℝ} (hq : UserResult q) {img : Image ℝ} (hi : UserImage img)
    {f : ℕ → ℕ → RGBA} (hf : img.px.Shows f) {err : ℝ} {r : RemapOut ℝ}
    (h : remapToPalette env img.freeHistogramInputs.px none img.importanceMap img.height q.palette = (.ok err, r)) :
    ∃ rows, r.rows = some rows ∧ rows.length = img.height ∧
      (∀ row ∈ rows, row.length = img.width ∧ ∀ b ∈ row, b.toNat < q.palette.length) ∧
      RefinedOn img.width img.height (fun y x => colorOf img.px.gamma (f y x)) (pixelWeight img.width img.importanceMap)
        (slots q.palette) (Image.indexAt rows) (slots r.palette) := by
  have hs : Rows.Same img.px img.freeHistogramInputs.px := Rows.free_same img.px
  have hh : img.height = img.freeHistogramInputs.px.height := hs.height.symm
  have hw : img.width = img.freeHistogramInputs.px.width := hs.width.symm
  rw [hh] at h
  obtain ⟨rows, h1, h2, h3, h4⟩ := remapToPalette_refined env hq.good.pos hq.good.le (hs.readable hi.good.px) (free_shows hf)
    (fun m hm => by rw [← hw, ← hh]; exact hi.good.importance m hm) h
  rw [hs.gamma, ← hw, ← hh] at h4
  exact ⟨rows, h1, by rw [h2, hh], fun row hr => by rw [hw]; exact h3 row hr, h4⟩

/-- **C62** (exact arithmetic). Before an image that has no dither map is dithered, its palette is refined on it (unless the
settings do not want a dither map, or the image has more than 2000 x 2000 pixels and a dither map is not always made): every
pixel goes to a nearest colour of the palette, and every colour that is not fixed moves to the mean of its pixels, which count
as much as the importance map says. The result reports the refined palette. -/
theorem C62_refined (env : RemapEnv ℝ) {q : QuantizationResult ℝ} (hq : UserResult q) {img : Image ℝ} (hi : UserImage img)
    {f : ℕ → ℕ → RGBA} (hf : img.px.Shows f) (buf : List (Option UInt8)) (log : List ℝ) (hl : q.ditherLevel ≠ 0)
    (hd : img.ditherMap = none) (hm : q.useDitherMap = .always ∨ q.useDitherMap ≠ .none ∧ img.width * img.height ≤ 2000 * 2000)
    (hok : (remapInto env q img buf log).res = .ok ()) :
    ∃ (index : ℕ → ℕ → ℕ) (refined : List Slot),
      RefinedOn img.width img.height (fun y x => colorOf img.px.gamma (f y x)) (pixelWeight img.width img.importanceMap)
        (slots q.palette) index refined ∧
      ReportedAll q.gamma q.minPosterizationOutput refined ((remapInto env q img buf log).quant.getPalette.2.map RGBA.bytes) := by
  rcases remapInto_mapped env hq.good hi.good buf log (by simp only [real_lit32, Bool.eq_false_iff, ne_eq, real_eq]; exact_mod_cast hl) hok with ⟨hg, -⟩ | ⟨-, err, r, img', h1, h2, h3, h4⟩
  · rw [generates_of hd hm] at hg; cases hg
  · obtain ⟨rows, -, -, -, k⟩ := refined_before env hq hi hf h1
    refine ⟨_, _, k, ?_⟩
    rw [h4]
    exact initIntPalette_reported _ hq.post_le _

/-- Without dither map the reported palette is the one that was found before. -/
theorem C62_kept (env : RemapEnv ℝ) {q : QuantizationResult ℝ} (hq : UserResult q) {img : Image ℝ} (hi : UserImage img)
    (buf : List (Option UInt8)) (log : List ℝ) (hm : q.ditherLevel = 0 ∨ q.useDitherMap = .none ∨ img.ditherMap ≠ none)
    (hok : (remapInto env q img buf log).res = .ok ()) :
    ReportedAll q.gamma q.minPosterizationOutput (slots q.palette)
      ((remapInto env q img buf log).quant.getPalette.2.map RGBA.bytes) := by
  by_cases hl : q.ditherLevel = 0
  · exact C65_remapped env hq hi buf log hl hok
  · obtain ⟨p, e, _, _, _, _, _, hp, -, -, -, h, -⟩ := remapInto_dithered env hq.good hi.good buf log
      (by simp only [real_lit32, Bool.eq_false_iff, ne_eq, real_eq]; exact_mod_cast hl) hok
    rcases hp with ⟨-, -, rfl⟩ | ⟨hg, -⟩
    · rw [h]; exact initIntPalette_reported _ hq.post_le _
    · rw [not_generates_of (hm.resolve_left hl)] at hg; cases hg

/-- What a refined palette has in common with the palette: fixed colours are kept, and so are colours without pixels. Other
colours are the mean of their pixels. -/
theorem C62_unused {w h : ℕ} {px : ℕ → ℕ → Color} {weight : ℕ → ℕ → ℝ} {p p' : List Slot} {index : ℕ → ℕ → ℕ}
    (hr : RefinedOn w h px weight p index p') {i : ℕ} {s s' : Slot} (hs : p[i]? = some s) (hs' : p'[i]? = some s')
    (hu : s.fixed = true ∨ ∀ y < h, ∀ x < w, index y x = i → weight y x = 0) : s'.color = s.color := by
  have hm := hr.moved i s s' hs hs'
  cases hf : s.fixed with
  | true => rw [hm.1 hf]
  | false =>
    rcases hu with hu | hu
    · rw [hf] at hu; cases hu
    · refine (hm.2 hf).2.2.2 ?_
      rintro ⟨hpos, -⟩
      rw [List.map_map, List.sum_eq_zero] at hpos
      · exact lt_irrefl _ hpos
      · intro v hv
        obtain ⟨z, hz, rfl⟩ := List.mem_map.mp hv
        obtain ⟨hz1, hz2⟩ := List.mem_filter.mp hz
        simp only [reading, List.mem_flatMap, List.mem_map, List.mem_range] at hz1
        obtain ⟨y, hy, x, hx, rfl⟩ := hz1
        exact hu y hy x hx (by simpa using hz2)

/-! ### Examples -/

/-- the hypotheses of `C62_refined` can be met -/
example : ∃ (q : QuantizationResult ℝ) (img : Image ℝ) (f : ℕ → ℕ → RGBA), UserResult q ∧ UserImage img ∧ img.px.Shows f ∧
    q.ditherLevel ≠ 0 ∧ img.ditherMap = none ∧ q.useDitherMap ≠ .none ∧ img.width * img.height = 400 ∧
    (remapInto RemapEnv.simple q img (List.replicate 400 none) []).res = .ok () := by
  obtain ⟨q, hq, hcb, hl, hm, -⟩ := example_result (F := ℝ)
  obtain ⟨img, hi, w, h, -, -, hd, -⟩ := example_image (fun _ _ => ⟨1, 2, 3, 255⟩) (w := 2) (h := 200) (by omega) (by omega) (by omega) (by omega)
  obtain ⟨⟨f, hf⟩, -⟩ := hi.shows
  exact ⟨q, img, f, hq, hi, hf, by rw [hl]; simp, hd, by rw [hm]; simp, by rw [w, h],
    C48_succeeds _ hq hi _ _ (by rw [w, h, List.length_replicate]) hcb (fun x => by simp)⟩

/-- Three pixels and a palette of two colours: the black pixel keeps its colour, and the second colour moves to the mean of the
other two pixels, where the last one counts three times as much. -/
example : RefinedOn 3 1 (fun _ x => if x = 0 then ⟨1, 0, 0, 0⟩ else if x = 1 then ⟨1, 1, 0, 0⟩ else ⟨1, 3/4, 0, 0⟩)
    (fun _ x => if x = 2 then 3 else 1) [⟨⟨1, 0, 0, 0⟩, 0, false⟩, ⟨⟨1, 1, 0, 0⟩, 0, false⟩] (fun _ x => if x = 0 then 0 else 1)
    [⟨⟨1, 0, 0, 0⟩, 1, false⟩, ⟨⟨1, 13/16, 0, 0⟩, 4, false⟩] := by
  refine ⟨?_, rfl, ?_⟩
  · intro y _ x hx
    have : x = 0 ∨ x = 1 ∨ x = 2 := by omega
    rcases this with rfl | rfl | rfl
    · exact ⟨⟨1, 0, 0, 0⟩, rfl, by simp [colorsOf, diff, chanDiff]⟩
    · exact ⟨⟨1, 1, 0, 0⟩, rfl, by simp [colorsOf, diff, chanDiff]⟩
    · exact ⟨⟨1, 1, 0, 0⟩, rfl, by norm_num [colorsOf, diff, chanDiff]⟩
  · intro i s s' hs hs'
    have hr : reading 3 1 = [(0, 0), (0, 1), (0, 2)] := rfl
    rw [hr]
    have : i = 0 ∨ i = 1 := by
      have := (List.getElem?_eq_some_iff.mp hs).1
      simp at this
      omega
    rcases this with rfl | rfl
    · cases hs; cases hs'
      simp [Moved, meanColor]
    · cases hs; cases hs'
      norm_num [Moved, meanColor]

end Verif
