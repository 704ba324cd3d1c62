import Verif.Lemmas.RoundedNoise
import Verif.Props.Importance
import Verif.Props.RoundedRemap

/-! # C27 with rounding errors: every pixel is counted unless the user's importance map says otherwise -/

set_option linter.unusedSectionVars false

namespace Verif
open Flt Spec
open FltRound (val fin)

variable {F : Type} [Flt F] [FltOrd F]

/-- **C27** (rounded). The automatic map: `contrast_maps` succeeds on every image (its gamma is between 1/16 and 1) and,
unless the image is too small or too large for it (then nothing changes), gives every pixel an importance of at least 79,
whatever rounding does to colours and contrasts. -/
theorem C27_auto_map_rounded (img : Image F) (hg : img.Good) {f : ℕ → ℕ → RGBA} (hf : img.px.Shows f)
    (hγ : UsualGamma img.px.gamma) :
    ∃ img', img.contrastMaps = .ok img' ∧ (img' = img ∨
      ∃ m, img'.importanceMap = some m ∧ m.length = img.width * img.height ∧ ∀ v ∈ m, 79 ≤ v.toNat) := by
  obtain ⟨img', e, g, same, _, _, _, _, h⟩ := contrastMaps_ok hg
  refine ⟨img', e, ?_⟩
  rcases h with ⟨_, rfl⟩ | ⟨hs, m, _, hm, _, _⟩
  · exact .inl rfl
  · refine .inr ⟨m, hm, ?_, hg.mapLarge_rounded hf hγ hs e m hm⟩
    rw [g.importance m hm]
    show img'.px.width * img'.px.height = img.px.width * img.px.height
    rw [same.width, same.height]

/-- **C27** (rounded). If no importance map was set, every pixel of an added image is counted. -/
theorem C27_every_pixel_counted_rounded (ho : HashOrder) (h h' : Histogram F) (attr : Attr F) (img img' : Image F)
    (log log' : List F) (hg : img.Good) {f : ℕ → ℕ → RGBA} (hf : img.px.Shows f) (hγ : UsualGamma img.px.gamma)
    (hnone : img.importanceMap = none) (hp : h.Positive) (hb : h.posterizeBits ≤ 7) (hab : attr.posterizeBits ≤ 7)
    (e : h.addImage ho attr img log = ((.ok (), h', img'), log')) :
    ∀ y < img.height, ∃ row, img'.px.rowRgba y = .ok row ∧ row.length = img.width ∧ ∀ c ∈ row, Recorded h' c :=
  addImage_counted ho h h' attr img img' log log' hg (hg.mapPositive_rounded hf hγ) hnone hp hb hab e

theorem made_rounded [FltSign F] (f : ℕ → ℕ → RGBA) : ∃ img : Image F, Made f 9 8 (lit64 0) img ∧ BrightGamma img.px.gamma := by
  obtain ⟨z1, z2⟩ := FltRound.lit64 (F := F) 0 (by unfold Fits64; norm_num)
  have zv : val (lit64 0 : F) = 0 := z2.2 (by norm_num)
  have one := Approx.lit64 (F := F) (q := 1) (by push_cast; exact mid_of (by norm_num) (by norm_num))
  have h1 : le (lit64 0 : F) (lit64 0) = true := (FltRound.le _ _ z1 z1).2 le_rfl
  have h2 : le (lit64 0 : F) (lit64 1) = true := (FltRound.le _ _ z1 one.fin).2 (by rw [zv]; exact (one.rel.pos (by norm_num)).le)
  have h3 : lt (lit64 0 : F) (lit64 0) = false := by
    rw [← Bool.not_eq_true, FltRound.lt _ _ z1 z1]; exact lt_irrefl _
  have e : Image.newFn f 9 8 (lit64 0 : F) = .ok
      { px := { width := 9, height := 8, fPixels := none, source := .callback f, gamma := lit64 (45455/100000) }
        importanceMap := none, edges := none, ditherMap := none, background := none, fixedColors := [] } := by
    unfold Image.newFn Image.newInternal Image.toU32
    simp [Image.checkImageSize, Bind.bind, Except.bind, h1, h2, h3]
  exact ⟨_, .inl e, BrightGamma.default⟩

/-- the hypotheses hold for a new histogram and an image made from a function, in an arithmetic with rounding errors; the
image is large enough for a map -/
example (ho : HashOrder) (f : ℕ → ℕ → RGBA) : ∃ (img img' : Image CutReal) (h' : Histogram CutReal) (log' : List CutReal),
    img.Good ∧ img.px.Shows f ∧ UsualGamma img.px.gamma ∧ img.importanceMap = none ∧ img.width = 9 ∧ img.height = 8 ∧
    Image.skipsContrastMaps img.width img.height = false ∧ (Histogram.new (Attr.new (F := CutReal))).Positive ∧
    (Histogram.new (Attr.new (F := CutReal))).addImage ho Attr.new img [] = ((.ok (), h', img'), log') := by
  obtain ⟨img, hm, hbr⟩ := made_rounded (F := CutReal) f
  have hmf := hm.facts
  obtain ⟨h', img', log', e⟩ := addImage_succeeds ho (Histogram.new (Attr.new (F := CutReal))) Attr.new img [] hmf.user.good rfl
    ⟨_, hmf.rows⟩
  exact ⟨img, img', h', log', hmf.user.good, hmf.shows_, hbr.toUsualGamma, hmf.importance, hmf.width_, hmf.height_,
    by rw [hmf.width_, hmf.height_]; decide, fun _ he => (by cases he), e⟩

end Verif
