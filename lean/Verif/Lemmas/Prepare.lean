import Verif.Model.Prepare
import Verif.Lemmas.DitherPrep

/-! # Preparing for dithering: what it does to the image and to the result -/

set_option linter.unusedSectionVars false

namespace Verif
open Flt Image

variable {F : Type} [Flt F]

/-! ### The maps depend on the pixels only -/

theorem clampedMaps_congr {rows rows' : List (List (FPixel F))} {w h : ℕ} (he : ∀ y < h, rows.getD y [] = rows'.getD y []) :
    clampedMaps rows w h = clampedMaps rows' w h := by
  unfold clampedMaps clampedRows
  refine List.flatMap_congr fun y hy => List.map_congr_left fun x _ => ?_
  have hy := List.mem_range.mp hy
  dsimp only
  rw [he y hy, he (y - 1) (by omega), he (min (y + 1) (h - 1)) (by omega)]

theorem contrastMaps_edges {a b a' b' : Image F} (ha : a.Good) (hs : Rows.Same a.px b.px) (hk : skipsContrastMaps a.width a.height = false)
    (h1 : a.contrastMaps = .ok a') (h2 : b.contrastMaps = .ok b') : a'.edges = b'.edges := by
  have hw : b.width = a.width := hs.width
  have hh : b.height = a.height := hs.height
  obtain ⟨r, rows, e, same, hf⟩ := Rows.allRowsF_ok ha.px
  obtain ⟨r', rows', e', same', hf'⟩ := Rows.allRowsF_ok (hs.readable ha.px)
  have hr : rawMaps rows a.width a.height = .ok (clampedMaps rows a.width a.height) :=
    rawMaps_eq ha.width_pos ha.height_pos (allRows_shape ha.px same hf)
  have hr' : rawMaps rows' a.width a.height = .ok (clampedMaps rows' a.width a.height) := by
    have := allRows_shape (hs.readable ha.px) same' hf'
    rw [hs.width, hs.height] at this
    exact rawMaps_eq ha.width_pos ha.height_pos this
  have hc : clampedMaps rows a.width a.height = clampedMaps rows' a.width a.height := by
    apply clampedMaps_congr
    intro y hy
    have k : ∀ {s : Rows F} {l : List (List (FPixel F))}, s.fPixels = some l → (∃ row, l[y]? = some row ∧ row.length = a.width) →
        l.getD y [] = s.pixelsF y := by
      rintro s l hl ⟨row, hrow, -⟩
      unfold Rows.pixelsF Rows.rowF
      simp [hl, index, hrow, List.getD_eq_getElem?_getD]
    rw [k hf (allRows_shape ha.px same hf y hy), k hf' ?_, same.pixelsF hy, same'.pixelsF (by rw [hs.height]; exact hy), hs.pixelsF hy]
    have := allRows_shape (hs.readable ha.px) same' hf' y (by rw [hs.height]; exact hy)
    rwa [hs.width] at this
  unfold contrastMaps at h1 h2
  rw [hw, hh, if_neg (by rw [hk]; simp), e'] at h2
  rw [if_neg (by rw [hk]; simp), e] at h1
  simp only [bind, Except.bind] at h1 h2
  rw [hr] at h1
  rw [hr', ← hc] at h2
  simp only at h1 h2
  generalize filterMaps _ _ a.width a.height = z at h1 h2
  cases z with
  | error e => cases h1
  | ok z => cases h1; cases h2; rfl

/-- the dither map that is made depends on pixels and edges only -/
theorem updateDitherMap_same {a b a' b' : Image F} (ha : a.Good) (hs : Rows.Same a.px b.px) (he : a.edges = b.edges)
    (hk : skipsContrastMaps a.width a.height = false) {rows : List (List UInt8)} {p : PalF F} {ub : Bool}
    (h1 : a.updateDitherMap rows p ub = .ok a') (h2 : b.updateDitherMap rows p ub = .ok b') : a'.ditherMap = b'.ditherMap ∧ a'.ditherMap.isSome := by
  have hw : b.width = a.width := hs.width
  have key : ∀ a1 b1, a.withEdges = .ok a1 → b.withEdges = .ok b1 → a1.edges = b1.edges ∧ a1.edges.isSome ∧ a1.width = a.width ∧ b1.width = a.width := by
    intro a1 b1 ea eb
    unfold withEdges at ea eb
    rw [← he] at eb
    by_cases hn : a.edges.isNone = true
    · rw [if_pos hn] at ea eb
      obtain ⟨x, ex, -, sx, -, -, -, -, hx⟩ := contrastMaps_ok ha
      rw [ex] at ea
      cases ea
      have hb1 : b1.width = a.width := by
        unfold contrastMaps at eb
        obtain ⟨r', rows', e', same', -⟩ := Rows.allRowsF_ok (hs.readable ha.px)
        rw [hw, show b.height = a.height from hs.height, if_neg (by rw [hk]; simp), e'] at eb
        simp only [bind, Except.bind] at eb
        split at eb
        · cases eb
        split at eb
        · cases eb
        · cases eb; show r'.width = _; rw [same'.width]; exact hw
      refine ⟨contrastMaps_edges ha hs hk ex eb, ?_, sx.width, hb1⟩
      rcases hx with ⟨k, -⟩ | ⟨-, m, e, -, k, -⟩
      · rw [hk] at k; cases k
      · rw [k]; rfl
    · rw [if_neg hn] at ea eb
      cases ea
      cases eb
      exact ⟨he, by simpa [Option.isSome_iff_ne_none] using hn, rfl, hw⟩
  unfold updateDitherMap at h1 h2
  cases ea : a.withEdges with
  | error e => rw [ea] at h1; cases h1
  | ok a1 =>
    cases eb : b.withEdges with
    | error e => rw [eb] at h2; cases h2
    | ok b1 =>
      obtain ⟨k1, k2, k3, k4⟩ := key _ _ ea eb
      rw [ea] at h1
      rw [eb] at h2
      simp only [bind, Except.bind] at h1 h2
      rw [← k1] at h2
      obtain ⟨ed, hed⟩ := Option.isSome_iff_exists.mp k2
      rw [hed] at h1 h2
      simp only [k3, k4] at h1 h2
      generalize ditherMapRows p ub a.width none _ = z at h1 h2
      cases z with
      | error e => cases h1
      | ok z => cases h1; cases h2; exact ⟨rfl, rfl⟩

/-- what an undithered remap computes depends on the pixels only -/
theorem remapToPalette_pixels (env : RemapEnv F) {px px' : Rows F} (imp : Option (List UInt8)) {p : PalF F} (hp0 : 0 < p.length) (hp : p.length ≤ 256)
    (hpx : px.Readable) (hs : Rows.Same px px') {e e' : F} {r r' : RemapOut F} (h : remapToPalette env px none imp px.height p = (.ok e, r))
    (h' : remapToPalette env px' none imp px.height p = (.ok e', r')) : e' = e ∧ r'.rows = r.rows ∧ r'.palette = r.palette ∧
      Rows.Same px r.px ∧ Rows.Same px' r'.px := by
  obtain ⟨n, hnew⟩ := Nearest.new_of_len hp0 hp
  obtain ⟨q, b, hq, -, heq⟩ := remapToPalette_eq (bg := none) imp hnew hpx (fun b hb => by cases hb) (le_refl _)
  obtain ⟨q', b', hq', -, heq'⟩ := remapToPalette_eq (bg := none) (nrows := px.height) imp hnew (hs.readable hpx) (fun b hb => by cases hb)
    (by rw [hs.height])
  have hrows : plainRows n px' none imp px.height = plainRows n px none imp px.height := by
    unfold plainRows
    refine List.map_congr_left fun y hy => ?_
    exact plainRow_same n _ imp hs (BgSame.refl _) (fun b hb => by cases pickBackground_cases n (none : Option (Rows F)) with
      | inl h => obtain ⟨x, hx, -⟩ := h; cases hx
      | inr h => rw [h.2] at hb; cases hb) (List.mem_range.mp hy)
  rw [heq env] at h
  rw [heq' env, hrows, hs.width, hs.height] at h'
  by_cases hc : isNan (env.sum ((plainRows n px none imp px.height).map (·.err))) = true
  · rw [if_pos hc] at h; cases h
  · rw [if_neg hc] at h h'
    cases h
    cases h'
    exact ⟨rfl, rfl, rfl, hq, hq'⟩

/-- A successful preparation: either nothing happened, or an undithered remap was made. -/
theorem prepare_cases (env : RemapEnv F) (q : QuantizationResult F) {img : Image F} {buf : List (Option UInt8)}
    (hb : buf.length / img.width = img.height) (hok : (prepareForDithering env q img buf).res = .ok ()) :
    generatesDitherMap q.useDitherMap img = false ∧ (prepareForDithering env q img buf).quant = q ∧
      (prepareForDithering env q img buf).image = img ∨
    generatesDitherMap q.useDitherMap img = true ∧ ∃ (err : F) (r : RemapOut F),
      remapToPalette env img.px none img.importanceMap img.height q.palette = (.ok err, r) ∧
      ({ img with px := r.px } : Image F).updateDitherMap (r.rows.getD []) r.palette true = .ok (prepareForDithering env q img buf).image ∧
      (prepareForDithering env q img buf).quant = { q with palette := r.palette } := by
  unfold prepareForDithering at hok ⊢
  generalize hx : generateDitherMap env ⟨q, img, chunksExact img.width buf, [], false⟩ true q.palette = x at hok ⊢
  obtain ⟨res, s⟩ := x
  cases res with
  | error e => cases hok
  | ok v =>
    obtain ⟨e, p⟩ := v
    have ho : (chunksExact img.width buf).length = img.height := by unfold chunksExact; simp [hb]
    rcases generateDitherMap_made env ho hx with ⟨h1, -, h3, h4⟩ | ⟨h1, err, r, h2, -, h4, h5⟩
    · exact .inl ⟨h1, by dsimp only; rw [h3], by dsimp only; rw [h4]⟩
    · exact .inr ⟨h1, err, r, h2, h5, by dsimp only; rw [h4]⟩

end Verif
