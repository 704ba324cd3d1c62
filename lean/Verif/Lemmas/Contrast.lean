import Verif.Props.Filters
import Verif.Props.Image

/-! # Contrast maps: they always succeed, and where their bytes come from -/

set_option linter.unusedSectionVars false

namespace Verif
open Flt Blur

variable {F : Type} [Flt F]

/-- the raw maps of the first `n` rows without loops: the neighbours of a pixel, clamped at the border -/
def clampedRows (rows : List (List (FPixel F))) (width height n : ℕ) : List (UInt8 × UInt8) :=
  let at' (y x : ℕ) : FPixel F := (rows.getD y []).getD x FPixel.default
  (List.range n).flatMap fun y => (List.range width).map fun x =>
    Image.noisePixel (at' y (x - 1)) (at' y x) (at' y (min (x + 1) (width - 1)))
      (at' (y - 1) x) (at' (min (y + 1) (height - 1)) x)

/-- all rows -/
def clampedMaps (rows : List (List (FPixel F))) (width height : ℕ) : List (UInt8 × UInt8) := clampedRows rows width height height

theorem clampedMaps_length (rows : List (List (FPixel F))) (w h : ℕ) : (clampedMaps rows w h).length = w * h := by
  unfold clampedMaps clampedRows
  simp [List.length_flatMap, Nat.mul_comm]

/-- a loop over a range with an invariant that determines the state -/
theorem foldlM_range {σ : Type} {f : σ → ℕ → Res σ} {n : ℕ} (st : ℕ → σ) (h : ∀ k < n, f (st k) k = .ok (st (k + 1))) :
    (List.range n).foldlM f (st 0) = .ok (st n) := by
  induction n with
  | zero => rfl
  | succ n ih =>
    rw [List.range_succ, List.foldlM_append, ih (fun k hk => h k (by omega))]
    simp [bind, Except.bind, h n (by omega), pure, Except.pure]

theorem index_default {α : Type} {l : List α} {i : ℕ} (d : α) (h : i < l.length) : index l i = .ok (l.getD i d) := by
  simp [index, List.getElem?_eq_getElem h, List.getD_eq_getElem?_getD]

/-- the loop over one row -/
theorem noiseRow_eq {prevRow currRow nextRow : List (FPixel F)} {w : ℕ} (hw : 0 < w) (h1 : prevRow.length = w) (h2 : currRow.length = w)
    (h3 : nextRow.length = w) : Image.noiseRow prevRow currRow nextRow w = .ok ((List.range w).map fun x =>
      Image.noisePixel (currRow.getD (x - 1) FPixel.default) (currRow.getD x FPixel.default)
        (currRow.getD (min (x + 1) (w - 1)) FPixel.default) (prevRow.getD x FPixel.default) (nextRow.getD x FPixel.default)) := by
  unfold Image.noiseRow
  rw [index_default FPixel.default (by omega)]
  simp only [bind, Except.bind]
  have := foldlM_range (n := w) (f := fun (s : FPixel F × FPixel F × List (UInt8 × UInt8)) i => do
    let (prev, curr, out) := s
    let next ← index currRow (min (i + 1) (w - 1))
    let prevl ← index prevRow i
    let nextl ← index nextRow i
    return (curr, next, out ++ [Image.noisePixel prev curr next prevl nextl]))
    (fun k => (currRow.getD (k - 1) FPixel.default, currRow.getD (min k (w - 1)) FPixel.default, (List.range k).map fun x =>
      Image.noisePixel (currRow.getD (x - 1) FPixel.default) (currRow.getD x FPixel.default)
        (currRow.getD (min (x + 1) (w - 1)) FPixel.default) (prevRow.getD x FPixel.default) (nextRow.getD x FPixel.default)))
    (fun k hk => by
      dsimp only
      rw [index_default FPixel.default (show min (k + 1) (w - 1) < currRow.length by omega), index_default FPixel.default (show k < prevRow.length by omega),
        index_default FPixel.default (show k < nextRow.length by omega)]
      simp only [bind, Except.bind, pure, Except.pure, List.range_succ, List.map_append, List.map_cons, List.map_nil,
        show min k (w - 1) = k by omega, Nat.add_sub_cancel])
  simp only [bind, Except.bind] at this
  simp only [Nat.zero_sub, Nat.zero_min, List.range_zero, List.map_nil] at this
  rw [this]
  rfl

/-- the loop over all rows -/
theorem rawMaps_eq {rows : List (List (FPixel F))} {w h : ℕ} (hw : 0 < w) (hh : 0 < h)
    (hr : ∀ y < h, ∃ row, rows[y]? = some row ∧ row.length = w) : Image.rawMaps rows w h = .ok (clampedMaps rows w h) := by
  have hlen : h ≤ rows.length := by
    obtain ⟨row, h1, -⟩ := hr (h - 1) (by omega)
    have := (List.getElem?_eq_some_iff.mp h1).1
    omega
  have hrow : ∀ y < h, (rows.getD y []).length = w := by
    intro y hy
    obtain ⟨row, h1, h2⟩ := hr y hy
    rw [List.getD_eq_getElem?_getD, h1]; exact h2
  unfold Image.rawMaps
  cases ht : rows.take h with
  | nil =>
    have := congrArg List.length ht
    rw [List.length_take, List.length_nil] at this
    omega
  | cons first rest =>
    have hfirst : first = rows.getD 0 [] := by
      have : (rows.take h)[0]? = some first := by rw [ht]; rfl
      rw [List.getElem?_take_of_lt hh] at this
      rw [List.getD_eq_getElem?_getD, this]; rfl
    have hrest : rest = (rows.take h).drop 1 := by rw [ht]; rfl
    dsimp only
    have := foldlM_range (n := h)
      (f := fun (s : List (FPixel F) × List (FPixel F) × List (List (FPixel F)) × List (UInt8 × UInt8)) _ => do
        let (prev, curr, rest, out) := s
        let next := rest.head?.getD curr
        let row ← Image.noiseRow prev curr next w
        return (curr, next, rest.tail, out ++ row))
      (fun k => (rows.getD (k - 1) [], rows.getD (min k (h - 1)) [], (rows.take h).drop (k + 1), clampedRows rows w h k))
      (fun k hk => by
        dsimp only
        have hnext : ((rows.take h).drop (k + 1)).head?.getD (rows.getD (min k (h - 1)) []) = rows.getD (min (k + 1) (h - 1)) [] := by
          rw [List.head?_drop]
          by_cases hlast : k + 1 < h
          · rw [List.getElem?_take_of_lt hlast, List.getElem?_eq_getElem (by omega), Option.getD_some, show min (k + 1) (h - 1) = k + 1 by omega,
              List.getD_eq_getElem?_getD, List.getElem?_eq_getElem (by omega), Option.getD_some]
          · rw [List.getElem?_eq_none (by rw [List.length_take]; omega), Option.getD_none, show min k (h - 1) = min (k + 1) (h - 1) by omega]
        rw [hnext, noiseRow_eq hw (hrow _ (by omega)) (hrow _ (by omega)) (hrow _ (by omega))]
        simp only [bind, Except.bind, pure, Except.pure, List.tail_drop, show min k (h - 1) = k by omega, Nat.add_sub_cancel]
        simp only [clampedRows, List.range_succ, List.flatMap_append, List.flatMap_cons, List.flatMap_nil, List.append_nil])
    simp only [Nat.zero_sub, Nat.zero_min, Nat.zero_add] at this
    rw [← hfirst, ← hrest, show clampedRows rows w h 0 = [] from rfl] at this
    rw [this]
    rfl

/-- what `all_rows_f` returns for a readable image -/
theorem allRows_shape {r r' : Rows F} {rows : List (List (FPixel F))} (hr : r.Readable) (same : Rows.Same r r') (hf : r'.fPixels = some rows) :
    ∀ y < r.height, ∃ row, rows[y]? = some row ∧ row.length = r.width := by
  intro y hy
  obtain ⟨row, h1, h2⟩ := same.readable hr y (by rw [same.height]; exact hy)
  unfold Rows.rowF at h1
  rw [hf] at h1
  simp only [index] at h1
  cases hy' : rows[y]? with
  | none => rw [hy'] at h1; cases h1
  | some q => rw [hy'] at h1; cases h1; exact ⟨_, rfl, h2.trans same.width⟩

/-- the filters succeed and keep the noise map within the range of its raw values -/
theorem filterMaps_ok {noise edges : List UInt8} {w h lo hi : ℕ} (hn : noise.length = w * h)
    (he : edges.length = w * h) (hw : 0 < w) (hr : InRange lo hi noise) :
    ∃ n e, Image.filterMaps noise edges w h = .ok (n, e) ∧ n.length = w * h ∧ e.length = w * h ∧ InRange lo hi n := by
  unfold Image.filterMaps
  have h0 : (List.replicate (w * h) (0 : UInt8)).length = w * h := by simp
  obtain ⟨t1, e1, l1, r1⟩ := max3_range hn h0 hw hr
  obtain ⟨n1, e2, l2, r2⟩ := max3_range l1 hn hw r1
  obtain ⟨n2, t2, e3, l3, l3', r3⟩ := blur_range (s := 3) l2 l1 (by omega) (by omega) r2
  obtain ⟨t3, e4, l4, r4⟩ := max3_range l3 l3' hw r3
  obtain ⟨n3, e5, l5, r5⟩ := min3_range l4 l3 hw r4
  obtain ⟨t4, e6, l6, r6⟩ := min3_range l5 l4 hw r5
  obtain ⟨n4, e7, l7, r7⟩ := min3_range l6 l5 hw r6
  have hall : InRange 0 255 edges := fun v _ => ⟨Nat.zero_le _, by have := v.toNat_lt; omega⟩
  obtain ⟨t5, e8, l8, r8⟩ := min3_range he l6 hw hall
  obtain ⟨g1, e9, l9, r9⟩ := max3_range l8 he hw r8
  simp only [bind, Except.bind]
  rw [e1]; simp only
  rw [e2]; simp only
  rw [e3]; simp only
  rw [e4]; simp only
  rw [e5]; simp only
  rw [e6]; simp only
  rw [e7]; simp only
  rw [e8]; simp only
  rw [e9]
  exact ⟨n4, _, rfl, l7, by rw [List.length_zipWith, l9, l7, Nat.min_self], r7⟩

/-- `contrast_maps` succeeds on every good image, keeps its pixels, and fills both maps unless the image is too small or
too large. -/
theorem contrastMaps_ok {img : Image F} (hg : img.Good) :
    ∃ img', img.contrastMaps = .ok img' ∧ img'.Good ∧ Rows.Same img.px img'.px ∧
      img'.ditherMap = img.ditherMap ∧ img'.background = img.background ∧ img'.fixedColors = img.fixedColors ∧
      img'.px.source = img.px.source ∧
      ((Image.skipsContrastMaps img.width img.height = true ∧ img' = img) ∨
       (Image.skipsContrastMaps img.width img.height = false ∧ ∃ m e, img'.importanceMap = some m ∧ img'.edges = some e ∧
        ∀ lo, (∀ a b c d e : FPixel F, lo ≤ (Image.noisePixel a b c d e).1.toNat) → ∀ v ∈ m, lo ≤ v.toNat)) := by
  unfold Image.contrastMaps
  by_cases hs : Image.skipsContrastMaps img.width img.height = true
  · rw [if_pos hs]
    exact ⟨img, rfl, hg, Rows.Same.refl _, rfl, rfl, rfl, rfl, .inl ⟨hs, rfl⟩⟩
  · rw [if_neg hs]
    obtain ⟨r', rows, e, same, hf⟩ := Rows.allRowsF_ok hg.px
    have hsrc : r'.source = img.px.source := by
      unfold Rows.allRowsF at e
      cases hp : img.px.prepare false with
      | error x => rw [hp] at e; cases e
      | ok q =>
        rw [hp] at e
        simp only [bind, Except.bind] at e
        have hq : q.source = img.px.source := by
          unfold Rows.prepare at hp
          split at hp
          · cases hp; rfl
          · cases hm : (List.range img.px.height).mapM fun y => (img.px.rowRgba y).map (Rows.convertRow img.px.gamma) with
            | error x => rw [hm] at hp; cases hp
            | ok y => rw [hm] at hp; cases hp; rfl
        cases hqf : q.fPixels with
        | none => rw [hqf] at e; cases e
        | some x => rw [hqf] at e; cases e; exact hq
    simp only [bind, Except.bind]
    rw [e]
    simp only
    rw [rawMaps_eq hg.width_pos hg.height_pos (allRows_shape hg.px same hf)]
    simp only
    have hl := clampedMaps_length rows img.width img.height
    -- the least byte of the raw map works as a lower bound; first get the outcome with the trivial bound
    have hl1 : ((clampedMaps rows img.width img.height).map (·.1)).length = img.width * img.height := by simpa using hl
    have hl2 : ((clampedMaps rows img.width img.height).map (·.2)).length = img.width * img.height := by simpa using hl
    have h255 : ∀ lo, (∀ a b c d e : FPixel F, lo ≤ (Image.noisePixel a b c d e).1.toNat) →
        InRange lo 255 ((clampedMaps rows img.width img.height).map (·.1)) := by
      intro lo hlo v hv
      refine ⟨?_, by have := v.toNat_lt; omega⟩
      unfold clampedMaps clampedRows at hv
      simp only [List.mem_map, List.mem_flatMap] at hv
      obtain ⟨p, ⟨y, _, x, _, rfl⟩, rfl⟩ := hv
      exact hlo _ _ _ _ _
    obtain ⟨n, g, ef, ln, lg, _⟩ := filterMaps_ok hl1 hl2 hg.width_pos (h255 0 (fun _ _ _ _ _ => Nat.zero_le _))
    rw [ef]
    refine ⟨_, rfl, ⟨same.readable hg.px, ?_, ?_, ?_, ?_, ?_, ?_⟩, same, rfl, rfl, rfl, hsrc, .inr ⟨by simpa using hs, n, g, rfl, rfl, ?_⟩⟩
    · show 0 < r'.width; rw [same.width]; exact hg.width_pos
    · show 0 < r'.height; rw [same.height]; exact hg.height_pos
    · intro m hm; cases hm; show _ = r'.width * r'.height; rw [same.width, same.height]; exact ln
    · intro m hm; cases hm; show _ = r'.width * r'.height; rw [same.width, same.height]; exact lg
    · intro m hm; show _ = r'.width * r'.height; rw [same.width, same.height]; exact hg.ditherMap m hm
    · intro b hb
      obtain ⟨b1, b2, b3⟩ := hg.background b hb
      exact ⟨b1, b2.trans same.width.symm, b3.trans same.height.symm⟩
    · intro lo hlo v hv
      obtain ⟨n', g', ef', _, _, rn⟩ := filterMaps_ok hl1 hl2 hg.width_pos (h255 lo hlo)
      rw [ef] at ef'
      cases ef'
      exact (rn v hv).1

/-- a lower bound for the importance map that is computed, from one for the pixels of the image -/
theorem contrastMaps_ge {img img' : Image F} (hg : img.Good) (hs : Image.skipsContrastMaps img.width img.height = false)
    (hok : img.contrastMaps = .ok img') (lo : ℕ) (P : FPixel F → Prop) (h0 : P FPixel.default)
    (hP : ∀ y < img.height, ∀ c ∈ img.px.pixelsF y, P c)
    (hlo : ∀ a b c d e : FPixel F, P a → P b → P c → P d → P e → lo ≤ (Image.noisePixel a b c d e).1.toNat)
    (m : List UInt8) (hm : img'.importanceMap = some m) : ∀ v ∈ m, lo ≤ v.toNat := by
  unfold Image.contrastMaps at hok
  rw [if_neg (by rw [hs]; simp)] at hok
  obtain ⟨r', rows, e, same, hf⟩ := Rows.allRowsF_ok hg.px
  simp only [bind, Except.bind] at hok
  rw [e] at hok
  simp only at hok
  rw [rawMaps_eq hg.width_pos hg.height_pos (allRows_shape hg.px same hf)] at hok
  simp only at hok
  have hl := clampedMaps_length rows img.width img.height
  have hl1 : ((clampedMaps rows img.width img.height).map (·.1)).length = img.width * img.height := by simpa using hl
  have hl2 : ((clampedMaps rows img.width img.height).map (·.2)).length = img.width * img.height := by simpa using hl
  have hat : ∀ y < img.height, ∀ x, P ((rows.getD y []).getD x FPixel.default) := by
    intro y hlt x
    rw [List.getD_eq_getElem?_getD, List.getD_eq_getElem?_getD]
    cases hy : rows[y]? with
    | none => simpa using h0
    | some row =>
      simp only [Option.getD_some]
      cases hx : row[x]? with
      | none => exact h0
      | some c =>
        refine hP y hlt c ?_
        rw [← same.pixelsF hlt]
        have : r'.pixelsF y = row := by
          unfold Rows.pixelsF Rows.rowF
          simp [hf, hy, index]
        rw [this]
        exact List.mem_of_getElem? hx
  have h255 : InRange lo 255 ((clampedMaps rows img.width img.height).map (·.1)) := by
    intro v hv
    refine ⟨?_, by have := v.toNat_lt; omega⟩
    unfold clampedMaps clampedRows at hv
    simp only [List.mem_map, List.mem_flatMap] at hv
    obtain ⟨p, ⟨y, hy, x, _, rfl⟩, rfl⟩ := hv
    have hy := List.mem_range.mp hy
    exact hlo _ _ _ _ _ (hat _ hy _) (hat _ hy _) (hat _ hy _) (hat _ (by omega) _) (hat _ (by omega) _)
  obtain ⟨n, g, ef, _, _, rn⟩ := filterMaps_ok hl1 hl2 hg.width_pos h255
  rw [ef] at hok
  cases hok
  simp only [Option.some.injEq] at hm
  subst hm
  exact fun v hv => (rn v hv).1

/-- the importance map that would be computed has no zeros -/
def Image.MapPositive (img : Image F) : Prop :=
  Image.skipsContrastMaps img.width img.height = false →
    ∀ img', img.contrastMaps = .ok img' → ∀ m, img'.importanceMap = some m → ∀ v ∈ m, v.toNat ≠ 0

/-- with exact arithmetic the noise of a pixel is at least 80 -/
theorem noise_ge (a b c d e : FPixel ℝ) : 80 ≤ (Image.noisePixel a b c d e).1.toNat := by
  unfold Image.noisePixel
  simp only [real_fma32, real_lit32, real_mul32, real_sub32]
  generalize ((1 : ℚ) : ℝ) - _ = z
  have hz : (0 : ℝ) ≤ z * z * (z * z) := mul_self_nonneg (z * z)
  have h80 : (80 : ℝ) ≤ z * z * (z * z) * ((176 : ℚ) : ℝ) + ((80 : ℚ) : ℝ) := by push_cast; linarith
  rw [real_toU8]
  have hf : 80 ≤ ⌊z * z * (z * z) * ((176 : ℚ) : ℝ) + ((80 : ℚ) : ℝ)⌋₊ := by
    apply Nat.le_floor; exact_mod_cast h80
  have hm : Nat.min 255 ⌊z * z * (z * z) * ((176 : ℚ) : ℝ) + ((80 : ℚ) : ℝ)⌋₊ =
    min 255 ⌊z * z * (z * z) * ((176 : ℚ) : ℝ) + ((80 : ℚ) : ℝ)⌋₊ := rfl
  rw [hm, UInt8.toNat_ofNat_of_lt' (by simp only [UInt8.size]; omega)]
  omega

theorem Image.Good.mapPositive {img : Image ℝ} (hg : img.Good) : img.MapPositive := by
  intro hs img' hok m hm v hv
  have := contrastMaps_ge hg hs hok 80 (fun _ => True) trivial (fun _ _ _ _ => trivial) (fun a b c d e _ _ _ _ _ => noise_ge a b c d e)
    m hm v hv
  omega

end Verif
