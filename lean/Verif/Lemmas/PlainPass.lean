import Verif.Lemmas.DitherPrep
import Verif.Lemmas.KmeansPass
import Verif.Lemmas.HullUse
import Verif.Spec.Refine

/-! # The undithered remap that precedes dithering, against `Spec.RefinedOn` -/

set_option linter.unusedSectionVars false

namespace Verif
open Flt Spec Image

section
variable {F : Type} [Flt F]

/-- a row without background -/
theorem remapPixels_none (n : Nearest F) (ti : UInt8) (pxs : List (FPixel F)) (imps : List UInt8) (last : UInt8) (err : F) :
    let r := remapPixels n ti pxs [] imps last err
    r.bytes.length = pxs.length ∧
    (∀ (x : ℕ) (px : FPixel F), pxs[x]? = some px → ∃ hint : UInt8, (x = 0 → hint = last) ∧
      (∀ y, x = y + 1 → r.bytes[y]? = some hint) ∧ r.bytes[x]? = some (UInt8.ofNat (n.search px hint.toNat).1)) ∧
    r.updates = (List.range pxs.length).map fun x => (pxs.getD x FPixel.default, lit32 ((imps[x]?).getD 1).toNat, (r.bytes.getD x 0).toNat) := by
  induction pxs generalizing imps last err with
  | nil => exact ⟨rfl, (fun x px h => by cases h), rfl⟩
  | cons c cs ih =>
    rw [remapPixels]
    simp only [List.head?_nil, List.tail_nil]
    obtain ⟨h1, h2, h3⟩ := ih imps.tail (UInt8.ofNat (n.search c last.toNat).1) (err +₆ (n.search c last.toNat).2)
    refine ⟨by simp [h1], ?_, ?_⟩
    · intro x px hx
      cases x with
      | zero =>
        cases hx
        exact ⟨last, fun _ => rfl, (fun y h => by cases h), rfl⟩
      | succ x =>
        obtain ⟨hint, k1, k2, k3⟩ := h2 x px (by simpa using hx)
        refine ⟨hint, (fun h => by cases h), fun y hy => ?_, by simpa using k3⟩
        cases hy
        cases x with
        | zero => rw [k1 rfl]; rfl
        | succ x => simpa using k2 x rfl
    · rw [h3, List.length_cons, List.range_succ_eq_map, List.map_cons, List.map_map]
      have himp : ∀ x, imps.tail[x]? = imps[x + 1]? := fun x => by cases imps <;> simp
      congr 1
      · have : imps[0]? = imps.head? := by cases imps <;> rfl
        simp [this]
      · refine List.map_congr_left fun x _ => ?_
        simp [himp]

end

/-- the weight of a pixel: its byte of the importance map, 1 without map -/
noncomputable def pixelWeight (w : ℕ) (imp : Option (List UInt8)) (y x : ℕ) : ℝ :=
  match imp with
  | some m => mapAt w m y x
  | none => 1

namespace Kmeans

/-- an entry is moved by what it gained -/
theorem finalizeEntry_gained (l : List (FPixel ℝ × ℝ × ℕ)) (hw : ∀ u ∈ l, 0 ≤ u.2.1) (i : ℕ) (e : PalEntry ℝ) :
    Moved ((l.filter fun u => u.2.2 = i).map fun u => (u.1.spec, u.2.1)) (slotOf e) (slotOf (finalizeEntry (gain l i) e)) := by
  have := finalizeEntry_moved (l.map fun u => ⟨u.1, u.2.1, u.2.1, 0, u.2.2⟩) (by
    intro x hx
    obtain ⟨u, hu, rfl⟩ := List.mem_map.mp hx
    exact hw u hu) i e
  convert this using 1
  · rw [List.map_map, List.filter_map, List.map_map]
    rfl
  · rw [gain_sums, contrib_sums]
    simp only [List.filter_map, List.map_map, Function.comp_def]

end Kmeans

open Kmeans in
/-- the undithered remap assigns nearest colours and refines the palette -/
theorem remapToPalette_refined (env : RemapEnv ℝ) {px : Rows ℝ} {imp : Option (List UInt8)} {p : PalF ℝ} (h0 : 0 < p.length)
    (h1 : p.length ≤ 256) (hpx : px.Readable) {f : ℕ → ℕ → RGBA} (hf : px.Shows f)
    (himp : ∀ m, imp = some m → m.length = px.width * px.height)
    {err : ℝ} {r : RemapOut ℝ} (h : remapToPalette env px none imp px.height p = (.ok err, r)) :
    ∃ rows, r.rows = some rows ∧ rows.length = px.height ∧ (∀ row ∈ rows, row.length = px.width ∧ ∀ b ∈ row, b.toNat < p.length) ∧
      RefinedOn px.width px.height (fun y x => colorOf px.gamma (f y x)) (pixelWeight px.width imp) (slots p) (indexAt rows)
        (slots r.palette) := by
  obtain ⟨n, hnew⟩ := Nearest.new_of_len h0 h1
  have hn' : Nearest.new n.palette = .ok n := by rw [(Nearest.new_ok hnew).2.2.1]; exact hnew
  have hplen : n.palette = p := (Nearest.new_ok hnew).2.2.1
  obtain ⟨px', bg', hsame, _, heq⟩ := remapToPalette_eq (bg := none) imp hnew hpx (fun b hb => by cases hb) (le_refl _)
  rw [heq env] at h
  have hpick : pickBackground n (none : Option (Rows ℝ)) = (none, 0) := rfl
  split at h
  · simp at h
  · simp only [Prod.mk.injEq] at h
    obtain ⟨-, rfl⟩ := h
    dsimp only
    have houts : plainRows n px none imp px.height = (List.range px.height).map (plainRow n 0 px none imp) := rfl
    generalize hrows : (plainRows n px none imp px.height).map (·.bytes) = rows
    have hrow : ∀ y < px.height, rows[y]? = some (plainRow n 0 px none imp y).bytes := by
      intro y hy
      rw [← hrows, houts, List.map_map, List.getElem?_map, List.getElem?_range hy]; rfl
    have hpl : ∀ y < px.height, (px.pixelsF y).length = px.width := fun y hy => (hpx.rowF hy).2
    have hpix : ∀ y < px.height, ∀ x < px.width, (px.pixelsF y)[x]? = some (FPixel.fromRgba (gammaLut px.gamma) (f y x)) :=
      fun y hy x hx => hf.pixel hy hx
    have hrl : ∀ y < px.height, (plainRow n 0 px none imp y).bytes.length = px.width := by
      intro y hy
      rw [← hpl y hy]
      exact (remapPixels_none n 0 (px.pixelsF y) _ 0 (lit64 0)).1
    -- the index of a pixel
    have hlt256 : ∀ (c : FPixel ℝ) (hint : ℕ), (UInt8.ofNat (n.search c hint).1).toNat = (n.search c hint).1 := by
      intro c hint
      have := Nearest.search_lt hnew c hint
      exact UInt8.toNat_ofNat_of_lt' (by simp only [UInt8.size]; omega)
    have hbyte : ∀ y < px.height, ∀ x < px.width, ∃ hint : ℕ, hint < p.length ∧
        (plainRow n 0 px none imp y).bytes[x]? = some (UInt8.ofNat (n.search (FPixel.fromRgba (gammaLut px.gamma) (f y x)) hint).1) := by
      intro y hy x hx
      obtain ⟨hint, k1, k2, k3⟩ := (remapPixels_none n 0 (px.pixelsF y) ((imp.getD []).drop (y * px.width)) 0 (lit64 0)).2.1 x _ (hpix y hy x hx)
      refine ⟨hint.toNat, ?_, k3⟩
      cases x with
      | zero => rw [k1 rfl]; exact h0
      | succ x =>
        have h3 := k2 x rfl
        obtain ⟨hint', -, -, k3'⟩ := (remapPixels_none n 0 (px.pixelsF y) ((imp.getD []).drop (y * px.width)) 0 (lit64 0)).2.1 x _ (hpix y hy x (by omega))
        rw [k3'] at h3
        rw [← Option.some.inj h3, hlt256]
        exact Nearest.search_lt hnew _ _
    have hidx : ∀ y < px.height, ∀ x, indexAt rows y x = ((plainRow n 0 px none imp y).bytes.getD x 0).toNat := by
      intro y hy x
      unfold indexAt
      rw [List.getD_eq_getElem?_getD (l := rows), hrow y hy, Option.getD_some]
    refine ⟨rows, rfl, ?_, ?_, ?_, ?_, ?_⟩
    · rw [← hrows, houts]; simp
    · intro row hr
      obtain ⟨y, hy⟩ := List.getElem?_of_mem hr
      have hyl : y < px.height := by
        have := (List.getElem?_eq_some_iff.mp hy).1
        rw [← hrows, houts] at this
        simpa using this
      rw [hrow y hyl] at hy
      cases hy
      refine ⟨hrl y hyl, fun b hb => ?_⟩
      obtain ⟨x, hx⟩ := List.getElem?_of_mem hb
      have hxl : x < px.width := by
        have := (List.getElem?_eq_some_iff.mp hx).1
        rwa [hrl y hyl] at this
      obtain ⟨hint, -, hb'⟩ := hbyte y hyl x hxl
      rw [hb'] at hx
      cases hx
      rw [hlt256]
      exact Nearest.search_lt hnew _ _
    · intro y hy x hx
      obtain ⟨hint, hh, hb⟩ := hbyte y hy x hx
      rw [hidx y hy, List.getD_eq_getElem?_getD, hb, Option.getD_some, hlt256, ← fromRgba_spec]
      exact (search_dist hnew _ hint (.inl hh)).1
    · rw [slots, slots, List.length_map, List.length_map]
      rw [hpick]
      unfold remapFinish
      dsimp only
      split
      · rw [finalizePalette_length]
      · rfl
    · intro i s s' hs hs'
      have hups : allUpdates (plainRows n px none imp px.height) false 0 =
          (reading px.width px.height).map fun z => (FPixel.fromRgba (gammaLut px.gamma) (f z.1 z.2), pixelWeight px.width imp z.1 z.2,
            indexAt rows z.1 z.2) := by
        unfold allUpdates rowUpdates reading
        rw [if_neg (by simp), List.nil_append, List.map_flatMap, houts, List.length_map, List.length_range]
        refine List.flatMap_congr fun y hy => ?_
        have hy := List.mem_range.mp hy
        rw [List.getElem?_map, List.getElem?_range hy]
        simp only [Option.map_some, List.map_map]
        have hu := (remapPixels_none n 0 (px.pixelsF y) ((imp.getD []).drop (y * px.width)) 0 (lit64 0)).2.2
        have hu' : (plainRow n 0 px none imp y).updates = _ := hu
        rw [hu', hpl y hy]
        refine List.map_congr_left fun x hx => ?_
        have hx := List.mem_range.mp hx
        simp only [Function.comp_apply]
        rw [List.getD_eq_getElem?_getD, hpix y hy x hx, Option.getD_some, hidx y hy]
        refine Prod.ext rfl (Prod.ext ?_ rfl)
        simp only [real_lit32]
        cases imp with
        | none => simp [pixelWeight]
        | some m =>
          have hin : y * px.width + x < m.length := by
            rw [himp m rfl]
            calc y * px.width + x < (y + 1) * px.width := by rw [Nat.succ_mul]; omega
              _ ≤ px.height * px.width := Nat.mul_le_mul_right _ hy
              _ = _ := Nat.mul_comm _ _
          simp only [Option.getD_some, List.getElem?_drop, pixelWeight, mapAt, List.getD_eq_getElem?_getD,
            List.getElem?_eq_getElem hin]
          simp
      have hlt : i < p.length := by
        have := (List.getElem?_eq_some_iff.mp hs).1
        simpa [slots] using this
      rw [slots, List.getElem?_map, List.getElem?_eq_getElem hlt] at hs
      cases hs
      have hle : ∀ r ∈ plainRows n px none imp px.height, ∀ u ∈ r.updates, u.2.2 < p.length := by
        intro r hr u hu
        rw [houts] at hr
        simp only [List.mem_map, List.mem_range] at hr
        obtain ⟨y, hy, rfl⟩ := hr
        unfold plainRow at hu
        obtain ⟨hmem, ⟨hint, hidx⟩, b, hb⟩ := remapPixels_updates hn' _ _ _ _ _ _ u hu
        rw [hidx, ← hplen]; exact Nearest.search_lt hn' _ _
      rw [hpick] at hs'
      simp only [Option.isSome_none] at hs'
      rw [remapFinish_eq env _ _ _ _ (by simpa using h0) hle, slots, List.getElem?_map,
        finalizePalette_get _ _ (by simp) i p[i] (List.getElem?_eq_getElem hlt)] at hs'
      have hget : ((List.range p.length).map (gain (allUpdates (plainRows n px none imp px.height) false 0))).getD i 0 =
          gain (allUpdates (plainRows n px none imp px.height) false 0) i := by
        simp [List.getD_eq_getElem?_getD, hlt]
      rw [hget, Option.map_some] at hs'
      cases hs'
      have := finalizeEntry_gained (allUpdates (plainRows n px none imp px.height) false 0) (by
        intro u hu
        rw [hups] at hu
        obtain ⟨z, -, rfl⟩ := List.mem_map.mp hu
        dsimp only
        unfold pixelWeight
        split
        · positivity
        · exact zero_le_one) i p[i]
      convert this using 1
      rw [hups, List.filter_map, List.map_map]
      refine List.map_congr_left fun z _ => ?_
      simp only [Function.comp_apply]
      rw [fromRgba_spec]

end Verif
