import Verif.Lemmas.MachineHist
import Verif.Lemmas.DitherMap

/-! Images in machine integers are images in unbounded integers. -/

set_option linter.unusedSectionVars false

namespace Verif
open Flt Mach Spec

variable {F : Type} [Flt F]

/-- what the size check gives: pointers have 32 bits or more, and an image takes at most a sixteenth of the
address space -/
structure Room (bits w h : ℕ) : Prop where
  wide_bits : 32 ≤ bits
  w_pos : 0 < w
  h_pos : 0 < h
  w_max : w < 2 ^ 31
  h_max : h < 2 ^ 31
  area : 16 * (w * h) < 2 ^ (bits - 1)

theorem Room.of_check {bits w h : ℕ} (hb : 32 ≤ bits) (hc : Image.checkImageSizeM bits w h = true) : Room bits w h := by
  unfold Image.checkImageSizeM at hc
  split at hc
  · cases hc
  next h1 =>
    split at hc
    · cases hc
    next h2 =>
      push Not at h1 h2
      obtain ⟨hm, hd⟩ := h2
      have hpow : 0 < 2 ^ (bits - 1) := by positivity
      rw [Nat.div_div_eq_div_mul, Nat.le_div_iff_mul_le (by omega)] at hd
      refine ⟨hb, by omega, by omega, by omega, by omega, ?_⟩
      have : 16 * (w * h) = w * (16 * h) := by ring
      omega

theorem Room.wide {bits w h : ℕ} (r : Room bits w h) :
    ∃ n, 2 ^ bits = 2 * n ∧ 2 ^ 31 ≤ n ∧ 16 * (w * h) < n ∧ w ≤ w * h ∧ h ≤ w * h := by
  refine ⟨2 ^ (bits - 1), ?_, ?_, r.area, Nat.le_mul_of_pos_right _ r.h_pos, Nat.le_mul_of_pos_left _ r.w_pos⟩
  · have := r.wide_bits
    rw [← pow_succ']; congr 1; omega
  · exact Nat.pow_le_pow_right (by norm_num) (by have := r.wide_bits; omega)

namespace Image

theorem skipsContrastMapsM_eq {bits w h : ℕ} (r : Room bits w h) : skipsContrastMapsM bits w h = .ok (skipsContrastMaps w h) := by
  obtain ⟨n, h1, h2, h3, h4, h5⟩ := r.wide
  unfold skipsContrastMapsM skipsContrastMaps
  split
  next hc => rcases hc with hc | hc <;> simp [hc]
  next hc =>
    push Not at hc
    have e : 3 * w * h = 3 * (w * h) := by ring
    rw [mul_lt (by omega), Res.ok_bind, mul_lt (by omega), Res.ok_bind]
    simp only [pure, Except.pure]
    congr 1
    simp [show ¬ w < 4 by omega, show ¬ h < 4 by omega]

theorem contrastMapsM_eq {bits : ℕ} {img : Image F} (r : Room bits img.width img.height) : img.contrastMapsM bits = img.contrastMaps := by
  obtain ⟨n, h1, h2, h3, h4, h5⟩ := r.wide
  unfold contrastMapsM contrastMaps
  rw [skipsContrastMapsM_eq r, Res.ok_bind]
  split
  · rfl
  · cases hx : img.px.allRowsF with
    | error e => rfl
    | ok x =>
      rw [Res.ok_bind, Res.ok_bind]
      dsimp only
      rw [mul_lt (by omega), Res.ok_bind]

/-- one for a row that exists -/
def one (r : Option (List UInt8)) : ℕ := if r.isSome then 1 else 0

theorem neighborAt_le {row : Option (List UInt8)} {px : UInt8} {i v : ℕ} (h : neighborAt row px i = .ok v) : v ≤ 15 * one row := by
  unfold neighborAt at h
  cases row with
  | none => cases h; simp
  | some r =>
    dsimp only at h
    cases hi : index r i with
    | error e => rw [hi] at h; cases h
    | ok p =>
      rw [hi] at h
      have : (if p = px then 15 else 0) = v := by simpa [Except.map] using h
      simp only [one, Option.isSome_some, if_true]
      split at this <;> omega

theorem neighborFold_eq {bits : ℕ} (prevRow nextRow : Option (List UInt8)) (px : UInt8) (l : List ℕ) (n : ℕ)
    (h : n + (15 * one prevRow + 15 * one nextRow) * l.length < 2 ^ bits) :
    l.foldlM (fun n i => do
      let n ← add bits n (← neighborAt prevRow px i)
      add bits n (← neighborAt nextRow px i)) n =
    l.foldlM (fun n i => do
      let above ← neighborAt prevRow px i
      let below ← neighborAt nextRow px i
      return n + above + below) n ∧
    ∀ v, l.foldlM (fun n i => do
      let above ← neighborAt prevRow px i
      let below ← neighborAt nextRow px i
      return n + above + below) n = (.ok v : Res ℕ) → v ≤ n + (15 * one prevRow + 15 * one nextRow) * l.length := by
  induction l generalizing n with
  | nil => exact ⟨rfl, fun v hv => by cases hv; simp⟩
  | cons i l ih =>
    rw [List.length_cons, Nat.mul_add] at h
    have hle : (15 * one prevRow + 15 * one nextRow) * l.length ≤ (15 * one prevRow + 15 * one nextRow) * l.length := le_rfl
    rw [List.foldlM_cons, List.foldlM_cons]
    cases ha : neighborAt prevRow px i with
    | error e => exact ⟨rfl, fun v hv => by cases hv⟩
    | ok a =>
      have la := neighborAt_le ha
      rw [Res.ok_bind, Res.ok_bind, add_lt (by omega), Res.ok_bind]
      cases hb : neighborAt nextRow px i with
      | error e => exact ⟨rfl, fun v hv => by cases hv⟩
      | ok b =>
        have lb := neighborAt_le hb
        rw [Res.ok_bind, Res.ok_bind, add_lt (by omega), Res.ok_bind]
        simp only [pure, Except.pure]
        rw [Res.ok_bind]
        obtain ⟨i1, i2⟩ := ih (n + a + b) (by omega)
        refine ⟨i1, fun v hv => ?_⟩
        have := i2 v hv
        rw [List.length_cons, Nat.mul_add]
        omega

theorem neighborCountM_eq {bits : ℕ} (prevRow nextRow : Option (List UInt8)) (px : UInt8) {lastcol col : ℕ} (hle : lastcol ≤ col)
    (h : (10 + 15 * one prevRow + 15 * one nextRow) * (col - lastcol) < 2 ^ bits) :
    neighborCountM bits prevRow nextRow px lastcol col = neighborCount prevRow nextRow px lastcol col ∧
    ∀ v, neighborCount prevRow nextRow px lastcol col = .ok v → v ≤ (10 + 15 * one prevRow + 15 * one nextRow) * (col - lastcol) := by
  have he : (10 + 15 * one prevRow + 15 * one nextRow) * (col - lastcol) =
    10 * (col - lastcol) + (15 * one prevRow + 15 * one nextRow) * (col - lastcol) := by ring
  unfold neighborCountM neighborCount
  rw [sub_le hle, Res.ok_bind, mul_lt (by omega), Res.ok_bind]
  obtain ⟨h1, h2⟩ := neighborFold_eq (bits := bits) prevRow nextRow px (List.range' lastcol (col - lastcol)) (10 * (col - lastcol))
    (by rw [List.length_range']; omega)
  rw [List.length_range'] at h2
  exact ⟨h1, fun v hv => by have := h2 v hv; omega⟩

theorem ditherEdgeM_eq {bits : ℕ} (e : UInt8) {count : ℕ} (h : 20 + count < 2 ^ bits) :
    ditherEdgeM F bits e count = .ok (ditherEdge F e count) := by
  unfold ditherEdgeM ditherEdge
  have := e.toNat_lt
  rw [add_lt (by norm_num; omega), Res.ok_bind, add_lt h, Res.ok_bind]
  rfl

theorem ditherMapStepM_eq {bits : ℕ} (colors : PalF F) (ub : Bool) {w : ℕ} (prevRow nextRow : Option (List UInt8))
    (st : UInt8 × ℕ × List UInt8) (px : UInt8) {col : ℕ} (hle : st.2.1 ≤ col)
    (h : (10 + 15 * one prevRow + 15 * one nextRow) * col + 20 < 2 ^ bits) :
    ditherMapStepM bits colors ub w prevRow nextRow st (px, col) = ditherMapStep colors ub w prevRow nextRow st (px, col) ∧
    ∀ st', ditherMapStep colors ub w prevRow nextRow st (px, col) = .ok st' → st'.2.1 ≤ col + 1 := by
  obtain ⟨lastpixel, lastcol, edges⟩ := st
  dsimp only at hle
  have hm : (10 + 15 * one prevRow + 15 * one nextRow) * (col - lastcol) ≤ (10 + 15 * one prevRow + 15 * one nextRow) * col :=
    Nat.mul_le_mul_left _ (by omega)
  obtain ⟨n1, n2⟩ := neighborCountM_eq (bits := bits) prevRow nextRow lastpixel hle (by omega)
  have key : ∀ b : Bool, (if b = true then pure (lastpixel, lastcol, edges)
      else if px ≠ lastpixel ∨ col = w - 1 then do
        let count ← neighborCountM bits prevRow nextRow lastpixel lastcol col
        let edges ← (List.range' lastcol (col + 1 - lastcol)).foldlM (fun edges i => do
          store edges i (← ditherEdgeM F bits (← index edges i) count)) edges
        pure (px, max lastcol (col + 1), edges)
      else pure (lastpixel, lastcol, edges) : Res (UInt8 × ℕ × List UInt8)) =
      (if b = true then pure (lastpixel, lastcol, edges)
      else if px ≠ lastpixel ∨ col = w - 1 then do
        let count ← neighborCount prevRow nextRow lastpixel lastcol col
        let edges ← (List.range' lastcol (col + 1 - lastcol)).foldlM (fun edges i => do
          store edges i (ditherEdge F (← index edges i) count)) edges
        pure (px, max lastcol (col + 1), edges)
      else pure (lastpixel, lastcol, edges) : Res (UInt8 × ℕ × List UInt8)) ∧
      ∀ st', (if b = true then pure (lastpixel, lastcol, edges)
      else if px ≠ lastpixel ∨ col = w - 1 then do
        let count ← neighborCount prevRow nextRow lastpixel lastcol col
        let edges ← (List.range' lastcol (col + 1 - lastcol)).foldlM (fun edges i => do
          store edges i (ditherEdge F (← index edges i) count)) edges
        pure (px, max lastcol (col + 1), edges)
      else pure (lastpixel, lastcol, edges) : Res (UInt8 × ℕ × List UInt8)) = .ok st' → st'.2.1 ≤ col + 1 := by
    intro b
    split
    · exact ⟨rfl, fun st' e => by cases e; dsimp only; omega⟩
    · split
      · rw [n1]
        cases hn : neighborCount prevRow nextRow lastpixel lastcol col with
        | error e => exact ⟨rfl, fun st' e => by cases e⟩
        | ok c =>
          rw [Res.ok_bind, Res.ok_bind]
          have hc := n2 c hn
          have hf : (fun (edges : List UInt8) i => do
              store edges i (← ditherEdgeM F bits (← index edges i) c)) = (fun (edges : List UInt8) i => do
              store edges i (ditherEdge F (← index edges i) c)) := by
            funext es i
            cases hi : index es i with
            | error e => rfl
            | ok x => rw [Res.ok_bind, Res.ok_bind, ditherEdgeM_eq x (by omega), Res.ok_bind]
          rw [hf]
          refine ⟨rfl, fun st' e => ?_⟩
          cases hx : (List.range' lastcol (col + 1 - lastcol)).foldlM (fun edges i => do
              store edges i (ditherEdge F (← index edges i) c)) edges with
          | error e' => rw [hx] at e; cases e
          | ok es => rw [hx] at e; cases e; dsimp only; omega
      · exact ⟨rfl, fun st' e => by cases e; dsimp only; omega⟩
  unfold ditherMapStepM ditherMapStep
  dsimp only
  cases ub
  · exact key false
  · simp only [if_true]
    cases hi : index colors px.toNat with
    | error e => exact ⟨rfl, fun st' e => by cases e⟩
    | ok c => exact key _

theorem ditherMapRowM_eq {bits : ℕ} (colors : PalF F) (ub : Bool) {w : ℕ} (prevRow nextRow : Option (List UInt8))
    (this edges : List UInt8) (h : (10 + 15 * one prevRow + 15 * one nextRow) * this.length + 20 < 2 ^ bits) :
    ditherMapRowM bits colors ub w prevRow this nextRow edges = ditherMapRow colors ub w prevRow this nextRow edges := by
  have key : ∀ (l : List UInt8) (k : ℕ) (st : UInt8 × ℕ × List UInt8), st.2.1 ≤ k →
      (10 + 15 * one prevRow + 15 * one nextRow) * (k + l.length) + 20 < 2 ^ bits →
      (l.zipIdx k).foldlM (ditherMapStepM bits colors ub w prevRow nextRow) st =
      (l.zipIdx k).foldlM (ditherMapStep colors ub w prevRow nextRow) st := by
    intro l
    induction l with
    | nil => intro k st _ _; rfl
    | cons x l ih =>
      intro k st h1 h2
      rw [List.length_cons] at h2
      rw [List.zipIdx_cons, List.foldlM_cons, List.foldlM_cons]
      have hm : (10 + 15 * one prevRow + 15 * one nextRow) * k ≤ (10 + 15 * one prevRow + 15 * one nextRow) * (k + (l.length + 1)) :=
        Nat.mul_le_mul_left _ (by omega)
      obtain ⟨s1, s2⟩ := ditherMapStepM_eq (bits := bits) colors ub (w := w) prevRow nextRow st x h1 (by omega)
      rw [s1]
      cases hs : ditherMapStep colors ub w prevRow nextRow st (x, k) with
      | error e => rfl
      | ok st' =>
        rw [Res.ok_bind, Res.ok_bind]
        exact ih (k + 1) st' (s2 st' hs) (by rw [show k + 1 + l.length = k + (l.length + 1) by omega]; exact h2)
  unfold ditherMapRowM ditherMapRow
  cases this with
  | nil => rfl
  | cons x l =>
    cases hi : index (x :: l) 0 with
    | error e => rfl
    | ok first =>
      rw [Res.ok_bind, Res.ok_bind, List.zipIdx_cons, List.drop_one, List.tail_cons,
        key l (0 + 1) (first, 0, edges) (by simp) (by
          rw [List.length_cons] at h
          rw [show 0 + 1 + l.length = l.length + 1 by omega]; exact h)]

theorem ditherMapRowsM_eq {bits : ℕ} (colors : PalF F) (ub : Bool) {w a : ℕ} (ha : 15 * a + 20 < 2 ^ bits)
    (rows : List (List UInt8 × List UInt8)) (prevRow : Option (List UInt8)) (hr : ∀ x ∈ rows, x.1.length = w)
    (h : w * (one prevRow + rows.length) ≤ a) :
    ditherMapRowsM bits colors ub w prevRow rows = ditherMapRows colors ub w prevRow rows := by
  induction rows generalizing prevRow with
  | nil => rfl
  | cons x rest ih =>
    obtain ⟨this, e⟩ := x
    have ht : this.length = w := hr (this, e) (by simp)
    rw [List.length_cons] at h
    unfold ditherMapRowsM ditherMapRows
    have hone : one (rest.head?.map (·.1)) ≤ rest.length := by
      cases rest with
      | nil => simp [one]
      | cons y ys => simp [one]
    rw [ditherMapRowM_eq (bits := bits) colors ub prevRow _ this e (by
      rw [ht]
      have h1 : (10 + 15 * one prevRow + 15 * one (rest.head?.map (·.1))) * w ≤ 15 * (w * (one prevRow + (rest.length + 1))) := by
        rw [show 15 * (w * (one prevRow + (rest.length + 1))) = (15 * (one prevRow + (rest.length + 1))) * w by ring]
        exact Nat.mul_le_mul_right _ (by omega)
      omega)]
    cases hrow : ditherMapRow colors ub w prevRow this (rest.head?.map (·.1)) e with
    | error e => rfl
    | ok e' =>
      rw [Res.ok_bind, Res.ok_bind, ih (some this) (fun y hy => hr y (by simp [hy])) ?_]
      have h2 : w * (one (some this) + rest.length) ≤ w * (one prevRow + (rest.length + 1)) :=
        Nat.mul_le_mul_left _ (by simp [one]; omega)
      omega

theorem updateDitherMapM_eq {bits : ℕ} {img : Image F} (r : Room bits img.width img.height) (hg : img.Good)
    {remapped : List (List UInt8)} (palette : PalF F) (ub : Bool)
    (hl : remapped.length = img.height) (hr : ∀ r ∈ remapped, r.length = img.width) :
    img.updateDitherMapM bits remapped palette ub = img.updateDitherMap remapped palette ub := by
  obtain ⟨n, h1, h2, h3, h4, h5⟩ := r.wide
  have hstart : (if img.edges.isNone then img.contrastMapsM bits else .ok img) = img.withEdges := by
    unfold withEdges
    split
    · exact contrastMapsM_eq r
    · rfl
  have hsame : ∀ img1, img.withEdges = .ok img1 → Rows.Same img.px img1.px := by
    intro img1 e
    unfold withEdges at e
    split at e
    · obtain ⟨img2, e2, _, same, _⟩ := contrastMaps_ok hg
      rw [e] at e2; cases e2; exact same
    · cases e; exact Rows.Same.refl _
  have hrest : ∀ img1 : Image F, Rows.Same img.px img1.px →
      (match img1.edges with
      | none => return img1
      | some edges => do
        let rows := remapped.zip (chunksExact img1.width edges)
        let out ← ditherMapRowsM bits palette ub img1.width none rows
        return { img1 with edges := none, ditherMap := some (out.flatten ++ edges.drop (rows.length * img1.width)) } : Res (Image F)) =
      (match img1.edges with
      | none => return img1
      | some edges => do
        let rows := remapped.zip (chunksExact img1.width edges)
        let out ← ditherMapRows palette ub img1.width none rows
        return { img1 with edges := none, ditherMap := some (out.flatten ++ edges.drop (rows.length * img1.width)) }) := by
    intro img1 same
    have hw1 : img1.width = img.width := same.width
    cases hed : img1.edges with
    | none => rfl
    | some edges =>
      dsimp only
      rw [ditherMapRowsM_eq (a := img.width * img.height) palette ub (by omega) _ none (by
        rintro ⟨x, y⟩ hx
        rw [hw1]
        exact hr x (List.of_mem_zip hx).1) (by
        rw [hw1, List.length_zip, hl]
        refine Nat.mul_le_mul_left _ ?_
        simp [one])]
  unfold updateDitherMapM updateDitherMap
  by_cases he : img.edges.isNone = true
  · rw [if_pos he] at hstart ⊢
    rw [hstart]
    cases hx : img.withEdges with
    | error e => rfl
    | ok img1 => exact hrest img1 (hsame img1 hx)
  · rw [if_neg he] at hstart ⊢
    rw [hstart]
    cases hx : img.withEdges with
    | error e => rfl
    | ok img1 => exact hrest img1 (hsame img1 hx)

end Image

theorem estimatedColorsM_ok {bits w h p : ℕ} (r : Room bits w h) (hp : p ≤ 4) : ∃ n, estimatedColorsM bits w h p = .ok n := by
  obtain ⟨n, h1, h2, h3, h4, h5⟩ := r.wide
  unfold estimatedColorsM
  have e : h * w = w * h := Nat.mul_comm _ _
  rw [mul_lt (by omega), Res.ok_bind]
  have hk : (if h * w > 512 * 512 then 7 else 5) ≤ 7 ∧ 5 ≤ (if h * w > 512 * 512 then 7 else 5) := by split <;> omega
  generalize (if h * w > 512 * 512 then 7 else 5) = k at hk
  rw [add_lt (by omega), Res.ok_bind, Mach.div_pos (by omega), Res.ok_bind]
  exact ⟨_, rfl⟩

theorem addImageM_eq {bits : ℕ} (ho : HashOrder) {h : Histogram F} (hh : h.posterizeBits ≤ 7) {attr : Attr F} (ha : attr.posterizeBits ≤ 4)
    {img : Image F} (r : Room bits img.width img.height) (hg : img.Good) (log : List F) :
    h.addImageM bits ho attr img log = h.addImage ho attr img log := by
  unfold Histogram.addImageM Histogram.addImage
  have hmaps : (if img.importanceMap.isNone && attr.useContrastMaps then img.contrastMapsM bits else .ok img) =
      (if img.importanceMap.isNone && attr.useContrastMaps then img.contrastMaps else .ok img) := by
    rw [Image.contrastMapsM_eq r]
  rw [hmaps]
  have hsame : ∀ img1, (if img.importanceMap.isNone && attr.useContrastMaps then img.contrastMaps else .ok img) = .ok img1 →
      Rows.Same img.px img1.px := by
    intro img1 e
    split at e
    · obtain ⟨img2, e2, _, same, _⟩ := contrastMaps_ok hg
      rw [e] at e2; cases e2; exact same
    · cases e; exact Rows.Same.refl _
  cases hx : (if img.importanceMap.isNone && attr.useContrastMaps then img.contrastMaps else .ok img) with
  | error e => rfl
  | ok img1 =>
    dsimp only
    have same := hsame img1 hx
    have r1 : Room bits img1.width img1.height := by
      rw [show img1.width = img.width from same.width, show img1.height = img.height from same.height]; exact r
    obtain ⟨n, hn⟩ := estimatedColorsM_ok r1 ha
    have hb : (if img1.fixedColors.isEmpty then { h with gamma := img1.gamma }
        else Histogram.extendFixed { h with gamma := img1.gamma } img1.fixedColors).posterizeBits ≤ 7 := by
      split <;> exact hh
    rw [progress_eq]
    cases hans : answered attr.progressCallback (reported attr.progressCallback log (lit32 attr.progressStage1 *₃ lit32 (4/10))) with
    | true => rfl
    | false =>
      dsimp only
      rw [hn]
      dsimp only
      cases hr : img1.px.rgbaRows with
      | error e => rfl
      | ok rows =>
        dsimp only
        rw [addPixelRowsM_eq ho hb _ _ _ (by omega)]

end Verif
