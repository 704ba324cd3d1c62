import Verif.Props.Prepare
import Verif.Props.SamePixels

/-! # C66: buffers that are larger than the image -/

set_option linter.unusedSectionVars false

namespace Verif
open Flt Spec

variable {F : Type} [Flt F]

/-- a loop that has to read a row that does not exist panics -/
theorem remapLoop_panics {order : List ℕ} {y : ℕ} (hy : y ∈ order) (n : Nearest F) (ti : UInt8) {px : Rows F} (imp : Option (List UInt8))
    (nrows : ℕ) (hr : ∀ y e, px.rowF y = .error e → e = .panic) (h : px.rowF y = .error .panic) :
    remapLoop order n ti px none imp nrows = .error .panic := by
  have hrow : ∀ y, (∃ r, remapRow n ti px none imp y = .ok r) ∨ remapRow n ti px none imp y = .error .panic := by
    intro y
    unfold remapRow
    cases e : px.rowF y with
    | error e' => rw [hr y e' e]; exact .inr rfl
    | ok row => exact .inl ⟨_, rfl⟩
  have hfail : remapRow n ti px none imp y = .error .panic := by
    unfold remapRow
    rw [h]; rfl
  have key : ∀ (order : List ℕ) (slots : List (Option (RowOut F))), y ∈ order → order.foldlM (fun slots y => do
      let r ← remapRow n ti px none imp y
      store slots y (some r)) slots = .error .panic := by
    intro order
    induction order with
    | nil => intro slots h; cases h
    | cons z zs ih =>
      intro slots hm
      rw [List.foldlM_cons]
      rcases hrow z with ⟨r, e⟩ | e
      · rw [e, Res.ok_bind]
        unfold store
        split
        · rw [Res.ok_bind]
          apply ih
          rcases List.mem_cons.1 hm with rfl | hm
          · rw [hfail] at e; cases e
          · exact hm
        · rfl
      · rw [e]; rfl
  unfold remapLoop
  rw [key order _ hy]
  rfl

/-- **C66** (any float arithmetic). The size of the buffer is not checked. If a dither map is to be made, an image that is not
too large to be kept in memory panics when the buffer has room for another row; `remap_into` accepts such buffers. -/
theorem C66_large_buffer_panics (env : RemapEnv F) {q : QuantizationResult F} (hq : q.Good) {img : Image F} (hi : img.Good)
    (hf : img.px.fPixels = none) (hs : img.width * img.height ≤ 2 ^ 22) (hd : img.ditherMap = none)
    (hm : q.useDitherMap = .always ∨ q.useDitherMap ≠ .none ∧ img.width * img.height ≤ 2000 * 2000)
    {buf : List (Option UInt8)} (hb : img.width * (img.height + 1) ≤ buf.length) :
    (prepareForDithering env q img buf).res = .error .panic := by
  obtain ⟨n, hn⟩ := Nearest.new_of_len hq.pos hq.le
  have hrows : (chunksExact img.width buf).length = buf.length / img.width := by
    simp [chunksExact]
  have hmore : img.height < buf.length / img.width := by
    have hw := hi.width_pos
    rw [Nat.lt_iff_add_one_le, Nat.le_div_iff_mul_le hw, Nat.mul_comm]
    exact hb
  obtain ⟨px, e1, e2⟩ : ∃ px, img.px.prepare true = .ok px ∧ ∃ rows, px.fPixels = some rows ∧ rows.length = img.height := by
    obtain ⟨px, e, -, -⟩ := Rows.prepare_same hi.px true
    refine ⟨px, e, ?_⟩
    unfold Rows.prepare at e
    rw [if_neg] at e
    · cases hmap : (List.range img.px.height).mapM fun y => (img.px.rowRgba y).map (Rows.convertRow img.px.gamma) with
      | error e' => rw [hmap] at e; cases e
      | ok rows =>
        rw [hmap] at e
        cases e
        exact ⟨rows, rfl, by rw [(mapM_get hmap).1, List.length_range]; rfl⟩
    · rw [hf]
      unfold Rows.lowMemory highMemoryLimit
      have : img.px.width * img.px.height ≤ 2 ^ 22 := hs
      simp
      omega
  obtain ⟨rows, e2, e3⟩ := e2
  have hread : ∀ y, px.rowF y = index rows y := fun y => by unfold Rows.rowF; rw [e2]
  have hloop := remapLoop_panics (order := (env.sched (buf.length / img.width)).order) (y := img.height)
    (((env.sched_valid _).2.mem_iff (a := img.height)).2 (List.mem_range.2 hmore)) n
    (pickBackground n (none : Option (Rows F))).2 (px := px) img.importanceMap (buf.length / img.width) (fun y e h => by
      rw [hread] at h
      unfold index at h
      split at h <;> cases h
      rfl) (by
      rw [hread]
      unfold index
      rw [List.getElem?_eq_none (by omega)])
  have hremap : (remapToPalette env img.px none img.importanceMap (chunksExact img.width buf).length q.palette).1 = .error .panic := by
    unfold remapToPalette
    rw [hn, hrows]
    dsimp only
    rw [e1]
    have hp : (pickBackground n (none : Option (Rows F))).1 = none := rfl
    generalize pickBackground n (none : Option (Rows F)) = z at *
    obtain ⟨usedBg, ti⟩ := z
    dsimp only at hp
    subst hp
    simp only [prepareOpt] at hloop ⊢
    rw [hloop]
  unfold prepareForDithering generateDitherMap
  dsimp only
  rw [generates_of hd hm]
  generalize remapToPalette env img.px none img.importanceMap (chunksExact img.width buf).length q.palette = z at *
  obtain ⟨res, o⟩ := z
  dsimp only at hremap
  subst hremap
  rfl

/-! ### Example -/

/-- the hypotheses of `C66_large_buffer_panics` can be met; the remap itself succeeds with this buffer -/
example : ∃ (q : QuantizationResult ℝ) (img : Image ℝ), q.Good ∧ img.Good ∧ img.px.fPixels = none ∧ img.width * img.height = 100 ∧
    img.ditherMap = none ∧ q.useDitherMap ≠ .none ∧
    (prepareForDithering RemapEnv.simple q img (List.replicate 110 none)).res = .error .panic ∧
    (remapInto RemapEnv.simple q img (List.replicate 110 none) []).res = .ok () := by
  obtain ⟨q, hq, hcb, -, hm, -⟩ := example_result (F := ℝ)
  obtain ⟨img, e, hf, hd⟩ : ∃ img : Image ℝ, Image.newFn (fun _ _ => ⟨1, 2, 3, 255⟩) 10 10 0 = .ok img ∧ img.px.fPixels = none ∧
      img.ditherMap = none := by
    have hsize : Image.checkImageSize 10 10 = true := by decide
    unfold Image.newFn Image.toU32
    rw [if_pos (by omega)]
    simp only [bind, Except.bind]
    unfold Image.newInternal
    rw [hsize]
    simp only [Bool.not_true, Bool.false_eq_true, if_false]
    norm_num
  have hi : UserImage img := .fromCallback e
  have w : img.width = 10 := (newFn_good e).2.1
  have h : img.height = 10 := (newFn_good e).2.2.1
  have hm' : q.useDitherMap ≠ .none := by rw [hm]; simp
  exact ⟨q, img, hq.good, hi.good, hf, by rw [w, h], hd, hm',
    C66_large_buffer_panics _ hq.good hi.good hf (by rw [w, h]; omega) hd (.inr ⟨hm', by rw [w, h]; omega⟩) (by rw [w, h]; simp),
    C48_succeeds _ hq hi _ _ (by rw [w, h]; simp) hcb (fun x => by simp)⟩

end Verif
