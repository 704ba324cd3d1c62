import Verif.Lemmas.MemoryLeft
import Verif.Props.Memory
import Verif.Props.Repeat

/-! # C80: running out of memory while a picture is remapped -/

set_option linter.unusedSectionVars false

namespace Verif
open Flt Spec

section
variable {F : Type} [Flt F] [FltSign F]

/-- **C80** (any float arithmetic). However the allocator answers: if all requests of `remap_into` are granted it does what it does with
plenty of memory, and if one is refused it returns `OutOfMemory` and the result is as it was before. -/
theorem C80_remap_into (env : RemapEnv F) {q : QuantizationResult F} (hq : UserResult q) {img : Image F} (hi : UserImage img)
    (buf : List (Option UInt8)) (log : List F) (mem : Answers) (n : ℕ) :
    let r := remapIntoA env mem n q img buf log
    (Refused mem n r.2 → r.1.res = .error (.err .outOfMemory) ∧ r.1.quant = q) ∧
    (¬ Refused mem n r.2 → r.1 = remapInto env q img buf log) := by
  intro r
  have hr : r = remapIntoA env mem n q img buf log := rfl
  unfold remapIntoA at hr
  dsimp only at hr
  unfold remapInto
  dsimp only
  by_cases hb : buf.length < img.width * img.height
  · rw [if_pos hb] at hr
    rw [if_pos hb, hr]
    refine ⟨fun ⟨i, h1, h2, _⟩ => ?_, fun _ => rfl⟩
    simp only at h2
    omega
  · rw [if_neg hb] at hr
    rw [if_neg hb]
    obtain ⟨c1, c2, -⟩ := chunksExact_rows (h := img.height) hi.good.width_pos (buf.take (img.width * img.height)) (by rw [List.length_take]; omega)
    have ob := writeRemappedA_obeys env
    generalize hs : (⟨q, img, chunksExact img.width (buf.take (img.width * img.height)), log, false⟩ : RemapState F) = s at hr
    have hsi : s.image = img := by rw [← hs]
    have hsq : s.quant = q := by rw [← hs]
    have hg : s.image.freeHistogramInputs.Good := by
      rw [hsi]
      exact hi.good.change (Rows.free_same _) (BgSame.refl _)
    have ho : OutGood s.image.freeHistogramInputs s.out := by
      rw [← hs]
      have fs := Rows.free_same img.px
      exact ⟨by rw [c1]; exact fs.height.symm, fun row hrow => by rw [c2 row hrow]; exact fs.width.symm⟩
    refine ⟨fun hn => ?_, fun hn => ?_⟩
    · rw [hr] at hn ⊢
      have e := ob.no mem n s (not_granted.2 hn)
      exact ⟨e, ((writeRemappedA_left (m := false) env mem n s (fun h => by cases h)).2 (by rw [e]; simp)).trans hsq⟩
    · rw [← not_granted, not_not, hr] at hn
      have e := ob.yes mem n s hn
      obtain ⟨n', e'⟩ := writeRemappedA_plenty env (s := s) (by rw [hsq]; exact hq.good.pos) (by rw [hsq]; exact hq.good.le) hg ho n
      rw [hr]
      dsimp only
      rw [e, e']

/-- **C80** (any float arithmetic). Whether memory runs out or not, the pixels of the image and of its background stay the same. -/
theorem C80_image (env : RemapEnv F) (q : QuantizationResult F) {img : Image F} (hi : UserImage img) (buf : List (Option UInt8))
    (log : List F) (mem : Answers) (n : ℕ) :
    let r := remapIntoA env mem n q img buf log
    r.1.image.width = img.width ∧ r.1.image.height = img.height ∧ (∀ y < img.height, r.1.image.px.pixelsF y = img.px.pixelsF y) ∧
    BgSame img.background r.1.image.background := by
  intro r
  have h : ImageLeft false img r.1.image := by
    show ImageLeft false img (remapIntoA env mem n q img buf log).1.image
    unfold remapIntoA
    dsimp only
    split
    · exact ImageLeft.refl _ _
    · exact (writeRemappedA_left env mem n ⟨q, img, chunksExact img.width (buf.take (img.width * img.height)), log, false⟩ (fun h => by cases h)).1
  have hp := h.px hi.good.px
  exact ⟨hp.width, hp.height, fun y hy => hp.pixelsF hy, h.background fun b hb => (hi.good.background b hb).1⟩

/-- **C80**, the part that holds (any float arithmetic). After memory ran out the same image can be remapped again with the same bytes,
palette and error, if it is not dithered, or no dither map is wanted, or the image has one. -/
theorem C80_again_partial (env : RemapEnv F) {q : QuantizationResult F} (hq : UserResult q) {img : Image F} (hi : UserImage img)
    (hm : eq q.ditherLevel (lit32 0) = true ∨ q.useDitherMap = .none ∨ img.ditherMap ≠ none) (buf buf1 buf' : List (Option UInt8))
    (log log1 log' : List F) (mem : Answers) (n : ℕ) (h1 : (remapInto env q img buf log).res = .ok ()) :
    let r := remapIntoA env mem n q img buf1 log1
    Refused mem n r.2 → (remapInto env r.1.quant r.1.image buf' log').res = .ok () →
    (∀ i < img.width * img.height, (remapInto env r.1.quant r.1.image buf' log').buf[i]? = (remapInto env q img buf log).buf[i]?) ∧
    (remapInto env r.1.quant r.1.image buf' log').quant.getPalette.2 = (remapInto env q img buf log).quant.getPalette.2 ∧
    (remapInto env r.1.quant r.1.image buf' log').quant.remappingError = (remapInto env q img buf log).quant.remappingError := by
  intro r hn h2
  have hqr : r.1.quant = q := ((C80_remap_into env hq hi buf1 log1 mem n).1 hn).2
  have hl : ImageLeft true img r.1.image := by
    show ImageLeft true img (remapIntoA env mem n q img buf1 log1).1.image
    unfold remapIntoA
    dsimp only
    split
    · exact ImageLeft.refl _ _
    · exact (writeRemappedA_left env mem n ⟨q, img, chunksExact img.width (buf1.take (img.width * img.height)), log1, false⟩
        (fun _ => hm.imp id not_generates_of)).1
  have ha : Alike img r.1.image := ⟨hl.px hi.good.px, hl.background fun b hb => (hi.good.background b hb).1, hl.maps rfl⟩
  obtain ⟨m1, m2⟩ := remapInto_alike env hq.good hi.good (ha.good hi.good) ha buf buf' log log' h1 (by rw [← hqr]; exact h2)
  rw [hqr]
  refine ⟨fun i hlt => ?_, by rw [m1], by rw [m1]⟩
  have := congrArg (·[i]?) m2
  simpa only [List.getElem?_take, hlt, if_true] using this

/-- **C80** (any float arithmetic). The same for `remapped`, with one exception: when only the request for the palette is refused, it
succeeds, with the right bytes and no palette at all. -/
theorem C80_remapped_partial (env : RemapEnv F) {q : QuantizationResult F} (hq : UserResult q) {img : Image F} (hi : UserImage img)
    (log : List F) (mem : Answers) (n : ℕ) :
    let r := remappedA env mem n q img log
    (¬ Refused mem n r.2.2 → (r.1, r.2.1) = remapped env q img log) ∧
    (Refused mem n r.2.2 →
      r.1 = .error (.err .outOfMemory) ∧ r.2.1.quant = q ∨
      ¬ Refused mem n (r.2.2 - 1) ∧
        ∃ pal bytes, (remapped env q img log).1 = .ok (pal, bytes) ∧ pal.length = q.palette.length ∧ 0 < pal.length ∧ r.1 = .ok ([], bytes)) := by
  intro r
  have hr : r = remappedA env mem n q img log := rfl
  unfold remappedA at hr
  by_cases hm : mem n = true
  · rw [if_pos hm] at hr
    dsimp only at hr
    obtain ⟨a1, a2⟩ := C80_remap_into env hq hi (List.replicate (img.width * img.height) none) log mem (n + 1)
    have hle := remapIntoA_le env q img (List.replicate (img.width * img.height) none) log mem (n + 1)
    have step : ∀ k, Refused mem n k ↔ Refused mem (n + 1) k := by
      intro k
      constructor
      · rintro ⟨i, h1, h2, h3⟩
        refine ⟨i, ?_, h2, h3⟩
        rcases Nat.eq_or_lt_of_le h1 with h | h
        · rw [← h, hm] at h3; cases h3
        · exact h
      · rintro ⟨i, h1, h2, h3⟩
        exact ⟨i, by omega, h2, h3⟩
    unfold remapped
    dsimp only
    obtain ⟨-, -, -, -, hlen⟩ := C01_remap_keeps_size env hq hi (List.replicate (img.width * img.height) none) log
    have hpos := hq.good.pos
    by_cases hn : Refused mem (n + 1) (remapIntoA env mem (n + 1) q img (List.replicate (img.width * img.height) none) log).2
    · obtain ⟨b1, b2⟩ := a1 hn
      rw [b1] at hr
      dsimp only at hr
      rw [hr]
      refine ⟨fun h => absurd ((step _).2 hn) h, fun _ => .inl ⟨rfl, b2⟩⟩
    · have e := a2 hn
      rw [← e]
      rw [← e] at hlen
      generalize remapIntoA env mem (n + 1) q img (List.replicate (img.width * img.height) none) log = x at *
      obtain ⟨o, n1⟩ := x
      dsimp only at *
      cases ho : o.res with
      | error er =>
        rw [ho] at hr
        rw [hr]
        exact ⟨fun _ => rfl, fun h => absurd ((step _).1 h) hn⟩
      | ok u =>
        rw [ho] at hr
        rw [hr]
        unfold paletteVecA
        dsimp only
        cases hl : mem n1 with
        | true =>
          refine ⟨fun _ => rfl, fun h => ?_⟩
          obtain ⟨i, h1, h2, h3⟩ := (step _).1 h
          rcases Nat.lt_succ_iff_lt_or_eq.1 h2 with h | h
          · exact absurd ⟨i, h1, h, h3⟩ hn
          · rw [h, hl] at h3; cases h3
        | false =>
          refine ⟨fun h => absurd ⟨n1, by omega, by omega, hl⟩ h, fun _ => .inr ⟨?_, _, _, rfl, hlen, by rw [hlen]; exact hpos, rfl⟩⟩
          rw [Nat.add_sub_cancel, step]
          exact hn
  · have hm' : mem n = false := by simpa using hm
    rw [if_neg hm] at hr
    rw [hr]
    exact ⟨fun h => absurd ⟨n, le_rfl, Nat.lt_succ_self n, hm'⟩ h, fun _ => .inl ⟨rfl, rfl⟩⟩

end

/-! ### What does not hold -/

/-- **C80 does not hold** for dithered images. A remap of a white image with a palette made for a black one shows white. If it runs out of
memory after the dither map was made, the next remap, with plenty of memory, shows black. -/
theorem C80_again_false : ∃ (env : RemapEnv ℝ) (q : QuantizationResult ℝ) (img : Image ℝ) (mem : Answers), UserResult q ∧ UserImage img ∧
    let first := remapInto env q img (List.replicate 16 none) []
    let failed := (remapIntoA env mem 0 q img (List.replicate 16 none) []).1
    let again := remapInto env failed.quant failed.image (List.replicate 16 none) []
    first.res = .ok () ∧ first.quant.getPalette.2 = [⟨255, 255, 255, 255⟩] ∧
    failed.res = .error (.err .outOfMemory) ∧
    again.res = .ok () ∧ again.quant.getPalette.2 = [⟨0, 0, 0, 255⟩] := by
  obtain ⟨env, q, img, hq, hi, hcb, h1, h2, h3, h4⟩ := C67_does_not_hold
  have haft : AfterRemaps q (remapInto env q img (List.replicate 16 none) []).quant := .remap env _ _ .start hi
  obtain ⟨k1, -, -, k4⟩ := C67_other_images env hq haft (remapInto env q img (List.replicate 16 none) []).image (List.replicate 16 none) []
  rw [k1] at h3
  rw [(k4 h3).1] at h4
  have hi1 : UserImage (remapInto env q img (List.replicate 16 none) []).image := .remap env q _ _ hi hq.good
  have hl : eq q.ditherLevel (lit32 0) = false := by
    by_contra hl
    have ha := remapInto_keeps_maps env hq.good hi.good (List.replicate 16 none) [] (.inl (by simpa using hl))
    obtain ⟨m1, -⟩ := remapInto_alike env hq.good hi.good hi1.good ha _ _ _ _ h1 h3
    rw [m1, h2] at h4
    simp at h4
  obtain ⟨mem, e1, e2, ha⟩ := remapIntoA_refused env hq.good hi.good (List.replicate 16 none) [] hl h1
  have hg := ha.good hi1.good
  have hok : (remapInto env q (remapIntoA env mem 0 q img (List.replicate 16 none) []).1.image (List.replicate 16 none) []).res = .ok () := by
    refine remapInto_succeeds env hq.good hg _ _ ?_ hcb
    have hw : (remapIntoA env mem 0 q img (List.replicate 16 none) []).1.image.width = _ := ha.px.width
    have hh : (remapIntoA env mem 0 q img (List.replicate 16 none) []).1.image.height = _ := ha.px.height
    rw [hw, hh]
    by_contra hlt
    have s1 := (remapInto_spec env (List.replicate 16 none) [] hq.good hi1.good).small (Nat.lt_of_not_le hlt)
    rw [s1] at h3
    cases h3
  obtain ⟨m1, -⟩ := remapInto_alike env hq.good hi1.good hg ha _ (List.replicate 16 none) _ [] h3 hok
  refine ⟨env, q, img, mem, hq, hi, h1, h2, e1, ?_⟩
  rw [e2]
  exact ⟨hok, by rw [m1]; exact h4⟩

/-- **C80 does not hold** for `remapped` (any float arithmetic): whenever it would succeed, there is a request that may be refused so that
it still succeeds, with the same bytes, but without any of the colours they refer to. -/
theorem C80_remapped_false {F : Type} [Flt F] [FltSign F] (env : RemapEnv F) {q : QuantizationResult F} (hq : UserResult q) {img : Image F} (hi : UserImage img)
    (log : List F) {pal : List RGBA} {bytes : List (Option UInt8)} (hok : (remapped env q img log).1 = .ok (pal, bytes)) :
    ∃ k, let mem : Answers := fun i => decide (i ≠ k)
      Refused mem 0 (remappedA env mem 0 q img log).2.2 ∧ (remappedA env mem 0 q img log).1 = .ok ([], bytes) ∧
      bytes.length = img.width * img.height ∧ 0 < bytes.length ∧ ∀ b ∈ bytes, ∃ i : UInt8, b = some i := by
  have hle := remapIntoA_le env q img (List.replicate (img.width * img.height) none) log Answers.plenty 1
  have hk : ∃ k, k = (remapIntoA env Answers.plenty 1 q img (List.replicate (img.width * img.height) none) log).2 := ⟨_, rfl⟩
  obtain ⟨k, hk⟩ := hk
  have e1 : remapIntoA env (fun i => decide (i ≠ k)) 1 q img (List.replicate (img.width * img.height) none) log =
      remapIntoA env Answers.plenty 1 q img (List.replicate (img.width * img.height) none) log := by
    refine remapIntoA_asks env q img _ log _ _ 1 fun i _ hlt => ?_
    have : i ≠ k := by omega
    simp [this, Answers.plenty]
  have e2 := (C80_remap_into env hq hi (List.replicate (img.width * img.height) none) log Answers.plenty 1).2
    (fun ⟨_, _, _, h⟩ => by cases h)
  obtain ⟨g1, -, -, g2⟩ := C03_remapped env hq hi log pal bytes _ (Prod.ext hok rfl)
  unfold remapped at hok
  dsimp only at hok
  have hres : (remapInto env q img (List.replicate (img.width * img.height) none) log).res = .ok () := by
    generalize remapInto env q img (List.replicate (img.width * img.height) none) log = x at hok
    cases h : x.res with
    | error e => rw [h] at hok; cases hok
    | ok u => rfl
  have hbytes : bytes = (remapInto env q img (List.replicate (img.width * img.height) none) log).buf := by
    rw [hres] at hok
    simp only [Except.ok.injEq, Prod.mk.injEq] at hok
    exact hok.2.symm
  have hr : remappedA env (fun i => decide (i ≠ k)) 0 q img log =
      (.ok ([], bytes), { remapInto env q img (List.replicate (img.width * img.height) none) log with
        quant := (remapInto env q img (List.replicate (img.width * img.height) none) log).quant.getPalette.1 }, k + 1) := by
    unfold remappedA
    rw [if_pos (by simp; omega)]
    dsimp only
    rw [show 0 + 1 = 1 from rfl, e1, e2, hres, ← hk, hbytes]
    simp [paletteVecA]
  refine ⟨k, ?_⟩
  dsimp only
  rw [hr]
  refine ⟨⟨k, by omega, by simp, by simp⟩, rfl, g1, ?_, fun b hb => ?_⟩
  · rw [g1]
    exact Nat.mul_pos hi.good.width_pos hi.good.height_pos
  · obtain ⟨i, h, -⟩ := g2 b hb
    exact ⟨i, h⟩

/-- Images that are not dithered: the first request of the remap is refused, afterwards the remap succeeds; and `remapped` succeeds, as
`C80_remapped_false` assumes. -/
example : ∃ (q : QuantizationResult ℝ) (img : Image ℝ) (mem : Answers), UserResult q ∧ UserImage img ∧ eq q.ditherLevel (lit32 0) = true ∧
    (remapInto RemapEnv.simple q img (List.replicate 100 none) []).res = .ok () ∧
    Refused mem 0 (remapIntoA RemapEnv.simple mem 0 q img (List.replicate 100 none) []).2 ∧
    (remapInto RemapEnv.simple q (remapIntoA RemapEnv.simple mem 0 q img (List.replicate 100 none) []).1.image (List.replicate 100 none) []).res = .ok () ∧
    ∃ pal bytes, (remapped RemapEnv.simple q img []).1 = .ok (pal, bytes) := by
  obtain ⟨q, hq, hcb, -, -⟩ := example_result (F := ℝ)
  obtain ⟨img, hi, w, h, -⟩ := example_image (fun _ _ => ⟨1, 2, 3, 255⟩) (w := 10) (h := 10) (by omega) (by omega) (by omega) (by omega)
  have hlev : q.setDitheringLevel 0 = .ok { q with remapped := none, ditherLevel := (0 : ℝ) } := by
    simp [QuantizationResult.setDitheringLevel]
  have hq0 : UserResult { q with remapped := none, ditherLevel := (0 : ℝ) } := .level hq hlev
  have hsz : img.width * img.height = 100 := by rw [w, h]
  have hok := remapInto_succeeds RemapEnv.simple hq0.good hi.good (List.replicate 100 none) [] (by rw [hsz]; simp) hcb
  obtain ⟨i1, i2, -⟩ := C80_image RemapEnv.simple { q with remapped := none, ditherLevel := (0 : ℝ) } hi (List.replicate 100 none) [] (fun i => decide (i ≠ 0)) 0
  have hleft := writeRemappedA_left (m := true) RemapEnv.simple (fun i => decide (i ≠ 0)) 0
    ⟨{ q with remapped := none, ditherLevel := (0 : ℝ) }, img, chunksExact img.width ((List.replicate 100 none).take (img.width * img.height)), [], false⟩
    (fun _ => .inl (by simp))
  have himg : (remapIntoA RemapEnv.simple (fun i => decide (i ≠ 0)) 0 { q with remapped := none, ditherLevel := (0 : ℝ) } img (List.replicate 100 none) []).1.image =
      (writeRemappedA RemapEnv.simple (fun i => decide (i ≠ 0)) (0, ⟨{ q with remapped := none, ditherLevel := (0 : ℝ) }, img,
        chunksExact img.width ((List.replicate 100 none).take (img.width * img.height)), [], false⟩)).2.2.image := by
    unfold remapIntoA
    dsimp only
    rw [if_neg (by rw [hsz]; simp)]
  have ha : Alike img (remapIntoA RemapEnv.simple (fun i => decide (i ≠ 0)) 0 { q with remapped := none, ditherLevel := (0 : ℝ) } img (List.replicate 100 none) []).1.image := by
    rw [himg]
    exact ⟨hleft.1.px hi.good.px, hleft.1.background fun b hb => (hi.good.background b hb).1, hleft.1.maps rfl⟩
  refine ⟨_, img, fun i => decide (i ≠ 0), hq0, hi, by simp, hok, ⟨0, le_rfl, ?_, by decide⟩, ?_, ?_⟩
  · by_contra hlt
    have hr := (C80_remap_into RemapEnv.simple hq0 hi (List.replicate 100 none) [] (fun i => decide (i ≠ 0)) 0).2 (fun ⟨i, _, h2, _⟩ => by omega)
    have hm : (remapIntoA RemapEnv.simple (fun i => decide (i ≠ 0)) 0 { q with remapped := none, ditherLevel := (0 : ℝ) } img (List.replicate 100 none) []).1.res ≠ .ok () := by
      obtain ⟨n, hn⟩ := Nearest.new_of_len (p := (q.palette.initIntPalette q.gamma (UInt8.ofNat q.minPosterizationOutput)).1)
        (by have := hq.good.pos; simp [PalF.initIntPalette]; omega) (by simpa [PalF.initIntPalette] using hq.good.le)
      unfold remapIntoA writeRemappedA remapBodyA remapPlainA remapToPaletteA
      simp [hsz, AM.bind_apply, AM.get, RemapState.progressA, AM.run, progress, hcb, AM.modify, AM.lift, hn, AM.alloc]
    rw [hr] at hm
    exact hm hok
  · refine remapInto_succeeds RemapEnv.simple hq0.good (ha.good hi.good) _ _ ?_ hcb
    rw [i1, i2, hsz]
    simp
  · unfold remapped
    dsimp only
    rw [hsz, hok]
    exact ⟨_, _, rfl⟩

end Verif
