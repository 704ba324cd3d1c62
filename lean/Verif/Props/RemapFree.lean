import Verif.Props.RemapExact

/-! # What remapping does not depend on: C21 (remapping part), C22 -/

set_option linter.unusedSectionVars false

namespace Verif
open Flt Spec

variable {F : Type} [Flt F]

/-! ## C21 -/

/-- **C21** (any float arithmetic). With dithering off the output bytes are the same for every schedule, every order of
additions, every number of CPUs and whatever fresh memory contains. -/
theorem C21_remap_bytes (env env' : RemapEnv F) {q : QuantizationResult F} {img : Image F} (hi : UserImage img)
    (buf : List (Option UInt8)) (log : List F) (hl : eq q.ditherLevel (lit32 0) = true) :
    (remapInto env q img buf log).buf = (remapInto env' q img buf log).buf :=
  remapInto_buf_env env env' hi.good buf log hl

/-- **C21** (exact arithmetic). With dithering off the whole outcome (bytes, reported palette, error, image) is the same. -/
theorem C21_remap (env env' : RemapEnv ℝ) {q : QuantizationResult ℝ} {img : Image ℝ} (hq : UserResult q)
    (hi : UserImage img) (buf : List (Option UInt8)) (log : List ℝ) (hl : q.ditherLevel = 0) :
    remapInto env q img buf log = remapInto env' q img buf log :=
  remapInto_env env env' (SamePlain.real env env') hq.good hi.good buf log (.inl (by rw [hl]; simp))

/-- **C21** (exact arithmetic), more than the statement asks for: with dithering on the schedule does not matter either,
if only the number of CPUs is the same and so is what fresh memory contains. -/
theorem C21_dithered (env env' : RemapEnv ℝ) {q : QuantizationResult ℝ} {img : Image ℝ} (hq : UserResult q)
    (hi : UserImage img) (buf : List (Option UInt8)) (log : List ℝ) (hc : env.cpus = env'.cpus)
    (hg : env.garbage = env'.garbage) : remapInto env q img buf log = remapInto env' q img buf log :=
  remapInto_env env env' (SamePlain.real env env') hq.good hi.good buf log (.inr (.inl ⟨hc, hg⟩))

/-- a schedule that is really different: the rows in reverse order on another worker -/
example : ∃ env : RemapEnv ℝ, (env.sched 2).order = [1, 0] ∧ (env.sched 2).main = [] ∧ (env.sched 2).after = [[1], [0]] ∧
    env.cpus = 7 := by
  refine ⟨{ (RemapEnv.simple : RemapEnv ℝ) with
    sched := fun n => ⟨[], [], (List.range n).reverse.map (fun y => [y]), (List.range n).reverse⟩
    sched_valid := fun n => ?_, cpus := 7, cpus_pos := by omega }, rfl, rfl, rfl, rfl⟩
  refine ⟨?_, List.reverse_perm _⟩
  have : ((List.range n).reverse.map fun y => [y]).flatten = (List.range n).reverse := by
    generalize (List.range n).reverse = l
    induction l with
    | nil => rfl
    | cons a l ih => simp [ih]
  simp only [List.flatten_nil, List.nil_append]
  rw [this]
  exact List.reverse_perm _

/-! ## C22 -/

/-- **C22**: a single chunk for small images and for results made with speed 1 (`C22_speed_one`), whatever the number
of CPUs. -/
theorem C22_single_chunk (single : Bool) (w h cpus : ℕ) (hc : 0 < cpus) (hs : single = true ∨ h ≤ 128) :
    ditherChunks single w h cpus = 1 := by
  unfold ditherChunks
  rcases hs with h' | h'
  · simp [h']
  · split
    · rfl
    · rw [if_neg (by omega)]
      have : h / 128 ≤ 1 := by omega
      omega

theorem setSpeed_single (a : Attr F) {v : ℤ} {a' : Attr F} (e : a.setSpeed v = .ok a') :
    a'.singleThreadedDithering = decide (a'.speed = 1) := by
  unfold Attr.setSpeed at e
  split at e
  · cases e
  · simp only [bind, Except.bind] at e
    repeat' split at e
    all_goals first
      | cases e; done
      | (simp only [Except.ok.injEq] at e
         subst e
         simp only [decide_eq_decide]
         omega)

/-- **C22** (any float arithmetic): results made while the speed was 1 are remapped by a single thread -/
theorem C22_speed_one [FltSign F] (env : Env F) (cs : List Call) (cb : Option (List F → Bool)) (h : Histogram F) (freeze : Bool)
    (log log' : List F) {r : QuantizationResult F}
    (e : h.quantizeInternal env (userAttr cs cb) freeze log = (.ok r, log')) :
    r.singleThreadedDithering = true ↔ (Settings.default.after cs).speed = 1 := by
  have hattr : ((Attr.new : Attr F).after cs).singleThreadedDithering = decide (((Attr.new : Attr F).after cs).speed = 1) := by
    apply after_induct (fun a => a.singleThreadedDithering = decide (a.speed = 1))
    · obtain ⟨a', e', -⟩ := setSpeed_ok (Attr.blank : Attr F) (v := 4) (by norm_num) (by norm_num)
      have hn : (Attr.new : Attr F) = a' := by unfold Attr.new; rw [e']
      rw [hn]
      exact setSpeed_single _ e'
    · intro a c a' ha hc
      cases c with
      | speed v => exact setSpeed_single _ hc
      | maxColors n =>
        simp only [Attr.call, Attr.setMaxColors] at hc
        split at hc <;> cases hc; exact ha
      | quality m t =>
        simp only [Attr.call, Attr.setQuality] at hc
        split at hc <;> cases hc; exact ha
      | minPosterization v =>
        simp only [Attr.call, Attr.setMinPosterization] at hc
        split at hc <;> cases hc; exact ha
      | lastIndexTransparent b =>
        simp only [Attr.call, Attr.setLastIndexTransparent] at hc
        cases hc; exact ha
  have hspeed : ((Attr.new : Attr F).after cs).speed = (Settings.default.after cs).speed := by
    have := C13_settings_registers_any_float (F := F) cs
    simp only [Attr.observeInt, Attr.getSpeed, Prod.mk.injEq] at this
    exact this.2.1
  rcases user_outcome env cs cb h freeze log with ⟨-, -, e'⟩ | ⟨-, e'⟩
  · rw [e] at e'; cases e'
  · rw [e] at e'
    cases e' with
    | ok _ _ _ _ hr =>
      rw [hr.rest]
      show (userAttr cs cb : Attr F).singleThreadedDithering = true ↔ _
      have : (userAttr cs cb : Attr F).singleThreadedDithering = ((Attr.new : Attr F).after cs).singleThreadedDithering := rfl
      rw [this, hattr, hspeed]
      simp

/-- **C22** (any float arithmetic). If the image is at most 128 rows tall or the result was made with speed 1, the
outcome of a remap depends neither on the number of CPUs nor on what fresh memory contains. -/
theorem C22_cpus (env env' : RemapEnv F) (h1 : env.sched = env'.sched) (h2 : env.sum = env'.sum)
    {q : QuantizationResult F} {img : Image F} (hq : q.Good) (hi : UserImage img)
    (buf : List (Option UInt8)) (log : List F) (hs : q.singleThreadedDithering = true ∨ img.height ≤ 128) :
    remapInto env q img buf log = remapInto env' q img buf log :=
  remapInto_env env env' (SamePlain.of_eq h1 h2) hq hi.good buf log
    (.inr (.inr ⟨C22_single_chunk _ _ _ _ env.cpus_pos hs, C22_single_chunk _ _ _ _ env'.cpus_pos hs⟩))

/-- **C22** (exact arithmetic). The same with, in addition, arbitrary schedules and orders of additions. -/
theorem C22_environment (env env' : RemapEnv ℝ) {q : QuantizationResult ℝ} {img : Image ℝ} (hq : UserResult q)
    (hi : UserImage img) (buf : List (Option UInt8)) (log : List ℝ)
    (hs : q.singleThreadedDithering = true ∨ img.height ≤ 128) :
    remapInto env q img buf log = remapInto env' q img buf log :=
  remapInto_env env env' (SamePlain.real env env') hq.good hi.good buf log
    (.inr (.inr ⟨C22_single_chunk _ _ _ _ env.cpus_pos hs, C22_single_chunk _ _ _ _ env'.cpus_pos hs⟩))

/-- **C22** (any float arithmetic), every number of CPUs. In a dithered remap that succeeds every row `y` is dithered
exactly once, from its old contents into its own place, with the pixels of row `y`, from left to right if `y` is even and
from right to left if it is odd; and except at chunk boundaries (the multiples of `size`) with the errors that row
`y - 1` left behind. -/
theorem C22_rows (env : RemapEnv F) {s : RemapState F} (p : PalF F) (maxErr : F) (isRemapped : Bool)
    (hg : s.image.Good) (ho : OutGood s.image s.out) (hok : (remapFloyd env s p maxErr isRemapped).1 = .ok ()) :
    ∃ (ctx : DitherCtx F) (bg : Option (Rows F)) (dmap : ℕ → List UInt8) (D : ℕ → Diffusion F) (size : ℕ),
      ctx.width = s.image.width ∧
      size = (s.image.height + s.chunks env - 1) / s.chunks env ∧ 0 < size ∧
      (remapFloyd env s p maxErr isRemapped).2.out.length = s.out.length ∧
      ∀ y old, s.out[y]? = some old → ∃ r,
        ditherRow ctx (s.image.px.pixelsF y) (bgRowOf bg y) (dmap y) (D y) (decide (y % 2 = 0)) old = .ok r ∧
        (remapFloyd env s p maxErr isRemapped).2.out[y]? = some r.out ∧
        ((y + 1) % size ≠ 0 → y + 1 < s.image.height → D (y + 1) = r.diffusion) := by
  unfold remapFloyd at hok ⊢
  simp only at hok ⊢
  cases hnew : Nearest.new p with
  | error e => rw [hnew] at hok; simp at hok
  | ok n =>
    rw [hnew] at hok
    simp only at hok ⊢
    obtain ⟨bg, eb, sb⟩ := prepareOpt_ok (px := s.image.px) (bg := s.image.background) (fun b hb => hg.background b hb)
    rw [eb] at hok ⊢
    simp only at hok ⊢
    obtain ⟨px', e1, s1, _⟩ := Rows.prepare_same hg.px true
    rw [e1] at hok ⊢
    simp only at hok ⊢
    have hch : ditherChunks s.quant.singleThreadedDithering px'.width px'.height env.cpus = s.chunks env := by
      rw [s1.width, s1.height]; rfl
    rw [hch] at hok ⊢
    have hpos : 0 < s.chunks env := ditherChunks_pos _ _ _ _ env.cpus_pos
    have hh : px'.height = s.image.height := s1.height
    rw [hh] at hok ⊢
    have hsize : 0 < (s.image.height + s.chunks env - 1) / s.chunks env :=
      Nat.div_pos (by have := hg.height_pos; omega) hpos
    generalize hsz : (s.image.height + s.chunks env - 1) / s.chunks env = size at *
    generalize hctx : ({ n := n, width := px'.width, base := _, maxErr := maxErr, ti := _, guess := _, garbage := _ } : DitherCtx F) = ctx at *
    generalize hinp : ({ px := px', bg := (pickBackgroundFloyd n bg).1, dmap := ditherMapOf s.image s.quant.useDitherMap } : DitherInput F) = inp at *
    obtain ⟨D, hD⟩ := floydChunks_trace s.quant.progressCallback (remapStage1 s.quant.useDitherMap) (chunksOf size s.out) 0 s.log hok
    rw [(chunksOf_flatten hsize s.out).1] at hD
    have hrd : px'.Readable := s1.readable hg.px
    have hipx : inp.px = px' := by rw [← hinp]
    have hcw : ctx.width = s.image.width := by rw [← hctx]; exact s1.width
    have hgood : DitherGood ctx inp := by
      have hnp : n.palette = p := (Nearest.new_ok hnew).2.2.1
      have hti : (pickBackgroundFloyd n bg).2.toNat < p.length := by
        rcases (pickBackgroundFloyd_cases n bg).2 with h | h <;> rw [h]
        · exact transparentIndex_lt hnew
        · exact (Nearest.new_ok hnew).1
      subst hctx hinp
      refine ⟨⟨by rw [hnp]; exact hnew, by rw [hnp]; exact hti⟩, hrd, ?_, rfl, ?_⟩
      · intro b hb
        simp only at hb ⊢
        rcases (pickBackgroundFloyd_cases n bg).1 with h | h
        · rw [h] at hb
          exact sb.good s1 (fun b hb => hg.background b hb) b hb
        · rw [h] at hb; cases hb
      · intro h
        simp only [Bool.and_eq_true, Option.isNone_iff_eq_none] at h
        exact h.2
    refine ⟨ctx, inp.bg, inp.dmapRow, D, size, hcw, rfl, hsize, ?_, fun y old hy => ?_⟩
    · have := floydChunks_ok hgood s.quant.progressCallback (remapStage1 s.quant.useDitherMap) (chunksOf size s.out) 0 s.log
        (chunksOf_flatten hsize s.out).2 (by
          rw [(chunksOf_flatten hsize s.out).1, hipx, hh, Nat.zero_add]; exact le_of_eq ho.1) (by
          rw [(chunksOf_flatten hsize s.out).1, hcw]; exact ho.2)
      rw [(chunksOf_flatten hsize s.out).1] at this
      exact this.1
    · obtain ⟨r, e, er, ed⟩ := hD y old hy
      have hylt : y < px'.height := by
        rw [hh, ← show s.out.length = s.image.height from ho.1]
        exact (List.getElem?_eq_some_iff.mp hy).1
      refine ⟨r, ?_, er, ?_⟩
      · rw [← e]
        unfold ditherImageRow
        rw [Nat.zero_add, hipx, (hrd.rowF hylt).1]
        simp only [bind, Except.bind]
        rw [s1.pixelsF (by rw [← s1.height]; exact hylt)]
        have hev : decide (y % 2 = 0) = (y % 2 == 0) := by
          cases h : (y % 2 == 0) <;> simp_all
        rw [hev]
        cases hb : inp.bg with
        | none => rfl
        | some b =>
          obtain ⟨h1, h2, h3⟩ := hgood.bg b hb
          rw [hipx] at h3
          simp only [bgRowOf]
          rw [(h1.rowF (show y < b.height by omega)).1]
      · intro hm hlt
        rcases ed with ed | ⟨k, hk, ed⟩
        · exact ed
        · rw [chunksOf_take s.out k hk, List.length_take] at ed
          rw [show s.out.length = s.image.height from ho.1] at ed
          have : y + 1 = k * size := by omega
          rw [this] at hm
          exact absurd (Nat.mul_mod_left k size) hm

/-- the hypotheses of `C22_environment` can be met: the default settings, 3 x 2 pixels, dithering on, 7 CPUs -/
example : ∃ (env : RemapEnv ℝ) (q : QuantizationResult ℝ) (img : Image ℝ), env.cpus = 7 ∧ UserResult q ∧ UserImage img ∧
    img.height ≤ 128 ∧ q.ditherLevel = 1 ∧
    (remapInto env q img (List.replicate 6 none) []).res = .ok () := by
  obtain ⟨q, hq, hcb, hl, _⟩ := example_result (F := ℝ)
  obtain ⟨img, hi, _, w, h, _, hb, _⟩ := big_image ⟨1, 2, 3, 255⟩ (w := 3) (h := 2) (by omega) (by omega) (by omega) (by omega)
  refine ⟨{ (RemapEnv.simple : RemapEnv ℝ) with cpus := 7, cpus_pos := by omega }, q, img, rfl, hq, hi, by omega,
    by rw [hl]; simp, C48_succeeds _ hq hi _ _ (by rw [w, h]; simp) hcb (fun x => by simp)⟩

end Verif
