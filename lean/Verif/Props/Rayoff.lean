import Verif.Lemmas.Rayoff
import Verif.Props.RemapFree
import Verif.Props.Kmeans
import Verif.Props.RemapExact

/-! # C72: builds without the `threads` feature

`Model/Rayoff` has the parallel loops as the code of `rayoff.rs` runs them. `Env.rayoff` and `RemapEnv.rayoff` are the
environments (schedules, orders of additions, number of CPUs) that describe such builds. -/

set_option linter.unusedSectionVars false

namespace Verif
open Flt

section anyFloat
variable {F : Type} [Flt F]

/-- **C72** (any float). A pass of k-means of such a build is the one of the parallel code with a single worker. -/
theorem C72_kmeans_any_float (ho : HashOrder) (so : SortOracle F) (t : ℕ) (hist : HistogramInternal F) (p : PalF F)
    (adjust : Bool) : Rayoff.iteration hist p adjust = (Env.rayoff ho so).kmeans t hist p adjust :=
  Rayoff.iteration_eq hist p adjust

/-- **C72** (any float). So is an undithered remap of any image a program can make. -/
theorem C72_remap_to_palette_any_float (garbage : ℕ → UInt8) {img : Image F} (hi : UserImage img) (p : PalF F) :
    Rayoff.remapToPalette img.px img.background img.importanceMap img.height p =
      remapToPalette (RemapEnv.rayoff garbage) img.px img.background img.importanceMap img.height p :=
  Rayoff.remapToPalette_eq garbage _ p hi.good.px hi.good.bg le_rfl

/-- **C72**. Dithering is done in one piece. -/
theorem C72_one_chunk {α : Type} (single : Bool) {w h : ℕ} (hh : 0 < h) (rows : List α) (hr : rows.length = h) :
    ditherChunks single w h Rayoff.numCpus = 1 ∧
      chunksOf ((h + ditherChunks single w h Rayoff.numCpus - 1) / ditherChunks single w h Rayoff.numCpus) rows = [rows] := by
  have h1 : ditherChunks single w h Rayoff.numCpus = 1 := by
    unfold ditherChunks Rayoff.numCpus
    split
    · rfl
    · split <;> omega
  refine ⟨h1, ?_⟩
  rw [h1]
  unfold chunksOf
  have e1 : (h + 1 - 1) / 1 = h := by omega
  have e2 : (h + h - 1) / h = 1 := Nat.div_eq_of_lt_le (by omega) (by omega)
  rw [e1, hr, e2, show List.range 1 = [0] from rfl]
  simp [← hr]

/-- **C72** (any float). The bytes of an undithered remap are those of a build with threads. -/
theorem C72_bytes_any_float (garbage : ℕ → UInt8) (env : RemapEnv F) {q : QuantizationResult F} {img : Image F}
    (hi : UserImage img) (buf : List (Option UInt8)) (log : List F) (hl : eq q.ditherLevel (lit32 0) = true) :
    (remapInto (RemapEnv.rayoff garbage) q img buf log).buf = (remapInto env q img buf log).buf :=
  C21_remap_bytes _ _ hi buf log hl

end anyFloat

/-! ### Exact arithmetic -/

/-- **C21** (exact arithmetic): the schedules of all the passes of k-means do not matter for the result of a quantization,
nor for what the progress callback is told. -/
theorem C21_quantize {env env' : Env ℝ} (hho : env.ho = env'.ho) (hso : env.so = env'.so) (h : Histogram ℝ) (attr : Attr ℝ)
    (freeze : Bool) (log : List ℝ) : h.quantizeInternal env attr freeze log = h.quantizeInternal env' attr freeze log :=
  quantize_env hho hso (fun _ hist p adjust =>
    C21_kmeans_schedule hist p adjust (env.sched_valid _ _) (env'.sched_valid _ _)) h attr freeze log

/-- **C72** (exact arithmetic). Palettes, errors and calls of the progress callback are those of a build with threads,
however its threads are scheduled. -/
theorem C72_quantize (env : Env ℝ) (h : Histogram ℝ) (attr : Attr ℝ) (freeze : Bool) (log : List ℝ) :
    h.quantizeInternal (Env.rayoff env.ho env.so) attr freeze log = h.quantizeInternal env attr freeze log :=
  C21_quantize (env := Env.rayoff env.ho env.so) (env' := env) rfl rfl h attr freeze log

/-- **C72** (exact arithmetic). The whole outcome of a remap is the same as with threads if there is no dithering, if the
image has up to 128 rows, if the speed is 1 (`C22_speed_one`), or on a machine with one CPU. -/
theorem C72_remap (garbage : ℕ → UInt8) (env : RemapEnv ℝ) {q : QuantizationResult ℝ} {img : Image ℝ} (hq : UserResult q)
    (hi : UserImage img) (buf : List (Option UInt8)) (log : List ℝ)
    (hc : q.ditherLevel = 0 ∨ img.height ≤ 128 ∨ q.singleThreadedDithering = true ∨ env.cpus = 1 ∧ env.garbage = garbage) :
    remapInto (RemapEnv.rayoff garbage) q img buf log = remapInto env q img buf log := by
  rcases hc with h | h | h | ⟨h, hg⟩
  · exact C21_remap _ _ hq hi buf log h
  · exact C22_environment _ _ hq hi buf log (.inr h)
  · exact C22_environment _ _ hq hi buf log (.inl h)
  · exact C21_dithered _ _ hq hi buf log h.symm hg.symm

/-- there are images and results; and threads that share the work -/
example : (∃ (q : QuantizationResult ℝ) (img : Image ℝ), UserResult q ∧ UserImage img ∧ img.height ≤ 128) ∧
    ∃ env : Env ℝ, env.sched 0 3 = [[2, 0], [1]] := by
  refine ⟨?_, ?_⟩
  · obtain ⟨q, hq, -⟩ := example_result (F := ℝ)
    obtain ⟨img, hi, -, -, hh, -⟩ := big_image ⟨1, 2, 3, 255⟩ (w := 3) (h := 2) (by omega) (by omega) (by omega) (by omega)
    exact ⟨q, img, hq, hi, by rw [hh]; norm_num⟩
  · refine ⟨{ (Env.simple : Env ℝ) with
      sched := fun t n => if n = 3 then [[2, 0], [1]] else (Env.simple : Env ℝ).sched t n
      sched_valid := fun t n => ?_ }, rfl⟩
    split
    next h => subst h; exact ⟨by decide, by simp⟩
    · exact (Env.simple : Env ℝ).sched_valid t n

end Verif
