import Verif.Model.Simd
import Verif.Lemmas.Metric
import Mathlib.Tactic.NormNum

/-! # Property C55: the vector versions of the colour difference compute the same number -/

namespace Verif
open Flt

variable {F : Type} [Flt F]

/-- The vector maximum of the squares of one channel is the one of `f32::max`: `c` is the difference of the
channel over black, `e` the difference of alpha. True for IEEE floats unless one of the two squares is NaN. -/
def MaxAgrees (e c : F) : Prop :=
  sseMax ((c +₃ e) *₃ (c +₃ e)) (c *₃ c) = Flt.fmax (c *₃ c) ((c +₃ e) *₃ (c +₃ e))

/-- **C55** (any-float). On x86-64 the colour difference is bit for bit the one of the portable code: for
every float type and all colours for which the two maximum instructions agree on the three pairs of squares. -/
theorem C55_sse (x y : FPixel F)
    (h : ∀ c ∈ [x.r -₃ y.r, x.g -₃ y.g, x.b -₃ y.b], MaxAgrees (y.a -₃ x.a) c) : x.diffSse y = x.diff y := by
  simp only [FPixel.diffSse, FPixel.diff, Lanes.map2, Lanes.load, Lanes.subSS, Lanes.splat0, FPixel.sub]
  have hr := h (x.r -₃ y.r) (by simp)
  have hg := h (x.g -₃ y.g) (by simp)
  have hb := h (x.b -₃ y.b) (by simp)
  unfold MaxAgrees at hr hg hb
  rw [hr, hg, hb]

/-- **C55** (exact). All three versions compute the specified difference: for each colour channel the larger of
the squared differences over black and over white, summed. -/
theorem C55_all_versions (x y : FPixel ℝ) :
    x.diffSse y = Spec.diff x.spec y.spec ∧ x.diffNeon y = Spec.diff x.spec y.spec ∧
    x.diff y = Spec.diff x.spec y.spec := by
  have hs : x.diffSse y = x.diff y := C55_sse x y fun c _ => by
    unfold MaxAgrees sseMax
    simp only [real_add32, real_mul32, real_max, real_lt]
    split
    next h => exact (max_eq_right h.le).symm
    next h => exact (max_eq_left (not_lt.1 h)).symm
  refine ⟨hs.trans (FPixel.diff_spec x y), ?_, FPixel.diff_spec x y⟩
  rw [← FPixel.diff_spec x y]
  simp only [FPixel.diffNeon, FPixel.diff, Lanes.map2, Lanes.load, Lanes.splat0, Lanes.pairAdd, FPixel.sub,
    real_add32, real_mul32, real_max, real_sub32]
  rw [add_assoc]
  congr 1
  · exact max_comm _ _
  · congr 1 <;> exact max_comm _ _

/-- a half transparent and an opaque colour: the white background decides red, the black one blue -/
example : (FPixel.mk 0.25 0.25 0 0.125 : FPixel ℝ).diffSse ⟨0.5, 0.25, 0.25, 0⟩ = 0.0625 + 0.0625 + 0.140625 := by
  rw [(C55_all_versions _ _).1]
  simp only [Spec.diff, FPixel.spec, Spec.chanDiff]
  norm_num

end Verif
