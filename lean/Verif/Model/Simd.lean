import Verif.Model.Pal

/-!
# Vector versions of the colour difference (`pal.rs:53-114`)

A 128-bit register is four lanes. Lane 0 is `a` because `f_pixel` is `#[repr(C)]` over `ARGBF`, whose fields
are stored in the order a, r, g, b (`pal.rs:24-34`). Each intrinsic is modelled by its lane-wise meaning.
-/

namespace Verif
open Flt

variable {F : Type} [Flt F]

/-- four `f32` lanes -/
structure Lanes (F : Type) where
  l0 : F
  l1 : F
  l2 : F
  l3 : F

namespace Lanes

/-- `_mm_loadu_ps` / `vld1q_f32` of an `f_pixel` -/
def load (p : FPixel F) : Lanes F := ⟨p.a, p.r, p.g, p.b⟩
/-- a lane-wise binary operation -/
def map2 (f : F → F → F) (x y : Lanes F) : Lanes F := ⟨f x.l0 y.l0, f x.l1 y.l1, f x.l2 y.l2, f x.l3 y.l3⟩
/-- `_mm_sub_ss`: lane 0 subtracted, the other lanes copied from the first operand -/
def subSS (x y : Lanes F) : Lanes F := ⟨x.l0 -₃ y.l0, x.l1, x.l2, x.l3⟩
/-- `_mm_shuffle_ps(x, x, 0)` / `vdupq_laneq_f32(x, 0)`: lane 0 in all lanes -/
def splat0 (x : Lanes F) : Lanes F := ⟨x.l0, x.l0, x.l0, x.l0⟩
/-- `vpaddq_f32`: sums of adjacent pairs of the first operand, then of the second -/
def pairAdd (x y : Lanes F) : Lanes F := ⟨x.l0 +₃ x.l1, x.l2 +₃ x.l3, y.l0 +₃ y.l1, y.l2 +₃ y.l3⟩

end Lanes

/-- `_mm_max_ps`, one lane: `if a > b { a } else { b }`, so the second operand wins when they are unordered -/
def sseMax (a b : F) : F := if lt b a then a else b

/-- `pal.rs:87-114`, `f_pixel::diff` for x86-64 -/
def FPixel.diffSse (self other : FPixel F) : F :=
  let px := Lanes.load self
  let py := Lanes.load other
  let alphas := (Lanes.subSS py px).splat0
  let onblack := Lanes.map2 (· -₃ ·) px py
  let onwhite := Lanes.map2 (· +₃ ·) onblack alphas
  let onblack := Lanes.map2 (· *₃ ·) onblack onblack
  let onwhite := Lanes.map2 (· *₃ ·) onwhite onwhite
  let max := Lanes.map2 sseMax onwhite onblack
  max.l1 +₃ max.l2 +₃ max.l3

/-- `pal.rs:53-85`, `f_pixel::diff` for aarch64; `vmaxq` is the lane-wise maximum -/
def FPixel.diffNeon (self other : FPixel F) : F :=
  let px := Lanes.load self
  let py := Lanes.load other
  let alphas := (Lanes.map2 (· -₃ ·) py px).splat0
  let onblack := Lanes.map2 (· -₃ ·) px py
  let onwhite := Lanes.map2 (· +₃ ·) onblack alphas
  let onblack := Lanes.map2 (· *₃ ·) onblack onblack
  let onwhite := Lanes.map2 (· *₃ ·) onwhite onwhite
  let max := Lanes.map2 Flt.fmax onwhite onblack
  let gb := Lanes.pairAdd max max
  max.l1 +₃ gb.l1

end Verif
