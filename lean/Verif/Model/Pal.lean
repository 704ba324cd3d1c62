import Verif.Model.Flt

/-!
# Colours and palettes (`src/pal.rs`)

Default features only (`large_palettes` off): `PalIndex = u8`, `MAX_COLORS = 256` (`pal.rs:205-216`).
-/

namespace Verif
open Flt

variable {F : Type} [Flt F]

/-- `pal.rs:6-7` 8-bit RGBA. -/
structure RGBA where
  r : UInt8
  g : UInt8
  b : UInt8
  a : UInt8
  deriving DecidableEq, Repr, Inhabited

/-- `RGBA::map` of the rgb crate: applies a function to all four channels. -/
def RGBA.map (f : UInt8 → UInt8) (c : RGBA) : RGBA := ⟨f c.r, f c.g, f c.b, f c.a⟩

/-- `pal.rs:24-34` internal colour: premultiplied, gamma-corrected, weighted channels. -/
@[ext] structure FPixel (F : Type) where
  a : F
  r : F
  g : F
  b : F

/-- `#[derive(Default)]` of `f_pixel`, `pal.rs:32`. -/
def FPixel.default : FPixel F := ⟨zero, zero, zero, zero⟩

/-- `pal.rs:12` -/
def internalGamma : F := lit64 (57/100)
/-- `pal.rs:13` -/
def weightA : F := lit32 (5/8)
/-- `pal.rs:14` -/
def weightR : F := lit32 (1/2)
/-- `pal.rs:15` -/
def weightG : F := lit32 1
/-- `pal.rs:16` -/
def weightB : F := lit32 (45/100)
/-- `pal.rs:19` -/
def weightMSE : F := lit64 (45/100)
/-- `pal.rs:21` -/
def minOpaqueA : F := lit32 1 /₃ lit32 256 *₃ weightA
/-- `pal.rs:22` -/
def maxTranspA : F := lit32 255 /₃ lit32 256 *₃ weightA

/-- `pal.rs:205-216` -/
def maxColorsCap : ℕ := 256

namespace FPixel

/-- `self.0 - other.0`, channel-wise subtraction of the rgb crate (used at `pal.rs:41`). -/
def sub (x y : FPixel F) : FPixel F := ⟨x.a -₃ y.a, x.r -₃ y.r, x.g -₃ y.g, x.b -₃ y.b⟩

/-- `pal.rs:39-51`, `f_pixel::diff` (portable version; the SSE/NEON versions, `pal.rs:53-114`, are in
`Model/Simd.lean`). -/
def diff (self other : FPixel F) : F :=
  let alphas := other.a -₃ self.a
  let black := sub self other
  let wr := black.r +₃ alphas
  let wg := black.g +₃ alphas
  let wb := black.b +₃ alphas
  Flt.fmax (black.r *₃ black.r) (wr *₃ wr) +₃
  Flt.fmax (black.g *₃ black.g) (wg *₃ wg) +₃
  Flt.fmax (black.b *₃ black.b) (wb *₃ wb)

/-- `pal.rs:117-137`, `f_pixel::to_rgb`. -/
def toRgb (self : FPixel F) (gamma : F) : RGBA :=
  if lt self.a minOpaqueA then ⟨0, 0, 0, 0⟩
  else
    let r := weightA /₃ weightR *₃ self.r /₃ self.a
    let g := weightA /₃ weightG *₃ self.g /₃ self.a
    let b := weightA /₃ weightB *₃ self.b /₃ self.a
    let a := lit32 256 /₃ weightA *₃ self.a
    let gamma := to32 (gamma /₆ internalGamma)
    { r := toU8 (pow32 r gamma *₃ lit32 256)
      g := toU8 (pow32 g gamma *₃ lit32 256)
      b := toU8 (pow32 b gamma *₃ lit32 256)
      a := toU8 a }

/-- `pal.rs:139-147`, `f_pixel::from_rgba`. The 256-entry table is a function of the byte. -/
def fromRgba (lut : UInt8 → F) (px : RGBA) : FPixel F :=
  let a := lit32 px.a.toNat /₃ lit32 255
  { a := a *₃ weightA
    r := lut px.r *₃ weightR *₃ a
    g := lut px.g *₃ weightG *₃ a
    b := lut px.b *₃ weightB *₃ a }

end FPixel

/-- `pal.rs:336-343`, `gamma_lut`. -/
def gammaLut (gamma : F) : UInt8 → F := fun i =>
  pow32 (lit32 i.toNat /₃ lit32 255) (to32 (internalGamma /₆ gamma))

/-- `pal.rs:173-175` popularity; the sign marks a fixed colour. -/
structure PalPop (F : Type) where
  val : F

namespace PalPop
/-- `pal.rs:179-181` -/
def isFixed (p : PalPop F) : Bool := lt p.val zero
/-- `pal.rs:184-189` -/
def toFixed (p : PalPop F) : PalPop F :=
  if lt p.val zero then p
  else ⟨if lt zero p.val then fneg p.val else lit32 (-1)⟩
/-- `pal.rs:193-196` (the `debug_assert` is not modelled) -/
def new (x : F) : PalPop F := ⟨x⟩
/-- `pal.rs:200-202` -/
def popularity (p : PalPop F) : F := fabs p.val
end PalPop

/-- One palette slot. `PalF` (`pal.rs:218-223`) keeps colours and popularities in two parallel
ArrayVecs that are always pushed, swapped and set together; the model keeps one list of pairs. -/
structure PalEntry (F : Type) where
  color : FPixel F
  pop : PalPop F

/-- `pal.rs:218-223` -/
abbrev PalF (F : Type) := List (PalEntry F)

/-- `Iterator::min_by_key` with keys compared by `OrdFloat` (`lib.rs`: `partial_cmp().unwrap_or(Equal)`):
the first of the smallest. -/
def minByKey {α : Type} (key : α → F) : List α → Option α
  | [] => none
  | x :: xs => some (xs.foldl (fun best y => if lt (key y) (key best) then y else best) x)

/-- `Iterator::max_by_key` with `OrdFloat` keys: the last of the largest. -/
def maxByKey {α : Type} (key : α → F) : List α → Option α
  | [] => none
  | x :: xs => some (xs.foldl (fun best y => if lt (key y) (key best) then best else y) x)

/-- `[T]::sort_by_key` with `OrdFloat` keys: stable sort, `a` stays before `b` unless `b < a`. -/
def sortByKey {α : Type} (key : α → F) (l : List α) : List α :=
  l.mergeSort (fun x y => !lt (key y) (key x))

/-- `slice::swap`; only used with indices in bounds. -/
def swapAt {α : Type} (l : List α) (i j : ℕ) : List α :=
  match l[i]?, l[j]? with
  | some x, some y => (l.set i y).set j x
  | _, _ => l

namespace PalF

/-- `pal.rs:237-240`; `ArrayVec::push` panics when full. -/
def push (p : PalF F) (c : FPixel F) (pop : PalPop F) : Res (PalF F) :=
  if p.length < maxColorsCap then .ok (p ++ [⟨c, pop⟩]) else .error .panic

/-- `ArrayVec::extend` of colours with popularity 0, `pal.rs:267-268`; panics when full. -/
def extendZero (p : PalF F) (cs : List (FPixel F)) : Res (PalF F) :=
  if p.length + cs.length ≤ maxColorsCap
  then .ok (p ++ cs.map fun c => ⟨c, PalPop.new (lit32 0)⟩) else .error .panic

/-- One round of the loop `pal.rs:274-282`. -/
def fixStep (p : PalF F) (i : ℕ) (fixed : FPixel F) : Res (PalF F) :=
  match minByKey (fun (x : PalEntry F × ℕ) => x.1.color.diff fixed) ((p.zipIdx).drop i) with
  | none => .error .panic
  | some (_, best) =>
    let p := swapAt p i best
    match p[i]? with
    | none => .error .panic
    | some e => .ok (p.set i ⟨fixed, e.pop.toFixed⟩)

/-- the loop `pal.rs:274-282` over the fixed colours from position `i` on -/
def fixLoop (p : PalF F) : ℕ → List (FPixel F) → Res (PalF F)
  | _, [] => .ok p
  | i, c :: cs => do
    let p ← fixStep p i c
    fixLoop p (i + 1) cs

/-- `pal.rs:258-287`, `with_fixed_colors` -/
def withFixedColors (p : PalF F) (maxColors : ℕ) (fixed : List (FPixel F)) : Res (PalF F) :=
  if fixed.isEmpty then .ok p
  else do
    let maxFixed := min fixed.length maxColors
    let p ← if p.length < maxFixed
      then extendZero p (fixed.take (maxFixed - p.length))
      else .ok p
    fixLoop p 0 (fixed.take p.length)

/-- `pal.rs:327-333`, `posterize_channel` -/
def posterizeChannel (c : UInt8) (bits : UInt8) : UInt8 :=
  if bits = 0 then c
  else (c &&& ~~~((1 <<< bits) - 1)) ||| (c >>> (8 - bits))

/-- body of the loop `pal.rs:312-320`: new float entry and 8-bit entry -/
def roundEntry (gamma : F) (posterize : UInt8) (e : PalEntry F) : PalEntry F × RGBA :=
  let px := (e.color.toRgb gamma).map (fun c => posterizeChannel c posterize)
  let color := FPixel.fromRgba (gammaLut gamma) px
  let px := if px.a = 0 ∧ ¬ e.pop.isFixed then { px with r := 71, g := 112, b := 76 } else px
  (⟨color, e.pop⟩, px)

/-- `pal.rs:309-323`, `init_int_palette`: rounds the float palette and returns the 8-bit one.
`Palette { count, entries }` (`pal.rs:347-354`) is the list of its first `count` entries. -/
def initIntPalette (p : PalF F) (gamma : F) (posterize : UInt8) : PalF F × List RGBA :=
  (p.map fun e => (roundEntry gamma posterize e).1, p.map fun e => (roundEntry gamma posterize e).2)

end PalF
end Verif
