import Verif.Model.Blur
import Verif.Model.Quant

/-!
# Images and rows (`src/image.rs`, `src/rows.rs`, `src/hist.rs:105-131`, `src/attr.rs:79-84`)

The *contents* of images. Who owns the memory behind the row pointers is a separate model (`Model/Heap.lean`).
Allocation failure is not modelled. `usize` is 64 bits wide.
-/

namespace Verif
open Flt

variable {F : Type} [Flt F]

/-- `rows.rs:9-17`, `PixelsSource`. A row pointer is represented by the pixels that can be read from that
address on (until the end of the buffer it points into). A callback must fill the whole row, so it is a
function of row and column. -/
inductive Source where
  | pixels (rows : List (List RGBA))
  | callback (f : ℕ → ℕ → RGBA)

/-- `rows.rs:20-36`, `for_pixels` -/
def Source.forPixels (buf : List RGBA) (width height stride : ℕ) : Res Source :=
  if stride < width ∨ height = 0 ∨ width = 0 then .error (.err .valueOutOfRange)
  else if stride * height ≥ 2 ^ 64 ∨ stride * height + width ≥ 2 ^ 64 then .error (.err .valueOutOfRange)
  else if buf.length < stride * height + width - stride then .error (.err .bufferTooSmall)
  else
    -- `slice.chunks(stride)`: the `y`-th chunk begins at `y * stride`
    let nChunks := (buf.length + stride - 1) / stride
    .ok (.pixels (((List.range nChunks).map fun y => buf.drop (y * stride)).take height))

/-- `rows.rs:38-44`, `DynamicRows`; `f_pixels` is kept as a list of rows -/
structure Rows (F : Type) where
  width : ℕ
  height : ℕ
  fPixels : Option (List (List (FPixel F)))
  source : Source
  gamma : F

/-- `lib.rs:67` -/
def highMemoryLimit : ℕ := 2 ^ 26

namespace Rows

/-- `rows.rs:125-136`, `row_rgba`. Reading past the end of the memory behind a row pointer is undefined
behaviour in the code and a panic here. -/
def rowRgba (r : Rows F) (y : ℕ) : Res (List RGBA) :=
  match r.source with
  | .pixels rows =>
    match rows[y]? with
    | none => .error .panic
    | some row => if row.length < r.width then .error .panic else .ok (row.take r.width)
  | .callback f => .ok ((List.range r.width).map (f y))

/-- `rows.rs:138-145`, `convert_row_to_f` -/
def convertRow (gamma : F) (row : List RGBA) : List (FPixel F) := row.map (FPixel.fromRgba (gammaLut gamma))

/-- `rows.rs:84-111`, `row_f` and `row_f_shared` (the callers of the latter cut it to `[..width]`) -/
def rowF (r : Rows F) (y : ℕ) : Res (List (FPixel F)) :=
  match r.fPixels with
  | some rows => index rows y
  | none => (r.rowRgba y).map (convertRow r.gamma)

/-- `rows.rs:148-150` -/
def lowMemory (r : Rows F) : Bool := decide (r.width * r.height > highMemoryLimit / 16)

/-- `rows.rs:160-177`, `prepare_iter` -/
def prepare (r : Rows F) (allowStreamed : Bool) : Res (Rows F) :=
  if r.fPixels.isSome || (allowStreamed && r.lowMemory) then .ok r
  else do
    let rows ← (List.range r.height).mapM fun y => (r.rowRgba y).map (convertRow r.gamma)
    return { r with fPixels := some rows }

/-- `rows.rs:198-206`, `rgba_rows_iter`, and all its rows (`hist.rs:256-262`) -/
def rgbaRows (r : Rows F) : Res (List (List RGBA)) :=
  match r.source with
  | .pixels [] => .error (.err .unsupported)
  | _ => (List.range r.height).mapM r.rowRgba

/-- `rows.rs:209-215`, `all_rows_f` -/
def allRowsF (r : Rows F) : Res (Rows F × List (List (FPixel F))) := do
  let r ← r.prepare false
  match r.fPixels with
  | some rows => return (r, rows)
  | none => .error (.err .unsupported)

/-- `rows.rs:242-249` -/
def freeHistogramInputs (r : Rows F) : Rows F :=
  if r.fPixels.isSome then { r with source := .pixels [] } else r

end Rows

/-- `image.rs:19-28`. Of the background image (`Option<Box<Image>>`) only the pixels are ever used after
`set_background`, so only those are kept. -/
structure Image (F : Type) where
  px : Rows F
  importanceMap : Option (List UInt8)
  edges : Option (List UInt8)
  ditherMap : Option (List UInt8)
  background : Option (Rows F)
  fixedColors : List RGBA

namespace Image

def width (img : Image F) : ℕ := img.px.width
def height (img : Image F) : ℕ := img.px.height

/-- `image.rs:116-125`; `isize::MAX / 16 / height` -/
def checkImageSize (width height : ℕ) : Bool :=
  if width = 0 ∨ height = 0 then false
  else if max width height > 2 ^ 31 - 1 ∨ width > (2 ^ 63 - 1) / 16 / height then false
  else true

/-- `image.rs:79-114`, `new_internal` (without the log messages) -/
def newInternal (source : Source) (width height : ℕ) (gamma : F) : Res (Image F) :=
  if !checkImageSize width height then .error (.err .valueOutOfRange)
  else if !(le (lit64 0) gamma && le gamma (lit64 1)) then .error (.err .valueOutOfRange)
  else
    .ok { px := { width := width, height := height, fPixels := none, source := source
                  gamma := if lt (lit64 0) gamma then gamma else lit64 (45455/100000) }
          importanceMap := none, edges := none, ditherMap := none, background := none, fixedColors := [] }

/-- `usize → u32` `try_into`, `image.rs:326-328` -/
def toU32 (n : ℕ) : Res ℕ := if n < 2 ^ 32 then .ok n else .error (.err .valueOutOfRange)

/-- `image.rs:325-339`, `new_stride_internal`; `new` and `new_borrowed` pass `stride = width` -/
def newStride (buf : List RGBA) (width height stride : ℕ) (gamma : F) : Res (Image F) := do
  let width ← toU32 width
  let height ← toU32 height
  let stride ← toU32 stride
  let source ← Source.forPixels buf width height stride
  newInternal source width height gamma

/-- `image.rs:39-55`, `new`, `new_borrowed` -/
def new (buf : List RGBA) (width height : ℕ) (gamma : F) : Res (Image F) := newStride buf width height width gamma

/-- `image.rs:67-71`, `new_fn` -/
def newFn (f : ℕ → ℕ → RGBA) (width height : ℕ) (gamma : F) : Res (Image F) := do
  let width ← toU32 width
  let height ← toU32 height
  newInternal (.callback f) width height gamma

/-- `image.rs:178-185` -/
def setImportanceMap (img : Image F) (map : List UInt8) : Res (Image F) :=
  if map.length ≠ img.width * img.height then .error (.err .bufferTooSmall)
  else .ok { img with importanceMap := some map }

/-- `image.rs:192-201` -/
def setBackground (img background : Image F) : Res (Image F) :=
  if background.background.isSome then .error (.err .unsupported)
  else if img.px.width ≠ background.px.width ∨ img.px.height ≠ background.px.height then
    .error (.err .bufferTooSmall)
  else .ok { img with background := some background.px }

/-- `image.rs:210-215` -/
def addFixedColor (img : Image F) (color : RGBA) : Res (Image F) :=
  if img.fixedColors.length ≥ maxColorsCap then .error (.err .unsupported)
  else .ok { img with fixedColors := img.fixedColors ++ [color] }

/-- `image.rs:232-234` -/
def gamma (img : Image F) : Option F := if lt (lit64 0) img.px.gamma then some img.px.gamma else none

/-- `image.rs:74-77` -/
def freeHistogramInputs (img : Image F) : Image F := { img with px := img.px.freeHistogramInputs }

/-! ### Contrast maps, `image.rs:239-305` -/

/-- `(a + b - c * 2.).map(f32::abs)` and the maximum of its channels, `image.rs:269`, `272-274` -/
def contrast (a b c : FPixel F) : F :=
  let ch (x y z : F) : F := fabs (x +₃ y -₃ z *₃ lit32 2)
  Flt.fmax (Flt.fmax (ch a.a b.a c.a) (ch a.r b.r c.r)) (Flt.fmax (ch a.g b.g c.g) (ch a.b b.b c.b))

/-- `image.rs:269-283`: the noise and edge bytes of one pixel from its five pixels -/
def noisePixel (prev curr next prevl nextl : FPixel F) : UInt8 × UInt8 :=
  let horiz := contrast prev next curr
  let vert := contrast prevl nextl curr
  let edge := Flt.fmax horiz vert
  let z := fma32 (fabs (horiz -₃ vert)) (lit32 (-1/2)) edge
  let z := lit32 1 -₃ Flt.fmax z (Flt.fmin horiz vert)
  let z := z *₃ z
  let z := z *₃ z
  (toU8 (fma32 z (lit32 176) (lit32 80)), toU8 ((lit32 1 -₃ edge) *₃ lit32 256))

/-- `image.rs:263-284`: one row of both maps. `curr` and `next` roll through the row; nothing beyond its ends is read. -/
def noiseRow (prevRow currRow nextRow : List (FPixel F)) (width : ℕ) : Res (List (UInt8 × UInt8)) := do
  let first ← index currRow 0
  let s ← (List.range width).foldlM (fun (s : FPixel F × FPixel F × List (UInt8 × UInt8)) i => do
    let (prev, curr, out) := s
    let next ← index currRow (min (i + 1) (width - 1))
    let prevl ← index prevRow i
    let nextl ← index nextRow i
    return (curr, next, out ++ [noisePixel prev curr next prevl nextl])) (first, first, [])
  return s.2.2

/-- `image.rs:252-285`: all rows of both maps. `rows` are the rows of `chunks_exact(width)` over `width * height` pixels.
`prev_row`, `curr_row` and `next_row` roll through them, and `next_row` stays the last row at the end. -/
def rawMaps (rows : List (List (FPixel F))) (width height : ℕ) : Res (List (UInt8 × UInt8)) :=
  match rows.take height with
  | [] => .error (.err .invalidPointer)
  | first :: rest => do
    let s ← (List.range height).foldlM (fun (s : List (FPixel F) × List (FPixel F) × List (List (FPixel F)) × List (UInt8 × UInt8)) _ => do
      let (prev, curr, rest, out) := s
      let next := rest.head?.getD curr
      let row ← noiseRow prev curr next width
      return (curr, next, rest.tail, out ++ row)) (first, first, rest, [])
    return s.2.2.2

/-- `image.rs:287-303`: the filters; takes and returns `(noise, edges)` -/
def filterMaps (noise edges : List UInt8) (width height : ℕ) : Res (List UInt8 × List UInt8) := do
  let tmp := List.replicate (width * height) 0
  let tmp ← Blur.max3 noise tmp width height
  let noise ← Blur.max3 tmp noise width height
  let (noise, tmp) ← Blur.blur noise tmp width height 3
  let tmp ← Blur.max3 noise tmp width height
  let noise ← Blur.min3 tmp noise width height
  let tmp ← Blur.min3 noise tmp width height
  let noise ← Blur.min3 tmp noise width height
  let tmp ← Blur.min3 edges tmp width height
  let edges ← Blur.max3 tmp edges width height
  return (noise, List.zipWith (fun e n => min n e) edges noise)

/-- `image.rs:242` -/
def skipsContrastMaps (width height : ℕ) : Bool :=
  decide (width < 4) || decide (height < 4) || decide (3 * width * height > highMemoryLimit)

/-- `image.rs:239-305`, `contrast_maps`. An existing importance or edge map is overwritten. -/
def contrastMaps (img : Image F) : Res (Image F) :=
  if skipsContrastMaps img.width img.height then .ok img
  else do
    let (px, rows) ← img.px.allRowsF
    let raw ← rawMaps rows img.width img.height
    let (noise, edges) ← filterMaps (raw.map (·.1)) (raw.map (·.2)) img.width img.height
    return { img with px := px, importanceMap := some noise, edges := some edges }

/-! ### Dither map, `image.rs:127-173` -/

/-- `image.rs:148-151` and `152-155`: 15 if the pixel at `i` of a neighbouring row equals `px` -/
def neighborAt (row : Option (List UInt8)) (px : UInt8) (i : ℕ) : Res ℕ :=
  match row with
  | some row => (index row i).map fun p => if p = px then 15 else 0
  | none => .ok 0

/-- `image.rs:145-157`: `lastpixel` above and below the run `lastcol..col` -/
def neighborCount (prevRow nextRow : Option (List UInt8)) (lastpixel : UInt8) (lastcol col : ℕ) : Res ℕ :=
  (List.range' lastcol (col - lastcol)).foldlM (fun n i => do
    let above ← neighborAt prevRow lastpixel i
    let below ← neighborAt nextRow lastpixel i
    return n + above + below) (10 * (col - lastcol))

/-- `image.rs:159-162` -/
def ditherEdge (F : Type) [Flt F] (e : UInt8) (count : ℕ) : UInt8 :=
  toU8 (lit32 (e.toNat + 128 : ℕ) *₃ ((lit32 255 : F) /₃ lit32 383) *₃
    (lit32 1 -₃ lit32 20 /₃ lit32 (20 + count : ℕ)))

/-- body of the loop `image.rs:139-167`; the state is `(lastpixel, lastcol, edges)` -/
def ditherMapStep (colors : PalF F) (usesBackground : Bool) (width : ℕ) (prevRow nextRow : Option (List UInt8))
    (st : UInt8 × ℕ × List UInt8) (x : UInt8 × ℕ) : Res (UInt8 × ℕ × List UInt8) := do
  let (px, col) := x
  let (lastpixel, lastcol, edges) := st
  let skip ← if usesBackground then do
      let c ← index colors px.toNat
      pure (lt c.color.a minOpaqueA)
    else pure false
  if skip then return st
  else if px ≠ lastpixel ∨ col = width - 1 then
    let count ← neighborCount prevRow nextRow lastpixel lastcol col
    let edges ← (List.range' lastcol (col + 1 - lastcol)).foldlM (fun edges i => do
      store edges i (ditherEdge F (← index edges i) count)) edges
    return (px, max lastcol (col + 1), edges)
  else return st

/-- `image.rs:136-169`: one row -/
def ditherMapRow (colors : PalF F) (usesBackground : Bool) (width : ℕ) (prevRow : Option (List UInt8))
    (thisRow : List UInt8) (nextRow : Option (List UInt8)) (edges : List UInt8) : Res (List UInt8) := do
  let first ← index thisRow 0
  let st ← (thisRow.zipIdx.drop 1).foldlM (ditherMapStep colors usesBackground width prevRow nextRow) (first, 0, edges)
  return st.2.2

/-- `image.rs:135-170` -/
def ditherMapRows (colors : PalF F) (usesBackground : Bool) (width : ℕ) :
    Option (List UInt8) → List (List UInt8 × List UInt8) → Res (List (List UInt8))
  | _, [] => .ok []
  | prev, (this, e) :: rest => do
    let e ← ditherMapRow colors usesBackground width prev this (rest.head?.map (·.1)) e
    let es ← ditherMapRows colors usesBackground width (some this) rest
    return e :: es

/-- `image.rs:128-130` -/
def withEdges (img : Image F) : Res (Image F) := if img.edges.isNone then img.contrastMaps else .ok img

/-- `image.rs:127-173`, `update_dither_map` -/
def updateDitherMap (img : Image F) (remapped : List (List UInt8)) (palette : PalF F) (usesBackground : Bool) :
    Res (Image F) := do
  let img ← img.withEdges
  match img.edges with
  | none => return img
  | some edges =>
    let rows := remapped.zip (chunksExact img.width edges)
    let out ← ditherMapRows palette usesBackground img.width none rows
    return { img with edges := none
                      ditherMap := some (out.flatten ++ edges.drop (rows.length * img.width)) }

end Image

/-! ### Histogram of an image -/

/-- `hist.rs:105-131`, `add_image`: the outcome, the histogram and the image afterwards, and the progress log.
The pre-allocation of hash buckets is not modelled. -/
def Histogram.addImage (ho : HashOrder) (h : Histogram F) (attr : Attr F) (img : Image F) (log : List F) :
    (Res Unit × Histogram F × Image F) × List F :=
  match (if img.importanceMap.isNone && attr.useContrastMaps then img.contrastMaps else .ok img) with
  | .error e => ((.error e, h, img), log)
  | .ok img =>
    let h := { h with gamma := img.gamma }
    let h := if img.fixedColors.isEmpty then h else h.extendFixed img.fixedColors
    match progress attr.progressCallback (lit32 attr.progressStage1 *₃ lit32 (4/10)) log with
    | (.error e, log) => ((.error e, h, img), log)
    | (.ok true, log) => ((.error (.err .aborted), h, img), log)
    | (.ok false, log) =>
      match img.px.rgbaRows with
      | .error e => ((.error e, h, img), log)
      | .ok rows =>
        ((.ok (), h.addPixelRows ho img.width rows (img.importanceMap.map (·.map UInt8.toNat)) attr.posterizeBits, img), log)

/-- `attr.rs:79-84`, `Attributes::quantize` -/
def quantizeImage (env : Env F) (attr : Attr F) (img : Image F) (log : List F) :
    (Res (QuantizationResult F) × Image F) × List F :=
  match (Histogram.new attr).addImage env.ho attr img log with
  | ((.error e, _, img), log) => ((.error e, img), log)
  | ((.ok (), h, img), log) =>
    let (r, log) := h.quantizeInternal env attr false log
    ((r, img), log)

end Verif
