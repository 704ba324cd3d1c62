import Verif.Model.Debug
import Verif.Model.Remap

/-!
# Debug builds: the `debug_assert!`s of images, remapping and palettes

As in `Model/Debug.lean`. The lengths of the temporary buffers that are handed to the row iterators are an argument here,
and the `assert_eq!` of `convert_row_to_f` (`rows.rs:139`), which is checked in all builds, is included.

Not modelled: `seacow.rs:48-49` and `ffi.rs:433` (pointers; see `Model/Heap.lean` and `Model/Ffi.lean`).
-/

set_option linter.unusedSectionVars false
set_option linter.unusedVariables false

namespace Verif
open Flt

variable {F : Type} [Flt F]

/-! ### `pal.rs` -/

/-- `pal.rs:336-343` -/
def gammaLutD (num : Bool) (gamma : F) : Res (UInt8 → F) := do
  dbgNum num (lt (lit64 0) gamma)
  return gammaLut gamma

/-- `pal.rs:117-137` -/
def FPixel.toRgbD (num : Bool) (self : FPixel F) (gamma : F) : Res RGBA :=
  if lt self.a minOpaqueA then .ok ⟨0, 0, 0, 0⟩
  else do
    dbgNum num (isFinite (to32 (gamma /₆ internalGamma)))
    return self.toRgb gamma

/-- body of the loop `pal.rs:312-320` -/
def PalF.roundEntryD (num : Bool) (lut : UInt8 → F) (gamma : F) (posterize : UInt8) (e : PalEntry F) : Res (PalEntry F × RGBA) := do
  let px ← e.color.toRgbD num gamma
  let px := px.map (fun c => PalF.posterizeChannel c posterize)
  let color := FPixel.fromRgba lut px
  let px := if px.a = 0 ∧ ¬ e.pop.isFixed then { px with r := 71, g := 112, b := 76 } else px
  return (⟨color, e.pop⟩, px)

/-- `pal.rs:309-323` -/
def PalF.initIntPaletteD (num : Bool) (p : PalF F) (gamma : F) (posterize : UInt8) : Res (PalF F × List RGBA) := do
  let lut ← gammaLutD num gamma
  let es ← p.mapM (PalF.roundEntryD num lut gamma posterize)
  return (es.map (·.1), es.map (·.2))

/-! ### `rows.rs` -/

namespace Rows

/-- `rows.rs:138-145`; `tempLen`: length of the buffer for the converted row -/
def convertRowD (tempLen : ℕ) (lut : UInt8 → F) (row : List RGBA) : Res (List (FPixel F)) := do
  dbg (decide (tempLen = row.length))
  return row.map (FPixel.fromRgba lut)

/-- `rows.rs:160-177`; the chunks of the buffer have the width of the image -/
def prepareD (num : Bool) (tempLen : ℕ) (r : Rows F) (allowStreamed : Bool) : Res (Rows F) := do
  dbg (decide (tempLen = r.width))
  if r.fPixels.isSome || (allowStreamed && r.lowMemory) then .ok r
  else do
    let lut ← gammaLutD num r.gamma
    let rows ← (List.range r.height).mapM fun y => do
      let row ← r.rowRgba y
      convertRowD r.width lut row
    return { r with fPixels := some rows }

/-- `rows.rs:84-98`, `row_f`: the buffer for the converted row belongs to the iterator -/
def rowFD (num : Bool) (tempLen : ℕ) (r : Rows F) (y : ℕ) : Res (List (FPixel F)) := do
  dbg (decide (tempLen = r.width))
  match r.fPixels with
  | some rows => index rows y
  | none => do
    let lut ← gammaLutD num r.gamma
    let row ← r.rowRgba y
    convertRowD r.width lut row

/-- `rows.rs:101-111`, `row_f_shared`: the buffers belong to the caller -/
def rowFSharedD (num : Bool) (tempLen : ℕ) (r : Rows F) (y : ℕ) : Res (List (FPixel F)) :=
  match r.fPixels with
  | some rows => index rows y
  | none => do
    let lut ← gammaLutD num r.gamma
    let row ← r.rowRgba y
    convertRowD tempLen lut row

/-- `rows.rs:209-215` -/
def allRowsFD (num : Bool) (r : Rows F) : Res (Rows F × List (List (FPixel F))) := do
  let r ← r.prepareD num r.width false
  match r.fPixels with
  | some rows => return (r, rows)
  | none => .error (.err .unsupported)

end Rows

/-! ### `image.rs`, `hist.rs` -/

namespace Image

/-- `image.rs:79-114` with `DynamicRows::new`, `rows.rs:120-123` -/
def newInternalD (num : Bool) (source : Source) (width height : ℕ) (gamma : F) : Res (Image F) :=
  if !checkImageSize width height then .error (.err .valueOutOfRange)
  else if !(le (lit64 0) gamma && le gamma (lit64 1)) then .error (.err .valueOutOfRange)
  else do
    let gamma := if lt (lit64 0) gamma then gamma else lit64 (45455/100000)
    dbgNum num (lt (lit64 0) gamma)
    return { px := { width := width, height := height, fPixels := none, source := source, gamma := gamma }
             importanceMap := none, edges := none, ditherMap := none, background := none, fixedColors := [] }

/-- `image.rs:325-339` -/
def newStrideD (num : Bool) (buf : List RGBA) (width height stride : ℕ) (gamma : F) : Res (Image F) := do
  let width ← toU32 width
  let height ← toU32 height
  let stride ← toU32 stride
  let source ← Source.forPixels buf width height stride
  newInternalD num source width height gamma

/-- `image.rs:67-71` -/
def newFnD (num : Bool) (f : ℕ → ℕ → RGBA) (width height : ℕ) (gamma : F) : Res (Image F) := do
  let width ← toU32 width
  let height ← toU32 height
  newInternalD num (.callback f) width height gamma

/-- `image.rs:239-305` -/
def contrastMapsD (num : Bool) (img : Image F) : Res (Image F) :=
  if skipsContrastMaps img.width img.height then .ok img
  else do
    let (px, rows) ← img.px.allRowsFD num
    let raw ← rawMaps rows img.width img.height
    let (noise, edges) ← filterMaps (raw.map (·.1)) (raw.map (·.2)) img.width img.height
    return { img with px := px, importanceMap := some noise, edges := some edges }

/-- `image.rs:128-130` -/
def withEdgesD (num : Bool) (img : Image F) : Res (Image F) := if img.edges.isNone then img.contrastMapsD num else .ok img

/-- `image.rs:127-173` -/
def updateDitherMapD (num : Bool) (img : Image F) (remapped : List (List UInt8)) (palette : PalF F) (usesBackground : Bool) :
    Res (Image F) := do
  let img ← img.withEdgesD num
  match img.edges with
  | none => return img
  | some edges =>
    let rows := remapped.zip (chunksExact img.width edges)
    let out ← ditherMapRows palette usesBackground img.width none rows
    return { img with edges := none
                      ditherMap := some (out.flatten ++ edges.drop (rows.length * img.width)) }

/-- `hist.rs:254` -/
def importanceFits (img : Image F) : Bool :=
  match img.importanceMap with
  | some m => decide (m.length = img.px.width * img.px.height)
  | none => true

end Image

/-- `hist.rs:105-131`, with the check of `hist.rs:254` -/
def Histogram.addImageD (num : Bool) (ho : HashOrder) (h : Histogram F) (attr : Attr F) (img : Image F) (log : List F) :
    (Res Unit × Histogram F × Image F) × List F :=
  match (if img.importanceMap.isNone && attr.useContrastMaps then img.contrastMapsD num else .ok img) with
  | .error e => ((.error e, h, img), log)
  | .ok img =>
    let h := { h with gamma := img.gamma }
    let h := if img.fixedColors.isEmpty then h else h.extendFixed img.fixedColors
    match progress attr.progressCallback (lit32 attr.progressStage1 *₃ lit32 (4/10)) log with
    | (.error e, log) => ((.error e, h, img), log)
    | (.ok true, log) => ((.error (.err .aborted), h, img), log)
    | (.ok false, log) =>
      match dbg img.importanceFits with
      | .error e => ((.error e, h, img), log)
      | .ok () =>
        match img.px.rgbaRows with
        | .error e => ((.error e, h, img), log)
        | .ok rows =>
          ((.ok (), h.addPixelRows ho img.width rows (img.importanceMap.map (·.map UInt8.toNat)) attr.posterizeBits, img), log)

/-! ### `remap.rs` -/

/-- `remap.rs:61-89`; the buffers have the width of the image -/
def remapRowD (num : Bool) (n : Nearest F) (ti : UInt8) (px : Rows F) (bg : Option (Rows F)) (imp : Option (List UInt8)) (y : ℕ) :
    Res (RowOut F) := do
  let row ← px.rowFSharedD num px.width y
  let bgRow ← match bg with
    | some b => b.rowFSharedD num px.width y
    | none => pure []
  return remapPixels n ti row bgRow ((imp.getD []).drop (y * px.width)) 0 (lit64 0)

/-- the loop `remap.rs:60-90` -/
def remapLoopD (num : Bool) (order : List ℕ) (n : Nearest F) (ti : UInt8) (px : Rows F) (bg : Option (Rows F))
    (imp : Option (List UInt8)) (nrows : ℕ) : Res (List (RowOut F)) := do
  let slots ← order.foldlM (fun slots y => do
    let r ← remapRowD num n ti px bg imp y
    store slots y (some r)) (List.replicate nrows none)
  slots.mapM fun
    | some r => .ok r
    | none => .error .panic

/-- `remap.rs:53`, `164-167`; `tempLen` is the length of the buffer made for the image -/
def prepareOptD (num : Bool) (tempLen : ℕ) (bg : Option (Rows F)) : Res (Option (Rows F)) :=
  match bg with
  | some b => (b.prepareD num tempLen true).map some
  | none => .ok none

/-- `remap.rs:97-100` -/
def remapFinishD (num : Bool) (env : RemapEnv F) (outs : List (RowOut F)) (useBg : Bool) (ti : UInt8) (p : PalF F) : Res (PalF F) :=
  let s := env.sched outs.length
  let start := Kmeans.new p.length
  let workers := s.before.map (remapWorker outs start) ++
    remapWorker outs (remapMainStart p.length useBg ti) s.main :: s.after.map (remapWorker outs start)
  match Kmeans.reduceWorkers workers with
  | some k => do
    dbgNum num (Kmeans.finalizeChecks k.averages p)
    return Kmeans.finalizePalette k.averages p
  | none => return p

/-- `remap.rs:29-102` -/
def remapToPaletteD (num : Bool) (env : RemapEnv F) (px : Rows F) (bg : Option (Rows F)) (imp : Option (List UInt8))
    (nrows : ℕ) (p : PalF F) : Res F × RemapOut F :=
  match Nearest.newD num p with
  | .error e => (.error e, ⟨px, bg, none, p⟩)
  | .ok n =>
    let tempLen := px.width
    match px.prepareD num tempLen true with
    | .error e => (.error e, ⟨px, bg, none, p⟩)
    | .ok px =>
      let (usedBg, ti) := pickBackground n bg
      match prepareOptD num tempLen usedBg with
      | .error e => (.error e, ⟨px, bg, none, p⟩)
      | .ok usedBg =>
        let bg := if usedBg.isSome then usedBg else bg
        match remapLoopD num (env.sched nrows).order n ti px usedBg imp nrows with
        | .error e => (.error e, ⟨px, bg, none, p⟩)
        | .ok outs =>
          let total := env.sum (outs.map (·.err))
          let rows := outs.map (·.bytes)
          if isNan total then (.error (.err .outOfMemory), ⟨px, bg, some rows, p⟩)
          else
            match remapFinishD num env outs usedBg.isSome ti p with
            | .error e => (.error e, ⟨px, bg, some rows, p⟩)
            | .ok p =>
              (.ok (total /₆ lit64 (px.width * px.height % 2 ^ 32 : ℕ)), ⟨px, bg, some rows, p⟩)

/-- `remap.rs:207-212`, `220-226`; the temporary row has the width of the image -/
def ditherImageRowD (num : Bool) (ctx : DitherCtx F) (inp : DitherInput F) (d : Diffusion F) (y : ℕ) (out : List (Option UInt8)) :
    Res (DitherOut F (List (Option UInt8))) := do
  let row ← inp.px.rowFD num ctx.width y
  let bgRow ← match inp.bg with
    | some b => b.rowFD num ctx.width y
    | none => pure []
  ditherRow ctx row bgRow (inp.dmapRow y) d (y % 2 == 0) out

/-- `remap.rs:219-227` -/
def ditherRowsD (num : Bool) (ctx : DitherCtx F) (inp : DitherInput F) :
    Diffusion F → ℕ → List (List (Option UInt8)) → Res (DitherOut F (List (List (Option UInt8))))
  | d, _, [] => .ok ⟨d, [], false⟩
  | d, y, out :: outs => do
    let r ← ditherImageRowD num ctx inp d y out
    let rs ← ditherRowsD num ctx inp r.diffusion (y + 1) outs
    return ⟨rs.diffusion, r.out :: rs.out, r.uninit || rs.uninit⟩

/-- `remap.rs:193-214` -/
def warmUpD (num : Bool) (ctx : DitherCtx F) (inp : DitherInput F) (start : ℕ) : Res (Diffusion F × Bool) :=
  if start > 2 then do
    let r ← ditherImageRowD num ctx inp (Diffusion.zero ctx.width) (start - 2) (List.replicate ctx.width none)
    let r' ← ditherImageRowD num ctx inp r.diffusion (start - 1) r.out
    return (r'.diffusion, r.uninit || r'.uninit)
  else .ok (Diffusion.zero ctx.width, false)

/-- the loop `remap.rs:191-229` -/
def floydChunksD (num : Bool) (ctx : DitherCtx F) (inp : DitherInput F) (cb : Option (List F → Bool)) (stage1 : ℕ) :
    ℕ → List (List (List (Option UInt8))) → List F → FloydOut × List F
  | _, [], log => (⟨.ok (), [], false⟩, log)
  | start, chunk :: chunks, log =>
    match warmUpD num ctx inp start with
    | .error e => (⟨.error e, (chunk :: chunks).flatten, false⟩, log)
    | .ok (d, un) =>
      match progress cb (ditherProgress stage1 start inp.px.height) log with
      | (.error e, log) => (⟨.error e, (chunk :: chunks).flatten, un⟩, log)
      | (.ok true, log) => (⟨.error (.err .aborted), (chunk :: chunks).flatten, un⟩, log)
      | (.ok false, log) =>
        match ditherRowsD num ctx inp d start chunk with
        | .error e => (⟨.error e, (chunk :: chunks).flatten, un⟩, log)
        | .ok r =>
          let (rest, log) := floydChunksD num ctx inp cb stage1 (start + chunk.length) chunks log
          (⟨rest.res, r.out ++ rest.rows, un || r.uninit || rest.uninit⟩, log)

/-- `remap.rs:147-232` -/
def remapFloydD (num : Bool) (env : RemapEnv F) (s : RemapState F) (palette : PalF F) (maxErr : F) (isRemapped : Bool) :
    Res Unit × RemapState F :=
  let tempLen := s.image.width
  let dmap := ditherMapOf s.image s.quant.useDitherMap
  match Nearest.newD num palette with
  | .error e => (.error e, s)
  | .ok n =>
    match prepareOptD num tempLen s.image.background with
    | .error e => (.error e, s)
    | .ok bg =>
      let s := { s with image := { s.image with background := bg } }
      let (bg, ti) := pickBackgroundFloyd n bg
      match s.image.px.prepareD num tempLen true with
      | .error e => (.error e, s)
      | .ok px =>
        let s := { s with image := { s.image with px := px } }
        let ctx : DitherCtx F :=
          { n := n, width := px.width, base := baseDitherLevel s.quant.ditherLevel (!dmap.isEmpty), maxErr := maxErr
            ti := ti, guess := isRemapped && bg.isNone, garbage := env.garbage }
        let chunks := ditherChunks s.quant.singleThreadedDithering px.width px.height env.cpus
        let (r, log) := floydChunksD num ctx ⟨px, bg, dmap⟩ s.quant.progressCallback (remapStage1 s.quant.useDitherMap) 0
          (chunksOf ((px.height + chunks - 1) / chunks) s.out) s.log
        (r.res, { s with out := r.rows, log := log, uninit := s.uninit || r.uninit })

/-! ### `quant.rs` -/

/-- `quant.rs:120-132` -/
def generateDitherMapD (num : Bool) (env : RemapEnv F) (s : RemapState F) (usesBackground : Bool) (palette : PalF F) :
    Res (Option F × PalF F) × RemapState F :=
  if !generatesDitherMap s.quant.useDitherMap s.image then (.ok (none, palette), s)
  else
    match remapToPaletteD num env s.image.px none s.image.importanceMap s.out.length palette with
    | (.error e, r) => (.error e, { s with image := { s.image with px := r.px }, out := writeRows r.rows s.out })
    | (.ok err, r) =>
      let s := { s with image := { s.image with px := r.px }, out := writeRows r.rows s.out }
      match s.image.updateDitherMapD num (r.rows.getD []) r.palette usesBackground with
      | .error e => (.error e, s)
      | .ok img => (.ok (some err, r.palette), { s with image := img })

/-- `quant.rs:98-101` -/
def remapPlainD (num : Bool) (env : RemapEnv F) (s : RemapState F) : Res (Remapped F) × RemapState F :=
  match s.quant.palette.initIntPaletteD num s.quant.gamma (UInt8.ofNat s.quant.minPosterizationOutput) with
  | .error e => (.error e, s)
  | .ok (palette, ip) =>
    match remapToPaletteD num env s.image.px s.image.background s.image.importanceMap s.out.length palette with
    | (res, r) =>
      let s := { s with image := { s.image with px := r.px, background := r.background }, out := writeRows r.rows s.out }
      match res with
      | .error e => (.error e, s)
      | .ok err => (.ok ⟨ip, some err⟩, s)

/-- `quant.rs:101-115` -/
def remapDitheredD (num : Bool) (env : RemapEnv F) (s : RemapState F) : Res (Remapped F) × RemapState F :=
  match generateDitherMapD num env s s.image.background.isSome s.quant.palette with
  | (.error e, s) => (.error e, s)
  | (.ok (mapErr, palette), s) =>
    match progress s.quant.progressCallback (lit32 (remapStage1 s.quant.useDitherMap) *₃ lit32 (1/2)) s.log with
    | (.error e, log) => (.error e, { s with log := log })
    | (.ok true, log) => (.error (.err .aborted), { s with log := log })
    | (.ok false, log) =>
      let s := { s with log := log }
      let err := mapErr.or s.quant.paletteError
      match palette.initIntPaletteD num s.quant.gamma (UInt8.ofNat s.quant.minPosterizationOutput) with
      | .error e => (.error e, s)
      | .ok (palette, ip) =>
        match remapFloydD num env s palette (maxDitherError err) mapErr.isSome with
        | (.error e, s) => (.error e, s)
        | (.ok (), s) => (.ok ⟨ip, err⟩, s)

/-- `quant.rs:84-118` -/
def writeRemappedD (num : Bool) (env : RemapEnv F) (s : RemapState F) : Res Unit × RemapState F :=
  match progress s.quant.progressCallback (lit32 (remapStage1 s.quant.useDitherMap) *₃ lit32 (1/4)) s.log with
  | (.error e, log) => (.error e, { s with log := log })
  | (.ok true, log) => (.error (.err .aborted), { s with log := log })
  | (.ok false, log) =>
    let s := { s with log := log, image := s.image.freeHistogramInputs }
    match if eq s.quant.ditherLevel (lit32 0) then remapPlainD num env s else remapDitheredD num env s with
    | (.error e, s) => (.error e, s)
    | (.ok re, s) => (.ok (), { s with quant := { s.quant with remapped := some re } })

/-- `quant.rs:265-271` -/
def remapIntoD (num : Bool) (env : RemapEnv F) (q : QuantizationResult F) (img : Image F) (buf : List (Option UInt8)) (log : List F) :
    RemapIntoOut F :=
  let required := img.width * img.height
  if buf.length < required then ⟨.error (.err .bufferTooSmall), q, img, buf, log, false⟩
  else
    let (res, s) := writeRemappedD num env ⟨q, img, chunksExact img.width (buf.take required), log, false⟩
    ⟨res, s.quant, s.image, s.out.flatten ++ buf.drop required, s.log, s.uninit⟩

/-- `quant.rs:201-215`, `palette()` and `int_palette` -/
def QuantizationResult.getPaletteD (num : Bool) (r : QuantizationResult F) : Res (QuantizationResult F × List RGBA) :=
  match r.remapped with
  | some re => do
    dbg (decide (re.intPalette.length > 0))
    return (r, re.intPalette)
  | none =>
    if r.intPalette.isEmpty then do
      let (p, ip) ← r.palette.initIntPaletteD num r.gamma (UInt8.ofNat r.minPosterizationOutput)
      return ({ r with palette := p, intPalette := ip }, ip)
    else return (r, r.intPalette)

end Verif
