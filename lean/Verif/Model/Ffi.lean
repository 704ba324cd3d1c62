import Verif.Model.Heap
import Verif.Model.Remap

/-!
# The C API (`imagequant-sys/src/ffi.rs`, `src/capi.rs`)

A `World` is everything the caller and the library share: the heap of `Model/Heap.lean` for pixels, row arrays and
importance maps, and the objects behind handles. `exec` runs one C function.

* A handle is `none` (NULL) or the number of an object. What is found behind a handle is a `Slot`. The memory of
  destroyed objects is not used again, so a destroyed object shows the tag `liq_freed_magic`; in reality reading it is
  undefined behaviour.
* Undefined behaviour that the code runs into (a second deallocation, use of moved-out contents, objects of the wrong
  type in functions that do not check) sets the flag `undefined`.
* A Rust panic ends the process (`extern "C"`); the reply is then `crash`.
* Log callbacks are not modelled. `user_info` pointers are part of the callback functions.
* A reference argument that is NULL is treated as the code treats it after compilation: `liq_received_invalid_pointer`
  finds it.
-/

namespace Verif
open Flt

variable {F : Type} [Flt F]

/-! ### Images with memory -/

/-- `image.rs:17-26`; of the background only its pixels matter, see `Model/Image.lean` -/
structure HImage (F : Type) where
  px : HRows F
  importanceMap : Option (List UInt8)
  edges : Option (List UInt8)
  ditherMap : Option (List UInt8)
  background : Option (HRows F)
  fixedColors : List RGBA

namespace HImage

/-- the contents -/
def view (i : HImage F) (h : Heap) : Image F :=
  ⟨i.px.view h, i.importanceMap, i.edges, i.ditherMap, i.background.map (·.view h), i.fixedColors⟩

/-- what the functions on contents change in an image, apart from the release of its source -/
def absorb (i : HImage F) (c : Image F) : HImage F :=
  ⟨{ i.px with fPixels := c.px.fPixels }, c.importanceMap, c.edges, c.ditherMap,
    i.background.map fun b => { b with fPixels := (c.background.map (·.fPixels)).getD none }, c.fixedColors⟩

def dropBackground (b : Option (HRows F)) (h : Heap) : Heap :=
  match b with
  | some b => b.drop h
  | none => h

/-- drop of the fields in order -/
def drop (i : HImage F) (h : Heap) : Heap := dropBackground i.background (i.px.drop h)

/-- an image that was just made -/
def ofRows (r : HRows F) : HImage F := ⟨r, none, none, none, none, []⟩

/-- `image.rs:192-201`, `set_background`: consumes the background, drops it on failure and drops a background that it
replaces. -/
def setBackground (i bg : HImage F) (h : Heap) : Res Unit × HImage F × Heap :=
  match (i.view h).setBackground (bg.view h) with
  | .error e => (.error e, i, bg.drop h)
  | .ok _ => (.ok (), { i with background := some bg.px }, dropBackground i.background h)

/-- `quant.rs:84-91`: the release of the source happens unless the first progress report says to stop -/
def releases (q : QuantizationResult F) (log : List F) : Bool :=
  match (progress q.progressCallback (lit32 (remapStage1 q.useDitherMap) *₃ lit32 (1/4)) log).1 with
  | .ok false => true
  | _ => false

/-- the image and the heap after `write_remapped_image_rows_internal` left the contents `c` -/
def afterRemap (i : HImage F) (q : QuantizationResult F) (log : List F) (c : Image F) (h : Heap) : HImage F × Heap :=
  if releases q log then
    let (h, px) := i.px.freeHistogramInputs h
    (absorb { i with px := px } c, h)
  else (absorb i c, h)

end HImage

/-- `hist.rs:185-206`: the histogram afterwards keeps the fixed colours in its map, if it got as far as
`finalize_builder` -/
def Histogram.afterQuantize (env : Env F) (h : Histogram F) (attr : Attr F) (log : List F) : Histogram F :=
  if h.hashmap.isEmpty && h.fixedColors.isEmpty then h
  else
    match progress attr.progressCallback (lit32 0) log with
    | (.ok false, log) =>
      match progress attr.progressCallback (lit32 attr.progressStage1 *₃ lit32 (89/100)) log with
      | (.ok false, _) => h.afterFinalize env.ho
      | _ => h
    | _ => h

/-! ### Objects, calls and replies -/

/-- what is behind a handle; `ffi.rs:21-45`, tags `ffi.rs:76-80` -/
inductive Slot (F : Type) where
  | attr (a : Attr F) (free : ℕ)
  | image (i : HImage F) (free : ℕ)
  | result (q : QuantizationResult F)
  | histogram (h : Histogram F)
  /-- an image whose contents were moved out by `liq_image_set_background`; its tag stays `liq_image_magic` -/
  | taken
  /-- destroyed: `liq_freed_magic` -/
  | freed
  /-- memory that is no object of this library -/
  | other

abbrev Handle := Option ℕ

structure World (F : Type) where
  heap : Heap
  objs : ℕ → Slot F
  next : ℕ
  /-- all percentages that progress callbacks have received -/
  log : List F
  undefined : Bool

namespace World

def init : World F := ⟨Heap.init, fun _ => .other, 0, [], false⟩

/-- what `bad_object!` looks at, `ffi.rs:92-100` -/
def get (w : World F) (h : Handle) : Slot F :=
  match h with
  | some i => w.objs i
  | none => .other

def set (w : World F) (h : Handle) (s : Slot F) : World F :=
  match h with
  | some i => { w with objs := fun j => if j = i then s else w.objs j }
  | none => w

/-- `Box::new` of an object -/
def create (w : World F) (s : Slot F) : World F × ℕ :=
  ({ w with objs := fun j => if j = w.next then s else w.objs j, next := w.next + 1 }, w.next)

def ub (w : World F) : World F := { w with undefined := true }

end World

/-- the value of an output pointer: not written, or written -/
inductive Out where
  | unwritten
  | null
  | object (i : ℕ)
  deriving DecidableEq

inductive Reply (F : Type) where
  /-- `liq_error`; `none` is `LIQ_OK` -/
  | code (e : Option Error)
  | uint (n : ℕ)
  | int (n : ℤ)
  | float (x : F)
  | object (h : Handle)
  | palette (p : Option (List RGBA))
  /-- `liq_error` and the output pointer of `liq_image_quantize` and `liq_histogram_quantize` -/
  | stored (e : Option Error) (out : Out)
  /-- `liq_error` and the output bytes of a remap -/
  | wrote (e : Option Error) (rows : List (List (Option UInt8)))
  | nothing
  | crash

/-- `.err().unwrap_or(LIQ_OK)` -/
def Reply.ofRes : Res Unit → Reply F
  | .ok () => .code none
  | .error (.err e) => .code (some e)
  | .error .panic => .crash

/-- the functions of `libimagequant.h`, and the caller's own use of memory. The environments are what is not determined
by the arguments: hash order, sort, threads. -/
inductive CCall (F : Type) [Flt F] where
  | version
  | setMinOpacity (attr : Handle) (n : Int32)
  | getMinOpacity (attr : Handle)
  | setLastIndexTransparent (attr : Handle) (isLast : Int32)
  | getPalette (result : Handle)
  | attrSetProgressCallback (attr : Handle) (cb : List F → Int32)
  | resultSetProgressCallback (result : Handle) (cb : List F → Int32)
  | setLogCallback (attr : Handle)
  | setLogFlushCallback (attr : Handle)
  | setMaxColors (attr : Handle) (colors : UInt32)
  | getMaxColors (attr : Handle)
  | setMinPosterization (attr : Handle) (bits : Int32)
  | getMinPosterization (attr : Handle)
  | setSpeed (attr : Handle) (speed : Int32)
  | getSpeed (attr : Handle)
  | setQuality (attr : Handle) (minimum target : UInt32)
  | getMinQuality (attr : Handle)
  | getMaxQuality (attr : Handle)
  | quantizeImage (attr image : Handle) (env : Env F)
  | writeRemappedImage (result image : Handle) (buffer : Option (List (Option UInt8))) (env : RemapEnv F)
  | writeRemappedImageRows (result image : Handle) (rows : Option (List (List (Option UInt8)))) (env : RemapEnv F)
  | imageAddFixedColor (image : Handle) (color : RGBA)
  | histogramAddFixedColor (hist : Handle) (color : RGBA) (gamma : F)
  | imageGetWidth (image : Handle)
  | imageGetHeight (image : Handle)
  | imageDestroy (image : Handle)
  | imageSetBackground (image background : Handle)
  | imageSetImportanceMap (image : Handle) (map : Option Ptr) (size : ℕ) (ownership : Int32)
  | imageSetMemoryOwnership (image : Handle) (flags : Int32)
  | histogramCreate (attr : Handle)
  | histogramDestroy (hist : Handle)
  | attrCreateWithAllocator (free : ℕ)
  | attrCreate
  | attrCopy (attr : Handle)
  | attrDestroy (attr : Handle)
  | resultDestroy (result : Handle)
  | setOutputGamma (result : Handle) (gamma : F)
  | setDitheringLevel (result : Handle) (level : F)
  | getOutputGamma (result : Handle)
  | getQuantizationError (result : Handle)
  | getRemappingError (result : Handle)
  | getQuantizationQuality (result : Handle)
  | getRemappingQuality (result : Handle)
  | imageQuantize (image attr : Handle) (env : Env F)
  | histogramQuantize (hist attr : Handle) (env : Env F)
  | imageCreateCustom (attr : Handle) (callback : ℕ → ℕ → RGBA) (width height : UInt32) (gamma : F)
  | imageCreateRgbaRows (attr : Handle) (rows : Option Ptr) (width height : UInt32) (gamma : F)
  | imageCreateRgba (attr : Handle) (pixels : Option Ptr) (width height : UInt32) (gamma : F)
  | histogramAddColors (hist attr : Handle) (entries : Option (List (RGBA × ℕ))) (num : Int32) (gamma : F)
  | histogramAddImage (hist attr image : Handle) (ho : HashOrder)
  /-- the caller allocates a block -/
  | malloc (b : Block)
  /-- the caller frees a block, or hands it to a library that does -/
  | free (block : ℕ)

/-! ### Helpers -/

namespace World

/-- `bad_object!(attr, LIQ_ATTR_MAGIC)` -/
def withAttr (w : World F) (h : Handle) (bad : Reply F) (k : Attr F → ℕ → World F × Reply F) : World F × Reply F :=
  match w.get h with
  | .attr a fn => k a fn
  | _ => (w, bad)

/-- `bad_object!(img, LIQ_IMAGE_MAGIC)`; the contents of an image that became a background are not there any more -/
def withImage (w : World F) (h : Handle) (bad : Reply F) (k : HImage F → ℕ → World F × Reply F) : World F × Reply F :=
  match w.get h with
  | .image i fn => k i fn
  | .taken => (w.ub, .crash)
  | _ => (w, bad)

/-- `bad_object!(result, LIQ_RESULT_MAGIC)` -/
def withResult (w : World F) (h : Handle) (bad : Reply F) (k : QuantizationResult F → World F × Reply F) :
    World F × Reply F :=
  match w.get h with
  | .result q => k q
  | _ => (w, bad)

/-- `bad_object!(hist, LIQ_HISTOGRAM_MAGIC)` -/
def withHistogram (w : World F) (h : Handle) (bad : Reply F) (k : Histogram F → World F × Reply F) : World F × Reply F :=
  match w.get h with
  | .histogram x => k x
  | _ => (w, bad)

/-- a setter: stores the object on success -/
def update {α : Type} (w : World F) (h : Handle) (r : Res α) (slot : α → Slot F) : World F × Reply F :=
  match r with
  | .ok a => (w.set h (slot a), .code none)
  | .error (.err e) => (w, .code (some e))
  | .error .panic => (w, .crash)

/-- `store_boxed_result`, `ffi.rs:545-550` -/
def storeResult (w : World F) (r : Res (QuantizationResult F)) : World F × Reply F :=
  match r with
  | .ok q => let (w, i) := w.create (.result q); (w, .stored none (.object i))
  | .error (.err e) => (w, .stored (some e) .null)
  | .error .panic => (w, .crash)

/-- `.ok().map(|inner| Box::new(liq_result …))`, `ffi.rs:289-292` -/
def returnResult (w : World F) (r : Res (QuantizationResult F)) : World F × Reply F :=
  match r with
  | .ok q => let (w, i) := w.create (.result q); (w, .object (some i))
  | .error (.err _) => (w, .object none)
  | .error .panic => (w, .crash)

/-- `Attributes::quantize` on an image with memory -/
def quantize (w : World F) (a : Attr F) (himg : Handle) (i : HImage F) (fn : ℕ) (env : Env F) :
    Res (QuantizationResult F) × World F :=
  let ((r, c), log) := Verif.quantizeImage env a (i.view w.heap) w.log
  (r, { w with log := log }.set himg (.image (i.absorb c) fn))

/-- `write_remapped_image_rows_internal` on an image with memory -/
def remap (w : World F) (hres himg : Handle) (q : QuantizationResult F) (i : HImage F) (fn : ℕ)
    (rows : List (List (Option UInt8))) (env : RemapEnv F) : World F × Reply F :=
  let (res, s) := writeRemapped env ⟨q, i.view w.heap, rows, w.log, false⟩
  let (i, heap) := i.afterRemap q w.log s.image w.heap
  let w := ({ w with heap := heap, log := s.log }.set himg (.image i fn)).set hres (.result s.quant)
  match res with
  | .ok () => (w, .wrote none s.out)
  | .error (.err e) => (w, .wrote (some e) s.out)
  | .error .panic => (w, .crash)

/-- drop of the box of an object that is expected to have this tag, `ffi.rs:102-126`, `357`, `422`, `457`, `461`.
`k` is the drop of the contents. -/
def destroy (w : World F) (h : Handle) (k : Slot F → Option (World F)) : World F × Reply F :=
  match h with
  | none => (w, .nothing)
  | some i =>
    match k (w.objs i) with
    | some w => (w.set (some i) .freed, .nothing)
    | none => ((w.set (some i) .freed).ub, .nothing)

/-- drop of a `Box<liq_image>`: memory that has another tag is deallocated all the same -/
def dropImage (w : World F) (h : Handle) : World F :=
  match h with
  | none => w
  | some i =>
    match w.objs i with
    | .image img _ => { w with heap := img.drop w.heap }.set (some i) .freed
    | _ => (w.set (some i) .freed).ub

/-- an image that was made, or NULL -/
def returnImage (w : World F) (r : Res (HRows F)) (fn : ℕ) : World F × Reply F :=
  match r with
  | .ok r => let (w, i) := w.create (.image (.ofRows r) fn); (w, .object (some i))
  | .error _ => (w, .object none)

end World

/-- `ffi.rs:552-566`, `check_image_size` without the check of the handle -/
def checkSizeC (width height : ℕ) : Bool :=
  if width = 0 ∨ height = 0 then false
  else if width > (2 ^ 31 - 1) / 4 / height ∨ width > (2 ^ 31 - 1) / 16 / 4 ∨ height > (2 ^ 31 - 1) / 8 then false
  else true

/-- NULL in an array of row pointers. Block 0 is never allocated, see `Heap.init`. -/
def Heap.null : Ptr := ⟨0, 1⟩

/-- a C callback stops the work by returning 0, `ffi.rs:181`, `189` -/
def breaks (cb : List F → Int32) : List F → Bool := fun l => cb l == 0

/-- the ownership flags, `ffi.rs:61-65` -/
def ownRowsFlag : Int32 := 4
def ownPixelsFlag : Int32 := 8
def copyPixelsFlag : Int32 := 16

/-- `u32::MAX`, the value of `!0` -/
def notZero : ℕ := 2 ^ 32 - 1

/-- `bits as u8` of a C `int`, `ffi.rs:237` -/
def intAsU8 (n : Int32) : ℕ := n.toBitVec.toNat % 256

/-- `minimum as u8` of a C `unsigned int`, `ffi.rs:264` -/
def uintAsU8 (n : UInt32) : ℕ := n.toNat % 256

/-! ### The functions -/

open World in
def exec (w : World F) (c : CCall F) : World F × Reply F :=
  match c with
  -- `ffi.rs:130-132`
  | .version => (w, .uint 40202)
  -- `ffi.rs:137-146`: no check
  | .setMinOpacity _ _ => (w, .code none)
  | .getMinOpacity _ => (w, .int 0)
  -- `ffi.rs:150-153`
  | .setLastIndexTransparent h b => w.withAttr h .nothing fun a fn =>
      (w.set h (.attr (a.setLastIndexTransparent (b != 0)) fn), .nothing)
  -- `ffi.rs:157-160`, `capi.rs:19-21`
  | .getPalette h => w.withResult h (.palette none) fun q =>
      (w.set h (.result q.getPalette.1), .palette (some q.getPalette.2))
  -- `ffi.rs:179-190`
  | .attrSetProgressCallback h cb => w.withAttr h .nothing fun a fn =>
      (w.set h (.attr (a.setProgressCallback (breaks cb)) fn), .nothing)
  | .resultSetProgressCallback h cb => w.withResult h .nothing fun q =>
      (w.set h (.result { q with progressCallback := some (breaks cb) }), .nothing)
  -- `ffi.rs:203-217`: log callbacks are not modelled
  | .setLogCallback h => w.withAttr h .nothing fun _ _ => (w, .nothing)
  | .setLogFlushCallback h => w.withAttr h .nothing fun _ _ => (w, .nothing)
  -- `ffi.rs:221-231`
  | .setMaxColors h n => w.withAttr h (.code (some .invalidPointer)) fun a fn =>
      w.update h (a.setMaxColors n.toNat) (.attr · fn)
  | .getMaxColors h => w.withAttr h (.uint notZero) fun a _ => (w, .uint a.getMaxColors)
  -- `ffi.rs:235-245`
  | .setMinPosterization h n => w.withAttr h (.code (some .invalidPointer)) fun a fn =>
      w.update h (a.setMinPosterization (intAsU8 n)) (.attr · fn)
  | .getMinPosterization h => w.withAttr h (.uint notZero) fun a _ => (w, .uint a.getMinPosterization)
  -- `ffi.rs:249-251`: no check
  | .setSpeed h n =>
    match w.get h with
    | .attr a fn => w.update h (a.setSpeed n.toInt) (.attr · fn)
    | _ => (w.ub, .crash)
  -- `ffi.rs:255-258`
  | .getSpeed h => w.withAttr h (.uint notZero) fun a _ => (w, .uint a.getSpeed)
  -- `ffi.rs:262-279`
  | .setQuality h m t => w.withAttr h (.code (some .invalidPointer)) fun a fn =>
      w.update h (a.setQuality (uintAsU8 m) (uintAsU8 t)) (.attr · fn)
  | .getMinQuality h => w.withAttr h (.uint notZero) fun a _ => (w, .uint a.quality.1)
  | .getMaxQuality h => w.withAttr h (.uint notZero) fun a _ => (w, .uint a.quality.2)
  -- `ffi.rs:283-293`
  | .quantizeImage ha hi env => w.withAttr ha (.object none) fun a _ => w.withImage hi (.object none) fun i fn =>
      let (r, w) := w.quantize a hi i fn env
      w.returnResult r
  -- `ffi.rs:297-309`, `capi.rs:48-51`
  | .writeRemappedImage hr hi buf env => w.withResult hr (.code (some .invalidPointer)) fun q =>
      w.withImage hi (.code (some .invalidPointer)) fun i fn =>
        match buf with
        | none => (w, .code (some .invalidPointer))
        | some buf =>
          if buf.length < i.px.width * i.px.height then (w, .code (some .bufferTooSmall))
          else w.remap hr hi q i fn (chunksExact i.px.width (buf.take (i.px.width * i.px.height))) env
  -- `ffi.rs:313-323`, `capi.rs:53-56`
  | .writeRemappedImageRows hr hi rows env => w.withResult hr (.code (some .invalidPointer)) fun q =>
      w.withImage hi (.code (some .invalidPointer)) fun i fn =>
        match rows with
        | none => (w, .code (some .invalidPointer))
        | some rows => w.remap hr hi q i fn rows env
  -- `ffi.rs:327-339`
  | .imageAddFixedColor h c => w.withImage h (.code (some .invalidPointer)) fun i fn =>
      w.update h ((i.view w.heap).addFixedColor c) fun v => .image (i.absorb v) fn
  | .histogramAddFixedColor h c g => w.withHistogram h (.code (some .invalidPointer)) fun x =>
      w.update h (x.addFixedColor c g) .histogram
  -- `ffi.rs:343-353`
  | .imageGetWidth h => w.withImage h (.uint notZero) fun i _ => (w, .uint i.px.width)
  | .imageGetHeight h => w.withImage h (.uint notZero) fun i _ => (w, .uint i.px.height)
  -- `ffi.rs:357`, `108-114`
  | .imageDestroy h => (w.dropImage h, .nothing)
  -- `ffi.rs:361-366`: the box of the background is dropped on the early return, and leaked otherwise
  | .imageSetBackground h hb =>
    match w.get h, w.get hb with
    | .image i fn, .image b _ =>
      -- one object through a `&mut` and a `Box`
      if h = hb then (w.ub, .crash) else
      let (r, i, heap) := i.setBackground b w.heap
      (({ w with heap := heap }.set h (.image i fn)).set hb .taken, .ofRes r)
    | .image _ _, .taken => (w.ub, .crash)
    | .taken, .image _ _ => (w.ub, .crash)
    | .taken, .taken => (w.ub, .crash)
    | _, _ => (w.dropImage hb, .code (some .invalidPointer))
  -- `ffi.rs:370-392`
  | .imageSetImportanceMap h p size own => w.withImage h (.code (some .invalidPointer)) fun i fn =>
      match p with
      | none => (w, .code (some .invalidPointer))
      | some p =>
        if size = 0 then (w, .code (some .invalidPointer))
        else if size < i.px.width * i.px.height then (w, .code (some .bufferTooSmall))
        else
          let map := (w.heap.bytesAt p).take (i.px.width * i.px.height)
          if own = copyPixelsFlag then
            w.update h ((i.view w.heap).setImportanceMap map) fun v => .image (i.absorb v) fn
          else if own = ownPixelsFlag then
            let w' := { w with heap := w.heap.cFree fn p }
            match (i.view w.heap).setImportanceMap map with
            | .ok v => (w'.set h (.image (i.absorb v) fn), .code none)
            | .error (.err _) => (w', .code none)
            | .error .panic => (w', .crash)
          else (w, .code (some .unsupported))
  -- `ffi.rs:396-408`, `capi.rs:59-61`
  | .imageSetMemoryOwnership h flags => w.withImage h (.code (some .invalidPointer)) fun i fn =>
      if flags = 0 ∨ flags ||| (ownRowsFlag ||| ownPixelsFlag) ≠ (ownRowsFlag ||| ownPixelsFlag) then
        (w, .code (some .valueOutOfRange))
      else
        let (r, px) := i.px.setMemoryOwnership (flags &&& ownRowsFlag == ownRowsFlag)
          (flags &&& ownPixelsFlag == ownPixelsFlag) fn w.heap
        (w.set h (.image { i with px := px } fn), .ofRes r)
  -- `ffi.rs:412-422`
  | .histogramCreate h => w.withAttr h (.object none) fun a _ =>
      let (w, i) := w.create (.histogram (Histogram.new a))
      (w, .object (some i))
  | .histogramDestroy h => w.destroy h fun | .histogram _ => some w | _ => none
  -- `ffi.rs:427-457`; function 0 is `libc::free`
  | .attrCreateWithAllocator fn =>
      let (w, i) := w.create (.attr Attr.new fn)
      (w, .object (some i))
  | .attrCreate =>
      let (w, i) := w.create (.attr Attr.new 0)
      (w, .object (some i))
  | .attrCopy h => w.withAttr h (.object none) fun a fn =>
      let (w, i) := w.create (.attr a fn)
      (w, .object (some i))
  | .attrDestroy h => w.destroy h fun | .attr _ _ => some w | _ => none
  -- `ffi.rs:461`
  | .resultDestroy h => w.destroy h fun | .result _ => some w | _ => none
  -- `ffi.rs:465-475`
  | .setOutputGamma h g => w.withResult h (.code (some .invalidPointer)) fun q => w.update h (q.setOutputGamma g) .result
  | .setDitheringLevel h l => w.withResult h (.code (some .invalidPointer)) fun q =>
      w.update h (q.setDitheringLevel l) .result
  -- `ffi.rs:479-510`
  | .getOutputGamma h => w.withResult h (.float (lit64 (-1))) fun q => (w, .float q.gamma)
  | .getQuantizationError h => w.withResult h (.float (lit64 (-1))) fun q =>
      (w, .float (q.quantizationError.getD (lit64 (-1))))
  | .getRemappingError h => w.withResult h (.float (lit64 (-1))) fun q => (w, .float (q.remappingError.getD (lit64 (-1))))
  | .getQuantizationQuality h => w.withResult h (.int (-1)) fun q =>
      (w, .int ((q.quantizationQuality.map Int.ofNat).getD (-1)))
  | .getRemappingQuality h => w.withResult h (.int (-1)) fun q => (w, .int ((q.remappingQuality.map Int.ofNat).getD (-1)))
  -- `ffi.rs:514-542`: on a bad handle the output is not written
  | .imageQuantize hi ha env => w.withAttr ha (.stored (some .invalidPointer) .unwritten) fun a _ =>
      w.withImage hi (.stored (some .invalidPointer) .unwritten) fun i fn =>
        let (r, w) := w.quantize a hi i fn env
        w.storeResult r
  | .histogramQuantize hh ha env => w.withAttr ha (.stored (some .invalidPointer) .unwritten) fun a _ =>
      w.withHistogram hh (.stored (some .invalidPointer) .unwritten) fun x =>
        let (r, log) := x.quantize env a w.log
        ({ w with log := log }.set hh (.histogram (x.afterQuantize env a w.log))).storeResult r
  -- `ffi.rs:570-579`: no check
  | .imageCreateCustom h f width height g =>
    match w.get h with
    | .attr _ fn => w.returnImage (HRows.newInternal (.callback f) width.toNat height.toNat g) fn
    | _ => (w.ub, .crash)
  -- `ffi.rs:583-593`, `capi.rs:24-31`
  | .imageCreateRgbaRows h rows width height g => w.withAttr h (.object none) fun _ fn =>
      if !checkSizeC width.toNat height.toNat then (w, .object none)
      else
        match rows with
        | none => (w, .object none)
        | some p =>
          if Heap.null ∈ w.heap.rowsAt p height.toNat then (w, .object none)
          else w.returnImage (HRows.newInternal (.pixels (.borrowed p height.toNat) none) width.toNat height.toNat g) fn
  -- `ffi.rs:597-607`, `capi.rs:34-41`. The null check on the handle comes after that on the pixels.
  | .imageCreateRgba h pixels width height g =>
    match pixels with
    | none => (w, .object none)
    | some p => w.withAttr h (.object none) fun _ fn =>
      if !checkSizeC width.toNat height.toNat then (w, .object none)
      else
        let rows := (List.range height.toNat).map fun y => (⟨p.block, p.off + width.toNat * y⟩ : Ptr)
        let (heap, r) := w.heap.alloc (.rows rows)
        match HRows.newInternal (.pixels (.boxed r height.toNat) none) width.toNat height.toNat g with
        | .ok px => { w with heap := heap }.returnImage (.ok px) fn
        | .error _ => ({ w with heap := heap.dealloc r.block }, .object none)
  -- `ffi.rs:611-628`
  | .histogramAddColors hh ha entries num g => w.withAttr ha (.code (some .invalidPointer)) fun _ _ =>
      w.withHistogram hh (.code (some .invalidPointer)) fun x =>
        if num < 0 then (w, .code (some .valueOutOfRange))
        else if num = 0 then (w, .code none)
        else
          match entries with
          | none => (w, .code (some .invalidPointer))
          | some es => w.update hh (x.addColors (es.take num.toInt.toNat) g) .histogram
  -- `ffi.rs:632-641`
  | .histogramAddImage hh ha hi ho => w.withAttr ha (.code (some .invalidPointer)) fun a _ =>
      w.withHistogram hh (.code (some .invalidPointer)) fun x =>
        w.withImage hi (.code (some .invalidPointer)) fun i fn =>
          let ((r, x, c), log) := x.addImage ho a (i.view w.heap) w.log
          (({ w with log := log }.set hi (.image (i.absorb c) fn)).set hh (.histogram x), .ofRes r)
  -- the caller
  | .malloc b => ({ w with heap := (w.heap.alloc b).1 }, .uint w.heap.next)
  | .free b => ({ w with heap := w.heap.dealloc b }, .nothing)

/-- a program: the replies in order -/
def runC (w : World F) : List (CCall F) → World F × List (Reply F)
  | [] => (w, [])
  | c :: cs =>
    let (w, r) := exec w c
    let (w, rs) := runC w cs
    (w, r :: rs)

end Verif
