import Verif.Model.Image

/-!
# Who owns the memory of an image (`src/seacow.rs`, `src/rows.rs`)

A heap of numbered blocks. A pointer is a block and an offset in elements; comparing pointers compares the pair, so
pointers into one block compare as in the code, and blocks are laid out in the order of allocation. Deallocated blocks
are never used again. The arguments of calls of C `free` functions are recorded in order.

The view of an image gives what `Model/Image.lean` calls its contents: each row pointer is replaced by the pixels that
can be read from there on. Reading through a dead pointer finds nothing, which the model of the contents turns into a
panic.
-/

namespace Verif

variable {F : Type} [Flt F]

structure Ptr where
  block : ℕ
  off : ℕ
  deriving DecidableEq, Repr

/-- the contents of an allocation -/
inductive Block where
  | pixels (l : List RGBA)
  | rows (l : List Ptr)
  | bytes (l : List UInt8)

structure Heap where
  mem : ℕ → Option Block
  /-- the block allocated next -/
  next : ℕ
  /-- calls of C `free` functions: which function, and its argument -/
  frees : List (ℕ × Ptr)

namespace Heap

/-- block 0 is never allocated: it is where dangling pointers point -/
def init : Heap := ⟨fun _ => none, 1, []⟩

def alloc (h : Heap) (b : Block) : Heap × Ptr :=
  ({ h with mem := fun i => if i = h.next then some b else h.mem i, next := h.next + 1 }, ⟨h.next, 0⟩)

/-- deallocation of a block by Rust -/
def dealloc (h : Heap) (i : ℕ) : Heap := { h with mem := fun j => if j = i then none else h.mem j }

/-- call of a C `free` function -/
def cFree (h : Heap) (fn : ℕ) (p : Ptr) : Heap := { h.dealloc p.block with frees := h.frees ++ [(fn, p)] }

/-- pixels readable from an address on -/
def pixelsAt (h : Heap) (p : Ptr) : List RGBA :=
  match h.mem p.block with
  | some (.pixels l) => l.drop p.off
  | _ => []

/-- `NonNull::dangling()`, the address of `&[]` -/
def dangling : Ptr := ⟨0, 0⟩

/-- `len` row pointers from an address on; dead memory holds garbage, represented by dangling pointers -/
def rowsAt (h : Heap) (p : Ptr) (len : ℕ) : List Ptr :=
  match h.mem p.block with
  | some (.rows l) => (l.drop p.off).take len
  | _ => List.replicate len dangling

/-- bytes readable from an address on -/
def bytesAt (h : Heap) (p : Ptr) : List UInt8 :=
  match h.mem p.block with
  | some (.bytes l) => l.drop p.off
  | _ => []

end Heap

/-- `seacow.rs:81-86`, `SeaCowInner` (for pixels and for row pointers) -/
inductive Cow where
  | owned (p : Ptr) (len : ℕ) (free : ℕ)
  | borrowed (p : Ptr) (len : ℕ)
  | boxed (p : Ptr) (len : ℕ)

namespace Cow

def ptr : Cow → Ptr
  | owned p _ _ => p
  | borrowed p _ => p
  | boxed p _ => p

def len : Cow → ℕ
  | owned _ n _ => n
  | borrowed _ n => n
  | boxed _ n => n

/-- `SeaCow::borrowed(&[])` -/
def empty : Cow := .borrowed Heap.dangling 0

/-- `seacow.rs:58-62`, `make_owned` -/
def makeOwned (c : Cow) (free : ℕ) : Cow :=
  match c with
  | borrowed p n => owned p n free
  | c => c

/-- `seacow.rs:89-97`, `drop`, and the drop of a box -/
def drop (c : Cow) (h : Heap) : Heap :=
  match c with
  | owned p _ free => h.cFree free p
  | borrowed _ _ => h
  | boxed p _ => h.dealloc p.block

/-- `seacow.rs:101-108`, `as_slice` of row pointers -/
def rowSlice (c : Cow) (h : Heap) : List Ptr := h.rowsAt c.ptr c.len

/-- `seacow.rs:65-79`, `clone` of row pointers: a copy of the *pointers* -/
def cloneRows (c : Cow) (h : Heap) : Heap × Cow :=
  match c with
  | borrowed p n => (h, borrowed p n)
  | c => let (h, p) := h.alloc (.rows (c.rowSlice h)); (h, boxed p c.len)

/-- `seacow.rs:65-79`, `clone` of pixels -/
def clonePixels (c : Cow) (h : Heap) : Heap × Cow :=
  match c with
  | borrowed p n => (h, borrowed p n)
  | c => let (h, p) := h.alloc (.pixels ((h.pixelsAt c.ptr).take c.len)); (h, boxed p c.len)

end Cow

/-- `rows.rs:9-17`, `PixelsSource` -/
inductive HSource where
  | pixels (rows : Cow) (pixels : Option Cow)
  | callback (f : ℕ → ℕ → RGBA)

/-- `rows.rs:39-45`, `DynamicRows` -/
structure HRows (F : Type) where
  width : ℕ
  height : ℕ
  fPixels : Option (List (List (FPixel F)))
  source : HSource
  gamma : F

def dropPixels (c : Option Cow) (h : Heap) : Heap :=
  match c with
  | some c => c.drop h
  | none => h

namespace HSource

/-- drop of the fields in order -/
def drop (s : HSource) (h : Heap) : Heap :=
  match s with
  | pixels rows px => dropPixels px (rows.drop h)
  | callback _ => h

def view (s : HSource) (h : Heap) : Source :=
  match s with
  | pixels rows _ => .pixels ((rows.rowSlice h).map h.pixelsAt)
  | callback f => .callback f

/-- `rows.rs:20-36`, `for_pixels` for pixels at `c` -/
def forPixels (c : Cow) (width height stride : ℕ) (h : Heap) : Res (Heap × HSource) :=
  if stride < width ∨ height = 0 ∨ width = 0 then .error (.err .valueOutOfRange)
  else if stride * height ≥ 2 ^ 64 ∨ stride * height + width ≥ 2 ^ 64 then .error (.err .valueOutOfRange)
  else if c.len < stride * height + width - stride then .error (.err .bufferTooSmall)
  else
    let nChunks := (c.len + stride - 1) / stride
    let ptrs := ((List.range nChunks).map fun y => (⟨c.ptr.block, c.ptr.off + y * stride⟩ : Ptr)).take height
    let (h, p) := h.alloc (.rows ptrs)
    .ok (h, .pixels (.boxed p ptrs.length) (some c))

end HSource

namespace HRows

/-- the contents of the image as the rest of the model sees them -/
def view (r : HRows F) (h : Heap) : Rows F := ⟨r.width, r.height, r.fPixels, r.source.view h, r.gamma⟩

def drop (r : HRows F) (h : Heap) : Heap := r.source.drop h

/-- `rows.rs:47-75`, `clone`. The row pointers of the clone are those of the original. A callback is called for every
row and its pixels are stored; the `unwrap` cannot fail (`rows.rs:69`). -/
def clone (r : HRows F) (h : Heap) : Res (Heap × HRows F) :=
  match r.source with
  | .pixels rows px =>
    let (h, rows) := rows.cloneRows h
    match px with
    | none => .ok (h, { r with source := .pixels rows none })
    | some px =>
      let (h, px) := px.clonePixels h
      .ok (h, { r with source := .pixels rows (some px) })
  | .callback f =>
    let buf := (List.range r.height).flatMap fun y => (List.range r.width).map (f y)
    let (h, p) := h.alloc (.pixels buf)
    match HSource.forPixels (.boxed p buf.length) r.width r.height r.width h with
    | .error _ => .error .panic
    | .ok (h, s) => .ok (h, { r with source := s })

/-- `image.rs:79-114`, `new_internal` -/
def newInternal (source : HSource) (width height : ℕ) (gamma : F) : Res (HRows F) :=
  if !Image.checkImageSize width height then .error (.err .valueOutOfRange)
  else if !(Flt.le (Flt.lit64 0) gamma && Flt.le gamma (Flt.lit64 1)) then .error (.err .valueOutOfRange)
  else .ok ⟨width, height, none, source, if Flt.lt (Flt.lit64 0) gamma then gamma else Flt.lit64 (45455/100000)⟩

/-- `image.rs:325-339`, `new_stride_internal`. If it fails after the rows array was made, that array is dropped. -/
def newStride (c : Cow) (width height stride : ℕ) (gamma : F) (h : Heap) : Res (Heap × HRows F) := do
  let width ← Image.toU32 width
  let height ← Image.toU32 height
  let stride ← Image.toU32 stride
  let (h, source) ← HSource.forPixels c width height stride h
  let r ← newInternal source width height gamma
  return (h, r)

/-- `image.rs:67-71`, `new_fn` -/
def newFn (f : ℕ → ℕ → RGBA) (width height : ℕ) (gamma : F) : Res (HRows F) := do
  let width ← Image.toU32 width
  let height ← Image.toU32 height
  newInternal (.callback f) width height gamma

/-- `rows.rs:242-249`, `free_histogram_inputs` -/
def freeHistogramInputs (r : HRows F) (h : Heap) : Heap × HRows F :=
  if r.fPixels.isSome then (r.source.drop h, { r with source := .pixels .empty none }) else (h, r)

/-- the row pointer with the lowest address, `rows.rs:231` -/
def lowest : List Ptr → Option Ptr
  | [] => none
  | p :: ps =>
    match lowest ps with
    | none => some p
    | some q => some (if p.block < q.block ∨ p.block = q.block ∧ p.off ≤ q.off then p else q)

/-- `rows.rs:220-225`: the rows array becomes owned -/
def ownRows (r : HRows F) (free : ℕ) : Res (HRows F) :=
  match r.source with
  | .pixels rows px => .ok { r with source := .pixels (rows.makeOwned free) px }
  | .callback _ => .error (.err .valueOutOfRange)

/-- `rows.rs:227-238`: the pixels become owned -/
def ownPixels (r : HRows F) (free : ℕ) (h : Heap) : Res (HRows F) :=
  match r.source with
  | .pixels rows (some px) => .ok { r with source := .pixels rows (some (px.makeOwned free)) }
  | .pixels rows none =>
    match lowest (rows.rowSlice h) with
    | none => .error (.err .unsupported)
    | some p => .ok { r with source := .pixels rows (some (.owned p (r.width * r.height) free)) }
  | .callback _ => .error (.err .valueOutOfRange)

/-- `rows.rs:219-240`, `set_memory_ownership`: the outcome and the image, which can have changed even on failure -/
def setMemoryOwnership (r : HRows F) (rows pixels : Bool) (free : ℕ) (h : Heap) : Res Unit × HRows F :=
  match (if rows then r.ownRows free else .ok r) with
  | .error e => (.error e, r)
  | .ok r =>
    match (if pixels then r.ownPixels free h else .ok r) with
    | .error e => (.error e, r)
    | .ok r => (.ok (), r)

end HRows

end Verif
