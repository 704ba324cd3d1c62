import Verif.Model.CloneImage

/-!
# Programs that use images

A program has images, histograms and results at hand and calls functions of the library. It sees whether a call succeeded, the
bytes that were written, the progress that was reported, and everything there is to know about histograms and results.
-/

namespace Verif.Spec
open Flt

variable {F : Type} [Flt F]

/-- an image of the given size and gamma that was made, in any way, from the pixels `f` (row, column) -/
inductive MadeFrom (w h : ℕ) (gamma : F) (f : ℕ → ℕ → RGBA) : Image F → Prop
  /-- from a buffer whose rows begin `stride` pixels after each other -/
  | buffer {buf : List RGBA} {stride : ℕ} {img : Image F} : Image.newStride buf w h stride gamma = .ok img →
      (∀ y < h, ∀ x < w, buf[y * stride + x]? = some (f y x)) → MadeFrom w h gamma f img
  /-- from pointers to the rows, as the C API does it -/
  | rows {rows : List (List RGBA)} {img : Image F} : Image.newInternal (.pixels rows) w h gamma = .ok img → rows.length = h →
      (∀ y < h, ∀ x < w, (rows.getD y [])[x]? = some (f y x)) → MadeFrom w h gamma f img
  /-- from a callback -/
  | callback {g : ℕ → ℕ → RGBA} {img : Image F} : Image.newFn g w h gamma = .ok img → (∀ y < h, ∀ x < w, g y x = f y x) →
      MadeFrom w h gamma f img
  | clone {img img' : Image F} : MadeFrom w h gamma f img → img.clone = .ok img' → MadeFrom w h gamma f img'

/-- what a program has at hand; an image that was moved or dropped is `none` -/
structure Shelf (F : Type) where
  images : List (Option (Image F))
  histograms : List (Histogram F)
  results : List (QuantizationResult F)
  log : List F

/-- calls; numbers are places on the shelf -/
inductive Act (F : Type) [Flt F] where
  | fixedColor (i : ℕ) (c : RGBA)
  | importanceMap (i : ℕ) (m : List UInt8)
  | background (i j : ℕ)
  | clone (i : ℕ)
  | drop (i : ℕ)
  /-- any histogram, made without images -/
  | histogram (h : Histogram F)
  | addImage (ho : HashOrder) (attr : Attr F) (k i : ℕ)
  | quantizeHistogram (env : Env F) (attr : Attr F) (k : ℕ)
  | quantize (env : Env F) (attr : Attr F) (i : ℕ)
  /-- any change of a result that does not involve an image -/
  | result (k : ℕ) (change : QuantizationResult F → QuantizationResult F)
  | remap (env : RemapEnv F) (k i : ℕ) (buf : List (Option UInt8))
  | remapped (env : RemapEnv F) (k i : ℕ)

/-- outcome of a call, and the bytes and the palette it gave -/
structure Answer where
  res : Res Unit
  bytes : List (Option UInt8)
  palette : List RGBA

/-- a call that the program cannot make: there is no such thing on the shelf -/
def Answer.nothing : Answer := ⟨.error .panic, [], []⟩

namespace Shelf

def image (s : Shelf F) (i : ℕ) : Option (Image F) := (s.images[i]?).join

def setImage (s : Shelf F) (i : ℕ) (x : Option (Image F)) : Shelf F := { s with images := s.images.set i x }

/-- a function that changes an image if it succeeds -/
def change (s : Shelf F) (i : ℕ) (r : Res (Image F)) : Answer × Shelf F :=
  match r with
  | .error e => (⟨.error e, [], []⟩, s)
  | .ok img => (⟨.ok (), [], []⟩, s.setImage i (some img))

def act (s : Shelf F) : Act F → Answer × Shelf F
  | .fixedColor i c => match s.image i with
    | none => (.nothing, s)
    | some img => s.change i (img.addFixedColor c)
  | .importanceMap i m => match s.image i with
    | none => (.nothing, s)
    | some img => s.change i (img.setImportanceMap m)
  | .background i j => match (if i = j then none else s.image i), s.image j with
    | some img, some bg => (s.setImage j none).change i (img.setBackground bg)
    | _, _ => (.nothing, s)
  | .clone i => match s.image i with
    | none => (.nothing, s)
    | some img => match img.clone with
      | .error e => (⟨.error e, [], []⟩, s)
      | .ok img => (⟨.ok (), [], []⟩, { s with images := s.images ++ [some img] })
  | .drop i => (⟨.ok (), [], []⟩, s.setImage i none)
  | .histogram h => (⟨.ok (), [], []⟩, { s with histograms := s.histograms ++ [h] })
  | .addImage ho attr k i => match s.histograms[k]?, s.image i with
    | some h, some img =>
      let r := h.addImage ho attr img s.log
      (⟨r.1.1, [], []⟩, { s.setImage i (some r.1.2.2) with histograms := s.histograms.set k r.1.2.1, log := r.2 })
    | _, _ => (.nothing, s)
  | .quantizeHistogram env attr k => match s.histograms[k]? with
    | none => (.nothing, s)
    | some h => match h.quantize env attr s.log with
      | (.error e, log) => (⟨.error e, [], []⟩, { s with log := log })
      | (.ok q, log) => (⟨.ok (), [], []⟩, { s with results := s.results ++ [q], log := log })
  | .quantize env attr i => match s.image i with
    | none => (.nothing, s)
    | some img =>
      let r := quantizeImage env attr img s.log
      let s := { s.setImage i (some r.1.2) with log := r.2 }
      match r.1.1 with
      | .error e => (⟨.error e, [], []⟩, s)
      | .ok q => (⟨.ok (), [], []⟩, { s with results := s.results ++ [q] })
  | .result k f => (⟨.ok (), [], []⟩, { s with results := s.results.modify k f })
  | .remap env k i buf => match s.results[k]?, s.image i with
    | some q, some img =>
      let r := remapInto env q img buf s.log
      (⟨r.res, r.buf, []⟩, { s.setImage i (some r.image) with results := s.results.set k r.quant, log := r.log })
    | _, _ => (.nothing, s)
  | .remapped env k i => match s.results[k]?, s.image i with
    | some q, some img =>
      let r := Verif.remapped env q img s.log
      let s := { s.setImage i (some r.2.image) with results := s.results.set k r.2.quant, log := r.2.log }
      match r.1 with
      | .error e => (⟨.error e, [], []⟩, s)
      | .ok (palette, bytes) => (⟨.ok (), bytes, palette⟩, s)
    | _, _ => (.nothing, s)

/-- all the answers of a program and what it has in the end -/
def run (s : Shelf F) : List (Act F) → List Answer × Shelf F
  | [] => ([], s)
  | a :: as => let r := s.act a
    let rs := r.2.run as
    (r.1 :: rs.1, rs.2)

end Shelf
end Verif.Spec
