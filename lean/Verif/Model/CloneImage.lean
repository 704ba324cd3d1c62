import Verif.Model.Remap

/-!
# Cloned images (`src/image.rs:18`, `src/rows.rs:46-75`)

The contents of clones. Who owns the memory behind the row pointers is the subject of `Model/Heap.lean`; here the memory behind
the row pointers of the original is taken to stay valid. Allocation failure is not modelled.
-/

namespace Verif
open Flt

variable {F : Type} [Flt F]

/-- `rows.rs:46-75`, `clone`: the row pointers are copied; a callback is called for every row and its pixels are kept instead.
The `unwrap` of `rows.rs:69` is a panic. -/
def Rows.clone (r : Rows F) : Res (Rows F) :=
  match r.source with
  | .pixels _ => .ok r
  | .callback f =>
    match Source.forPixels ((List.range r.height).flatMap fun y => (List.range r.width).map (f y)) r.width r.height r.width with
    | .error _ => .error .panic
    | .ok source => .ok { r with source := source }

/-- `image.rs:18`, `#[derive(Clone)]`. Of the background only the pixels are kept (see `Image`). -/
def Image.clone (img : Image F) : Res (Image F) := do
  let px ← img.px.clone
  match img.background with
  | none => return { img with px := px }
  | some b =>
    let b ← b.clone
    return { img with px := px, background := some b }

end Verif
