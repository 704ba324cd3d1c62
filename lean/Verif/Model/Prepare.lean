import Verif.Model.Remap

/-!
# `optionally_prepare_for_dithering_with_background_set` (`src/quant.rs:74-82`)

A public function of the Rust API which is hidden in its manual.
-/

namespace Verif
open Flt

variable {F : Type} [Flt F]

/-- outcome of `optionally_prepare_for_dithering_with_background_set` -/
structure PrepareOut (F : Type) where
  res : Res Unit
  quant : QuantizationResult F
  image : Image F
  buf : List (Option UInt8)

/-- `quant.rs:77-81`. The size of the buffer is not checked: `new_contiguous` cuts all of it into rows. The palette of the
result itself is passed on, and not a copy. (If there is an error, it is not said here what becomes of the palette.) -/
def prepareForDithering (env : RemapEnv F) (q : QuantizationResult F) (img : Image F) (buf : List (Option UInt8)) : PrepareOut F :=
  match generateDitherMap env ⟨q, img, chunksExact img.width buf, [], false⟩ true q.palette with
  | (.error e, s) => ⟨.error e, q, s.image, s.out.flatten ++ buf.drop (buf.length / img.width * img.width)⟩
  | (.ok (_, palette), s) =>
    ⟨.ok (), { q with palette := palette }, s.image, s.out.flatten ++ buf.drop (buf.length / img.width * img.width)⟩

end Verif
