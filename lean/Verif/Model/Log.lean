import Verif.Model.Image
import Verif.Model.Quant

/-!
# Log messages (`attr.rs:215-275`, `337-341` and the calls of `verbose_print`)

A computation with messages goes from the calls of callbacks made so far to a result and the calls made in the end, in
order. Messages are values, not text: what is formatted into them is kept. Callbacks are numbers that tell them apart.

Simplified: the answers of the progress callback depend on what was reported to it, not on the messages.
-/

set_option linter.unusedVariables false

namespace Verif
open Flt

variable {F : Type} [Flt F]

/-- the messages of the library -/
inductive Msg (F : Type) where
  /-- `attr.rs:109` -/
  | qualityLow
  /-- `image.rs:91` -/
  | gammaRange
  /-- `image.rs:111` -/
  | conserving
  /-- `image.rs:334` -/
  | bufferShort (bytes stride height : ℕ)
  /-- `hist.rs:203` -/
  | found (colors : ℕ)
  /-- `quant.rs:378` -/
  | selecting (percent : UInt8)
  /-- `quant.rs:412` -/
  | moving
  /-- `quant.rs:44-50` -/
  | degraded (mse : F) (quality : ℕ) (limit : F) (limitQuality : ℕ)
  /-- `quant.rs:340` -/
  | transparent (entries : ℕ)

/-- calls of callbacks -/
inductive Event (F : Type) where
  | progress (percent : F)
  | message (callback : ℕ) (m : Msg F)
  | flush (callback : ℕ)

/-- what was reported to the progress callback -/
def reportsOf (ev : List (Event F)) : List F :=
  ev.filterMap fun
    | .progress p => some p
    | _ => none

/-- the messages, whoever got them -/
def messagesOf (ev : List (Event F)) : List (Msg F) :=
  ev.filterMap fun
    | .message _ m => some m
    | _ => none

/-- computations that call callbacks -/
def LM (F : Type) (α : Type) : Type := List (Event F) → Res α × List (Event F)

namespace LM
variable {α β : Type}

/-- sequencing: an error stops the computation -/
def bind (m : LM F α) (f : α → LM F β) : LM F β := fun ev =>
  match m ev with
  | (.ok a, ev') => f a ev'
  | (.error e, ev') => (.error e, ev')

instance : Monad (LM F) where
  pure a := fun ev => (.ok a, ev)
  bind := LM.bind

/-- fail with an error -/
def throw (e : Fail) : LM F α := fun ev => (.error e, ev)

/-- `?` on a `Result` -/
def lift (r : Res α) : LM F α := fun ev => (r, ev)

/-- `attr.rs:251-257` -/
def progress (cb : Option (List F → Bool)) (percent : F) : LM F Bool := fun ev =>
  match cb with
  | none => (.ok false, ev)
  | some f => (.ok (f (reportsOf ev ++ [percent])), ev ++ [.progress percent])

/-- `attr.rs:259-267`, `verbose_print`; `lc` is the log callback -/
def print (lc : Option ℕ) (m : Msg F) : LM F Unit := fun ev =>
  match lc with
  | none => (.ok (), ev)
  | some c => (.ok (), ev ++ [.message c m])

end LM

/-! ### `quant.rs` -/

/-- `quant.rs:376` -/
def stageDone (totalTrials : ℕ) (trialsLeft : ℤ) : F :=
  let x := lit32 (max trialsLeft 0).toNat /₃ lit32 (totalTrials + 1)
  fma32 x (fneg x) (lit32 1)

/-- the loop `quant.rs:371-401` -/
def findLoopL (lc : Option ℕ) (env : Env F) (attr : Attr F) (targetMse : F) (totalTrials : ℕ) (st : FindState F) :
    LM F (PalF F × FindState F) := do
  let (newPal, hist) ← LM.lift (mediancut env.so st.hist st.maxColors (targetMse *₆ st.overshoot)
    (maxMsePerColor targetMse st.paletteError))
  let newPal ← LM.lift (newPal.withFixedColors attr.maxColors hist.fixedColors)
  LM.print lc (.selecting (toU8 (lit32 100 *₃ stageDone totalTrials st.trialsLeft : F)))
  if _hpos : st.trialsLeft ≤ 0 then
    pure (newPal, { st with hist := hist })
  else
    let firstRun := st.best.isNone && lt (lit64 0) targetMse
    let (hist, newPal, totalError) ← LM.lift (env.kmeans st.clock hist newPal (!firstRun))
    let st' := trialUpdate st targetMse totalError newPal
    let abort ← LM.progress attr.progressCallback (overallDone attr totalTrials st.trialsLeft)
    if abort || decide (st'.trialsLeft ≤ 0) then
      match st'.best with
      | some p => pure (p, { st' with hist := hist, clock := st.clock + 1 })
      | none => LM.throw (.err .valueOutOfRange)
    else
      findLoopL lc env attr targetMse totalTrials { st' with hist := hist, clock := st.clock + 1 }
termination_by st.trialsLeft.toNat
decreasing_by
  have := trialUpdate_lt st targetMse totalError newPal
  omega

/-- loop `quant.rs:414-432` of `refine_palette` -/
def refineLoopL (env : Env F) (attr : Attr F) (maxMse : Option F) (iterations : ℕ) (limit : F)
    (clock i : ℕ) (hist : HistogramInternal F) (p : PalF F) (err : Option F) : LM F (PalF F × Option F) := do
  if h : i < iterations then
    let abort ← LM.progress attr.progressCallback (refineDone attr iterations i)
    if abort then pure (p, err)
    else
      let (hist, p, palErr) ← LM.lift (env.kmeans clock hist p false)
      let stop := match err with
        | some prev => lt (fabs (prev -₆ palErr)) limit
        | none => false
      if stop then pure (p, some palErr)
      else
        refineLoopL env attr maxMse iterations limit (clock + 1)
          (i + if lt (maxMse.getD (lit64 (10 ^ 20)) *₆ lit64 (15/10)) palErr then 2 else 1) hist p (some palErr)
  else pure (p, err)
termination_by iterations - i
decreasing_by split <;> omega

/-- `quant.rs:409-435` -/
def refinePaletteL (lc : Option ℕ) (env : Env F) (attr : Attr F) (maxMse : Option F) (clock : ℕ) (hist : HistogramInternal F)
    (p : PalF F) (err : Option F) : LM F (PalF F × Option F) :=
  let (iterations, limit) := attr.kmeansIterationsFor hist.items.length err.isSome
  if 0 < iterations then do
    LM.print lc .moving
    refineLoopL env attr maxMse iterations limit clock 0 hist p err
  else pure (p, err)

/-- `quant.rs:356-406` -/
def findBestPaletteL (lc : Option ℕ) (env : Env F) (attr : Attr F) (targetMse : F) (targetMseIsZero : Bool) (maxMse : Option F)
    (hist : HistogramInternal F) : LM F (PalF F × Option F) := do
  if decide (hist.items.length ≤ attr.maxColors) && targetMseIsZero then
    LM.lift (paletteFromHistogram hist attr.maxColors)
  else
    let (p, st) ← findLoopL lc env attr targetMse (attr.feedbackTrials hist.items.length) (FindState.init attr hist)
    refinePaletteL lc env attr maxMse st.clock st.hist p st.paletteError

/-- `quant.rs:335-338`: number of the last entry that is not opaque, counted from 1 -/
def lastTransparent (p : PalF F) : Option ℕ :=
  ((p.zipIdx.filter fun x => isTransparentColor x.1.color).map fun x => x.2 + 1).max?

/-- `quant.rs:312-343`, `sort_palette` with its message -/
def sortPaletteL (lc : Option ℕ) (last : Bool) (p : PalF F) : LM F (PalF F) := do
  let sorted := sortPalette last p
  if last then pure sorted
  else
    match lastTransparent sorted with
    | some n => do
      LM.print lc (.transparent n)
      pure sorted
    | none => pure sorted

/-- `quant.rs:42-53` -/
def qualityMessage (err maxMse : Option F) : Option (Msg F) :=
  match err, maxMse with
  | some e, some m =>
    if lt m e then some (.degraded (mseToStandardMse e) (mseToQuality e) (mseToStandardMse m) (mseToQuality m)) else none
  | _, _ => none

/-- `quant.rs:32-72` -/
def QuantizationResult.newL (lc : Option ℕ) (env : Env F) (attr : Attr F) (hist : HistogramInternal F) (freeze : Bool) (gamma : F) :
    LM F (QuantizationResult F) := do
  if ← LM.progress attr.progressCallback (lit32 attr.progressStage1) then LM.throw (.err .aborted)
  else
    let (maxMse, targetMse, isZero) := attr.targetMseFor hist.items.length
    let (palette, err) ← findBestPaletteL lc env attr targetMse isZero maxMse hist
    let palette := if freeze then palette.map fun e => { e with pop := e.pop.toFixed } else palette
    if ← LM.progress attr.progressCallback (fma32 (lit32 attr.progressStage3) (lit32 (95/100))
        (lit32 attr.progressStage1 +₃ lit32 attr.progressStage2)) then LM.throw (.err .aborted)
    else
      match qualityMessage err maxMse with
      | some m => do
        LM.print lc m
        LM.throw (.err .qualityTooLow)
      | none => do
        let sorted ← sortPaletteL lc attr.lastIndexTransparent palette
        pure
          { palette := sorted, gamma := gamma, paletteError := err
            minPosterizationOutput := attr.minPosterizationOutput, useDitherMap := attr.useDitherMap
            remapped := none, progressCallback := none, intPalette := [], ditherLevel := lit32 1
            singleThreadedDithering := attr.singleThreadedDithering }

/-- `hist.rs:190-206` -/
def Histogram.quantizeInternalL (lc : Option ℕ) (env : Env F) (h : Histogram F) (attr : Attr F) (freeze : Bool) :
    LM F (QuantizationResult F) := do
  if h.hashmap.isEmpty && h.fixedColors.isEmpty then LM.throw (.err .unsupported)
  else if ← LM.progress attr.progressCallback (lit32 0) then LM.throw (.err .aborted)
  else if ← LM.progress attr.progressCallback (lit32 attr.progressStage1 *₃ lit32 (89/100)) then
    LM.throw (.err .aborted)
  else
    let gamma := h.gamma.getD (lit64 (45455/100000))
    let hist ← LM.lift (h.finalizeBuilder env.ho gamma)
    LM.print lc (.found hist.items.length)
    QuantizationResult.newL lc env attr hist freeze gamma

/-! ### `image.rs` -/

namespace Image

/-- `image.rs:108-109` -/
def messageLimit (attr : Attr F) : ℕ :=
  (if !attr.useContrastMaps && attr.useDitherMap == .none then highMemoryLimit / 8 else highMemoryLimit) / 16

/-- `image.rs:79-114` -/
def newInternalL (lc : Option ℕ) (attr : Attr F) (source : Source) (width height : ℕ) (gamma : F) : LM F (Image F) :=
  if !checkImageSize width height then LM.throw (.err .valueOutOfRange)
  else if !(le (lit64 0) gamma && le gamma (lit64 1)) then do
    LM.print lc .gammaRange
    LM.throw (.err .valueOutOfRange)
  else do
    let img : Image F :=
      { px := { width := width, height := height, fPixels := none, source := source
                gamma := if lt (lit64 0) gamma then gamma else lit64 (45455/100000) }
        importanceMap := none, edges := none, ditherMap := none, background := none, fixedColors := [] }
    if width * height > messageLimit attr then do
      LM.print lc .conserving
      pure img
    else pure img

/-- `image.rs:325-339` -/
def newStrideL (lc : Option ℕ) (attr : Attr F) (buf : List RGBA) (width height stride : ℕ) (gamma : F) : LM F (Image F) := do
  let width ← LM.lift (toU32 width)
  let height ← LM.lift (toU32 height)
  let stride ← LM.lift (toU32 stride)
  match Source.forPixels buf width height stride with
  | .ok source => newInternalL lc attr source width height gamma
  | .error e => do
    LM.print lc (.bufferShort (buf.length * 4) stride height)
    LM.throw e

/-- `image.rs:67-71` -/
def newFnL (lc : Option ℕ) (attr : Attr F) (f : ℕ → ℕ → RGBA) (width height : ℕ) (gamma : F) : LM F (Image F) := do
  let width ← LM.lift (toU32 width)
  let height ← LM.lift (toU32 height)
  newInternalL lc attr (.callback f) width height gamma

end Image

/-! ### `attr.rs` -/

/-- the callbacks of `Attributes`, `attr.rs:31-32` -/
structure LogCallbacks where
  log : Option ℕ
  flush : Option ℕ
deriving DecidableEq

namespace LogCallbacks

/-- `attr.rs:61-62` -/
def init : LogCallbacks := ⟨none, none⟩

/-- `attr.rs:269-275`, `verbose_printf_flush` -/
def flushed (a : LogCallbacks) : List (Event F) :=
  match a.flush with
  | some c => [.flush c]
  | none => []

/-- `attr.rs:218-222` -/
def setLog (a : LogCallbacks) (c : ℕ) : LogCallbacks × List (Event F) := ({ a with log := some c }, a.flushed)

/-- `attr.rs:225-229` -/
def setFlush (a : LogCallbacks) (c : ℕ) : LogCallbacks × List (Event F) := ({ a with flush := some c }, a.flushed)

/-- `attr.rs:337-341` -/
def drop (a : LogCallbacks) : List (Event F) := a.flushed

end LogCallbacks

/-- `attr.rs:104-114` -/
def Attr.setQualityL (lc : Option ℕ) (a : Attr F) (minimum target : ℕ) : LM F (Attr F) :=
  if ¬ target ≤ 100 ∨ target < minimum then LM.throw (.err .valueOutOfRange)
  else do
    if target < 30 then LM.print lc .qualityLow
    pure { a with targetMse := qualityToMse target, maxMse := some (qualityToMse minimum) }

end Verif
