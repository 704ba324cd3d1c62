import Verif.Model.Kmeans

/-!
# Quantization (`src/quant.rs`, `src/hist.rs:180-206`)
-/

namespace Verif
open Flt

variable {F : Type} [Flt F]

/-- `quant.rs:317` -/
def isTransparentColor (c : FPixel F) : Bool := le c.a maxTranspA

/-- `quant.rs:316-319`: sort key comparison "not y < x" of the stable sort -/
def paletteLe (last : Bool) (x y : PalEntry F) : Bool :=
  let bx := isTransparentColor x.color == last
  let by' := isTransparentColor y.color == last
  -- (by, Reverse py) < (bx, Reverse px)
  !((!by' && bx) || (bx == by' && lt x.pop.popularity y.pop.popularity))

/-- `quant.rs:312-343`, `sort_palette` (log output not modelled) -/
def sortPalette (last : Bool) (p : PalF F) : PalF F :=
  let p := p.mergeSort (paletteLe last)
  if last then
    match minByKey (fun x : PalEntry F × ℕ => x.1.color.a)
        (p.zipIdx.filter fun x => isTransparentColor x.1.color) with
    | some (_, i) => swapAt p (p.length - 1) i
    | none => p
  else p

/-- `quant.rs:438-445` -/
def paletteFromHistogram (hist : HistogramInternal F) (maxColors : ℕ) : Res (PalF F × Option F) := do
  let p ← hist.items.foldlM (fun p item => PalF.push p item.color (PalPop.new item.perceptualWeight)) []
  let p ← p.withFixedColors maxColors hist.fixedColors
  return (p, some (lit64 0))

/-- local variables of `find_best_palette`, `quant.rs:364-370`; `clock` counts k-means passes -/
structure FindState (F : Type) where
  hist : HistogramInternal F
  maxColors : ℕ
  trialsLeft : ℤ
  best : Option (PalF F)
  overshoot : F
  failsInARow : ℕ
  paletteError : Option F
  clock : ℕ

/-- `quant.rs:376-377` -/
def overallDone (attr : Attr F) (totalTrials : ℕ) (trialsLeft : ℤ) : F :=
  let x := lit32 (max trialsLeft 0).toNat /₃ lit32 (totalTrials + 1)
  fma32 (fma32 x (fneg x) (lit32 1)) (lit32 attr.progressStage2) (lit32 attr.progressStage1)

/-- `quant.rs:384-397`: updates after one trial -/
def trialUpdate (st : FindState F) (targetMse totalError : F) (newPal : PalF F) : FindState F :=
  if st.best.isNone || lt totalError (st.paletteError.getD f64Max) ||
      (le totalError targetMse && decide (newPal.length < st.maxColors)) then
    { st with
      overshoot :=
        if lt totalError targetMse && lt (lit64 0) totalError then
          if lt (st.overshoot *₆ lit64 (5/4)) (targetMse /₆ totalError)
          then st.overshoot *₆ lit64 (5/4) else targetMse /₆ totalError
        else st.overshoot
      paletteError := some totalError
      maxColors := min st.maxColors (newPal.length + 1)
      trialsLeft := st.trialsLeft - 1
      failsInARow := 0
      best := some newPal }
  else
    { st with
      failsInARow := st.failsInARow + 1
      overshoot := lit64 1
      trialsLeft := st.trialsLeft - (5 + (st.failsInARow + 1 : ℕ)) }

theorem trialUpdate_lt (st : FindState F) (t e : F) (p : PalF F) :
    (trialUpdate st t e p).trialsLeft < st.trialsLeft := by
  unfold trialUpdate; split <;> simp only <;> omega

/-- `quant.rs:372` -/
def maxMsePerColor (targetMse : F) (paletteError : Option F) : F :=
  Flt.fmax (Flt.fmax targetMse (paletteError.getD (qualityToMse 1))) (qualityToMse 51) *₆ lit64 (12/10)

/-- the loop `quant.rs:371-401`; returns the palette and the local variables at the end -/
def findLoop (env : Env F) (attr : Attr F) (targetMse : F) (totalTrials : ℕ) (st : FindState F) :
    PM F (PalF F × FindState F) := do
  let (newPal, hist) ← PM.lift (mediancut env.so st.hist st.maxColors (targetMse *₆ st.overshoot)
    (maxMsePerColor targetMse st.paletteError))
  let newPal ← PM.lift (newPal.withFixedColors attr.maxColors hist.fixedColors)
  if _hpos : st.trialsLeft ≤ 0 then
    pure (newPal, { st with hist := hist })
  else
    let firstRun := st.best.isNone && lt (lit64 0) targetMse
    let (hist, newPal, totalError) ← PM.lift (env.kmeans st.clock hist newPal (!firstRun))
    let st' := trialUpdate st targetMse totalError newPal
    let abort ← progress attr.progressCallback (overallDone attr totalTrials st.trialsLeft)
    if abort || decide (st'.trialsLeft ≤ 0) then
      match st'.best with
      | some p => pure (p, { st' with hist := hist, clock := st.clock + 1 })
      | none => PM.throw (.err .valueOutOfRange)
    else
      findLoop env attr targetMse totalTrials { st' with hist := hist, clock := st.clock + 1 }
termination_by st.trialsLeft.toNat
decreasing_by
  have := trialUpdate_lt st targetMse totalError newPal
  omega

/-- `quant.rs:415-416` -/
def refineDone (attr : Attr F) (iterations i : ℕ) : F :=
  fma32 (lit32 i /₃ lit32 iterations *₃ lit32 attr.progressStage3) (lit32 (89/100))
    (lit32 attr.progressStage1 +₃ lit32 attr.progressStage2)

/-- loop `quant.rs:414-432` of `refine_palette` -/
def refineLoop (env : Env F) (attr : Attr F) (maxMse : Option F) (iterations : ℕ) (limit : F)
    (clock i : ℕ) (hist : HistogramInternal F) (p : PalF F) (err : Option F) : PM F (PalF F × Option F) := do
  if h : i < iterations then
    let abort ← progress attr.progressCallback (refineDone attr iterations i)
    if abort then pure (p, err)
    else
      let (hist, p, palErr) ← PM.lift (env.kmeans clock hist p false)
      let stop := match err with
        | some prev => lt (fabs (prev -₆ palErr)) limit
        | none => false
      if stop then pure (p, some palErr)
      else
        refineLoop env attr maxMse iterations limit (clock + 1)
          (i + if lt (maxMse.getD (lit64 (10 ^ 20)) *₆ lit64 (15/10)) palErr then 2 else 1) hist p (some palErr)
  else pure (p, err)
termination_by iterations - i
decreasing_by split <;> omega

/-- `quant.rs:409-435` -/
def refinePalette (env : Env F) (attr : Attr F) (maxMse : Option F) (clock : ℕ) (hist : HistogramInternal F)
    (p : PalF F) (err : Option F) : PM F (PalF F × Option F) :=
  let (iterations, limit) := attr.kmeansIterationsFor hist.items.length err.isSome
  refineLoop env attr maxMse iterations limit clock 0 hist p err

/-- initial state of the loop, `quant.rs:364-370` -/
def FindState.init (attr : Attr F) (hist : HistogramInternal F) : FindState F :=
  { hist := hist, maxColors := attr.maxColors, trialsLeft := attr.feedbackTrials hist.items.length, best := none
    overshoot := if attr.feedbackTrials hist.items.length > 0 then lit64 (105/100) else lit64 1
    failsInARow := 0, paletteError := none, clock := 0 }

/-- `quant.rs:356-406`, `find_best_palette` -/
def findBestPalette (env : Env F) (attr : Attr F) (targetMse : F) (targetMseIsZero : Bool) (maxMse : Option F)
    (hist : HistogramInternal F) : PM F (PalF F × Option F) := do
  if decide (hist.items.length ≤ attr.maxColors) && targetMseIsZero then
    PM.lift (paletteFromHistogram hist attr.maxColors)
  else
    let (p, st) ← findLoop env attr targetMse (attr.feedbackTrials hist.items.length) (FindState.init attr hist)
    refinePalette env attr maxMse st.clock st.hist p st.paletteError

/-- `remap.rs`, `Remapped` -/
structure Remapped (F : Type) where
  intPalette : List RGBA
  paletteError : Option F

/-- `quant.rs:18-29` -/
structure QuantizationResult (F : Type) where
  remapped : Option (Remapped F)
  palette : PalF F
  progressCallback : Option (List F → Bool)
  /-- `int_palette`; `count == 0` is the empty list -/
  intPalette : List RGBA
  ditherLevel : F
  gamma : F
  paletteError : Option F
  minPosterizationOutput : ℕ
  useDitherMap : DitherMapMode
  singleThreadedDithering : Bool

/-- `quant.rs:42-53` -/
def qualityTooLow (err maxMse : Option F) : Bool :=
  match err, maxMse with
  | some e, some m => lt m e
  | _, _ => false

namespace QuantizationResult

/-- `quant.rs:32-72` -/
def new (env : Env F) (attr : Attr F) (hist : HistogramInternal F) (freeze : Bool) (gamma : F) :
    PM F (QuantizationResult F) := do
  if ← progress attr.progressCallback (lit32 attr.progressStage1) then PM.throw (.err .aborted)
  else
    let (maxMse, targetMse, isZero) := attr.targetMseFor hist.items.length
    let (palette, err) ← findBestPalette env attr targetMse isZero maxMse hist
    let palette := if freeze then palette.map fun e => { e with pop := e.pop.toFixed } else palette
    if ← progress attr.progressCallback (fma32 (lit32 attr.progressStage3) (lit32 (95/100))
        (lit32 attr.progressStage1 +₃ lit32 attr.progressStage2)) then PM.throw (.err .aborted)
    else if qualityTooLow err maxMse then PM.throw (.err .qualityTooLow)
    else
      pure
        { palette := sortPalette attr.lastIndexTransparent palette, gamma := gamma, paletteError := err
          minPosterizationOutput := attr.minPosterizationOutput, useDitherMap := attr.useDitherMap
          remapped := none, progressCallback := none, intPalette := [], ditherLevel := lit32 1
          singleThreadedDithering := attr.singleThreadedDithering }

/-- `quant.rs:168-170` -/
def quantizationQuality (r : QuantizationResult F) : Option ℕ := r.paletteError.map mseToQuality

/-- `quant.rs:135-143` -/
def setDitheringLevel (r : QuantizationResult F) (v : F) : Res (QuantizationResult F) :=
  if le (lit32 0) v && le v (lit32 1) then .ok { r with remapped := none, ditherLevel := v }
  else .error (.err .valueOutOfRange)

/-- `quant.rs:146-155` -/
def setOutputGamma (r : QuantizationResult F) (v : F) : Res (QuantizationResult F) :=
  if le v (lit64 0) || le (lit64 1) v then .error (.err .valueOutOfRange)
  else .ok { r with remapped := none, gamma := v }

/-- `quant.rs:201-215`, `palette()`: may round and cache -/
def getPalette (r : QuantizationResult F) : QuantizationResult F × List RGBA :=
  match r.remapped with
  | some re => (r, re.intPalette)
  | none =>
    if r.intPalette.isEmpty then
      let (p, ip) := r.palette.initIntPalette r.gamma (UInt8.ofNat r.minPosterizationOutput)
      ({ r with palette := p, intPalette := ip }, ip)
    else (r, r.intPalette)

/-- `quant.rs:174-176` -/
def quantizationError (r : QuantizationResult F) : Option F := r.paletteError.map mseToStandardMse

/-- `quant.rs:180-185` -/
def remappingError (r : QuantizationResult F) : Option F :=
  ((r.remapped.bind (·.paletteError)).or r.paletteError).map mseToStandardMse

/-- `quant.rs:189-194` -/
def remappingQuality (r : QuantizationResult F) : Option ℕ :=
  ((r.remapped.bind (·.paletteError)).or r.paletteError).map mseToQuality

/-- `quant.rs:294-310`: clone without the callback -/
def clone (r : QuantizationResult F) : QuantizationResult F := { r with progressCallback := none }

end QuantizationResult

namespace Histogram

/-- `hist.rs:190-206`, `quantize_internal`; the histogram keeps the fixed colours in its map afterwards -/
def quantizeInternal (env : Env F) (h : Histogram F) (attr : Attr F) (freeze : Bool) :
    PM F (QuantizationResult F) := do
  if h.hashmap.isEmpty && h.fixedColors.isEmpty then PM.throw (.err .unsupported)
  else if ← progress attr.progressCallback (lit32 0) then PM.throw (.err .aborted)
  else if ← progress attr.progressCallback (lit32 attr.progressStage1 *₃ lit32 (89/100)) then
    PM.throw (.err .aborted)
  else
    let gamma := h.gamma.getD (lit64 (45455/100000))
    let hist ← PM.lift (h.finalizeBuilder env.ho gamma)
    QuantizationResult.new env attr hist freeze gamma

/-- `hist.rs:185-187`, `quantize` -/
def quantize (env : Env F) (h : Histogram F) (attr : Attr F) : PM F (QuantizationResult F) :=
  h.quantizeInternal env attr true

end Histogram
end Verif
