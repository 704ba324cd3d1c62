import Verif.Model.Image

/-!
# Running out of memory

The rest of the model assumes that memory never runs out. Here the requests that the code makes with `try_reserve` and
`try_reserve_exact` may fail: all of `src/image.rs`, `src/rows.rs`, `src/hist.rs`, `src/mediancut.rs` and `src/kmeans.rs` that is
used by `add_image` and `quantize`. Requests that abort the process when they fail (`Box::new`, `collect`, growth of the hash map,
formatting) are not modelled.

A failed request makes the function return at once (`?`), so what matters is which changes were made before it.
-/

namespace Verif
open Flt

/-- The answers of the allocator: is the `n`-th request granted? -/
abbrev Answers := ℕ → Bool

/-- A computation that requests memory and changes a state, which is kept when it fails. The number counts the requests. -/
def AM (σ α : Type) : Type := Answers → ℕ × σ → Res α × (ℕ × σ)

namespace AM
variable {σ τ α β : Type}

/-- sequencing: an error stops the computation -/
def bind (m : AM σ α) (f : α → AM σ β) : AM σ β := fun mem s =>
  match m mem s with
  | (.ok a, s') => f a mem s'
  | (.error e, s') => (.error e, s')

instance : Monad (AM σ) where
  pure a := fun _ s => (.ok a, s)
  bind := AM.bind

/-- `try_reserve(…)?` and `try_reserve_exact(…)?` with `From<TryReserveError> for Error` (`error.rs:52-57`) -/
def alloc : AM σ Unit := fun mem s =>
  (if mem s.1 then .ok () else .error (.err .outOfMemory), s.1 + 1, s.2)

/-- a request that is only made sometimes -/
def allocIf (b : Bool) : AM σ Unit := if b then alloc else pure ()

/-- the state -/
def get : AM σ σ := fun _ s => (.ok s.2, s)

/-- changes the state -/
def modify (f : σ → σ) : AM σ Unit := fun _ s => (.ok (), s.1, f s.2)

/-- fail with an error -/
def throw (e : Fail) : AM σ α := fun _ s => (.error e, s)

/-- something that requests no memory and changes nothing -/
def lift (r : Res α) : AM σ α := fun _ s => (r, s)

/-- something that requests no memory -/
def run (m : σ → Res α × σ) : AM σ α := fun _ s => ((m s.2).1, s.1, (m s.2).2)

/-- a computation on a part of the state -/
def on (get : σ → τ) (set : τ → σ → σ) (m : AM τ α) : AM σ α := fun mem s =>
  ((m mem (s.1, get s.2)).1, (m mem (s.1, get s.2)).2.1, set (m mem (s.1, get s.2)).2.2 s.2)

end AM

variable {F : Type} [Flt F]

namespace Image

/-- `rows.rs:160-177`, `209-215`, `all_rows_f`: a row for the callback (`rows.rs:213`), then room for all pixels (`rows.rs:169`) -/
def allRowsFA : AM (Image F) (List (List (FPixel F))) := do
  let img ← AM.get
  AM.allocIf img.px.fPixels.isNone
  AM.allocIf img.px.fPixels.isNone
  let (px, rows) ← AM.lift img.px.allRowsF
  AM.modify fun img => { img with px := px }
  return rows

/-- `image.rs:239-305`, `contrast_maps`. The maps are attached to the image before they are computed (`image.rs:246-254`), and are
filtered in place after the last request (`image.rs:291`). -/
def contrastMapsA : AM (Image F) Unit := do
  let img ← AM.get
  if skipsContrastMaps img.width img.height then return ()
  else
    let zeros : List UInt8 := List.replicate (img.width * img.height) 0
    AM.allocIf img.importanceMap.isNone
    AM.modify fun img => { img with importanceMap := img.importanceMap.or (some zeros) }
    AM.allocIf img.edges.isNone
    AM.modify fun img => { img with edges := img.edges.or (some zeros) }
    let rows ← allRowsFA
    let raw ← AM.lift (rawMaps rows img.width img.height)
    AM.modify fun img => { img with importanceMap := some (raw.map (·.1)), edges := some (raw.map (·.2)) }
    AM.alloc
    let (noise, edges) ← AM.lift (filterMaps (raw.map (·.1)) (raw.map (·.2)) img.width img.height)
    AM.modify fun img => { img with importanceMap := some noise, edges := some edges }

end Image

namespace Histogram

/-- what `add_image` changes: the histogram, the image and the progress log -/
abbrev Adding (F : Type) := Histogram F × Image F × List F

/-- `rows.rs:198-206`, the check of `rgba_rows_iter` -/
def sourceGone (r : Rows F) : Bool :=
  match r.source with
  | .pixels [] => true
  | _ => false

/-- `hist.rs:108-110` -/
def mapsA (attr : Attr F) : AM (Adding F) Unit := do
  let s ← AM.get
  if s.2.1.importanceMap.isNone && attr.useContrastMaps then
    AM.on (fun s : Adding F => s.2.1) (fun img s => (s.1, img, s.2.2)) Image.contrastMapsA
  else return ()

/-- `hist.rs:112-131` with `add_pixel_rows` (`hist.rs:250-274`), which asks for one row (`hist.rs:259`) -/
def countA (ho : HashOrder) (attr : Attr F) : AM (Adding F) Unit := do
  AM.modify fun s => ({ s.1 with gamma := s.2.1.gamma }, s.2)
  AM.modify fun s => (if s.2.1.fixedColors.isEmpty then s.1 else s.1.extendFixed s.2.1.fixedColors, s.2)
  let abort ← AM.run fun s =>
    let r := progress attr.progressCallback (lit32 attr.progressStage1 *₃ lit32 (4/10)) s.2.2
    (r.1, (s.1, s.2.1, r.2))
  if abort then AM.throw (.err .aborted)
  else
    let s ← AM.get
    if sourceGone s.2.1.px then AM.throw (.err .unsupported)
    else
      AM.alloc
      let rows ← AM.lift s.2.1.px.rgbaRows
      AM.modify fun s => (s.1.addPixelRows ho s.2.1.width rows (s.2.1.importanceMap.map (·.map UInt8.toNat)) attr.posterizeBits, s.2)

/-- `hist.rs:105-131`, `add_image` -/
def addImageA (ho : HashOrder) (attr : Attr F) : AM (Adding F) Unit := do
  mapsA attr
  countA ho attr

end Histogram

/-! ### Quantization -/

namespace Kmeans

/-- `kmeans.rs:115-121`, `try_merge` -/
def tryMerge (old new : Res (Kmeans F)) : Res (Kmeans F) :=
  match old, new with
  | .ok old, .ok new => .ok (merge old new)
  | .error e, _ => .error e
  | _, .error e => .error e

/-- `kmeans.rs:78-81`: `reduce` and `transpose` -/
def tryReduce : List (Res (Kmeans F)) → Res (Option (Kmeans F))
  | [] => .ok none
  | k :: ks => (ks.foldl tryMerge k).map some

/-- `kmeans.rs:71-75`: every worker asks for its averages once; a worker without averages leaves its batches alone -/
def workersA (mem : Answers) (n : Nearest F) (adjust : Bool) (len : ℕ) (items : List (HistItem F)) :
    ℕ → List (List ℕ) → List (Res (Kmeans F))
  | _, [] => []
  | i, chunks :: sched =>
    (if mem i then .ok (worker n adjust len items chunks) else .error (.err .outOfMemory)) ::
      workersA mem n adjust len items (i + 1) sched

/-- `kmeans.rs:55-86`, `iteration`. The workers run at the same time, so all of them make their request. -/
def iterationA {σ : Type} (sched : List (List ℕ)) (hist : HistogramInternal F) (p : PalF F) (adjust : Bool) :
    AM σ (HistogramInternal F × PalF F × F) := fun mem s =>
  if hist.items.isEmpty then (.ok (hist, p, lit64 0), s)
  else
    match Nearest.new p with
    | .error e => (.error e, s)
    | .ok n =>
      (do
        let k ← tryReduce (workersA mem n adjust p.length hist.items s.1 sched)
        let (p', diff) := match k with
          | some k => (finalizePalette k.averages p, k.weighedDiffSum /₆ hist.totalPerceptualWeight)
          | none => (p, lit64 0)
        let hist' := { hist with items := hist.items.map fun x => (matchItem n adjust x).1 }
        let p'' ← replaceUnused p' hist'.items
        return (hist', p'', diff), s.1 + sched.length, s.2)

end Kmeans

/-- `Kmeans::iteration` with the environment's schedule -/
def Env.kmeansA (env : Env F) (t : ℕ) (hist : HistogramInternal F) (p : PalF F) (adjust : Bool) :
    AM (List F) (HistogramInternal F × PalF F × F) :=
  Kmeans.iterationA (env.sched t (Kmeans.numChunks hist.items.length)) hist p adjust

/-- `mediancut.rs:312-314`; `MedianCutter::new` asks for the list of boxes (`mediancut.rs:234`) -/
def mediancutA (o : SortOracle F) (hist : HistogramInternal F) (target : ℕ) (targetMse maxMsePerColor : F) :
    AM (List F) (PalF F × HistogramInternal F) := do
  AM.alloc
  AM.lift (mediancut o hist target targetMse maxMsePerColor)

/-- `quant.rs:371-401`, as `findLoop` -/
def findLoopA (env : Env F) (attr : Attr F) (targetMse : F) (totalTrials : ℕ) (st : FindState F) :
    AM (List F) (PalF F × FindState F) := do
  let (newPal, hist) ← mediancutA env.so st.hist st.maxColors (targetMse *₆ st.overshoot)
    (maxMsePerColor targetMse st.paletteError)
  let newPal ← AM.lift (newPal.withFixedColors attr.maxColors hist.fixedColors)
  if _hpos : st.trialsLeft ≤ 0 then
    pure (newPal, { st with hist := hist })
  else
    let firstRun := st.best.isNone && lt (lit64 0) targetMse
    let (hist, newPal, totalError) ← env.kmeansA st.clock hist newPal (!firstRun)
    let st' := trialUpdate st targetMse totalError newPal
    let abort ← AM.run (progress attr.progressCallback (overallDone attr totalTrials st.trialsLeft))
    if abort || decide (st'.trialsLeft ≤ 0) then
      match st'.best with
      | some p => pure (p, { st' with hist := hist, clock := st.clock + 1 })
      | none => AM.throw (.err .valueOutOfRange)
    else
      findLoopA env attr targetMse totalTrials { st' with hist := hist, clock := st.clock + 1 }
termination_by st.trialsLeft.toNat
decreasing_by
  have := trialUpdate_lt st targetMse totalError newPal
  omega

/-- `quant.rs:414-432`, as `refineLoop` -/
def refineLoopA (env : Env F) (attr : Attr F) (maxMse : Option F) (iterations : ℕ) (limit : F)
    (clock i : ℕ) (hist : HistogramInternal F) (p : PalF F) (err : Option F) : AM (List F) (PalF F × Option F) := do
  if h : i < iterations then
    let abort ← AM.run (progress attr.progressCallback (refineDone attr iterations i))
    if abort then pure (p, err)
    else
      let (hist, p, palErr) ← env.kmeansA clock hist p false
      let stop := match err with
        | some prev => lt (fabs (prev -₆ palErr)) limit
        | none => false
      if stop then pure (p, some palErr)
      else
        refineLoopA env attr maxMse iterations limit (clock + 1)
          (i + if lt (maxMse.getD (lit64 (10 ^ 20)) *₆ lit64 (15/10)) palErr then 2 else 1) hist p (some palErr)
  else pure (p, err)
termination_by iterations - i
decreasing_by split <;> omega

/-- `quant.rs:409-435` -/
def refinePaletteA (env : Env F) (attr : Attr F) (maxMse : Option F) (clock : ℕ) (hist : HistogramInternal F)
    (p : PalF F) (err : Option F) : AM (List F) (PalF F × Option F) :=
  let (iterations, limit) := attr.kmeansIterationsFor hist.items.length err.isSome
  refineLoopA env attr maxMse iterations limit clock 0 hist p err

/-- `quant.rs:356-406`, `find_best_palette` -/
def findBestPaletteA (env : Env F) (attr : Attr F) (targetMse : F) (targetMseIsZero : Bool) (maxMse : Option F)
    (hist : HistogramInternal F) : AM (List F) (PalF F × Option F) := do
  if decide (hist.items.length ≤ attr.maxColors) && targetMseIsZero then
    AM.lift (paletteFromHistogram hist attr.maxColors)
  else
    let (p, st) ← findLoopA env attr targetMse (attr.feedbackTrials hist.items.length) (FindState.init attr hist)
    refinePaletteA env attr maxMse st.clock st.hist p st.paletteError

/-- `quant.rs:32-72` -/
def QuantizationResult.newA (env : Env F) (attr : Attr F) (hist : HistogramInternal F) (freeze : Bool) (gamma : F) :
    AM (List F) (QuantizationResult F) := do
  if ← AM.run (progress attr.progressCallback (lit32 attr.progressStage1)) then AM.throw (.err .aborted)
  else
    let (maxMse, targetMse, isZero) := attr.targetMseFor hist.items.length
    let (palette, err) ← findBestPaletteA env attr targetMse isZero maxMse hist
    let palette := if freeze then palette.map fun e => { e with pop := e.pop.toFixed } else palette
    if ← AM.run (progress attr.progressCallback (fma32 (lit32 attr.progressStage3) (lit32 (95/100))
        (lit32 attr.progressStage1 +₃ lit32 attr.progressStage2))) then AM.throw (.err .aborted)
    else if qualityTooLow err maxMse then AM.throw (.err .qualityTooLow)
    else
      pure
        { palette := sortPalette attr.lastIndexTransparent palette, gamma := gamma, paletteError := err
          minPosterizationOutput := attr.minPosterizationOutput, useDitherMap := attr.useDitherMap
          remapped := none, progressCallback := none, intPalette := [], ditherLevel := lit32 1
          singleThreadedDithering := attr.singleThreadedDithering }

namespace Histogram

/-- what `quantize` on a histogram changes: the histogram and the progress log -/
abbrev Quantizing (F : Type) := Histogram F × List F

/-- the progress log of the state -/
def onLog {α : Type} (m : AM (List F) α) : AM (Quantizing F) α := AM.on (fun s => s.2) (fun log s => (s.1, log)) m

/-- `hist.rs:190-206`, `quantize_internal`. `finalize_builder` puts the fixed colours into the map (`hist.rs:281-287`) and then asks
for two lists (`hist.rs:290`, `311`). -/
def quantizeInternalA (env : Env F) (attr : Attr F) (freeze : Bool) : AM (Quantizing F) (QuantizationResult F) := do
  let s ← AM.get
  if s.1.hashmap.isEmpty && s.1.fixedColors.isEmpty then AM.throw (.err .unsupported)
  else if ← onLog (AM.run (progress attr.progressCallback (lit32 0))) then AM.throw (.err .aborted)
  else if ← onLog (AM.run (progress attr.progressCallback (lit32 attr.progressStage1 *₃ lit32 (89/100)))) then
    AM.throw (.err .aborted)
  else
    let gamma := s.1.gamma.getD (lit64 (45455/100000))
    AM.modify fun s => (s.1.afterFinalize env.ho, s.2)
    AM.alloc
    AM.alloc
    let hist ← AM.lift (s.1.finalizeBuilder env.ho gamma)
    onLog (QuantizationResult.newA env attr hist freeze gamma)

end Histogram

/-- `attr.rs:79-84`, `Attributes::quantize`: the image and the progress log are changed, the histogram is dropped -/
def quantizeImageA (env : Env F) (attr : Attr F) : AM (Image F × List F) (QuantizationResult F) := fun mem s =>
  match Histogram.addImageA env.ho attr mem (s.1, Histogram.new attr, s.2.1, s.2.2) with
  | (.error e, n, _, img, log) => (.error e, n, img, log)
  | (.ok (), n, h, img, log) =>
    match Histogram.quantizeInternalA env attr false mem (n, h, log) with
    | (r, n, _, log) => (r, n, img, log)

end Verif
