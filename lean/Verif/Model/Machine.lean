import Verif.Model.Remap

/-!
# Machine integers

The functions of the library once more, with every addition, subtraction, multiplication and shift of integers done
in the type it has in the code (`u8`, `u16`, `i16`, `u32`, `i32`, `usize`), panicking where a debug build panics with
"attempt to … with overflow" and a release build would wrap. Everything else is as in the other models, where integers
are unbounded. `usize` is `bits` wide.

Not repeated here: arithmetic that computes an index of a slice (`i * height + j` and the like). Those results are
indices the other models check against the length of the slice, and no slice is longer than `isize::MAX`. Also not
repeated: subtractions right after the comparison that makes them safe (`r -= 1` in `while l < r`), and the 16-bit sums
of `blur.rs`, which `Model/Blur` already checks.
-/

set_option linter.unusedSectionVars false

namespace Verif
open Flt

/-! ### Operations -/

namespace Mach

/-- an unsigned result must be less than `2 ^ n` -/
def fit (n a : ℕ) : Res ℕ := if a < 2 ^ n then .ok a else .error .panic
/-- unsigned `a + b`, `n` bits -/
def add (n a b : ℕ) : Res ℕ := fit n (a + b)
/-- unsigned `a * b`, `n` bits -/
def mul (n a b : ℕ) : Res ℕ := fit n (a * b)
/-- unsigned `a - b` -/
def sub (a b : ℕ) : Res ℕ := if b ≤ a then .ok (a - b) else .error .panic
/-- unsigned `a / b` -/
def div (a b : ℕ) : Res ℕ := if b = 0 then .error .panic else .ok (a / b)
/-- unsigned `a << s`: the amount must be less than the width, bits that leave are dropped -/
def shl (n a s : ℕ) : Res ℕ := if s < n then .ok (a * 2 ^ s % 2 ^ n) else .error .panic
/-- unsigned `a >> s` -/
def shr (n a s : ℕ) : Res ℕ := if s < n then .ok (a / 2 ^ s) else .error .panic

/-- a signed result must fit `n` bits in two's complement -/
def ifit (n : ℕ) (a : ℤ) : Res ℤ := if -(2 ^ (n - 1)) ≤ a ∧ a < 2 ^ (n - 1) then .ok a else .error .panic
/-- signed `a + b` -/
def iadd (n : ℕ) (a b : ℤ) : Res ℤ := ifit n (a + b)
/-- signed `a - b` -/
def isub (n : ℕ) (a b : ℤ) : Res ℤ := ifit n (a - b)
/-- signed `a * b` -/
def imul (n : ℕ) (a b : ℤ) : Res ℤ := ifit n (a * b)
/-- signed `a / b` of non-negative numbers -/
def idiv (a b : ℤ) : Res ℤ := if b = 0 then .error .panic else .ok (a / b)
/-- `1 << s` in `n` bits, signed: the amount must be between 0 and `n`; the sign bit is not expected to be reached -/
def ione (n : ℕ) (s : ℤ) : Res ℤ := if 0 ≤ s ∧ s < n then ifit n (2 ^ s.toNat) else .error .panic
/-- `as` to an unsigned type of `n` bits: truncates -/
def cast (n : ℕ) (a : ℤ) : ℕ := (a % 2 ^ n).toNat
/-- `as` to a signed type of `n` bits: truncates -/
def icast (n : ℕ) (a : ℕ) : ℤ := if a % 2 ^ n < 2 ^ (n - 1) then (a % 2 ^ n : ℕ) else (a % 2 ^ n : ℕ) - 2 ^ n

end Mach

open Mach

variable {F : Type} [Flt F]

/-! ### `attr.rs` -/

namespace Attr

/-- `attr.rs:122-148`, `set_speed`; `value` is an `i32` -/
def setSpeedM (a : Attr F) (value : ℤ) : Res (Attr F) :=
  if ¬ (1 ≤ value ∧ value ≤ 10) then .error (.err .valueOutOfRange)
  else do
    let iterations := cast 16 (max (← isub 32 8 value) 0)
    let iterations ← add 16 iterations ((← mul 16 iterations iterations) / 2)
    let scale ← ione 32 (← isub 32 23 value)
    let trials := cast 16 (max (← isub 32 56 (← imul 32 9 value)) 0)
    let entries ← iadd 32 (← ione 32 17) (← imul 32 (← ione 32 18) (← isub 32 10 value))
    let ditherMap := if value ≤ 6 then DitherMapMode.enabled else DitherMapMode.none
    let ditherMap := if ditherMap ≠ DitherMapMode.none ∧ value < 3 then DitherMapMode.always else ditherMap
    let contrast : Bool := value ≤ 7 || ditherMap != DitherMapMode.none
    let stage1 := if contrast then 20 else 8
    let stage1 ← if trials < 2 then add 8 stage1 30 else .ok stage1
    let stage3 := cast 8 (← idiv 50 (← iadd 32 1 value))
    let stage2 ← sub (← sub 100 stage1) stage3
    .ok { a with
      kmeansIterations := iterations
      kmeansIterationLimit := lit64 1 /₆ lit64 scale
      feedbackLoopTrials := trials
      maxHistogramEntries := cast 32 entries
      minPosterizationInput := if value ≥ 8 then 1 else 0
      useDitherMap := ditherMap
      useContrastMaps := contrast
      singleThreadedDithering := decide (value = 1)
      speed := cast 8 value
      progressStage1 := stage1
      progressStage2 := stage2
      progressStage3 := stage3 }

/-- `attr.rs:280` in `u16` -/
def reduceM (x : ℕ) : Res ℕ := do return (← add 16 (← mul 16 x 3) 3) / 4

/-- the four reductions of `attr.rs:279-290` and `310-320` -/
def reduceBySizeM (x histItems : ℕ) : Res ℕ := do
  let x ← if histItems > 5000 then reduceM x else .ok x
  let x ← if histItems > 25000 then reduceM x else .ok x
  let x ← if histItems > 50000 then reduceM x else .ok x
  if histItems > 100000 then reduceM x else .ok x

/-- `attr.rs:277-292` -/
def feedbackTrialsM (a : Attr F) (histItems : ℕ) : Res ℕ := reduceBySizeM a.feedbackLoopTrials histItems

/-- `attr.rs:307-327` -/
def kmeansIterationsForM (a : Attr F) (histItems : ℕ) (errorKnown : Bool) : Res (ℕ × F) := do
  let iterations ← reduceBySizeM a.kmeansIterations histItems
  let limit := if histItems > 100000 then a.kmeansIterationLimit *₆ lit64 2 else a.kmeansIterationLimit
  let iterations := if iterations = 0 ∧ ¬ errorKnown ∧ a.maxMse.isSome then 1 else iterations
  return (iterations, limit)

end Attr

/-! ### `quant.rs`, the search -/

/-- `quant.rs:376-377`; `total_trials + 1` is an `i16` -/
def overallDoneM (attr : Attr F) (totalTrials trialsLeft : ℤ) : Res F := do
  let n ← iadd 16 totalTrials 1
  let x := lit32 (max trialsLeft 0).toNat /₃ lit32 n
  return fma32 (fma32 x (fneg x) (lit32 1)) (lit32 attr.progressStage2) (lit32 attr.progressStage1)

/-- `quant.rs:384-397`; `max_colors` is a `u16`, `trials_left` and `fails_in_a_row` are `i16` -/
def trialUpdateM (st : FindState F) (targetMse totalError : F) (newPal : PalF F) : Res (FindState F) :=
  if st.best.isNone || lt totalError (st.paletteError.getD f64Max) ||
      (le totalError targetMse && decide (newPal.length < st.maxColors)) then do
    let colors ← add 16 (cast 16 newPal.length) 1
    let left ← isub 16 st.trialsLeft 1
    return { st with
      overshoot :=
        if lt totalError targetMse && lt (lit64 0) totalError then
          if lt (st.overshoot *₆ lit64 (5/4)) (targetMse /₆ totalError)
          then st.overshoot *₆ lit64 (5/4) else targetMse /₆ totalError
        else st.overshoot
      paletteError := some totalError
      maxColors := min st.maxColors colors
      trialsLeft := left
      failsInARow := 0
      best := some newPal }
  else do
    let fails ← iadd 16 st.failsInARow 1
    let left ← isub 16 st.trialsLeft (← iadd 16 5 fails)
    return { st with failsInARow := fails.toNat, overshoot := lit64 1, trialsLeft := left }

theorem Mach.ifit_ok {n : ℕ} {a b : ℤ} (h : ifit n a = .ok b) : b = a := by
  unfold ifit at h; split at h <;> cases h; rfl

theorem Mach.add_ok {n a b c : ℕ} (h : add n a b = .ok c) : c = a + b := by
  unfold add fit at h; split at h <;> cases h; rfl

theorem trialUpdateM_lt {st st' : FindState F} {t e : F} {p : PalF F} (h : trialUpdateM st t e p = .ok st') :
    st'.trialsLeft < st.trialsLeft := by
  unfold trialUpdateM at h
  split at h
  · cases h1 : add 16 (cast 16 p.length) 1 with
    | error e => rw [h1] at h; cases h
    | ok c =>
      cases h2 : isub 16 st.trialsLeft 1 with
      | error e => rw [h1, h2] at h; cases h
      | ok l =>
        rw [h1, h2] at h
        cases h
        have := Mach.ifit_ok h2
        show l < _
        omega
  · cases h1 : iadd 16 st.failsInARow 1 with
    | error e => rw [h1] at h; cases h
    | ok f =>
      cases h2 : iadd 16 5 f with
      | error e =>
        rw [h1] at h
        change (iadd 16 5 f >>= _) = _ at h
        rw [h2] at h; cases h
      | ok k =>
        cases h3 : isub 16 st.trialsLeft k with
        | error e =>
          rw [h1] at h
          change (iadd 16 5 f >>= _) = _ at h
          rw [h2] at h
          change (isub 16 st.trialsLeft k >>= _) = _ at h
          rw [h3] at h; cases h
        | ok l =>
          rw [h1] at h
          change (iadd 16 5 f >>= _) = _ at h
          rw [h2] at h
          change (isub 16 st.trialsLeft k >>= _) = _ at h
          rw [h3] at h
          cases h
          have e1 := Mach.ifit_ok h1
          have e2 := Mach.ifit_ok h2
          have e3 := Mach.ifit_ok h3
          show l < _
          omega

/-- the loop `quant.rs:371-401` -/
def findLoopM (env : Env F) (attr : Attr F) (targetMse : F) (totalTrials : ℤ) (st : FindState F) :
    PM F (PalF F × FindState F) := do
  let (newPal, hist) ← PM.lift (mediancut env.so st.hist st.maxColors (targetMse *₆ st.overshoot)
    (maxMsePerColor targetMse st.paletteError))
  let newPal ← PM.lift (newPal.withFixedColors attr.maxColors hist.fixedColors)
  let done ← PM.lift (overallDoneM attr totalTrials st.trialsLeft)
  if _hpos : st.trialsLeft ≤ 0 then
    pure (newPal, { st with hist := hist })
  else
    let firstRun := st.best.isNone && lt (lit64 0) targetMse
    let (hist, newPal, totalError) ← PM.lift (env.kmeans st.clock hist newPal (!firstRun))
    match _h : trialUpdateM st targetMse totalError newPal with
    | .error e => PM.throw e
    | .ok st' =>
      let abort ← progress attr.progressCallback done
      if abort || decide (st'.trialsLeft ≤ 0) then
        match st'.best with
        | some p => pure (p, { st' with hist := hist, clock := st.clock + 1 })
        | none => PM.throw (.err .valueOutOfRange)
      else
        findLoopM env attr targetMse totalTrials { st' with hist := hist, clock := st.clock + 1 }
termination_by st.trialsLeft.toNat
decreasing_by
  have := trialUpdateM_lt _h
  omega

/-- loop `quant.rs:414-432` of `refine_palette`; `i` is a `u16` -/
def refineLoopM (env : Env F) (attr : Attr F) (maxMse : Option F) (iterations : ℕ) (limit : F)
    (clock i : ℕ) (hist : HistogramInternal F) (p : PalF F) (err : Option F) : PM F (PalF F × Option F) := do
  if h : i < iterations then
    let abort ← progress attr.progressCallback (refineDone attr iterations i)
    if abort then pure (p, err)
    else
      let (hist, p, palErr) ← PM.lift (env.kmeans clock hist p false)
      let stop := match err with
        | some prev => lt (fabs (prev -₆ palErr)) limit
        | none => false
      if stop then pure (p, some palErr)
      else
        match _h : add 16 i (if lt (maxMse.getD (lit64 (10 ^ 20)) *₆ lit64 (15/10)) palErr then 2 else 1) with
        | .error e => PM.throw e
        | .ok i' => refineLoopM env attr maxMse iterations limit (clock + 1) i' hist p (some palErr)
  else pure (p, err)
termination_by iterations - i
decreasing_by
  have := Mach.add_ok _h
  split at this <;> omega

/-- `quant.rs:409-435` -/
def refinePaletteM (env : Env F) (attr : Attr F) (maxMse : Option F) (clock : ℕ) (hist : HistogramInternal F)
    (p : PalF F) (err : Option F) : PM F (PalF F × Option F) := do
  let (iterations, limit) ← PM.lift (attr.kmeansIterationsForM hist.items.length err.isSome)
  refineLoopM env attr maxMse iterations limit clock 0 hist p err

/-- initial state of the loop, `quant.rs:364-370` -/
def FindState.initM (attr : Attr F) (totalTrials : ℤ) (hist : HistogramInternal F) : FindState F :=
  { hist := hist, maxColors := attr.maxColors, trialsLeft := totalTrials, best := none
    overshoot := if totalTrials > 0 then lit64 (105/100) else lit64 1
    failsInARow := 0, paletteError := none, clock := 0 }

/-- `quant.rs:356-406`; `total_trials` is the number of trials `as i16` -/
def findBestPaletteM (env : Env F) (attr : Attr F) (targetMse : F) (targetMseIsZero : Bool) (maxMse : Option F)
    (hist : HistogramInternal F) : PM F (PalF F × Option F) := do
  if decide (hist.items.length ≤ attr.maxColors) && targetMseIsZero then
    PM.lift (paletteFromHistogram hist attr.maxColors)
  else
    let trials ← PM.lift (attr.feedbackTrialsM hist.items.length)
    let total := icast 16 trials
    let (p, st) ← findLoopM env attr targetMse total (FindState.initM attr total hist)
    refinePaletteM env attr maxMse st.clock st.hist p st.paletteError

/-- `quant.rs:32-72` -/
def QuantizationResult.newM (env : Env F) (attr : Attr F) (hist : HistogramInternal F) (freeze : Bool) (gamma : F) :
    PM F (QuantizationResult F) := do
  if ← progress attr.progressCallback (lit32 attr.progressStage1) then PM.throw (.err .aborted)
  else
    -- `1 << min_posterization_output` (`attr.rs:298`) is an `i32`
    let _ ← PM.lift (ione 32 attr.minPosterizationOutput)
    let (maxMse, targetMse, isZero) := attr.targetMseFor hist.items.length
    let (palette, err) ← findBestPaletteM env attr targetMse isZero maxMse hist
    let palette := if freeze then palette.map fun e => { e with pop := e.pop.toFixed } else palette
    if ← progress attr.progressCallback (fma32 (lit32 attr.progressStage3) (lit32 (95/100))
        (lit32 attr.progressStage1 +₃ lit32 attr.progressStage2)) then PM.throw (.err .aborted)
    else if qualityTooLow err maxMse then PM.throw (.err .qualityTooLow)
    else
      pure
        { palette := sortPalette attr.lastIndexTransparent palette, gamma := gamma, paletteError := err
          minPosterizationOutput := attr.minPosterizationOutput, useDitherMap := attr.useDitherMap
          remapped := none, progressCallback := none, intPalette := [], ditherLevel := lit32 1
          singleThreadedDithering := attr.singleThreadedDithering }

/-! ### `hist.rs` -/

/-- `posterize_mask() & rgba`, `hist.rs:215`, `229-233`, `246`: `255 << bits` is a `u8` -/
def maskColorM (bits : ℕ) (c : RGBA) : Res RGBA := do
  let m ← shl 8 255 bits
  return c.map (· &&& UInt8.ofNat m)

namespace Histogram

/-- `hist.rs:209-222` -/
def addColorM (h : Histogram F) (rgba : RGBA) (boost : ℕ) : Res (Histogram F) :=
  if boost = 0 then .ok h
  else do
    let key ← if rgba.a ≠ 0 then maskColorM h.posterizeBits rgba else .ok ⟨0, 0, 0, 0⟩
    return { h with hashmap := ColorMap.upsert h.hashmap key fun
        | some (n, c) => (satAdd n boost, c)
        | none => (boost, rgba) }

/-- `hist.rs:236-248` -/
def initPosterizeBitsM (ho : HashOrder) (h : Histogram F) (bits : ℕ) : Res (Histogram F) :=
  if h.posterizeBits ≥ bits then .ok h
  else do
    let map ← (ho.map h.hashmap).foldlM (fun m (k, v) => do return ColorMap.upsert m (← maskColorM bits k) (fun _ => v)) []
    return { h with posterizeBits := bits, hashmap := map }

/-- `hist.rs:263-266` -/
def addRowM (h : Histogram F) : List RGBA → List ℕ → Res (Histogram F)
  | [], _ => .ok h
  | px :: pxs, [] => do addRowM (← h.addColorM px 255) pxs []
  | px :: pxs, b :: bs => do addRowM (← h.addColorM px b) pxs bs

/-- `hist.rs:260-267` -/
def addRowsM (h : Histogram F) (width : ℕ) : List (List RGBA) → List ℕ → Res (Histogram F)
  | [], _ => .ok h
  | row :: rows, imp =>
    if imp.length < width
    then do addRowsM (← h.addRowM row []) width rows []
    else do addRowsM (← h.addRowM row (imp.take width)) width rows (imp.drop width)

/-- `hist.rs:268-273`; `posterize_bits` is a `u8` -/
def finishRowsM (ho : HashOrder) (h : Histogram F) (bits : ℕ) : Res (Histogram F) := do
  let h ← h.initPosterizeBitsM ho bits
  if h.hashmap.length > h.maxHistogramEntries ∧ h.posterizeBits < 3
  then h.initPosterizeBitsM ho (← add 8 h.posterizeBits 1) else return h

/-- `hist.rs:250-274` -/
def addPixelRowsM (ho : HashOrder) (h : Histogram F) (width : ℕ) (rows : List (List RGBA))
    (importance : Option (List ℕ)) (bits : ℕ) : Res (Histogram F) := do
  (← h.addRowsM width rows (importance.getD [])).finishRowsM ho bits

/-- `hist.rs:140-160` -/
def addColorsM (h : Histogram F) (entries : List (RGBA × ℕ)) (gamma : F) : Res (Histogram F) :=
  if entries.isEmpty ∨ entries.length > 2 ^ 24 then .error (.err .valueOutOfRange)
  else if ¬ (le (lit64 0) gamma = true ∧ lt gamma (lit64 1) = true) then .error (.err .valueOutOfRange)
  else
    let h := if h.gamma.isNone ∧ lt (lit64 0) gamma = true then { h with gamma := some gamma } else h
    entries.foldlM (fun h (c, n) => h.addColorM c n) h

/-- `hist.rs:292-295`: counters of 32 bits -/
def clusterCountsM (temp : List (TempHistItem F)) : Res (List ℕ) :=
  temp.foldlM (fun counts t => do
    let n ← add 32 (← index counts t.cluster) 1
    return counts.set t.cluster n) (List.replicate maxCluster 0)

/-- `hist.rs:302-308`: running sums of 32 bits -/
def clusterBeginsM : ℕ → List ℕ → Res (List (ℕ × ℕ))
  | _, [] => .ok []
  | next, c :: cs => do
    let next' ← add 32 next c
    let rest ← clusterBeginsM next' cs
    return (next, next) :: rest

/-- body of the loop `hist.rs:327-343` -/
def placeItemM (lut : UInt8 → F) (maxW : F)
    (st : List (ℕ × ℕ) × List (HistItem F) × F) (t : TempHistItem F) :
    Res (List (ℕ × ℕ) × List (HistItem F) × F) :=
  let (clusters, items, total) := st
  match clusters[t.cluster]? with
  | none => .error .panic
  | some (b, e) => do
    let e' ← add 32 e 1
    if e < items.length then
      .ok (clusters.set t.cluster (b, e'), items.set e (mkItem lut maxW t),
        total +₆ itemWeight maxW t)
    else .error .panic

/-- `hist.rs:276-350` -/
def finalizeBuilderM (ho : HashOrder) (h : Histogram F) (gamma : F) : Res (HistogramInternal F) := do
  let map := h.insertFixedColors ho
  let temp : List (TempHistItem F) := tempItems ho map
  let clusters ← clusterBeginsM 0 (← clusterCountsM temp)
  let maxW := maxPerceptualWeight temp
  let lut := gammaLut gamma
  let (clusters, items, total) ← temp.foldlM (placeItemM lut maxW)
    (clusters, List.replicate temp.length blankItem, lit64 0)
  let fixed := (ho.set h.fixedColors).mergeSort (fun x y => decide (x.2 ≤ y.2))
  return { items := items, totalPerceptualWeight := total, clusters := clusters
           fixedColors := fixed.map fun c => FPixel.fromRgba lut c.1 }

/-- `hist.rs:190-206` -/
def quantizeInternalM (env : Env F) (h : Histogram F) (attr : Attr F) (freeze : Bool) :
    PM F (QuantizationResult F) := do
  if h.hashmap.isEmpty && h.fixedColors.isEmpty then PM.throw (.err .unsupported)
  else if ← progress attr.progressCallback (lit32 0) then PM.throw (.err .aborted)
  else if ← progress attr.progressCallback (lit32 attr.progressStage1 *₃ lit32 (89/100)) then
    PM.throw (.err .aborted)
  else
    let gamma := h.gamma.getD (lit64 (45455/100000))
    let hist ← PM.lift (h.finalizeBuilderM env.ho gamma)
    QuantizationResult.newM env attr hist freeze gamma

end Histogram

/-! ### `image.rs` -/

namespace Image

/-- `image.rs:116-125` for pointers of `bits` bits -/
def checkImageSizeM (bits width height : ℕ) : Bool :=
  if width = 0 ∨ height = 0 then false
  else if max width height > 2 ^ 31 - 1 ∨ width > (2 ^ (bits - 1) - 1) / 16 / height then false
  else true

/-- `rows.rs:20-36`: `checked_mul` and `checked_add` report an error instead of panicking, `- stride` does not -/
def _root_.Verif.Source.forPixelsM (bits : ℕ) (buf : List RGBA) (width height stride : ℕ) : Res Source :=
  if stride < width ∨ height = 0 ∨ width = 0 then .error (.err .valueOutOfRange)
  else if stride * height ≥ 2 ^ bits ∨ stride * height + width ≥ 2 ^ bits then .error (.err .valueOutOfRange)
  else do
    let minArea ← sub (stride * height + width) stride
    if buf.length < minArea then .error (.err .bufferTooSmall)
    else
      let nChunks := (buf.length + stride - 1) / stride
      return .pixels (((List.range nChunks).map fun y => buf.drop (y * stride)).take height)

/-- `image.rs:79-114`; `width * height` decides whether to mention memory -/
def newInternalM (bits : ℕ) (source : Source) (width height : ℕ) (gamma : F) : Res (Image F) :=
  if !checkImageSizeM bits width height then .error (.err .valueOutOfRange)
  else if !(le (lit64 0) gamma && le gamma (lit64 1)) then .error (.err .valueOutOfRange)
  else do
    let _ ← mul bits width height
    return { px := { width := width, height := height, fPixels := none, source := source
                     gamma := if lt (lit64 0) gamma then gamma else lit64 (45455/100000) }
             importanceMap := none, edges := none, ditherMap := none, background := none, fixedColors := [] }

/-- `image.rs:325-339` -/
def newStrideM (bits : ℕ) (buf : List RGBA) (width height stride : ℕ) (gamma : F) : Res (Image F) := do
  let width ← toU32 width
  let height ← toU32 height
  let stride ← toU32 stride
  let source ← Source.forPixelsM bits buf width height stride
  newInternalM bits source width height gamma

/-- `image.rs:67-71` -/
def newFnM (bits : ℕ) (f : ℕ → ℕ → RGBA) (width height : ℕ) (gamma : F) : Res (Image F) := do
  let width ← toU32 width
  let height ← toU32 height
  newInternalM bits (.callback f) width height gamma

/-- `image.rs:178-185` -/
def setImportanceMapM (bits : ℕ) (img : Image F) (map : List UInt8) : Res (Image F) := do
  let area ← mul bits img.width img.height
  if map.length ≠ area then .error (.err .bufferTooSmall)
  else return { img with importanceMap := some map }

/-- `image.rs:242` in `usize` -/
def skipsContrastMapsM (bits width height : ℕ) : Res Bool :=
  if width < 4 ∨ height < 4 then .ok true
  else do return decide ((← mul bits (← mul bits 3 width) height) > highMemoryLimit)

/-- `image.rs:239-305`; the buffers have `width * height` bytes -/
def contrastMapsM (bits : ℕ) (img : Image F) : Res (Image F) := do
  if ← skipsContrastMapsM bits img.width img.height then return img
  else
    let (px, rows) ← img.px.allRowsF
    let _ ← mul bits img.width img.height
    let raw ← rawMaps rows img.width img.height
    let (noise, edges) ← filterMaps (raw.map (·.1)) (raw.map (·.2)) img.width img.height
    return { img with px := px, importanceMap := some noise, edges := some edges }

/-- `image.rs:146-158`: `neighbor_count` is a `usize` -/
def neighborCountM (bits : ℕ) (prevRow nextRow : Option (List UInt8)) (lastpixel : UInt8) (lastcol col : ℕ) : Res ℕ := do
  let n ← mul bits 10 (← sub col lastcol)
  (List.range' lastcol (col - lastcol)).foldlM (fun n i => do
    let n ← add bits n (← neighborAt prevRow lastpixel i)
    add bits n (← neighborAt nextRow lastpixel i)) n

/-- `image.rs:159-163`: `edges[lastcol] + 128` is a `u16`, `20 + neighbor_count` a `usize` -/
def ditherEdgeM (F : Type) [Flt F] (bits : ℕ) (e : UInt8) (count : ℕ) : Res UInt8 := do
  let x ← add 16 e.toNat 128
  let y ← add bits 20 count
  return toU8 (lit32 (x : ℕ) *₃ ((lit32 255 : F) /₃ lit32 383) *₃ (lit32 1 -₃ lit32 20 /₃ lit32 (y : ℕ)))

/-- body of the loop `image.rs:139-167` -/
def ditherMapStepM (bits : ℕ) (colors : PalF F) (usesBackground : Bool) (width : ℕ) (prevRow nextRow : Option (List UInt8))
    (st : UInt8 × ℕ × List UInt8) (x : UInt8 × ℕ) : Res (UInt8 × ℕ × List UInt8) := do
  let (px, col) := x
  let (lastpixel, lastcol, edges) := st
  let skip ← if usesBackground then do
      let c ← index colors px.toNat
      pure (lt c.color.a minOpaqueA)
    else pure false
  if skip then return st
  else if px ≠ lastpixel ∨ col = width - 1 then
    let count ← neighborCountM bits prevRow nextRow lastpixel lastcol col
    let edges ← (List.range' lastcol (col + 1 - lastcol)).foldlM (fun edges i => do
      store edges i (← ditherEdgeM F bits (← index edges i) count)) edges
    return (px, max lastcol (col + 1), edges)
  else return st

/-- `image.rs:136-169` -/
def ditherMapRowM (bits : ℕ) (colors : PalF F) (usesBackground : Bool) (width : ℕ) (prevRow : Option (List UInt8))
    (thisRow : List UInt8) (nextRow : Option (List UInt8)) (edges : List UInt8) : Res (List UInt8) := do
  let first ← index thisRow 0
  let st ← (thisRow.zipIdx.drop 1).foldlM (ditherMapStepM bits colors usesBackground width prevRow nextRow) (first, 0, edges)
  return st.2.2

/-- `image.rs:135-170` -/
def ditherMapRowsM (bits : ℕ) (colors : PalF F) (usesBackground : Bool) (width : ℕ) :
    Option (List UInt8) → List (List UInt8 × List UInt8) → Res (List (List UInt8))
  | _, [] => .ok []
  | prev, (this, e) :: rest => do
    let e ← ditherMapRowM bits colors usesBackground width prev this (rest.head?.map (·.1)) e
    let es ← ditherMapRowsM bits colors usesBackground width (some this) rest
    return e :: es

/-- `image.rs:127-173` -/
def updateDitherMapM (bits : ℕ) (img : Image F) (remapped : List (List UInt8)) (palette : PalF F) (usesBackground : Bool) :
    Res (Image F) := do
  let img ← if img.edges.isNone then img.contrastMapsM bits else .ok img
  match img.edges with
  | none => return img
  | some edges =>
    let rows := remapped.zip (chunksExact img.width edges)
    let out ← ditherMapRowsM bits palette usesBackground img.width none rows
    return { img with edges := none
                      ditherMap := some (out.flatten ++ edges.drop (rows.length * img.width)) }

end Image

/-- `hist.rs:125-126`: `surface_area` and the estimate are `usize` -/
def estimatedColorsM (bits width height posterize : ℕ) : Res ℕ := do
  let area ← mul bits height width
  let d ← add bits posterize (if area > 512 * 512 then 7 else 5)
  return min (← div area d) 250000

/-- `hist.rs:105-131`; the estimate only decides how much memory is reserved -/
def Histogram.addImageM (bits : ℕ) (ho : HashOrder) (h : Histogram F) (attr : Attr F) (img : Image F) (log : List F) :
    (Res Unit × Histogram F × Image F) × List F :=
  match (if img.importanceMap.isNone && attr.useContrastMaps then img.contrastMapsM bits else .ok img) with
  | .error e => ((.error e, h, img), log)
  | .ok img =>
    let h := { h with gamma := img.gamma }
    let h := if img.fixedColors.isEmpty then h else h.extendFixed img.fixedColors
    match progress attr.progressCallback (lit32 attr.progressStage1 *₃ lit32 (4/10)) log with
    | (.error e, log) => ((.error e, h, img), log)
    | (.ok true, log) => ((.error (.err .aborted), h, img), log)
    | (.ok false, log) =>
      match estimatedColorsM bits img.width img.height attr.posterizeBits with
      | .error e => ((.error e, h, img), log)
      | .ok _ =>
        match img.px.rgbaRows with
        | .error e => ((.error e, h, img), log)
        | .ok rows =>
          match h.addPixelRowsM ho img.width rows (img.importanceMap.map (·.map UInt8.toNat)) attr.posterizeBits with
          | .error e => ((.error e, h, img), log)
          | .ok h => ((.ok (), h, img), log)

/-! ### `pal.rs` -/

/-- `pal.rs:327-333`, `posterize_channel`, in `u8` -/
def PalF.posterizeChannelM (c : UInt8) (bits : ℕ) : Res UInt8 :=
  if bits = 0 then .ok c
  else do
    let low ← sub (← shl 8 1 bits) 1
    let high ← shr 8 c.toNat (← sub 8 bits)
    return (c &&& ~~~(UInt8.ofNat low)) ||| UInt8.ofNat high

/-- body of the loop `pal.rs:312-320` -/
def PalF.roundEntryM (gamma : F) (posterize : ℕ) (e : PalEntry F) : Res (PalEntry F × RGBA) := do
  let c := e.color.toRgb gamma
  let px : RGBA := ⟨← posterizeChannelM c.r posterize, ← posterizeChannelM c.g posterize,
    ← posterizeChannelM c.b posterize, ← posterizeChannelM c.a posterize⟩
  let color := FPixel.fromRgba (gammaLut gamma) px
  let px := if px.a = 0 ∧ ¬ e.pop.isFixed then { px with r := 71, g := 112, b := 76 } else px
  return (⟨color, e.pop⟩, px)

/-- `pal.rs:309-323` -/
def PalF.initIntPaletteM (p : PalF F) (gamma : F) (posterize : ℕ) : Res (PalF F × List RGBA) := do
  let l ← p.mapM (roundEntryM gamma posterize)
  return (l.map (·.1), l.map (·.2))

/-- `quant.rs:201-215` -/
def QuantizationResult.getPaletteM (r : QuantizationResult F) : Res (QuantizationResult F × List RGBA) :=
  match r.remapped with
  | some re => .ok (r, re.intPalette)
  | none =>
    if r.intPalette.isEmpty then do
      let (p, ip) ← r.palette.initIntPaletteM r.gamma r.minPosterizationOutput
      return ({ r with palette := p, intPalette := ip }, ip)
    else .ok (r, r.intPalette)

/-! ### `remap.rs` and remapping in `quant.rs` -/

/-- `remap.rs:29-102`; the number of pixels is a `u32` -/
def remapToPaletteM (env : RemapEnv F) (px : Rows F) (bg : Option (Rows F)) (imp : Option (List UInt8))
    (nrows : ℕ) (p : PalF F) : Res F × RemapOut F :=
  match Nearest.new p with
  | .error e => (.error e, ⟨px, bg, none, p⟩)
  | .ok n =>
    match px.prepare true with
    | .error e => (.error e, ⟨px, bg, none, p⟩)
    | .ok px =>
      let (usedBg, ti) := pickBackground n bg
      match prepareOpt usedBg with
      | .error e => (.error e, ⟨px, bg, none, p⟩)
      | .ok usedBg =>
        let bg := if usedBg.isSome then usedBg else bg
        match remapLoop (env.sched nrows).order n ti px usedBg imp nrows with
        | .error e => (.error e, ⟨px, bg, none, p⟩)
        | .ok outs =>
          let total := env.sum (outs.map (·.err))
          let rows := outs.map (·.bytes)
          if isNan total then (.error (.err .outOfMemory), ⟨px, bg, some rows, p⟩)
          else
            match mul 32 px.width px.height with
            | .error e => (.error e, ⟨px, bg, some rows, p⟩)
            | .ok count =>
              (.ok (total /₆ lit64 (count : ℕ)), ⟨px, bg, some rows, remapFinish env outs usedBg.isSome ti p⟩)

/-- `remap.rs:271-299`; `undithered_bg_used` is a `u8` -/
def ditherChooseM (ctx : DitherCtx F) (bg : Option (FPixel F)) (inputPx spx : FPixel F) (guess last : UInt8)
    (ditherDiff : F) (bgUsed : ℕ) : Res (UInt8 × FPixel F × ℕ) := do
  let outputPx := (← index ctx.n.palette last.toNat).color
  match bg with
  | none => return (last, outputPx, bgUsed)
  | some bg =>
    if le (spx.diff bg) ditherDiff then return (ctx.ti, bg, bgUsed)
    else if bgUsed > 1 then return (last, outputPx, 0)
    else
      let maxDiff := inputPx.diff bg
      if lt maxDiff (inputPx.diff outputPx) then
        let guessed := (← index ctx.n.palette guess.toNat).color
        if lt (inputPx.diff guessed) maxDiff then return (guess, guessed, ← add 8 bgUsed 1)
        else return (last, outputPx, bgUsed)
      else return (last, outputPx, bgUsed)

/-- body of the loop `remap.rs:252-318`; `width - 1 - x` is a `usize` -/
def ditherStepM (ctx : DitherCtx F) (row bg : List (FPixel F)) (dmap : List UInt8) (even : Bool)
    (st : DitherState F) (x : ℕ) : Res (DitherState F) := do
  let col ← if even then .ok x else do sub (← sub ctx.width 1) x
  let inputPx ← index row col
  let level := match dmap[col]? with
    | some l => ctx.base *₃ lit32 l.toNat
    | none => ctx.base
  let spx := ditheredPixel level ctx.maxErr (st.thiserr.getD (col + 1) FPixel.default) inputPx
  let (guess, un) := ditherGuess ctx st col
  let (m, ditherDiff) := ctx.n.search spx guess.toNat
  let last := UInt8.ofNat m
  let (matched, outputPx, bgUsed) ← ditherChooseM ctx bg[col]? inputPx spx guess last ditherDiff st.bgUsed
  let (thiserr, nexterr) := diffuse even col (pixelError ctx.maxErr spx outputPx) st.thiserr st.nexterr
  return { thiserr := thiserr, nexterr := nexterr, bgUsed := bgUsed, last := last
           out := st.out.set col (some matched), uninit := st.uninit || un }

/-- `remap.rs:235-319`, `dither_row` -/
def ditherRowM (ctx : DitherCtx F) (row bg : List (FPixel F)) (dmap : List UInt8) (d : Diffusion F) (even : Bool)
    (out : List (Option UInt8)) : Res (DitherOut F (List (Option UInt8))) :=
  if row.length ≠ ctx.width ∨ out.length ≠ ctx.width then .error .panic
  else do
    let thiserr := if even then d.1 else d.2
    let st ← (List.range ctx.width).foldlM (ditherStepM ctx row bg dmap even)
      { thiserr := thiserr, nexterr := List.replicate (ctx.width + 2) FPixel.default, bgUsed := 0, last := 0
        out := out, uninit := false }
    return ⟨if even then (st.thiserr, st.nexterr) else (st.nexterr, st.thiserr), st.out, st.uninit⟩

/-- `remap.rs:207-212`, `220-226`: `row * width .. row * width + width` in `usize` -/
def ditherImageRowM (bits : ℕ) (ctx : DitherCtx F) (inp : DitherInput F) (d : Diffusion F) (y : ℕ) (out : List (Option UInt8)) :
    Res (DitherOut F (List (Option UInt8))) := do
  let row ← inp.px.rowF y
  let bgRow ← match inp.bg with
    | some b => b.rowF y
    | none => pure []
  let start ← mul bits y inp.px.width
  let stop ← add bits start inp.px.width
  let dmap := if stop ≤ inp.dmap.length then (inp.dmap.drop start).take inp.px.width else []
  ditherRowM ctx row bgRow dmap d (y % 2 == 0) out

/-- `remap.rs:219-227`: `chunk_start_row + chunk_row` in `usize` -/
def ditherRowsM (bits : ℕ) (ctx : DitherCtx F) (inp : DitherInput F) (start : ℕ) :
    Diffusion F → ℕ → List (List (Option UInt8)) → Res (DitherOut F (List (List (Option UInt8))))
  | d, _, [] => .ok ⟨d, [], false⟩
  | d, i, out :: outs => do
    let r ← ditherImageRowM bits ctx inp d (← add bits start i) out
    let rs ← ditherRowsM bits ctx inp start r.diffusion (i + 1) outs
    return ⟨rs.diffusion, r.out :: rs.out, r.uninit || rs.uninit⟩

/-- `remap.rs:193-214`: `errwidth`, `errwidth * 2` and `chunk_start_row - 2` are `usize` -/
def warmUpM (bits : ℕ) (ctx : DitherCtx F) (inp : DitherInput F) (start : ℕ) : Res (Diffusion F × Bool) := do
  let errwidth ← add bits ctx.width 2
  let _ ← mul bits errwidth 2
  if start > 2 then do
    let first ← sub start 2
    let r ← ditherImageRowM bits ctx inp (Diffusion.zero ctx.width) first (List.replicate ctx.width none)
    let r' ← ditherImageRowM bits ctx inp r.diffusion (first + 1) r.out
    return (r'.diffusion, r.uninit || r'.uninit)
  else .ok (Diffusion.zero ctx.width, false)

/-- `remap.rs:188` in `usize` -/
def ditherChunksM (bits : ℕ) (single : Bool) (width height cpus : ℕ) : Res ℕ :=
  if single then .ok 1
  else do
    let area ← mul bits width height
    return min (max (min (area / 524288) (height / 128)) (if height > 128 then 2 else 1)) cpus

/-- the loop `remap.rs:191-229`; `chunk_start_row` is a `usize` -/
def floydChunksM (bits : ℕ) (ctx : DitherCtx F) (inp : DitherInput F) (cb : Option (List F → Bool)) (stage1 : ℕ) :
    ℕ → List (List (List (Option UInt8))) → List F → FloydOut × List F
  | _, [], log => (⟨.ok (), [], false⟩, log)
  | start, chunk :: chunks, log =>
    match warmUpM bits ctx inp start with
    | .error e => (⟨.error e, (chunk :: chunks).flatten, false⟩, log)
    | .ok (d, un) =>
      match progress cb (ditherProgress stage1 start inp.px.height) log with
      | (.error e, log) => (⟨.error e, (chunk :: chunks).flatten, un⟩, log)
      | (.ok true, log) => (⟨.error (.err .aborted), (chunk :: chunks).flatten, un⟩, log)
      | (.ok false, log) =>
        match ditherRowsM bits ctx inp start d 0 chunk with
        | .error e => (⟨.error e, (chunk :: chunks).flatten, un⟩, log)
        | .ok r =>
          match add bits start chunk.length with
          | .error e => (⟨.error e, r.out ++ chunks.flatten, un || r.uninit⟩, log)
          | .ok next =>
            let (rest, log) := floydChunksM bits ctx inp cb stage1 next chunks log
            (⟨rest.res, r.out ++ rest.rows, un || r.uninit || rest.uninit⟩, log)

/-- `remap.rs:189`: `(height + num_chunks - 1) / num_chunks` -/
def chunkHeightM (bits height chunks : ℕ) : Res ℕ := do div (← sub (← add bits height chunks) 1) chunks

/-- `remap.rs:147-232` -/
def remapFloydM (bits : ℕ) (env : RemapEnv F) (s : RemapState F) (palette : PalF F) (maxErr : F) (isRemapped : Bool) :
    Res Unit × RemapState F :=
  let dmap := ditherMapOf s.image s.quant.useDitherMap
  match Nearest.new palette with
  | .error e => (.error e, s)
  | .ok n =>
    match prepareOpt s.image.background with
    | .error e => (.error e, s)
    | .ok bg =>
      let s := { s with image := { s.image with background := bg } }
      let (bg, ti) := pickBackgroundFloyd n bg
      match s.image.px.prepare true with
      | .error e => (.error e, s)
      | .ok px =>
        let s := { s with image := { s.image with px := px } }
        let ctx : DitherCtx F :=
          { n := n, width := px.width, base := baseDitherLevel s.quant.ditherLevel (!dmap.isEmpty), maxErr := maxErr
            ti := ti, guess := isRemapped && bg.isNone, garbage := env.garbage }
        match ditherChunksM bits s.quant.singleThreadedDithering px.width px.height env.cpus with
        | .error e => (.error e, s)
        | .ok chunks =>
          match chunkHeightM bits px.height chunks with
          | .error e => (.error e, s)
          | .ok tall =>
            let (r, log) := floydChunksM bits ctx ⟨px, bg, dmap⟩ s.quant.progressCallback (remapStage1 s.quant.useDitherMap) 0
              (chunksOf tall s.out) s.log
            (r.res, { s with out := r.rows, log := log, uninit := s.uninit || r.uninit })

/-- `quant.rs:121-124`; `width * height` and `2000 * 2000` are `u32` -/
def generatesDitherMapM (mode : DitherMapMode) (img : Image F) : Res Bool := do
  let area ← mul 32 img.px.width img.px.height
  let limit ← mul 32 2000 2000
  return (mode == .always || (!decide (area > limit) && mode != .none)) && img.ditherMap.isNone

/-- `quant.rs:120-132` -/
def generateDitherMapM (bits : ℕ) (env : RemapEnv F) (s : RemapState F) (usesBackground : Bool) (palette : PalF F) :
    Res (Option F × PalF F) × RemapState F :=
  match generatesDitherMapM s.quant.useDitherMap s.image with
  | .error e => (.error e, s)
  | .ok false => (.ok (none, palette), s)
  | .ok true =>
    match remapToPaletteM env s.image.px none s.image.importanceMap s.out.length palette with
    | (.error e, r) => (.error e, { s with image := { s.image with px := r.px }, out := writeRows r.rows s.out })
    | (.ok err, r) =>
      let s := { s with image := { s.image with px := r.px }, out := writeRows r.rows s.out }
      match s.image.updateDitherMapM bits (r.rows.getD []) r.palette usesBackground with
      | .error e => (.error e, s)
      | .ok img => (.ok (some err, r.palette), { s with image := img })

/-- `quant.rs:98-101`, dithering off -/
def remapPlainM (env : RemapEnv F) (s : RemapState F) : Res (Remapped F) × RemapState F :=
  match s.quant.palette.initIntPaletteM s.quant.gamma s.quant.minPosterizationOutput with
  | .error e => (.error e, s)
  | .ok (palette, ip) =>
    match remapToPaletteM env s.image.px s.image.background s.image.importanceMap s.out.length palette with
    | (res, r) =>
      let s := { s with image := { s.image with px := r.px, background := r.background }, out := writeRows r.rows s.out }
      match res with
      | .error e => (.error e, s)
      | .ok err => (.ok ⟨ip, some err⟩, s)

/-- `quant.rs:101-115`, dithering on -/
def remapDitheredM (bits : ℕ) (env : RemapEnv F) (s : RemapState F) : Res (Remapped F) × RemapState F :=
  match generateDitherMapM bits env s s.image.background.isSome s.quant.palette with
  | (.error e, s) => (.error e, s)
  | (.ok (mapErr, palette), s) =>
    match progress s.quant.progressCallback (lit32 (remapStage1 s.quant.useDitherMap) *₃ lit32 (1/2)) s.log with
    | (.error e, log) => (.error e, { s with log := log })
    | (.ok true, log) => (.error (.err .aborted), { s with log := log })
    | (.ok false, log) =>
      let s := { s with log := log }
      let err := mapErr.or s.quant.paletteError
      match palette.initIntPaletteM s.quant.gamma s.quant.minPosterizationOutput with
      | .error e => (.error e, s)
      | .ok (palette, ip) =>
        match remapFloydM bits env s palette (maxDitherError err) mapErr.isSome with
        | (.error e, s) => (.error e, s)
        | (.ok (), s) => (.ok ⟨ip, err⟩, s)

/-- `quant.rs:84-118` -/
def writeRemappedM (bits : ℕ) (env : RemapEnv F) (s : RemapState F) : Res Unit × RemapState F :=
  match progress s.quant.progressCallback (lit32 (remapStage1 s.quant.useDitherMap) *₃ lit32 (1/4)) s.log with
  | (.error e, log) => (.error e, { s with log := log })
  | (.ok true, log) => (.error (.err .aborted), { s with log := log })
  | (.ok false, log) =>
    let s := { s with log := log, image := s.image.freeHistogramInputs }
    match if eq s.quant.ditherLevel (lit32 0) then remapPlainM env s else remapDitheredM bits env s with
    | (.error e, s) => (.error e, s)
    | (.ok re, s) => (.ok (), { s with quant := { s.quant with remapped := some re } })

/-- `quant.rs:265-271`, `remap_into`; the required size is a `usize` -/
def remapIntoM (bits : ℕ) (env : RemapEnv F) (q : QuantizationResult F) (img : Image F) (buf : List (Option UInt8)) (log : List F) :
    RemapIntoOut F :=
  match mul bits img.width img.height with
  | .error e => ⟨.error e, q, img, buf, log, false⟩
  | .ok required =>
    if buf.length < required then ⟨.error (.err .bufferTooSmall), q, img, buf, log, false⟩
    else
      let (res, s) := writeRemappedM bits env ⟨q, img, chunksExact img.width (buf.take required), log, false⟩
      ⟨res, s.quant, s.image, s.out.flatten ++ buf.drop required, s.log, s.uninit⟩

end Verif
