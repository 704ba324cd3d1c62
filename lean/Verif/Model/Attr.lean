import Verif.Model.Pal

/-!
# Settings (`src/attr.rs`), quality scale (`src/quant.rs:447-461`), progress callback
-/

namespace Verif
open Flt

variable {F : Type} [Flt F]

/-- `quant.rs:447-454`, `quality_to_mse` -/
def qualityToMse (q : ℕ) : F :=
  if q = 0 then lit64 (10 ^ 20)
  else if q ≥ 100 then lit64 0
  else
    let fudge := Flt.fmax (lit64 (16/1000) /₆ (lit64 (1/1000) +₆ lit64 q) -₆ lit64 (1/1000)) (lit64 0)
    weightMSE *₆ (fudge +₆
      lit64 (25/10) /₆ pow64 (lit64 210 +₆ lit64 q) (lit64 (12/10)) *₆ (lit64 (1001/10) -₆ lit64 q) /₆ lit64 100)

/-- the loop of `quant.rs:456-461`, from `i` downwards -/
def mseToQualityFrom (mse : F) : ℕ → ℕ
  | 0 => 0
  | i + 1 => if le mse (qualityToMse (i + 1) +₆ lit64 (1/1000000)) then i + 1 else mseToQualityFrom mse i

/-- `quant.rs:456-461`, `mse_to_quality` -/
def mseToQuality (mse : F) : ℕ := mseToQualityFrom mse 100

/-- `remap.rs:321-323`, `mse_to_standard_mse` -/
def mseToStandardMse (mse : F) : F := (mse *₆ lit64 65536 /₆ lit64 6) /₆ weightMSE

/-- `remap.rs`, `DitherMapMode` -/
inductive DitherMapMode where
  | none | enabled | always
  deriving DecidableEq, Repr

/-- `attr.rs:11-33`. The log callbacks are not modelled. The progress callback is a function of all the
percentages it has received so far (newest last) that says whether to break, because a Rust closure may keep state. -/
structure Attr (F : Type) where
  maxColors : ℕ
  targetMse : F
  maxMse : Option F
  kmeansIterationLimit : F
  kmeansIterations : ℕ
  feedbackLoopTrials : ℕ
  maxHistogramEntries : ℕ
  minPosterizationOutput : ℕ
  minPosterizationInput : ℕ
  lastIndexTransparent : Bool
  useContrastMaps : Bool
  singleThreadedDithering : Bool
  useDitherMap : DitherMapMode
  speed : ℕ
  progressStage1 : ℕ
  progressStage2 : ℕ
  progressStage3 : ℕ
  progressCallback : Option (List F → Bool)

/-- unsigned subtraction that panics on underflow (debug) / would wrap (release) -/
def checkedSub (a b : ℕ) : Res ℕ := if b ≤ a then .ok (a - b) else .error .panic

/-- unsigned `bits`-wide value, panics on overflow -/
def checkedFit (bound a : ℕ) : Res ℕ := if a < bound then .ok a else .error .panic

namespace Attr

/-- `attr.rs:88-94` -/
def setMaxColors (a : Attr F) (colors : ℕ) : Res (Attr F) :=
  if 2 ≤ colors ∧ colors ≤ 256 then .ok { a with maxColors := colors }
  else .error (.err .valueOutOfRange)

/-- `attr.rs:104-114` (arguments are `u8`) -/
def setQuality (a : Attr F) (minimum target : ℕ) : Res (Attr F) :=
  if ¬ target ≤ 100 ∨ target < minimum then .error (.err .valueOutOfRange)
  else .ok { a with targetMse := qualityToMse target, maxMse := some (qualityToMse minimum) }

/-- `attr.rs:123-148`. `u16`/`u8` results are range-checked. -/
def setSpeed (a : Attr F) (value : Int) : Res (Attr F) :=
  if ¬ (1 ≤ value ∧ value ≤ 10) then .error (.err .valueOutOfRange)
  else do
    let iterations := (max (8 - value) 0).toNat
    let iterations ← checkedFit (2 ^ 16) (iterations + iterations * iterations / 2)
    let trials := (max (56 - 9 * value) 0).toNat
    let ditherMap := if value ≤ 6 then DitherMapMode.enabled else DitherMapMode.none
    let ditherMap := if ditherMap ≠ DitherMapMode.none ∧ value < 3 then DitherMapMode.always else ditherMap
    let contrast : Bool := value ≤ 7 || ditherMap != DitherMapMode.none
    let stage1 := if contrast then 20 else 8
    let stage1 ← checkedFit 256 (if trials < 2 then stage1 + 30 else stage1)
    let stage3 := (50 / (1 + value)).toNat
    let stage2 ← checkedSub 100 stage1
    let stage2 ← checkedSub stage2 stage3
    .ok { a with
      kmeansIterations := iterations
      kmeansIterationLimit := lit64 1 /₆ lit64 (2 ^ (23 - value).toNat)
      feedbackLoopTrials := trials
      maxHistogramEntries := (2 ^ 17 + 2 ^ 18 * (10 - value)).toNat
      minPosterizationInput := if value ≥ 8 then 1 else 0
      useDitherMap := ditherMap
      useContrastMaps := contrast
      singleThreadedDithering := decide (value = 1)
      speed := value.toNat
      progressStage1 := stage1
      progressStage2 := stage2
      progressStage3 := stage3 }

/-- `attr.rs:154-160` -/
def setMinPosterization (a : Attr F) (value : ℕ) : Res (Attr F) :=
  if value ≤ 4 then .ok { a with minPosterizationOutput := value }
  else .error (.err .valueOutOfRange)

/-- `attr.rs:244-246` -/
def setLastIndexTransparent (a : Attr F) (b : Bool) : Attr F := { a with lastIndexTransparent := b }

/-- `attr.rs:236-238` -/
def setProgressCallback (a : Attr F) (cb : List F → Bool) : Attr F := { a with progressCallback := some cb }

/-- `attr.rs:42-63`, the struct before `set_speed(4)` -/
def blank : Attr F :=
  { targetMse := lit64 0, maxMse := none, maxColors := 256, lastIndexTransparent := false
    kmeansIterationLimit := lit64 0, maxHistogramEntries := 0, minPosterizationOutput := 0
    minPosterizationInput := 0, kmeansIterations := 0, feedbackLoopTrials := 0
    useContrastMaps := false, useDitherMap := .none, singleThreadedDithering := false, speed := 0
    progressStage1 := 0, progressStage2 := 0, progressStage3 := 0, progressCallback := none }

/-- `attr.rs:41-66`; the result of `set_speed(4)` is ignored there, so a failure would leave the blank struct -/
def new : Attr F := match setSpeed (blank : Attr F) 4 with
  | .ok a => a
  | .error _ => blank

/-- `attr.rs:165-190` getters -/
def getMinPosterization (a : Attr F) : ℕ := a.minPosterizationOutput
def getSpeed (a : Attr F) : ℕ := a.speed
def getMaxColors (a : Attr F) : ℕ := a.maxColors
def quality (a : Attr F) : ℕ × ℕ :=
  ((match a.maxMse with | some m => mseToQuality m | none => 0), mseToQuality a.targetMse)

/-- `attr.rs:280`: one reduction step, `u16` arithmetic -/
def reduce (x : ℕ) : ℕ := (x * 3 + 3) / 4

/-- the four reductions of `attr.rs:279-290` and `310-320` -/
def reduceBySize (x histItems : ℕ) : ℕ :=
  let x := if histItems > 5000 then reduce x else x
  let x := if histItems > 25000 then reduce x else x
  let x := if histItems > 50000 then reduce x else x
  if histItems > 100000 then reduce x else x

/-- `attr.rs:277-292` -/
def feedbackTrials (a : Attr F) (histItems : ℕ) : ℕ := reduceBySize a.feedbackLoopTrials histItems

/-- `attr.rs:295-303`: `max_mse`, `target_mse`, perfect quality requested -/
def targetMseFor (a : Attr F) (histItems : ℕ) : Option F × F × Bool :=
  let maxMse := a.maxMse.map fun m => m *₆ (if histItems ≤ maxColorsCap then lit64 (33/100) else lit64 1)
  let perfect := eq a.targetMse (lit64 0)
  let x : F := lit64 (2 ^ a.minPosterizationOutput) /₆ lit64 1024
  let target := Flt.fmax a.targetMse (x *₆ x)
  let target := match maxMse with
    | some m => Flt.fmin target m
    | none => target
  (maxMse, target, perfect)

/-- `attr.rs:307-327` -/
def kmeansIterationsFor (a : Attr F) (histItems : ℕ) (errorKnown : Bool) : ℕ × F :=
  let iterations := reduceBySize a.kmeansIterations histItems
  let limit := if histItems > 100000 then a.kmeansIterationLimit *₆ lit64 2 else a.kmeansIterationLimit
  let iterations := if iterations = 0 ∧ ¬ errorKnown ∧ a.maxMse.isSome then 1 else iterations
  (iterations, limit)

/-- `attr.rs:331-333` -/
def posterizeBits (a : Attr F) : ℕ := max a.minPosterizationOutput a.minPosterizationInput

end Attr

/-! ### Computations that report progress -/

/-- A computation that may call the progress callback: from the percentages reported so far to a result
and the percentages reported in the end. -/
def PM (F : Type) (α : Type) : Type := List F → Res α × List F

namespace PM
variable {α β : Type}

/-- sequencing: an error stops the computation -/
def bind (m : PM F α) (f : α → PM F β) : PM F β := fun log =>
  match m log with
  | (.ok a, log') => f a log'
  | (.error e, log') => (.error e, log')

instance : Monad (PM F) where
  pure a := fun log => (.ok a, log)
  bind := PM.bind

/-- fail with an error -/
def throw (e : Fail) : PM F α := fun log => (.error e, log)

/-- `?` on a `Result` -/
def lift (r : Res α) : PM F α := fun log => (r, log)

end PM

/-- `attr.rs:251-257` / `quant.rs:225-227`: calls the callback (if any); true means abort -/
def progress (cb : Option (List F → Bool)) (percent : F) : PM F Bool := fun log =>
  match cb with
  | none => (.ok false, log)
  | some f => (.ok (f (log ++ [percent])), log ++ [percent])

end Verif
