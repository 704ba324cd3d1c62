import Verif.Model.Quant

/-!
# Debug builds: the `debug_assert!`s of quantization

In a debug build every `debug_assert!` that fails panics. Here are the functions of quantization with these checks;
apart from the checks they are the functions of the release build. Checks that depend on values of the arithmetic are
done only if `num` is set, so that the others can be studied alone. A check of an iteration is done for all the
elements before the result of the iteration is used; what is computed does not depend on the order, as nothing but
the panic is observable.

Not modelled: `pal.rs:228-229` (constants), `pal.rs:291` (the two vectors of a palette are one list here), integer
overflow checks.
-/

set_option linter.unusedSectionVars false
set_option linter.unusedVariables false

namespace Verif
open Flt

variable {F : Type} [Flt F]

/-- `debug_assert!` -/
def dbg (b : Bool) : Res Unit := if b then .ok () else .error .panic

/-- a `debug_assert!` about values of the arithmetic -/
def dbgNum (num b : Bool) : Res Unit := if num then dbg b else .ok ()

/-- `f32::is_finite`, `f64::is_finite`: the difference of infinite values or NaN with themselves is NaN -/
def isFinite (x : F) : Bool := eq (x -₆ x) (lit64 0)

/-- `OrdFloat::new`, `lib.rs:312-315`, and `OrdFloat::new64`, `lib.rs:319-322`, of the keys of a list -/
def dbgKeys {α : Type} (num : Bool) (key : α → F) (l : List α) : Res Unit :=
  dbgNum num (l.all fun x => isFinite (key x))

/-- the same for a sort, which looks at no key if there is nothing to compare -/
def dbgSort {α : Type} (num : Bool) (key : α → F) (l : List α) : Res Unit :=
  if l.length < 2 then .ok () else dbgKeys num key l

/-- `PalPop::new`, `pal.rs:193-196` -/
def PalPop.newD (num : Bool) (x : F) : Res (PalPop F) := do
  dbgNum num (le (lit32 0) x)
  return PalPop.new x

/-! ### `mediancut.rs` -/

/-- `mediancut.rs:316-328`; `on`: whether the check is done -/
def weighedAverageColorD (on : Bool) (hist : List (HistItem F)) : Res (FPixel F) := do
  dbgNum on (!hist.isEmpty)
  return weighedAverageColor hist

namespace MBox

/-- `mediancut.rs:29-36` -/
def newD (num : Bool) (start : ℕ) (hist : List (HistItem F)) : Res (MBox F) := do
  dbgNum num (hist.all fun c => isFinite c.adjustedWeight)
  dbgNum num (hist.all fun c => lt (lit32 0) c.adjustedWeight)
  let avg ← weighedAverageColorD true hist
  return newC start hist (sum64 (hist.map (·.adjustedWeight))) avg

/-- `mediancut.rs:38-47`. That the half is not empty depends on the arithmetic. -/
def newSD (num : Bool) (start : ℕ) (hist : List (HistItem F)) (weightSum : F) (others : List (MBox F)) : Res (MBox F) := do
  dbgNum num (!hist.isEmpty)
  let avg ← weighedAverageColorD num hist
  if (decide (hist.length < 500) && decide (hist.length > 2)) || isUselessColor avg hist others then do
    dbgKeys num (fun c : HistItem F => avg.diff c.color) hist
    let avg := match minByKey (fun c : HistItem F => avg.diff c.color) hist with
      | some c => c.color
      | none => FPixel.default
    return newC start hist weightSum avg
  else return newC start hist weightSum avg

end MBox

/-- `mediancut.rs:159` -/
def pivotsInBounds (base : List (HistItem F)) : Bool :=
  decide (base.length < 32) || [8, base.length / 2, base.length - 1].all fun i => base[i]?.isSome

/-- `mediancut.rs:187-208` -/
def sortHalfD (o : SortOracle F) (base : List (HistItem F)) (half : F) : Res (List (HistItem F) × ℕ) :=
  if hne : base = [] then .ok ([], 0)
  else do
    dbg (pivotsInBounds base)
    let parted := (qsortPartition o base).1
    let p := (qsortPartition o base).2
    let left := parted.take (p + 1)
    let right := parted.drop (p + 1)
    let leftSum := sum64 (left.map (·.mcColorWeight))
    if le half leftSum then
      if p = 0 then return (parted, 0)
      else do
        let r ← sortHalfD o (parted.take p) half
        return (r.1 ++ parted.drop p, r.2)
    else if right = [] then return (parted, left.length)
    else do
      let r ← sortHalfD o right (half -₆ leftSum)
      return (left ++ r.1, left.length + r.2)
termination_by base.length
decreasing_by
  · have h1 := qsortPartition_lt o base hne
    have h2 := qsortPartition_length o base
    simp only [List.length_take]; omega
  · have h1 := qsortPartition_lt o base hne
    have h2 := qsortPartition_length o base
    simp only [List.length_drop]; omega

/-- `mediancut.rs:135-147` -/
def MBox.splitD (num : Bool) (o : SortOracle F) (b : MBox F) (others : List (MBox F)) : Res (MBox F × MBox F) := do
  dbgSort num (MBox.chan b.variance) [0, 1, 2, 3]
  let colors := MBox.colorWeights o b.prepareSort
  dbgNum num (colors.all fun c => isFinite c.mcColorWeight)
  let half := sum64 (colors.map (·.mcColorWeight)) /₆ lit64 2
  let r ← sortHalfD o colors half
  let breakAt := max r.2 1
  let left := r.1.take breakAt
  let right := r.1.drop breakAt
  let leftSum := sum64 (left.map (·.adjustedWeight))
  let rightSum := b.adjustedWeightSum -₆ leftSum
  let l ← MBox.newSD num b.start left leftSum others
  let r ← MBox.newSD num (b.start + breakAt) right rightSum others
  return (l, r)

/-- loop of `cut`, `mediancut.rs:276-290`. The loop ends because a split adds a box; that number is not part of what the
check returns, so the recursion counts the boxes that can still be added. -/
def cutLoopD (num : Bool) (o : SortOracle F) (target : ℕ) (histWeight targetMse maxMse : F) :
    ℕ → List (MBox F) → Res (List (MBox F))
  | 0, boxes => .ok boxes
  | fuel + 1, boxes =>
    if boxes.length < target then
      let fraction := lit64 boxes.length /₆ lit64 target
      let currentMax := fma64 (fraction *₆ lit64 16) maxMse maxMse
      do
        dbgKeys num (fun x : MBox F × ℕ => splitPriority currentMax x.1)
          (boxes.zipIdx.filter fun x => decide (x.1.colors.length > 1))
        match bestSplittable boxes currentMax with
        | none => return boxes
        | some (b, i) => do
          let rest := swapRemove boxes i
          let r ← b.splitD num o rest
          let boxes' := rest ++ [r.1, r.2]
          let e := totalBoxErrorBelowTarget boxes' histWeight targetMse
          if e.1 then return e.2 else cutLoopD num o target histWeight targetMse maxMse fuel e.2
    else .ok boxes

/-- `mediancut.rs:237-248`. `pushed` boxes are there already; the vector has room for at least `cap`, `mediancut.rs:234`,
so that `push_in_cap` (`lib.rs:277-282`) finds room if there are fewer. -/
def clusterBoxesD (num : Bool) (cap : ℕ) : ℕ → ℕ → ℕ → List (HistItem F) → List (ℕ × ℕ) → Res (List (MBox F))
  | _, _, _, _, [] => .ok []
  | pushed, prevEnd, start, items, (b, e) :: cs => do
    dbg (decide (b = prevEnd))
    if b ≤ e ∧ e - b ≤ items.length then do
      let box ← MBox.newD num start (items.take (e - b))
      dbg (decide (pushed < cap))
      let rest ← clusterBoxesD num cap (pushed + 1) e (start + (e - b)) (items.drop (e - b)) cs
      return box :: rest
    else .error .panic

/-- `mediancut.rs:226-258` -/
def initialBoxesD (num : Bool) (hist : HistogramInternal F) (target : ℕ) : Res (List (MBox F)) := do
  dbg (match hist.clusters.head? with | some c => decide (c.1 = 0) | none => false)
  dbg (match hist.clusters.getLast? with | some c => decide (c.2 = hist.items.length) | none => false)
  let used := hist.clusters.filter fun c => decide (c.1 ≠ c.2)
  if used.length ≤ target / 3 then clusterBoxesD num target 0 0 0 hist.items used
  else do
    let box ← MBox.newD num 0 hist.items
    dbg (decide (0 < target))
    return [box]

/-- `mediancut.rs:260-271` -/
def intoPaletteD (num : Bool) (boxes : List (MBox F)) : Res (PalF F × List (HistItem F)) := do
  dbgNum num (boxes.all fun b => le (lit32 0) (boxEntry b).pop.val)
  intoPalette boxes

/-- `mediancut.rs:312-314` with `cut`, `273-293` -/
def mediancutD (num : Bool) (o : SortOracle F) (hist : HistogramInternal F) (target : ℕ) (targetMse maxMsePerColor : F) :
    Res (PalF F × HistogramInternal F) := do
  let maxMse := Flt.fmax maxMsePerColor (qualityToMse 20)
  let boxes ← initialBoxesD num hist target
  let boxes ← cutLoopD num o target hist.totalPerceptualWeight targetMse maxMse (target - boxes.length) boxes
  let (pal, items) ← intoPaletteD num boxes
  return (pal, { hist with items := items })

/-! ### `pal.rs` -/

/-- One round of the loop `pal.rs:274-282`. -/
def PalF.fixStepD (num : Bool) (p : PalF F) (i : ℕ) (fixed : FPixel F) : Res (PalF F) := do
  dbgKeys num (fun (x : PalEntry F × ℕ) => x.1.color.diff fixed) ((p.zipIdx).drop i)
  match minByKey (fun (x : PalEntry F × ℕ) => x.1.color.diff fixed) ((p.zipIdx).drop i) with
  | none => .error .panic
  | some (_, best) => do
    dbg (decide (best ≥ i))
    let p := swapAt p i best
    match p[i]? with
    | none => .error .panic
    | some e => .ok (p.set i ⟨fixed, e.pop.toFixed⟩)

/-- the loop `pal.rs:274-282` over the fixed colours from position `i` on -/
def PalF.fixLoopD (num : Bool) (p : PalF F) : ℕ → List (FPixel F) → Res (PalF F)
  | _, [] => .ok p
  | i, c :: cs => do
    let p ← PalF.fixStepD num p i c
    PalF.fixLoopD num p (i + 1) cs

/-- `==` of `f_pixel`, derived -/
def FPixel.beq (x y : FPixel F) : Bool := eq x.a y.a && eq x.r y.r && eq x.g y.g && eq x.b y.b

/-- `pal.rs:258-287`, `with_fixed_colors` -/
def PalF.withFixedColorsD (num : Bool) (p : PalF F) (maxColors : ℕ) (fixed : List (FPixel F)) : Res (PalF F) :=
  if fixed.isEmpty then .ok p
  else do
    let maxFixed := min fixed.length maxColors
    let p ← if p.length < maxFixed
      then do
        let p ← extendZero p (fixed.take (maxFixed - p.length))
        let _ ← PalPop.newD num (lit32 0 : F)
        dbg (decide (p.length = maxFixed))
        pure p
      else .ok p
    let p ← PalF.fixLoopD num p 0 (fixed.take p.length)
    dbgNum num ((p.zip fixed).all fun x => FPixel.beq x.1.color x.2)
    dbg ((p.take fixed.length).all fun e => e.pop.isFixed)
    return p

/-! ### `nearest.rs` -/

/-- `nearest.rs:108-171` -/
def vpCreateD (num : Bool) (p : PalF F) (indexes : List ℕ) : Res (Node F) := do
  dbg (!indexes.isEmpty)
  if indexes.length ≤ 1 then
    let idx := indexes.headD 0
    return .leaf (palColor p idx) idx []
  else do
    dbgKeys num (fun (x : ℕ × ℕ) => palPopularity p x.1) indexes.zipIdx
    match h : popularFirst p indexes with
    | [] => return .leaf FPixel.default 0 []
    | ref :: rest => do
      let vp := palColor p ref
      dbgSort num (vpDist p vp) rest
      let sorted := sortByKey (vpDist p vp) rest
      if sorted.length ≤ leafMaxSize then
        return .leaf vp ref (sorted.map (leafItem p))
      else do
        let half := sorted.length / 2
        let near := sorted.take half
        let far := sorted.drop half
        dbg (!near.isEmpty)
        dbg (!far.isEmpty)
        let radiusSq := farRadiusSq p vp far
        let n ← vpCreateD num p near
        let f ← vpCreateD num p far
        return .nodes vp ref (sqrt32 radiusSq) radiusSq n f
termination_by indexes.length
decreasing_by
  all_goals
    have hl := length_popularFirst p indexes
    rw [h] at hl
    simp [sortByKey] at *
    omega

/-- `nearest.rs:6-30` -/
def Nearest.newD (num : Bool) (p : PalF F) : Res (Nearest F) :=
  if p.length > 256 then .error (.err .unsupported)
  else if p.length = 0 then .error (.err .unsupported)
  else do
    let root ← vpCreateD num p (List.range p.length)
    return { root := root, palette := p
             nearestOther := (List.range p.length).map (nearestOtherDist root p) }

/-! ### `kmeans.rs` -/

/-- one round of the loop `kmeans.rs:127-152` -/
def Kmeans.replaceUnusedAtD (num : Bool) (p : PalF F) (items : List (HistItem F)) (i : ℕ) : Res (PalF F) :=
  match p[i]? with
  | none => .error .panic
  | some e =>
    if eq e.pop.popularity (lit32 0) && !e.pop.isFixed then do
      let n ← Nearest.newD num p
      match (items.foldl (worstStep n p) (none, lit32 0)).1 with
      | some w => do
        let pop ← PalPop.newD num w.adjustedWeight
        return p.set i ⟨w.color, pop⟩
      | none => return p
    else .ok p

/-- `kmeans.rs:126-154` -/
def Kmeans.replaceUnusedD (num : Bool) (p : PalF F) (items : List (HistItem F)) : Res (PalF F) :=
  (List.range p.length).foldlM (fun p i => replaceUnusedAtD num p items i) p

/-- `PalPop::new` in `kmeans.rs:46` for all the entries that are not fixed -/
def Kmeans.finalizeChecks (averages : List (ColorAvg F)) (p : PalF F) : Bool :=
  (averages.zip p).all fun x => x.2.pop.isFixed || le (lit32 0) (to32 x.1.total)

/-- `kmeans.rs:55-86` -/
def Kmeans.iterationD (num : Bool) (sched : List (List ℕ)) (hist : HistogramInternal F) (p : PalF F) (adjust : Bool) :
    Res (HistogramInternal F × PalF F × F) :=
  if hist.items.isEmpty then .ok (hist, p, lit64 0)
  else do
    let n ← Nearest.newD num p
    dbgNum num (hist.items.all fun x => lt (matchItem n adjust x).2 (lit64 (10 ^ 20)))
    let workers := sched.map (worker n adjust p.length hist.items)
    let hist' := { hist with items := hist.items.map fun x => (matchItem n adjust x).1 }
    match reduceWorkers workers with
    | some k => do
      dbgNum num (finalizeChecks k.averages p)
      let p'' ← replaceUnusedD num (finalizePalette k.averages p) hist'.items
      return (hist', p'', k.weighedDiffSum /₆ hist.totalPerceptualWeight)
    | none => do
      let p'' ← replaceUnusedD num p hist'.items
      return (hist', p'', lit64 0)

/-- `Kmeans::iteration` with the environment's schedule -/
def Env.kmeansD (num : Bool) (env : Env F) (t : ℕ) (hist : HistogramInternal F) (p : PalF F) (adjust : Bool) :
    Res (HistogramInternal F × PalF F × F) :=
  Kmeans.iterationD num (env.sched t (Kmeans.numChunks hist.items.length)) hist p adjust

/-! ### `quant.rs` -/

/-- `quant.rs:438-445` -/
def paletteFromHistogramD (num : Bool) (hist : HistogramInternal F) (maxColors : ℕ) : Res (PalF F × Option F) := do
  let p ← hist.items.foldlM (fun p item => do
    let pop ← PalPop.newD num item.perceptualWeight
    PalF.push p item.color pop) []
  let p ← p.withFixedColorsD num maxColors hist.fixedColors
  return (p, some (lit64 0))

/-- the loop `quant.rs:371-401` -/
def findLoopD (num : Bool) (env : Env F) (attr : Attr F) (targetMse : F) (totalTrials : ℕ) (st : FindState F) :
    PM F (PalF F × FindState F) := do
  let (newPal, hist) ← PM.lift (mediancutD num env.so st.hist st.maxColors (targetMse *₆ st.overshoot)
    (maxMsePerColor targetMse st.paletteError))
  let newPal ← PM.lift (newPal.withFixedColorsD num attr.maxColors hist.fixedColors)
  if _hpos : st.trialsLeft ≤ 0 then
    pure (newPal, { st with hist := hist })
  else
    let firstRun := st.best.isNone && lt (lit64 0) targetMse
    let (hist, newPal, totalError) ← PM.lift (env.kmeansD num st.clock hist newPal (!firstRun))
    let st' := trialUpdate st targetMse totalError newPal
    let abort ← progress attr.progressCallback (overallDone attr totalTrials st.trialsLeft)
    if abort || decide (st'.trialsLeft ≤ 0) then
      match st'.best with
      | some p => pure (p, { st' with hist := hist, clock := st.clock + 1 })
      | none => PM.throw (.err .valueOutOfRange)
    else
      findLoopD num env attr targetMse totalTrials { st' with hist := hist, clock := st.clock + 1 }
termination_by st.trialsLeft.toNat
decreasing_by
  have := trialUpdate_lt st targetMse totalError newPal
  omega

/-- loop `quant.rs:414-432` of `refine_palette` -/
def refineLoopD (num : Bool) (env : Env F) (attr : Attr F) (maxMse : Option F) (iterations : ℕ) (limit : F)
    (clock i : ℕ) (hist : HistogramInternal F) (p : PalF F) (err : Option F) : PM F (PalF F × Option F) := do
  if h : i < iterations then
    let abort ← progress attr.progressCallback (refineDone attr iterations i)
    if abort then pure (p, err)
    else
      let (hist, p, palErr) ← PM.lift (env.kmeansD num clock hist p false)
      PM.lift (dbgNum num (lt palErr (lit64 (10 ^ 20))))
      let stop := match err with
        | some prev => lt (fabs (prev -₆ palErr)) limit
        | none => false
      if stop then pure (p, some palErr)
      else
        refineLoopD num env attr maxMse iterations limit (clock + 1)
          (i + if lt (maxMse.getD (lit64 (10 ^ 20)) *₆ lit64 (15/10)) palErr then 2 else 1) hist p (some palErr)
  else pure (p, err)
termination_by iterations - i
decreasing_by split <;> omega

/-- `quant.rs:409-435` -/
def refinePaletteD (num : Bool) (env : Env F) (attr : Attr F) (maxMse : Option F) (clock : ℕ) (hist : HistogramInternal F)
    (p : PalF F) (err : Option F) : PM F (PalF F × Option F) :=
  let (iterations, limit) := attr.kmeansIterationsFor hist.items.length err.isSome
  refineLoopD num env attr maxMse iterations limit clock 0 hist p err

/-- `quant.rs:356-406` -/
def findBestPaletteD (num : Bool) (env : Env F) (attr : Attr F) (targetMse : F) (targetMseIsZero : Bool) (maxMse : Option F)
    (hist : HistogramInternal F) : PM F (PalF F × Option F) := do
  if decide (hist.items.length ≤ attr.maxColors) && targetMseIsZero then
    PM.lift (paletteFromHistogramD num hist attr.maxColors)
  else
    let (p, st) ← findLoopD num env attr targetMse (attr.feedbackTrials hist.items.length) (FindState.init attr hist)
    refinePaletteD num env attr maxMse st.clock st.hist p st.paletteError

/-- `quant.rs:312-343` -/
def sortPaletteD (num last : Bool) (p : PalF F) : Res (PalF F) := do
  dbgSort num (fun e : PalEntry F => e.pop.popularity) p
  let sorted := p.mergeSort (paletteLe last)
  if last then dbgKeys num (fun x : PalEntry F × ℕ => x.1.color.a) (sorted.zipIdx.filter fun x => isTransparentColor x.1.color)
  else .ok ()
  return sortPalette last p

/-- `quant.rs:32-72` -/
def QuantizationResult.newD (num : Bool) (env : Env F) (attr : Attr F) (hist : HistogramInternal F) (freeze : Bool) (gamma : F) :
    PM F (QuantizationResult F) := do
  if ← progress attr.progressCallback (lit32 attr.progressStage1) then PM.throw (.err .aborted)
  else
    let (maxMse, targetMse, isZero) := attr.targetMseFor hist.items.length
    let (palette, err) ← findBestPaletteD num env attr targetMse isZero maxMse hist
    let palette := if freeze then palette.map fun e => { e with pop := e.pop.toFixed } else palette
    if ← progress attr.progressCallback (fma32 (lit32 attr.progressStage3) (lit32 (95/100))
        (lit32 attr.progressStage1 +₃ lit32 attr.progressStage2)) then PM.throw (.err .aborted)
    else if qualityTooLow err maxMse then PM.throw (.err .qualityTooLow)
    else
      let sorted ← PM.lift (sortPaletteD num attr.lastIndexTransparent palette)
      pure
        { palette := sorted, gamma := gamma, paletteError := err
          minPosterizationOutput := attr.minPosterizationOutput, useDitherMap := attr.useDitherMap
          remapped := none, progressCallback := none, intPalette := [], ditherLevel := lit32 1
          singleThreadedDithering := attr.singleThreadedDithering }

/-! ### `hist.rs` -/

namespace Histogram

/-- `hist.rs:276-350` in a debug build: items are filled with `blank` first (NaN, `hist.rs:312-318`) -/
def finalizeBuilderD (num : Bool) (blank : HistItem F) (ho : HashOrder) (h : Histogram F) (gamma : F) : Res (HistogramInternal F) := do
  dbgNum num (lt (lit64 0) gamma)
  let map := h.insertFixedColors ho
  let temp : List (TempHistItem F) := tempItems ho map
  let clusters := clusterBegins 0 (clusterCounts temp)
  let maxW := maxPerceptualWeight temp
  let lut := gammaLut gamma
  let (clusters, items, total) ← temp.foldlM (placeItem lut maxW)
    (clusters, List.replicate temp.length blank, lit64 0)
  let fixed := (ho.set h.fixedColors).mergeSort (fun x y => decide (x.2 ≤ y.2))
  return { items := items, totalPerceptualWeight := total, clusters := clusters
           fixedColors := fixed.map fun c => FPixel.fromRgba lut c.1 }

/-- `hist.rs:190-206` -/
def quantizeInternalD (num : Bool) (blank : HistItem F) (env : Env F) (h : Histogram F) (attr : Attr F) (freeze : Bool) :
    PM F (QuantizationResult F) := do
  if h.hashmap.isEmpty && h.fixedColors.isEmpty then PM.throw (.err .unsupported)
  else if ← progress attr.progressCallback (lit32 0) then PM.throw (.err .aborted)
  else if ← progress attr.progressCallback (lit32 attr.progressStage1 *₃ lit32 (89/100)) then
    PM.throw (.err .aborted)
  else
    let gamma := h.gamma.getD (lit64 (45455/100000))
    let hist ← PM.lift (h.finalizeBuilderD num blank env.ho gamma)
    QuantizationResult.newD num env attr hist freeze gamma

end Histogram
end Verif
