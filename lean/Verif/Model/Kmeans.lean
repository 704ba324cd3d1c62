import Verif.Model.MedianCut

/-!
# K-means iteration (`src/kmeans.rs`)

The thread pool is a schedule: for each worker thread that got any work, the list of the chunk numbers it
processed, in its order; the outer list is in the order in which `tls.into_iter()` yields the workers.
-/

set_option linter.unusedSectionVars false

namespace Verif
open Flt

variable {F : Type} [Flt F]

/-- `kmeans.rs:18-22` -/
structure ColorAvg (F : Type) where
  sum : FPixel F
  total : F

/-- `kmeans.rs:13-16` -/
structure Kmeans (F : Type) where
  averages : List (ColorAvg F)
  weighedDiffSum : F

namespace Kmeans

/-- `kmeans.rs:26-34` (allocation failure not modelled) -/
def new (len : ℕ) : Kmeans F :=
  { averages := List.replicate len ⟨⟨lit64 0, lit64 0, lit64 0, lit64 0⟩, lit64 0⟩, weighedDiffSum := lit64 0 }

/-- `kmeans.rs:38-40` on one average: `f32` product added in `f64` -/
def addTo (px : FPixel F) (value : F) (c : ColorAvg F) : ColorAvg F :=
  { sum := ⟨c.sum.a +₆ px.a *₃ value, c.sum.r +₆ px.r *₃ value, c.sum.g +₆ px.g *₃ value, c.sum.b +₆ px.b *₃ value⟩
    total := c.total +₆ value }

/-- `kmeans.rs:37-41`. `averages[matched]` is in bounds because `matched` comes from a search
(`Nearest.search_lt`) and there is one average per palette entry. -/
def updateColor (k : Kmeans F) (px : FPixel F) (value : F) (matched : ℕ) : Kmeans F :=
  { k with averages := k.averages.modify matched (addTo px value) }

/-- `kmeans.rs:90-98`: the item after matching, and the difference used for it -/
def matchItem (n : Nearest F) (adjust : Bool) (item : HistItem F) : HistItem F × F :=
  let px := item.color
  let (matched, diff) := n.search px item.tmp
  if adjust then
    let rem := palColor n.palette matched
    let mirror : FPixel F := FPixel.sub ⟨px.a +₃ px.a, px.r +₃ px.r, px.g +₃ px.g, px.b +₃ px.b⟩ rem
    let diff := (n.search mirror matched).2
    ({ item with
       tmp := matched
       adjustedWeight := fma32 (lit32 2) item.adjustedWeight item.perceptualWeight *₃ (lit32 (1/2) +₃ diff) }, diff)
  else ({ item with tmp := matched }, diff)

/-- `kmeans.rs:88-103`: `sum::<f64>()` over the batch is added to `weighed_diff_sum` -/
def iterateBatch (n : Nearest F) (adjust : Bool) (k : Kmeans F) (batch : List (HistItem F)) : Kmeans F :=
  let matched := batch.map (matchItem n adjust)
  let k := matched.foldl (fun k x => k.updateColor x.1.color x.1.adjustedWeight x.1.tmp) k
  { k with weighedDiffSum := k.weighedDiffSum +₆ sum64 (matched.map fun x => x.2 *₃ x.1.perceptualWeight) }

/-- `kmeans.rs:106-113` -/
def merge (a b : Kmeans F) : Kmeans F :=
  { weighedDiffSum := a.weighedDiffSum +₆ b.weighedDiffSum
    averages := List.zipWith (fun p n =>
      ⟨⟨p.sum.a +₆ n.sum.a, p.sum.r +₆ n.sum.r, p.sum.g +₆ n.sum.g, p.sum.b +₆ n.sum.b⟩, p.total +₆ n.total⟩)
      a.averages b.averages }

/-- `kmeans.rs:45-49` for one palette entry -/
def finalizeEntry (avg : ColorAvg F) (e : PalEntry F) : PalEntry F :=
  if e.pop.isFixed then e
  else
    let total := avg.total
    let pop := PalPop.new (to32 total)
    if lt (lit64 0) total && !eq e.color.a (lit32 0) then
      ⟨⟨to32 (avg.sum.a /₆ total), to32 (avg.sum.r /₆ total), to32 (avg.sum.g /₆ total),
        to32 (avg.sum.b /₆ total)⟩, pop⟩
    else ⟨e.color, pop⟩

/-- `kmeans.rs:43-52`; `zip` stops at the shorter list, the rest of the palette is unchanged -/
def finalizePalette : List (ColorAvg F) → PalF F → PalF F
  | a :: as, e :: es => finalizeEntry a e :: finalizePalette as es
  | _, es => es

/-- chunk size, `kmeans.rs:68` -/
def chunkSize : ℕ := 256

/-- number of chunks of `par_chunks_mut(256)` -/
def numChunks (n : ℕ) : ℕ := (n + chunkSize - 1) / chunkSize

/-- the `i`-th chunk -/
def chunk {α : Type} (l : List α) (i : ℕ) : List α := (l.drop (i * chunkSize)).take chunkSize

/-- worker results merged, `kmeans.rs:78-82`: `reduce` is `None` if no worker did anything -/
def reduceWorkers : List (Kmeans F) → Option (Kmeans F)
  | [] => none
  | k :: ks => some (ks.foldl merge k)

/-- one worker: its batches in order -/
def worker (n : Nearest F) (adjust : Bool) (len : ℕ) (items : List (HistItem F)) (chunks : List ℕ) : Kmeans F :=
  chunks.foldl (fun k i => iterateBatch n adjust k (chunk items i)) (new len)

/-- `kmeans.rs:136-147`: worst-fitting item; state is `(worst, worst_diff)` -/
def worstStep (n : Nearest F) (p : PalF F) (st : Option (HistItem F) × F) (item : HistItem F) :
    Option (HistItem F) × F :=
  let mayBeWorst := match p[item.tmp]? with
    | some e => lt st.2 (e.color.diff item.color)
    | none => true
  if mayBeWorst then
    let diff := (n.search item.color item.tmp).2
    if lt st.2 diff then (some item, diff) else st
  else st

/-- one round of the loop `kmeans.rs:127-152` -/
def replaceUnusedAt (p : PalF F) (items : List (HistItem F)) (i : ℕ) : Res (PalF F) :=
  match p[i]? with
  | none => .error .panic
  | some e =>
    if eq e.pop.popularity (lit32 0) && !e.pop.isFixed then do
      let n ← Nearest.new p
      match (items.foldl (worstStep n p) (none, lit32 0)).1 with
      | some w => .ok (p.set i ⟨w.color, PalPop.new w.adjustedWeight⟩)
      | none => .ok p
    else .ok p

/-- `kmeans.rs:126-154` -/
def replaceUnused (p : PalF F) (items : List (HistItem F)) : Res (PalF F) :=
  (List.range p.length).foldlM (fun p i => replaceUnusedAt p items i) p

/-- `kmeans.rs:55-86`: new histogram, new palette, error -/
def iteration (sched : List (List ℕ)) (hist : HistogramInternal F) (p : PalF F) (adjust : Bool) :
    Res (HistogramInternal F × PalF F × F) :=
  if hist.items.isEmpty then .ok (hist, p, lit64 0)
  else do
    let n ← Nearest.new p
    let workers := sched.map (worker n adjust p.length hist.items)
    let hist' := { hist with items := hist.items.map fun x => (matchItem n adjust x).1 }
    let (p', diff) := match reduceWorkers workers with
      | some k => (finalizePalette k.averages p, k.weighedDiffSum /₆ hist.totalPerceptualWeight)
      | none => (p, lit64 0)
    let p'' ← replaceUnused p' hist'.items
    return (hist', p'', diff)

end Kmeans

/-- A schedule processes every chunk exactly once and no worker is idle. -/
def SchedValid (nChunks : ℕ) (sched : List (List ℕ)) : Prop :=
  sched.flatten.Perm (List.range nChunks) ∧ ∀ w ∈ sched, w ≠ []

/-- Everything the environment decides during quantization. `sched t n` is the schedule of the `t`-th k-means
pass over `n` chunks. -/
structure Env (F : Type) where
  ho : HashOrder
  so : SortOracle F
  sched : ℕ → ℕ → List (List ℕ)
  sched_valid : ∀ t n, SchedValid n (sched t n)

/-- `Kmeans::iteration` with the environment's schedule -/
def Env.kmeans (env : Env F) (t : ℕ) (hist : HistogramInternal F) (p : PalF F) (adjust : Bool) :
    Res (HistogramInternal F × PalF F × F) :=
  Kmeans.iteration (env.sched t (Kmeans.numChunks hist.items.length)) hist p adjust

end Verif
