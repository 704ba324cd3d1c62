import Verif.Model.Hist
import Verif.Model.Nearest

/-!
# Median cut (`src/mediancut.rs`)

A box holds its slice of the histogram as a list together with the position where the slice starts; the
slices of all the boxes tile the histogram array. `debug_assert!`s are not modelled.
-/

set_option linter.unusedSectionVars false
set_option linter.unusedVariables false

namespace Verif
open Flt

variable {F : Type} [Flt F]

/-- Results that the standard library leaves open in median cut.
`selectNth l k` is the slice after `select_nth_unstable_by_key(k, …)`, `mediancut.rs:119`;
`sort3` is `sort_unstable_by_key` of the three pivot candidates, `mediancut.rs:158`. -/
structure SortOracle (F : Type) where
  selectNth : List (HistItem F) → ℕ → List (HistItem F)
  selectNth_perm : ∀ l k, (selectNth l k).Perm l
  selectNth_le : ∀ l k i j (x y : HistItem F), (selectNth l k)[i]? = some x → (selectNth l k)[j]? = some y →
    i ≤ k → k ≤ j → (i = k ∨ j = k) → x.tmp ≤ y.tmp
  sort3 : (ℕ → ℕ) → List ℕ → List ℕ
  sort3_perm : ∀ key l, (sort3 key l).Perm l
  sort3_sorted : ∀ key l, (sort3 key l).Pairwise (fun a b => key a ≤ key b)

/-- `iter().sum::<f64>()` -/
def sum64 (l : List F) : F := l.foldl (· +₆ ·) (lit64 0)

/-- body of the loop `mediancut.rs:320-323` -/
def avgStep (s : F × FPixel F) (c : HistItem F) : F × FPixel F :=
  (s.1 +₃ c.adjustedWeight,
   ⟨s.2.a +₃ c.color.a *₃ c.adjustedWeight, s.2.r +₃ c.color.r *₃ c.adjustedWeight,
    s.2.g +₃ c.color.g *₃ c.adjustedWeight, s.2.b +₃ c.color.b *₃ c.adjustedWeight⟩)

/-- `mediancut.rs:316-328` -/
def weighedAverageColor (hist : List (HistItem F)) : FPixel F :=
  let (sum, t) := hist.foldl avgStep (lit32 0, FPixel.default)
  if !eq sum (lit32 0) then ⟨t.a /₃ sum, t.r /₃ sum, t.g /₃ sum, t.b /₃ sum⟩ else t

/-- `mediancut.rs:15-26` -/
structure MBox (F : Type) where
  /-- index of the first item in the histogram array -/
  start : ℕ
  colors : List (HistItem F)
  avgColor : FPixel F
  variance : FPixel F
  adjustedWeightSum : F
  totalError : Option F
  maxError : F

namespace MBox

/-- `mediancut.rs:72-83` -/
def boxStats (hist : List (HistItem F)) (avg : FPixel F) : FPixel F × F :=
  hist.foldl (fun (v, m) c =>
    let d := FPixel.sub avg c.color
    let w := c.adjustedWeight
    let v : FPixel F := ⟨v.a +₃ d.a *₃ d.a *₃ w, v.r +₃ d.r *₃ d.r *₃ w,
      v.g +₃ d.g *₃ d.g *₃ w, v.b +₃ d.b *₃ d.b *₃ w⟩
    let diff := avg.diff c.color
    (v, if lt m diff then diff else m)) (FPixel.default, lit32 0)

/-- `mediancut.rs:49-59` -/
def newC (start : ℕ) (hist : List (HistItem F)) (weightSum : F) (avg : FPixel F) : MBox F :=
  let (variance, maxError) := boxStats hist avg
  { start := start, colors := hist, avgColor := avg, variance := variance
    adjustedWeightSum := weightSum, totalError := none, maxError := maxError }

/-- `mediancut.rs:29-36` -/
def new (start : ℕ) (hist : List (HistItem F)) : MBox F :=
  newC start hist (sum64 (hist.map (·.adjustedWeight))) (weighedAverageColor hist)

/-- `mediancut.rs:62-70` -/
def isUselessColor (avg : FPixel F) (colors : List (HistItem F)) (others : List (MBox F)) : Bool :=
  colors.all fun c => others.any fun o => lt (o.avgColor.diff c.color) (avg.diff c.color)

/-- `mediancut.rs:38-47` -/
def newS (start : ℕ) (hist : List (HistItem F)) (weightSum : F) (others : List (MBox F)) : MBox F :=
  let avg := weighedAverageColor hist
  let avg := if (decide (hist.length < 500) && decide (hist.length > 2)) || isUselessColor avg hist others
    then match minByKey (fun c : HistItem F => avg.diff c.color) hist with
      | some c => c.color
      | none => FPixel.default
    else avg
  newC start hist weightSum avg

/-- `mediancut.rs:85-90` -/
def computeTotalError (b : MBox F) : F :=
  sum64 (b.colors.map fun c => b.avgColor.diff c.color *₆ c.perceptualWeight)

/-- a channel by its position in memory (`ARGBF`: a, r, g, b) -/
def chan (c : FPixel F) : ℕ → F
  | 0 => c.a
  | 1 => c.r
  | 2 => c.g
  | _ => c.b

/-- `mediancut.rs:98-106`: channel numbers by falling variance (stable sort by a reversed key) -/
def channelOrder (variance : FPixel F) : List ℕ :=
  [0, 1, 2, 3].mergeSort fun x y => !lt (chan variance x) (chan variance y)

/-- `mediancut.rs:112-113`: the 32-bit sort value -/
def sortValue (order : List ℕ) (c : FPixel F) : ℕ :=
  let ch := fun k => chan c (order.getD k 0)
  (toU32 (ch 0 *₃ lit32 65535) * 65536 % 2 ^ 32) |||
    toU32 ((ch 2 +₃ ch 1 /₃ lit32 2 +₃ ch 3 /₃ lit32 4) *₃ lit32 65535)

/-- `mediancut.rs:92-115` -/
def prepareSort (b : MBox F) : List (HistItem F) :=
  b.colors.map fun c => { c with tmp := sortValue (channelOrder b.variance) c.color }

/-- `mediancut.rs:117-132`: median by selection, then the weight of every colour -/
def colorWeights (o : SortOracle F) (l : List (HistItem F)) : List (HistItem F) :=
  let l := o.selectNth l (l.length / 2)
  let median := match l[l.length / 2]? with
    | some c => c.color
    | none => FPixel.default   -- not reached, the slice has at least two items
  l.map fun c => { c with
    mcColorWeight := sqrt32 (median.diff c.color) *₃ sqrt32 (lit32 1 +₃ c.adjustedWeight) }

end MBox

/-- `mediancut.rs:151-163` -/
def qsortPivot (o : SortOracle F) (base : List (HistItem F)) : ℕ :=
  if base.length < 32 then base.length / 2
  else
    let key := fun i => match base[i]? with
      | some c => c.tmp
      | none => 0     -- not reached: 8, len/2 and len-1 are in bounds
    (o.sort3 key [8, base.length / 2, base.length - 1]).getD 1 0

/-- inner loop `mediancut.rs:175` -/
def scanDown (base : List (HistItem F)) (pivot l r : ℕ) (h : r < base.length) : ℕ :=
  if l < r ∧ base[r].tmp ≤ pivot then scanDown base pivot l (r - 1) (by omega) else r
termination_by r

theorem scanDown_le (base : List (HistItem F)) (pivot l r : ℕ) (h : r < base.length) :
    scanDown base pivot l r h ≤ r := by
  induction r with
  | zero => unfold scanDown; rw [if_neg (by omega)]
  | succ n ih =>
    unfold scanDown
    split
    · have := ih (by omega); simpa using Nat.le_succ_of_le this
    · exact le_rfl

theorem le_scanDown (base : List (HistItem F)) (pivot l r : ℕ) (h : r < base.length) (hl : l ≤ r) :
    l ≤ scanDown base pivot l r h := by
  induction r with
  | zero => unfold scanDown; rw [if_neg (by omega)]; exact hl
  | succ n ih =>
    unfold scanDown
    split
    next hc => exact ih (by omega) (by omega)
    · exact hl

/-- main loop `mediancut.rs:170-178`; all the indexing is in bounds by construction -/
def partLoop (base : List (HistItem F)) (pivot l r : ℕ) (h : r ≤ base.length) : List (HistItem F) × ℕ :=
  if hlt : l < r then
    if base[l].tmp ≥ pivot then partLoop base pivot (l + 1) r h
    else
      have : scanDown base pivot l (r - 1) (by omega) ≤ r - 1 := scanDown_le ..
      partLoop (swapAt base l (scanDown base pivot l (r - 1) (by omega))) pivot l
        (scanDown base pivot l (r - 1) (by omega)) (by rw [length_swapAt]; omega)
  else (base, l)
termination_by r - l

/-- `mediancut.rs:165-182` -/
def qsortPartition (o : SortOracle F) (base : List (HistItem F)) : List (HistItem F) × ℕ :=
  let base := swapAt base (qsortPivot o base) 0
  let pivot := match base with
    | c :: _ => c.tmp
    | [] => 0         -- not reached: called with a non-empty slice
  let (base, l) := partLoop base pivot 1 base.length le_rfl
  (swapAt base (l - 1) 0, l - 1)

theorem partLoop_length (base : List (HistItem F)) (pivot l r : ℕ) (h : r ≤ base.length) :
    (partLoop base pivot l r h).1.length = base.length := by
  fun_induction partLoop with
  | case1 base l r h hlt hp ih => exact ih
  | case2 base l r h hlt hp _ ih => rw [ih, length_swapAt]
  | case3 base l r h hlt => rfl

theorem partLoop_le (base : List (HistItem F)) (pivot l r : ℕ) (h : r ≤ base.length) (hl : l ≤ r) :
    l ≤ (partLoop base pivot l r h).2 ∧ (partLoop base pivot l r h).2 ≤ r := by
  fun_induction partLoop with
  | case1 base l r h hlt hp ih => have := ih (by omega); omega
  | case2 base l r h hlt hp hs ih =>
    have h2 := le_scanDown base pivot l (r - 1) (by omega) (by omega)
    have := ih h2; omega
  | case3 base l r h hlt => exact ⟨le_rfl, hl⟩

theorem qsortPartition_length (o : SortOracle F) (base : List (HistItem F)) :
    (qsortPartition o base).1.length = base.length := by
  simp only [qsortPartition, length_swapAt, partLoop_length]

theorem qsortPartition_lt (o : SortOracle F) (base : List (HistItem F)) (h : base ≠ []) :
    (qsortPartition o base).2 < base.length := by
  have hpos : 0 < base.length := List.length_pos_iff.2 h
  simp only [qsortPartition]
  have := partLoop_le (swapAt base (qsortPivot o base) 0)
    (match swapAt base (qsortPivot o base) 0 with | c :: _ => c.tmp | [] => 0) 1
    (swapAt base (qsortPivot o base) 0).length le_rfl (by rw [length_swapAt]; omega)
  have hl := length_swapAt base (qsortPivot o base) 0
  omega

/-- `mediancut.rs:187-208`, `hist_item_sort_half`: the rearranged slice and the break index. The loop over
sub-slices is a recursion that puts the rearranged part back in its place. -/
def sortHalf (o : SortOracle F) (base : List (HistItem F)) (half : F) : List (HistItem F) × ℕ :=
  if hne : base = [] then ([], 0)
  else
    let parted := (qsortPartition o base).1
    let p := (qsortPartition o base).2
    let left := parted.take (p + 1)
    let right := parted.drop (p + 1)
    let leftSum := sum64 (left.map (·.mcColorWeight))
    if le half leftSum then
      if p = 0 then (parted, 0)
      else
        let r := sortHalf o (parted.take p) half
        (r.1 ++ parted.drop p, r.2)
    else if right = [] then (parted, left.length)
    else
      let r := sortHalf o right (half -₆ leftSum)
      (left ++ r.1, left.length + r.2)
termination_by base.length
decreasing_by
  · have h1 := qsortPartition_lt o base hne
    have h2 := qsortPartition_length o base
    simp only [List.length_take]; omega
  · have h1 := qsortPartition_lt o base hne
    have h2 := qsortPartition_length o base
    simp only [List.length_drop]; omega

/-- `mediancut.rs:135-147` -/
def MBox.split (o : SortOracle F) (b : MBox F) (others : List (MBox F)) : MBox F × MBox F :=
  let colors := MBox.colorWeights o b.prepareSort
  let half := sum64 (colors.map (·.mcColorWeight)) /₆ lit64 2
  let r := sortHalf o colors half
  let breakAt := max r.2 1
  let left := r.1.take breakAt
  let right := r.1.drop breakAt
  let leftSum := sum64 (left.map (·.adjustedWeight))
  let rightSum := b.adjustedWeightSum -₆ leftSum
  (newS b.start left leftSum others, newS (b.start + breakAt) right rightSum others)

/-- loop `mediancut.rs:217-222`: computes missing errors until the limit is passed -/
def errorsFrom (target : F) : F → List (MBox F) → Bool × List (MBox F)
  | _, [] => (true, [])
  | total, b :: bs =>
    match b.totalError with
    | some _ =>
      let r := errorsFrom target total bs
      (r.1, b :: r.2)
    | none =>
      let e := b.computeTotalError
      let b := { b with totalError := some e }
      let total := total +₆ e
      if lt target total then (false, b :: bs)
      else
        let r := errorsFrom target total bs
        (r.1, b :: r.2)

/-- `mediancut.rs:211-224` -/
def totalBoxErrorBelowTarget (boxes : List (MBox F)) (histWeight targetMse : F) : Bool × List (MBox F) :=
  let target := targetMse *₆ histWeight
  let total := sum64 (boxes.filterMap (·.totalError))
  if lt target total then (false, boxes) else errorsFrom target total boxes

/-- `Vec::swap_remove` -/
def swapRemove {α : Type} (l : List α) (i : ℕ) : List α :=
  match l.getLast? with
  | none => l
  | some x => (l.set i x).dropLast

/-- `mediancut.rs:299-303` -/
def splitPriority (maxMse : F) (b : MBox F) : F :=
  let cv := Flt.fmax (Flt.fmax b.variance.r b.variance.g) b.variance.b
  let s := b.adjustedWeightSum *₆ Flt.fmax cv b.variance.a
  if lt maxMse b.maxError then s *₆ b.maxError /₆ maxMse else s

/-- `mediancut.rs:295-308`: index of the box to split -/
def bestSplittable (boxes : List (MBox F)) (maxMse : F) : Option (MBox F × ℕ) :=
  maxByKey (fun x : MBox F × ℕ => splitPriority maxMse x.1)
    (boxes.zipIdx.filter fun x => decide (x.1.colors.length > 1))

theorem mem_of_foldl_pick {α : Type} (f : α → α → Bool) (l : List α) (x : α) :
    l.foldl (fun best y => if f y best then best else y) x ∈ x :: l := by
  induction l generalizing x with
  | nil => simp
  | cons y ys ih =>
    simp only [List.foldl_cons]
    have := ih (if f y x then x else y)
    cases hf : f y x <;> simp only [hf, if_true, Bool.false_eq_true, if_false, List.mem_cons] at this ⊢ <;> tauto

theorem bestSplittable_some {boxes : List (MBox F)} {m : F} {b : MBox F} {i : ℕ}
    (h : bestSplittable boxes m = some (b, i)) : boxes[i]? = some b ∧ 1 < b.colors.length := by
  unfold bestSplittable maxByKey at h
  split at h
  · cases h
  next x xs heq =>
    injection h with h
    have hm := mem_of_foldl_pick (fun y best : MBox F × ℕ =>
      lt (splitPriority m y.1) (splitPriority m best.1)) xs x
    rw [h, ← heq, List.mem_filter] at hm
    have := List.mem_zipIdx_iff_getElem?.1 hm.1
    exact ⟨by simpa using this, by simpa using hm.2⟩

theorem length_swapRemove {α : Type} {l : List α} {i : ℕ} (h : i < l.length) :
    (swapRemove l i).length + 1 = l.length := by
  unfold swapRemove
  have hne : l ≠ [] := by intro e; subst e; simp at h
  rw [List.getLast?_eq_some_getLast hne]
  simp; omega

theorem errorsFrom_length (target total : F) (l : List (MBox F)) : (errorsFrom target total l).2.length = l.length := by
  induction l generalizing total with
  | nil => rfl
  | cons b bs ih =>
    unfold errorsFrom
    split
    · simp [ih]
    · dsimp only; split <;> simp [ih]

theorem totalBoxErrorBelowTarget_length (boxes : List (MBox F)) (w t : F) :
    (totalBoxErrorBelowTarget boxes w t).2.length = boxes.length := by
  unfold totalBoxErrorBelowTarget
  dsimp only
  split
  · rfl
  · exact errorsFrom_length ..

/-- loop of `cut`, `mediancut.rs:276-290` -/
def cutLoop (o : SortOracle F) (target : ℕ) (histWeight targetMse maxMse : F) (boxes : List (MBox F)) :
    List (MBox F) :=
  if boxes.length < target then
    let fraction := lit64 boxes.length /₆ lit64 target
    let currentMax := fma64 (fraction *₆ lit64 16) maxMse maxMse
    match h : bestSplittable boxes currentMax with
    | none => boxes
    | some (b, i) =>
      let rest := swapRemove boxes i
      let r := b.split o rest
      let boxes' := rest ++ [r.1, r.2]
      let e := totalBoxErrorBelowTarget boxes' histWeight targetMse
      if e.1 then e.2 else cutLoop o target histWeight targetMse maxMse e.2
  else boxes
termination_by target - boxes.length
decreasing_by
  have h1 := (List.getElem?_eq_some_iff.1 (bestSplittable_some h).1).1
  have h2 := length_swapRemove h1
  rw [totalBoxErrorBelowTarget_length]
  simp only [List.length_append, List.length_cons, List.length_nil]
  omega

/-- `mediancut.rs:237-251`: one box per non-empty cluster; `split_at_mut` panics if a cluster does not fit -/
def clusterBoxes (start : ℕ) (items : List (HistItem F)) : List (ℕ × ℕ) → Res (List (MBox F))
  | [] => .ok []
  | (b, e) :: cs =>
    if b ≤ e ∧ e - b ≤ items.length then do
      let rest ← clusterBoxes (start + (e - b)) (items.drop (e - b)) cs
      return MBox.new start (items.take (e - b)) :: rest
    else .error .panic

/-- `mediancut.rs:226-258` -/
def initialBoxes (hist : HistogramInternal F) (target : ℕ) : Res (List (MBox F)) :=
  let used := hist.clusters.filter fun c => decide (c.1 ≠ c.2)
  if used.length ≤ target / 3 then clusterBoxes 0 hist.items used
  else .ok [MBox.new 0 hist.items]

/-- items of a box with the box's index, `mediancut.rs:264` -/
def markItems (b : MBox F) (i : ℕ) : MBox F :=
  { b with colors := b.colors.map fun c => { c with tmp := i } }

/-- `mediancut.rs:267-268`: palette entry of a box -/
def boxEntry (b : MBox F) : PalEntry F :=
  ⟨b.avgColor, PalPop.new (to32 (sum64 (b.colors.map (·.perceptualWeight))))⟩

/-- the array of items after the cut: the slices in their places -/
def boxesItems (boxes : List (MBox F)) : List (HistItem F) :=
  (boxes.mergeSort fun x y => decide (x.start ≤ y.start)).flatMap (·.colors)

/-- `mediancut.rs:260-271`, `into_palette`; `PalF::push` panics when full -/
def intoPalette (boxes : List (MBox F)) : Res (PalF F × List (HistItem F)) :=
  if boxes.length ≤ maxColorsCap then
    .ok (boxes.map boxEntry, boxesItems (boxes.zipIdx.map fun (b, i) => markItems b i))
  else .error .panic

/-- `mediancut.rs:312-314` with `cut`, `273-293` -/
def mediancut (o : SortOracle F) (hist : HistogramInternal F) (target : ℕ) (targetMse maxMsePerColor : F) :
    Res (PalF F × HistogramInternal F) := do
  let maxMse := Flt.fmax maxMsePerColor (qualityToMse 20)
  let boxes ← initialBoxes hist target
  let boxes := cutLoop o target hist.totalPerceptualWeight targetMse maxMse boxes
  let (pal, items) ← intoPalette boxes
  return (pal, { hist with items := items })

end Verif
