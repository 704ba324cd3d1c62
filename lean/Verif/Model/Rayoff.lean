import Verif.Model.Remap

/-!
# Builds without the `threads` feature (`src/rayoff.rs`, `src/lib.rs:36-37`)

`rayoff.rs` replaces rayon and `thread_local` by code that does everything at once on the calling thread. Here are the
two parallel loops of the library, `kmeans.rs:55-86` and `remap.rs:29-102`, written as this code runs them: one item
after the other, with the averages of the only thread updated at every item. Failed allocations are not modelled.
`scope` and `spawn` (`rayoff.rs:61-72`) call the closure at once, which is how `Model/Remap` runs the chunks of dithering.
-/

set_option linter.unusedSectionVars false

namespace Verif.Rayoff
open Flt

variable {F : Type} [Flt F]

/-- `rayoff.rs:4`: a `OnceCell`; its content is a `RefCell`, so it can be changed -/
structure ThreadLocal (α : Type) where
  cell : Option α

namespace ThreadLocal
variable {α : Type}

/-- `rayoff.rs:7-10` -/
def new : ThreadLocal α := ⟨none⟩

/-- `rayoff.rs:12-15` and, without failures, `17-20`: initialises the cell if it is empty -/
def getOr (t : ThreadLocal α) (f : Unit → α) : α × ThreadLocal α :=
  match t.cell with
  | some a => (a, t)
  | none => (f (), ⟨some (f ())⟩)

/-- `borrow_mut` and assignment -/
def put (t : ThreadLocal α) (a : α) : ThreadLocal α := { t with cell := some a }

/-- `rayoff.rs:23-31` -/
def intoIter (t : ThreadLocal α) : List α := t.cell.toList

end ThreadLocal

/-- `rayoff.rs:46-58`: `chunks_mut` -/
def parChunksMut {α : Type} (l : List α) (size : ℕ) : List (List α) := chunksOf size l

/-- `rayoff.rs:74-77` -/
def numCpus : ℕ := 1

/-! ### `kmeans.rs` -/

/-- closure `kmeans.rs:89-102` for one item. State: averages, items done, sum of differences. -/
def itemStep (n : Nearest F) (adjust : Bool) (st : Kmeans F × List (HistItem F) × F) (item : HistItem F) :
    Kmeans F × List (HistItem F) × F :=
  let m := Kmeans.matchItem n adjust item
  (st.1.updateColor m.1.color m.1.adjustedWeight m.1.tmp, st.2.1 ++ [m.1], st.2.2 +₆ m.2 *₃ m.1.perceptualWeight)

/-- `kmeans.rs:70-75` with `88-103`. State: thread-local averages, items done. -/
def batchStep (n : Nearest F) (adjust : Bool) (len : ℕ) (st : ThreadLocal (Kmeans F) × List (HistItem F))
    (batch : List (HistItem F)) : ThreadLocal (Kmeans F) × List (HistItem F) :=
  let (k, tls) := st.1.getOr fun _ => Kmeans.new len
  let (k, items, sum) := batch.foldl (itemStep n adjust) (k, [], lit64 0)
  (tls.put { k with weighedDiffSum := k.weighedDiffSum +₆ sum }, st.2 ++ items)

/-- `kmeans.rs:55-86` -/
def iteration (hist : HistogramInternal F) (p : PalF F) (adjust : Bool) : Res (HistogramInternal F × PalF F × F) :=
  if hist.items.isEmpty then .ok (hist, p, lit64 0)
  else do
    let n ← Nearest.new p
    let (tls, items) := (parChunksMut hist.items 256).foldl (batchStep n adjust p.length) (ThreadLocal.new, [])
    let hist' := { hist with items := items }
    let (p', diff) := match Kmeans.reduceWorkers tls.intoIter with
      | some k => (Kmeans.finalizePalette k.averages p, k.weighedDiffSum /₆ hist.totalPerceptualWeight)
      | none => (p, lit64 0)
    let p'' ← Kmeans.replaceUnused p' hist'.items
    return (hist', p'', diff)

/-! ### `remap.rs` -/

/-- `remap.rs:73-88` from some column on: bytes written, sum of differences, averages -/
def remapPixels (n : Nearest F) (ti : UInt8) :
    List (FPixel F) → List (FPixel F) → List UInt8 → UInt8 → F → Kmeans F → List UInt8 × F × Kmeans F
  | [], _, _, _, err, k => ([], err, k)
  | px :: pxs, bgs, imps, last, err, k =>
    let (m, diff) := n.search px last.toNat
    let matched := UInt8.ofNat m
    let bgDiff := match bgs.head? with
      | some bg => if le (bg.diff px) diff then some (bg.diff px) else none
      | none => none
    match bgDiff with
    | some d =>
      let r := remapPixels n ti pxs bgs.tail imps.tail matched (err +₆ d) k
      (ti :: r.1, r.2)
    | none =>
      let k := k.updateColor px (lit32 (imps.head?.getD 1).toNat) matched.toNat
      let r := remapPixels n ti pxs bgs.tail imps.tail matched (err +₆ diff) k
      (matched :: r.1, r.2)

/-- state of the loop over the rows: thread-local averages, rows written, sum of their errors -/
abbrev RowState (F : Type) := ThreadLocal (Kmeans F) × List (List UInt8) × F

/-- `remap.rs:61-89`, one row -/
def rowStep (n : Nearest F) (ti : UInt8) (px : Rows F) (bg : Option (Rows F)) (imp : Option (List UInt8)) (len : ℕ)
    (st : RowState F) (y : ℕ) : Res (RowState F) := do
  let (k, tls) := st.1.getOr fun _ => Kmeans.new len
  let row ← px.rowF y
  let bgRow ← match bg with
    | some b => b.rowF y
    | none => pure []
  let (bytes, err, k) := remapPixels n ti row bgRow ((imp.getD []).drop (y * px.width)) 0 (lit64 0) k
  return (tls.put k, st.2.1 ++ [bytes], st.2.2 +₆ err)

/-- `remap.rs:29-102`, `remap_to_palette` -/
def remapToPalette (px : Rows F) (bg : Option (Rows F)) (imp : Option (List UInt8)) (nrows : ℕ) (p : PalF F) :
    Res F × RemapOut F :=
  match Nearest.new p with
  | .error e => (.error e, ⟨px, bg, none, p⟩)
  | .ok n =>
    -- `remap.rs:42-43`
    let (k, tls) := (ThreadLocal.new : ThreadLocal (Kmeans F)).getOr fun _ => Kmeans.new p.length
    match px.prepare true with
    | .error e => (.error e, ⟨px, bg, none, p⟩)
    | .ok px =>
      let (usedBg, ti) := pickBackground n bg
      match prepareOpt usedBg with
      | .error e => (.error e, ⟨px, bg, none, p⟩)
      | .ok usedBg =>
        let bg := if usedBg.isSome then usedBg else bg
        -- `remap.rs:54-56`
        let tls := if usedBg.isSome then tls.put (k.updateColor FPixel.default (lit32 1) ti.toNat) else tls
        match (List.range nrows).foldlM (rowStep n ti px usedBg imp p.length) (tls, [], lit64 0) with
        | .error e => (.error e, ⟨px, bg, none, p⟩)
        | .ok (tls, rows, total) =>
          if isNan total then (.error (.err .outOfMemory), ⟨px, bg, some rows, p⟩)
          else
            let p' := match Kmeans.reduceWorkers tls.intoIter with
              | some k => Kmeans.finalizePalette k.averages p
              | none => p
            (.ok (total /₆ lit64 (px.width * px.height % 2 ^ 32 : ℕ)), ⟨px, bg, some rows, p'⟩)

end Verif.Rayoff
