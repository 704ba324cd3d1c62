import Verif.Model.Image

/-!
# Remapping (`src/remap.rs`, `src/quant.rs:84-132`, `244-271`)

Output memory is a list of rows of `Option UInt8`, `none` being a byte nobody has written yet.
Threads are a parameter (`RemapEnv`): which worker processes which rows in which order, the order of the
additions of the per-row errors, the number of CPUs and the contents of uninitialised memory.
-/

set_option linter.unusedSectionVars false

namespace Verif
open Flt

variable {F : Type} [Flt F]

/-- Distribution of rows over workers, `remap.rs:60-90`. The thread-local data of the main thread exists before
the loop (`remap.rs:42-43`); `before` and `after` are the other workers in the order of `tls.into_iter()`. `order` is
the order in time in which rows are finished; it is not required to agree with the orders within the workers, which
only allows more behaviours. -/
structure RemapSched where
  before : List (List ℕ)
  main : List ℕ
  after : List (List ℕ)
  order : List ℕ

/-- every row is processed exactly once -/
def RemapSched.Valid (s : RemapSched) (rows : ℕ) : Prop :=
  (s.before.flatten ++ s.main ++ s.after.flatten).Perm (List.range rows) ∧ s.order.Perm (List.range rows)

/-- `x` is the result of adding up `l` in some order and association (rayon's `sum::<f64>()`) -/
inductive SumsTo : List F → F → Prop
  | nil : SumsTo [] (lit64 0)
  | single (x : F) : SumsTo [x] x
  | add {l m : List F} {x y : F} : SumsTo l x → SumsTo m y → SumsTo (l ++ m) (x +₆ y)
  | perm {l m : List F} {x : F} : l.Perm m → SumsTo l x → SumsTo m x

/-- What the environment decides during a remap. -/
structure RemapEnv (F : Type) [Flt F] where
  sched : ℕ → RemapSched
  sched_valid : ∀ n, (sched n).Valid n
  sum : List F → F
  sum_spec : ∀ l, SumsTo l (sum l)
  /-- `num_cpus()` -/
  cpus : ℕ
  cpus_pos : 0 < cpus
  /-- what a read of an uninitialised byte in column `col` returns -/
  garbage : ℕ → UInt8

/-! ### Undithered remapping, `remap.rs:29-102` -/

/-- The effects of one row: output bytes, sum of differences and k-means updates (pixel, weight, index) -/
structure RowOut (F : Type) where
  bytes : List UInt8
  err : F
  updates : List (FPixel F × F × ℕ)

/-- `remap.rs:73-88` from some column on: remaining pixels, background pixels and importance bytes -/
def remapPixels (n : Nearest F) (ti : UInt8) :
    List (FPixel F) → List (FPixel F) → List UInt8 → UInt8 → F → RowOut F
  | [], _, _, _, err => ⟨[], err, []⟩
  | px :: pxs, bgs, imps, last, err =>
    let (m, diff) := n.search px last.toNat
    let matched := UInt8.ofNat m
    let bgDiff := match bgs.head? with
      | some bg => if le (bg.diff px) diff then some (bg.diff px) else none
      | none => none
    match bgDiff with
    | some d =>
      let r := remapPixels n ti pxs bgs.tail imps.tail matched (err +₆ d)
      { r with bytes := ti :: r.bytes }
    | none =>
      let r := remapPixels n ti pxs bgs.tail imps.tail matched (err +₆ diff)
      { r with bytes := matched :: r.bytes
               updates := (px, lit32 (imps.head?.getD 1).toNat, matched.toNat) :: r.updates }

/-- `remap.rs:61-89`, one row -/
def remapRow (n : Nearest F) (ti : UInt8) (px : Rows F) (bg : Option (Rows F)) (imp : Option (List UInt8)) (y : ℕ) :
    Res (RowOut F) := do
  let row ← px.rowF y
  let bgRow ← match bg with
    | some b => b.rowF y
    | none => pure []
  return remapPixels n ti row bgRow ((imp.getD []).drop (y * px.width)) 0 (lit64 0)

/-- the loop `remap.rs:60-90`: rows are finished in the order of the schedule, each writing its own slot -/
def remapLoop (order : List ℕ) (n : Nearest F) (ti : UInt8) (px : Rows F) (bg : Option (Rows F))
    (imp : Option (List UInt8)) (nrows : ℕ) : Res (List (RowOut F)) := do
  let slots ← order.foldlM (fun slots y => do
    let r ← remapRow n ti px bg imp y
    store slots y (some r)) (List.replicate nrows none)
  slots.mapM fun
    | some r => .ok r
    | none => .error .panic

/-- `n.search(&f_pixel::default(), 0).0 as PalIndexRemap` -/
def transparentIndex (n : Nearest F) : UInt8 := UInt8.ofNat (n.search FPixel.default 0).1

/-- k-means updates of the rows a worker processed, in its order, `remap.rs:87` -/
def remapWorker (outs : List (RowOut F)) (start : Kmeans F) (rows : List ℕ) : Kmeans F :=
  rows.foldl (fun k y =>
    match outs[y]? with
    | some r => r.updates.foldl (fun k u => k.updateColor u.1 u.2.1 u.2.2) k
    | none => k) start

/-- `remap.rs:42`, `54-56`: the main thread's averages before the loop -/
def remapMainStart (len : ℕ) (useBg : Bool) (ti : UInt8) : Kmeans F :=
  if useBg then (Kmeans.new len).updateColor FPixel.default (lit32 1) ti.toNat else Kmeans.new len

/-- what `remap_to_palette` leaves behind -/
structure RemapOut (F : Type) where
  px : Rows F
  background : Option (Rows F)
  /-- the rows written; `none` if it failed before writing -/
  rows : Option (List (List UInt8))
  palette : PalF F

/-- `remap.rs:46-52`: the background that is used (if any) and the transparent index -/
def pickBackground (n : Nearest F) (bg : Option (Rows F)) : Option (Rows F) × UInt8 :=
  match bg with
  | some b =>
    let ti := transparentIndex n
    if lt (palColor n.palette ti.toNat).a minOpaqueA then (some b, ti) else (none, 0)
  | none => (none, 0)

/-- `remap.rs:53`: prepares the background rows that are used -/
def prepareOpt (bg : Option (Rows F)) : Res (Option (Rows F)) :=
  match bg with
  | some b => (b.prepare true).map some
  | none => .ok none

/-- `remap.rs:97-100` after the loop -/
def remapFinish (env : RemapEnv F) (outs : List (RowOut F)) (useBg : Bool) (ti : UInt8) (p : PalF F) : PalF F :=
  let s := env.sched outs.length
  let start := Kmeans.new p.length
  let workers := s.before.map (remapWorker outs start) ++
    remapWorker outs (remapMainStart p.length useBg ti) s.main :: s.after.map (remapWorker outs start)
  match Kmeans.reduceWorkers workers with
  | some k => Kmeans.finalizePalette k.averages p
  | none => p

/-- `remap.rs:29-102`, `remap_to_palette`: the mean error and what is left behind. `nrows` is the number of output
rows. The pixel count `px.width * px.height` is a `u32` (wraps in release builds). -/
def remapToPalette (env : RemapEnv F) (px : Rows F) (bg : Option (Rows F)) (imp : Option (List UInt8))
    (nrows : ℕ) (p : PalF F) : Res F × RemapOut F :=
  match Nearest.new p with
  | .error e => (.error e, ⟨px, bg, none, p⟩)
  | .ok n =>
    match px.prepare true with
    | .error e => (.error e, ⟨px, bg, none, p⟩)
    | .ok px =>
      let (usedBg, ti) := pickBackground n bg
      match prepareOpt usedBg with
      | .error e => (.error e, ⟨px, bg, none, p⟩)
      | .ok usedBg =>
        let bg := if usedBg.isSome then usedBg else bg
        match remapLoop (env.sched nrows).order n ti px usedBg imp nrows with
        | .error e => (.error e, ⟨px, bg, none, p⟩)
        | .ok outs =>
          let total := env.sum (outs.map (·.err))
          let rows := outs.map (·.bytes)
          if isNan total then (.error (.err .outOfMemory), ⟨px, bg, some rows, p⟩)
          else
            (.ok (total /₆ lit64 (px.width * px.height % 2 ^ 32 : ℕ)),
              ⟨px, bg, some rows, remapFinish env outs usedBg.isSome ti p⟩)

/-! ### Dithered remapping, `remap.rs:104-319` -/

/-- `thiserr.0 * dither_level` and the like: channel-wise product with a number -/
def FPixel.scale (x : FPixel F) (k : F) : FPixel F := ⟨x.a *₃ k, x.r *₃ k, x.g *₃ k, x.b *₃ k⟩
/-- channel-wise sum -/
def FPixel.add (x y : FPixel F) : FPixel F := ⟨x.a +₃ y.a, x.r +₃ y.r, x.g +₃ y.g, x.b +₃ y.b⟩
/-- `s.r.mul_add(s.r, s.g * s.g) + s.b.mul_add(s.b, s.a * s.a)`, `remap.rs:107`, `302` -/
def FPixel.normSq (s : FPixel F) : F := fma32 s.r s.r (s.g *₃ s.g) +₃ fma32 s.b s.b (s.a *₃ s.a)

/-- `remap.rs:117-131` for one channel -/
def limitRatio (ratio px s : F) : F :=
  if lt (lit32 (11/10)) (px +₃ s) then Flt.fmin ratio ((lit32 (11/10) -₃ px) /₃ s)
  else if lt (px +₃ s) (lit32 (-1/10)) then Flt.fmin ratio ((lit32 (-1/10) -₃ px) /₃ s)
  else ratio

/-- `remap.rs:104-141`, `get_dithered_pixel` -/
def ditheredPixel (level maxErr : F) (thiserr px : FPixel F) : FPixel F :=
  let s := thiserr.scale level
  let e := s.normSq
  if lt e (lit32 (2/65536)) then px
  else
    let ratio := limitRatio (limitRatio (limitRatio (lit32 1) px.r s.r) px.g s.g) px.b s.b
    let ratio := if lt maxErr e then ratio *₃ lit32 (8/10) else ratio
    { a := clamp (px.a +₃ s.a) (lit32 0) (lit32 1)
      r := fma32 s.r ratio px.r
      g := fma32 s.g ratio px.g
      b := fma32 s.b ratio px.b }

/-- what does not change during a dithered remap, parameters of `dither_row` (`remap.rs:235`) -/
structure DitherCtx (F : Type) where
  n : Nearest F
  width : ℕ
  base : F
  maxErr : F
  ti : UInt8
  /-- `guess_from_remapped_pixels` -/
  guess : Bool
  garbage : ℕ → UInt8

/-- local variables of `dither_row`; `uninit` records whether a byte was read that nobody had written -/
structure DitherState (F : Type) where
  thiserr : List (FPixel F)
  nexterr : List (FPixel F)
  /-- `undithered_bg_used` -/
  bgUsed : ℕ
  last : UInt8
  out : List (Option UInt8)
  uninit : Bool

/-- `remap.rs:262-266`: the hint for the search, and whether it came from uninitialised memory -/
def ditherGuess (ctx : DitherCtx F) (st : DitherState F) (col : ℕ) : UInt8 × Bool :=
  if ctx.guess then
    match st.out.getD col none with
    | some b => (b, false)
    | none => (ctx.garbage col, true)
  else (st.last, false)

/-- `remap.rs:271-299`: the index to write, the colour shown and the new `undithered_bg_used` -/
def ditherChoose (ctx : DitherCtx F) (bg : Option (FPixel F)) (inputPx spx : FPixel F) (guess last : UInt8)
    (ditherDiff : F) (bgUsed : ℕ) : Res (UInt8 × FPixel F × ℕ) := do
  let outputPx := (← index ctx.n.palette last.toNat).color
  match bg with
  | none => return (last, outputPx, bgUsed)
  | some bg =>
    if le (spx.diff bg) ditherDiff then return (ctx.ti, bg, bgUsed)
    else if bgUsed > 1 then return (last, outputPx, 0)
    else
      let maxDiff := inputPx.diff bg
      if lt maxDiff (inputPx.diff outputPx) then
        let guessed := (← index ctx.n.palette guess.toNat).color
        if lt (inputPx.diff guessed) maxDiff then return (guess, guessed, bgUsed + 1)
        else return (last, outputPx, bgUsed)
      else return (last, outputPx, bgUsed)

/-- `remap.rs:301-317`: spreads the error. `thiserr`/`nexterr` are `width + 2` long, so all three cells exist. -/
def diffuse (even : Bool) (col : ℕ) (err : FPixel F) (thiserr nexterr : List (FPixel F)) :
    List (FPixel F) × List (FPixel F) :=
  let plus (k : ℚ) (x : FPixel F) : FPixel F := x.add (err.scale (lit32 k))
  if even then
    (thiserr.modify (col + 2) (plus (7/16)),
      ((nexterr.modify col (plus (3/16))).modify (col + 1) (plus (5/16))).set (col + 2) (err.scale (lit32 (1/16))))
  else
    (thiserr.modify col (plus (7/16)),
      ((nexterr.set col (err.scale (lit32 (1/16)))).modify (col + 1) (plus (5/16))).modify (col + 2) (plus (3/16)))

/-- `remap.rs:301-304`: the error of the pixel -/
def pixelError (maxErr : F) (spx outputPx : FPixel F) : FPixel F :=
  let err := spx.sub outputPx
  if lt maxErr err.normSq then err.scale (lit32 (3/4)) else err

/-- body of the loop `remap.rs:252-318` -/
def ditherStep (ctx : DitherCtx F) (row bg : List (FPixel F)) (dmap : List UInt8) (even : Bool)
    (st : DitherState F) (x : ℕ) : Res (DitherState F) := do
  let col := if even then x else ctx.width - 1 - x
  let inputPx ← index row col
  let level := match dmap[col]? with
    | some l => ctx.base *₃ lit32 l.toNat
    | none => ctx.base
  let spx := ditheredPixel level ctx.maxErr (st.thiserr.getD (col + 1) FPixel.default) inputPx
  let (guess, un) := ditherGuess ctx st col
  let (m, ditherDiff) := ctx.n.search spx guess.toNat
  let last := UInt8.ofNat m
  let (matched, outputPx, bgUsed) ← ditherChoose ctx bg[col]? inputPx spx guess last ditherDiff st.bgUsed
  let (thiserr, nexterr) := diffuse even col (pixelError ctx.maxErr spx outputPx) st.thiserr st.nexterr
  return { thiserr := thiserr, nexterr := nexterr, bgUsed := bgUsed, last := last
           out := st.out.set col (some matched), uninit := st.uninit || un }

/-- the two halves of `diffusion`, `remap.rs:193-196` -/
abbrev Diffusion (F : Type) := List (FPixel F) × List (FPixel F)

/-- `remap.rs:193-196` -/
def Diffusion.zero (width : ℕ) : Diffusion F :=
  (List.replicate (width + 2) FPixel.default, List.replicate (width + 2) FPixel.default)

/-- what processing rows returns: the diffusion state, the output row(s) and the `uninit` flag -/
structure DitherOut (F α : Type) where
  diffusion : Diffusion F
  out : α
  uninit : Bool

/-- `remap.rs:235-319`, `dither_row` -/
def ditherRow (ctx : DitherCtx F) (row bg : List (FPixel F)) (dmap : List UInt8) (d : Diffusion F) (even : Bool)
    (out : List (Option UInt8)) : Res (DitherOut F (List (Option UInt8))) :=
  if row.length ≠ ctx.width ∨ out.length ≠ ctx.width then .error .panic
  else do
    let thiserr := if even then d.1 else d.2
    let st ← (List.range ctx.width).foldlM (ditherStep ctx row bg dmap even)
      { thiserr := thiserr, nexterr := List.replicate (ctx.width + 2) FPixel.default, bgUsed := 0, last := 0
        out := out, uninit := false }
    return ⟨if even then (st.thiserr, st.nexterr) else (st.nexterr, st.thiserr), st.out, st.uninit⟩

/-- the inputs of a dithered remap -/
structure DitherInput (F : Type) where
  px : Rows F
  bg : Option (Rows F)
  dmap : List UInt8

/-- `dither_map.get(row * width .. row * width + width).unwrap_or(&[])` -/
def DitherInput.dmapRow (inp : DitherInput F) (y : ℕ) : List UInt8 :=
  let w := inp.px.width
  if y * w + w ≤ inp.dmap.length then (inp.dmap.drop (y * w)).take w else []

/-- `remap.rs:207-212`, `220-226`: row `y` of the image into the given output row -/
def ditherImageRow (ctx : DitherCtx F) (inp : DitherInput F) (d : Diffusion F) (y : ℕ) (out : List (Option UInt8)) :
    Res (DitherOut F (List (Option UInt8))) := do
  let row ← inp.px.rowF y
  let bgRow ← match inp.bg with
    | some b => b.rowF y
    | none => pure []
  ditherRow ctx row bgRow (inp.dmapRow y) d (y % 2 == 0) out

/-- `remap.rs:219-227`: consecutive rows from `y` on -/
def ditherRows (ctx : DitherCtx F) (inp : DitherInput F) :
    Diffusion F → ℕ → List (List (Option UInt8)) → Res (DitherOut F (List (List (Option UInt8))))
  | d, _, [] => .ok ⟨d, [], false⟩
  | d, y, out :: outs => do
    let r ← ditherImageRow ctx inp d y out
    let rs ← ditherRows ctx inp r.diffusion (y + 1) outs
    return ⟨rs.diffusion, r.out :: rs.out, r.uninit || rs.uninit⟩

/-- `remap.rs:193-214`: the diffusion state at the beginning of a chunk. The two rows above the chunk are dithered
one after the other into the same scratch row, which is uninitialised at first. -/
def warmUp (ctx : DitherCtx F) (inp : DitherInput F) (start : ℕ) : Res (Diffusion F × Bool) :=
  if start > 2 then do
    let r ← ditherImageRow ctx inp (Diffusion.zero ctx.width) (start - 2) (List.replicate ctx.width none)
    let r' ← ditherImageRow ctx inp r.diffusion (start - 1) r.out
    return (r'.diffusion, r.uninit || r'.uninit)
  else .ok (Diffusion.zero ctx.width, false)

/-- `remap.rs:188` -/
def ditherChunks (single : Bool) (width height cpus : ℕ) : ℕ :=
  if single then 1
  else min (max (min (width * height / 524288) (height / 128)) (if height > 128 then 2 else 1)) cpus

/-- `chunks(size)` (only used with `size > 0`) -/
def chunksOf {α : Type} (size : ℕ) (l : List α) : List (List α) :=
  (List.range ((l.length + size - 1) / size)).map fun i => (l.drop (i * size)).take size

/-- `remap.rs:216` -/
def ditherProgress (stage1 start height : ℕ) : F :=
  lit32 stage1 +₃ lit32 start *₃ (lit32 100 -₃ lit32 stage1) /₃ lit32 height

/-- outcome of the chunk loop: result, all output rows and the `uninit` flag -/
structure FloydOut where
  res : Res Unit
  rows : List (List (Option UInt8))
  uninit : Bool

/-- the loop `remap.rs:191-229`. A spawned chunk touches only its own rows and diffusion buffer and `scope` waits for
it, so running it at once has the same effect. -/
def floydChunks (ctx : DitherCtx F) (inp : DitherInput F) (cb : Option (List F → Bool)) (stage1 : ℕ) :
    ℕ → List (List (List (Option UInt8))) → List F → FloydOut × List F
  | _, [], log => (⟨.ok (), [], false⟩, log)
  | start, chunk :: chunks, log =>
    match warmUp ctx inp start with
    | .error e => (⟨.error e, (chunk :: chunks).flatten, false⟩, log)
    | .ok (d, un) =>
      match progress cb (ditherProgress stage1 start inp.px.height) log with
      | (.error e, log) => (⟨.error e, (chunk :: chunks).flatten, un⟩, log)
      | (.ok true, log) => (⟨.error (.err .aborted), (chunk :: chunks).flatten, un⟩, log)
      | (.ok false, log) =>
        match ditherRows ctx inp d start chunk with
        | .error e => (⟨.error e, (chunk :: chunks).flatten, un⟩, log)
        | .ok r =>
          let (rest, log) := floydChunks ctx inp cb stage1 (start + chunk.length) chunks log
          (⟨rest.res, r.out ++ rest.rows, un || r.uninit || rest.uninit⟩, log)

/-- `remap.rs:174-177` -/
def baseDitherLevel (level : F) (hasMap : Bool) : F :=
  let b := fma32 (lit32 1 -₃ level) (fneg (lit32 1 -₃ level)) (lit32 1) *₃ (lit32 15 /₃ lit32 16)
  if hasMap then b *₃ (lit32 1 /₃ lit32 255) else b

/-- `remap.rs:156-160` -/
def ditherMapOf (img : Image F) (mode : DitherMapMode) : List UInt8 :=
  if mode ≠ .none then (img.ditherMap.or img.edges).getD [] else []

/-- progress base, `quant.rs:85`, `remap.rs:148` -/
def remapStage1 (mode : DitherMapMode) : ℕ := if mode ≠ .none then 20 else 0

/-- `remap.rs:166-172`: the background that is used and the transparent index -/
def pickBackgroundFloyd (n : Nearest F) (bg : Option (Rows F)) : Option (Rows F) × UInt8 :=
  match bg with
  | some b =>
    let ti := transparentIndex n
    if lt minOpaqueA (palColor n.palette ti.toNat).a then (none, ti) else (some b, ti)
  | none => (none, 0)

/-- everything a remap reads and changes -/
structure RemapState (F : Type) where
  quant : QuantizationResult F
  image : Image F
  /-- output rows -/
  out : List (List (Option UInt8))
  log : List F
  /-- a read of an output byte that nobody had written happened -/
  uninit : Bool

/-- `remap.rs:147-232`, `remap_to_palette_floyd` -/
def remapFloyd (env : RemapEnv F) (s : RemapState F) (palette : PalF F) (maxErr : F) (isRemapped : Bool) :
    Res Unit × RemapState F :=
  let dmap := ditherMapOf s.image s.quant.useDitherMap
  match Nearest.new palette with
  | .error e => (.error e, s)
  | .ok n =>
    match prepareOpt s.image.background with
    | .error e => (.error e, s)
    | .ok bg =>
      let s := { s with image := { s.image with background := bg } }
      let (bg, ti) := pickBackgroundFloyd n bg
      match s.image.px.prepare true with
      | .error e => (.error e, s)
      | .ok px =>
        let s := { s with image := { s.image with px := px } }
        let ctx : DitherCtx F :=
          { n := n, width := px.width, base := baseDitherLevel s.quant.ditherLevel (!dmap.isEmpty), maxErr := maxErr
            ti := ti, guess := isRemapped && bg.isNone, garbage := env.garbage }
        let chunks := ditherChunks s.quant.singleThreadedDithering px.width px.height env.cpus
        let (r, log) := floydChunks ctx ⟨px, bg, dmap⟩ s.quant.progressCallback (remapStage1 s.quant.useDitherMap) 0
          (chunksOf ((px.height + chunks - 1) / chunks) s.out) s.log
        (r.res, { s with out := r.rows, log := log, uninit := s.uninit || r.uninit })

/-- `quant.rs:121-124`; `is_image_huge` is computed in `u32` (wraps in release builds) -/
def generatesDitherMap (mode : DitherMapMode) (img : Image F) : Bool :=
  let huge := decide (img.px.width * img.px.height % 2 ^ 32 > 2000 * 2000)
  (mode == .always || (!huge && mode != .none)) && img.ditherMap.isNone

/-- writes whole rows -/
def writeRows (rows : Option (List (List UInt8))) (out : List (List (Option UInt8))) : List (List (Option UInt8)) :=
  match rows with
  | some rows => rows.map (·.map some)
  | none => out

/-- `quant.rs:120-132`, `optionally_generate_dither_map`: error of the undithered remap if one was made, the palette -/
def generateDitherMap (env : RemapEnv F) (s : RemapState F) (usesBackground : Bool) (palette : PalF F) :
    Res (Option F × PalF F) × RemapState F :=
  if !generatesDitherMap s.quant.useDitherMap s.image then (.ok (none, palette), s)
  else
    match remapToPalette env s.image.px none s.image.importanceMap s.out.length palette with
    | (.error e, r) => (.error e, { s with image := { s.image with px := r.px }, out := writeRows r.rows s.out })
    | (.ok err, r) =>
      let s := { s with image := { s.image with px := r.px }, out := writeRows r.rows s.out }
      match s.image.updateDitherMap (r.rows.getD []) r.palette usesBackground with
      | .error e => (.error e, s)
      | .ok img => (.ok (some err, r.palette), { s with image := img })

/-- `quant.rs:111` -/
def maxDitherError (err : Option F) : F :=
  to32 (Flt.fmax (err.getD (qualityToMse 80) *₆ lit64 (24/10)) (qualityToMse 35))

/-- `quant.rs:98-101`, dithering off: the new value of `remapped` -/
def remapPlain (env : RemapEnv F) (s : RemapState F) : Res (Remapped F) × RemapState F :=
  let (palette, ip) := s.quant.palette.initIntPalette s.quant.gamma (UInt8.ofNat s.quant.minPosterizationOutput)
  match remapToPalette env s.image.px s.image.background s.image.importanceMap s.out.length palette with
  | (res, r) =>
    let s := { s with image := { s.image with px := r.px, background := r.background }, out := writeRows r.rows s.out }
    match res with
    | .error e => (.error e, s)
    | .ok err => (.ok ⟨ip, some err⟩, s)

/-- `quant.rs:101-115`, dithering on: the new value of `remapped` -/
def remapDithered (env : RemapEnv F) (s : RemapState F) : Res (Remapped F) × RemapState F :=
  match generateDitherMap env s s.image.background.isSome s.quant.palette with
  | (.error e, s) => (.error e, s)
  | (.ok (mapErr, palette), s) =>
    match progress s.quant.progressCallback (lit32 (remapStage1 s.quant.useDitherMap) *₃ lit32 (1/2)) s.log with
    | (.error e, log) => (.error e, { s with log := log })
    | (.ok true, log) => (.error (.err .aborted), { s with log := log })
    | (.ok false, log) =>
      let s := { s with log := log }
      let err := mapErr.or s.quant.paletteError
      let (palette, ip) := palette.initIntPalette s.quant.gamma (UInt8.ofNat s.quant.minPosterizationOutput)
      match remapFloyd env s palette (maxDitherError err) mapErr.isSome with
      | (.error e, s) => (.error e, s)
      | (.ok (), s) => (.ok ⟨ip, err⟩, s)

/-- `quant.rs:84-118`, `write_remapped_image_rows_internal` -/
def writeRemapped (env : RemapEnv F) (s : RemapState F) : Res Unit × RemapState F :=
  match progress s.quant.progressCallback (lit32 (remapStage1 s.quant.useDitherMap) *₃ lit32 (1/4)) s.log with
  | (.error e, log) => (.error e, { s with log := log })
  | (.ok true, log) => (.error (.err .aborted), { s with log := log })
  | (.ok false, log) =>
    let s := { s with log := log, image := s.image.freeHistogramInputs }
    match if eq s.quant.ditherLevel (lit32 0) then remapPlain env s else remapDithered env s with
    | (.error e, s) => (.error e, s)
    | (.ok re, s) => (.ok (), { s with quant := { s.quant with remapped := some re } })

/-- outcome of `remap_into` -/
structure RemapIntoOut (F : Type) where
  res : Res Unit
  quant : QuantizationResult F
  image : Image F
  buf : List (Option UInt8)
  log : List F
  uninit : Bool

/-- `quant.rs:265-271`, `remap_into`: the buffer is flat; `new_contiguous` cuts its beginning into rows -/
def remapInto (env : RemapEnv F) (q : QuantizationResult F) (img : Image F) (buf : List (Option UInt8)) (log : List F) :
    RemapIntoOut F :=
  let required := img.width * img.height
  if buf.length < required then ⟨.error (.err .bufferTooSmall), q, img, buf, log, false⟩
  else
    let (res, s) := writeRemapped env ⟨q, img, chunksExact img.width (buf.take required), log, false⟩
    ⟨res, s.quant, s.image, s.out.flatten ++ buf.drop required, s.log, s.uninit⟩

/-- `quant.rs:244-254`, `remap_into_vec` and `remapped` (`quant.rs:232-236`): the palette and the bytes. `set_len`
makes every byte of the buffer readable; `none` in the result would be an uninitialised byte handed to the caller. -/
def remapped (env : RemapEnv F) (q : QuantizationResult F) (img : Image F) (log : List F) :
    Res (List RGBA × List (Option UInt8)) × RemapIntoOut F :=
  let r := remapInto env q img (List.replicate (img.width * img.height) none) log
  match r.res with
  | .error e => (.error e, r)
  | .ok () =>
    let (q, pal) := r.quant.getPalette
    (.ok (pal, r.buf), { r with quant := q })

end Verif
