import Verif.Model.Memory
import Verif.Model.Remap

/-!
# Running out of memory while remapping

As `Model/Memory.lean`, for `src/remap.rs`, `src/rows.rs` and the part of `src/quant.rs` that remaps. Not modelled: what rows of the
output the workers have written when one of them gets no memory (here they are left alone; in the code some are written).
-/

namespace Verif
open Flt

variable {F : Type} [Flt F]

namespace Rows

/-- `rows.rs:160-177`, `prepare_iter(…, true)`: room for all the converted pixels (`rows.rs:169`) unless they exist or are not kept -/
def prepareA : AM (Rows F) Unit := do
  let r ← AM.get
  AM.allocIf (!(r.fPixels.isSome || r.lowMemory))
  let r' ← AM.lift (r.prepare true)
  AM.modify fun _ => r'

/-- `rows.rs:179-186`, `rows_iter`; a row of converted pixels if they are not kept (`rows.rs:153-158`) -/
def rowsIterA : AM (Rows F) Unit := do
  prepareA
  let r ← AM.get
  AM.allocIf r.fPixels.isNone

end Rows

/-- `k` requests, one after the other until one is refused: was none refused, and the number of the next request -/
def askAll (mem : Answers) : ℕ → ℕ → Bool × ℕ
  | 0, i => (true, i)
  | k + 1, i => if mem i then askAll mem k (i + 1) else (false, i + 1)

/-- `remap.rs:40`, `62`: a worker asks for its averages and three rows when it gets its first row; if it does not get them it gives
up on this row (`NaN`) and asks again for the next one -/
def askRows (mem : Answers) : List ℕ → ℕ → Bool × ℕ
  | [], i => (true, i)
  | _ :: rows, i =>
    match askAll mem 4 i with
    | (true, i) => (true, i)
    | (false, i) => (false, (askRows mem rows i).2)

/-- All the workers. They ask at the same time; the numbers of their requests do not matter, as the answers are arbitrary. -/
def askWorkers (mem : Answers) : List (List ℕ) → ℕ → Bool × ℕ
  | [], i => (true, i)
  | w :: ws, i =>
    let a := askRows mem w i
    let b := askWorkers mem ws a.2
    (a.1 && b.1, b.2)

/-- `remap.rs:60-93`, what can go wrong there: a row that was given up makes the sum of the errors NaN (`x + NaN` is NaN), which
is reported as `OutOfMemory` -/
def AM.workers {σ : Type} (ws : List (List ℕ)) : AM σ Unit := fun mem s =>
  (if (askWorkers mem ws s.1).1 then .ok () else .error (.err .outOfMemory), (askWorkers mem ws s.1).2, s.2)

namespace RemapState

/-- the pixels of the image -/
def onPx {α : Type} (m : AM (Rows F) α) : AM (RemapState F) α :=
  AM.on (fun s => s.image.px) (fun px s => { s with image := { s.image with px := px } }) m

/-- the background, if it is there and used -/
def onBackground (used : Bool) (m : AM (Rows F) Unit) : AM (RemapState F) Unit := fun mem s =>
  match s.2.image.background with
  | some b =>
    if used then
      AM.on (fun _ => b) (fun b s => { s with image := { s.image with background := some b } }) m mem s
    else (.ok (), s)
  | none => (.ok (), s)

end RemapState

/-- `remap.rs:29-102`, `remap_to_palette`, with or without the background of the image: the error, the rows and the palette.
The main thread asks for its averages and rows first (`remap.rs:42`). -/
def remapToPaletteA (env : RemapEnv F) (useBg : Bool) (p : PalF F) : AM (RemapState F) (F × List (List UInt8) × PalF F) := do
  let n ← AM.lift (Nearest.new p)
  AM.alloc
  AM.alloc
  AM.alloc
  AM.alloc
  RemapState.onPx Rows.rowsIterA
  let s ← AM.get
  let picked := pickBackground n (if useBg then s.image.background else none)
  RemapState.onBackground picked.1.isSome Rows.rowsIterA
  let s ← AM.get
  AM.workers ((env.sched s.out.length).before ++ (env.sched s.out.length).after)
  let outs ← AM.lift (remapLoop (env.sched s.out.length).order n picked.2 s.image.px
    (if picked.1.isSome then s.image.background else none) s.image.importanceMap s.out.length)
  AM.modify fun s => { s with out := writeRows (some (outs.map (·.bytes))) s.out }
  if isNan (env.sum (outs.map (·.err))) then AM.throw (.err .outOfMemory)
  else return (env.sum (outs.map (·.err)) /₆ lit64 (s.image.px.width * s.image.px.height % 2 ^ 32 : ℕ), outs.map (·.bytes),
    remapFinish env outs picked.1.isSome picked.2 p)

namespace Image

/-- `image.rs:128-130` -/
def withEdgesA : AM (Image F) Unit := do
  let img ← AM.get
  if img.edges.isNone then contrastMapsA else return ()

/-- `image.rs:127-173`, `update_dither_map`. After `withEdgesA` the maps exist or are never made, so that `updateDitherMap` does the
rest. -/
def updateDitherMapA (remapped : List (List UInt8)) (palette : PalF F) (usesBackground : Bool) : AM (Image F) Unit := do
  withEdgesA
  let img ← AM.get
  let img' ← AM.lift (img.updateDitherMap remapped palette usesBackground)
  AM.modify fun _ => img'

end Image

/-- `quant.rs:120-132` -/
def generateDitherMapA (env : RemapEnv F) (usesBackground : Bool) (palette : PalF F) : AM (RemapState F) (Option F × PalF F) := do
  let s ← AM.get
  if !generatesDitherMap s.quant.useDitherMap s.image then return (none, palette)
  else
    let r ← remapToPaletteA env false palette
    AM.on (fun s : RemapState F => s.image) (fun img s => { s with image := img }) (Image.updateDitherMapA r.2.1 r.2.2 usesBackground)
    return (some r.1, r.2.2)

/-- `remap.rs:194-206`: requests of a chunk before its first row: a row, rows of converted pixels for image and background if they are not
kept, the errors to be diffused, and for later chunks a row to be discarded -/
def chunkRequests (inp : DitherInput F) (start : ℕ) : ℕ :=
  2 + (if inp.px.fPixels.isNone then 1 else 0) +
    (match inp.bg with
      | some b => if b.fPixels.isNone then 1 else 0
      | none => 0) +
    (if start > 2 then 1 else 0)

/-- the loop `remap.rs:191-229`, as `floydChunks` -/
def floydChunksA (mem : Answers) (ctx : DitherCtx F) (inp : DitherInput F) (cb : Option (List F → Bool)) (stage1 : ℕ) :
    ℕ → List (List (List (Option UInt8))) → ℕ → List F → (FloydOut × List F) × ℕ
  | _, [], i, log => ((⟨.ok (), [], false⟩, log), i)
  | start, chunk :: chunks, i, log =>
    match askAll mem (chunkRequests inp start) i with
    | (false, i) => ((⟨.error (.err .outOfMemory), (chunk :: chunks).flatten, false⟩, log), i)
    | (true, i) =>
      match warmUp ctx inp start with
      | .error e => ((⟨.error e, (chunk :: chunks).flatten, false⟩, log), i)
      | .ok (d, un) =>
        match progress cb (ditherProgress stage1 start inp.px.height) log with
        | (.error e, log) => ((⟨.error e, (chunk :: chunks).flatten, un⟩, log), i)
        | (.ok true, log) => ((⟨.error (.err .aborted), (chunk :: chunks).flatten, un⟩, log), i)
        | (.ok false, log) =>
          match ditherRows ctx inp d start chunk with
          | .error e => ((⟨.error e, (chunk :: chunks).flatten, un⟩, log), i)
          | .ok r =>
            let rest := floydChunksA mem ctx inp cb stage1 (start + chunk.length) chunks i log
            ((⟨rest.1.1.res, r.out ++ rest.1.1.rows, un || r.uninit || rest.1.1.uninit⟩, rest.1.2), rest.2)

/-- the loop in the state of a remap -/
def floydLoopA (env : RemapEnv F) (n : Nearest F) (maxErr : F) (isRemapped : Bool) : AM (RemapState F) Unit := fun mem s =>
  let dmap := ditherMapOf s.2.image s.2.quant.useDitherMap
  let picked := pickBackgroundFloyd n s.2.image.background
  let px := s.2.image.px
  let ctx : DitherCtx F :=
    { n := n, width := px.width, base := baseDitherLevel s.2.quant.ditherLevel (!dmap.isEmpty), maxErr := maxErr
      ti := picked.2, guess := isRemapped && picked.1.isNone, garbage := env.garbage }
  let chunks := ditherChunks s.2.quant.singleThreadedDithering px.width px.height env.cpus
  let r := floydChunksA mem ctx ⟨px, picked.1, dmap⟩ s.2.quant.progressCallback (remapStage1 s.2.quant.useDitherMap) 0
    (chunksOf ((px.height + chunks - 1) / chunks) s.2.out) s.1 s.2.log
  (r.1.1.res, r.2, { s.2 with out := r.1.1.rows, log := r.1.2, uninit := s.2.uninit || r.1.1.uninit })

/-- `remap.rs:147-232`, `remap_to_palette_floyd`; a row is asked for first (`remap.rs:154`) -/
def remapFloydA (env : RemapEnv F) (palette : PalF F) (maxErr : F) (isRemapped : Bool) : AM (RemapState F) Unit := do
  AM.alloc
  let n ← AM.lift (Nearest.new palette)
  RemapState.onBackground true Rows.prepareA
  RemapState.onPx Rows.prepareA
  floydLoopA env n maxErr isRemapped

/-- a progress report of a remap -/
def RemapState.progressA (x : F) : AM (RemapState F) Bool :=
  AM.run fun s => ((progress s.quant.progressCallback x s.log).1, { s with log := (progress s.quant.progressCallback x s.log).2 })

/-- `quant.rs:98-101` -/
def remapPlainA (env : RemapEnv F) : AM (RemapState F) (Remapped F) := do
  let s ← AM.get
  let pal := s.quant.palette.initIntPalette s.quant.gamma (UInt8.ofNat s.quant.minPosterizationOutput)
  let r ← remapToPaletteA env true pal.1
  return ⟨pal.2, some r.1⟩

/-- `quant.rs:101-115` -/
def remapDitheredA (env : RemapEnv F) : AM (RemapState F) (Remapped F) := do
  let s ← AM.get
  let g ← generateDitherMapA env s.image.background.isSome s.quant.palette
  let abort ← RemapState.progressA (lit32 (remapStage1 s.quant.useDitherMap) *₃ lit32 (1/2))
  if abort then AM.throw (.err .aborted)
  else
    let err := g.1.or s.quant.paletteError
    let pal := g.2.initIntPalette s.quant.gamma (UInt8.ofNat s.quant.minPosterizationOutput)
    remapFloydA env pal.1 (maxDitherError err) g.1.isSome
    return ⟨pal.2, err⟩

/-- `quant.rs:98-115` -/
def remapBodyA (env : RemapEnv F) (q : QuantizationResult F) : AM (RemapState F) (Remapped F) :=
  if eq q.ditherLevel (lit32 0) then remapPlainA env else remapDitheredA env

/-- `quant.rs:84-118` -/
def writeRemappedA (env : RemapEnv F) : AM (RemapState F) Unit := do
  let s ← AM.get
  let abort ← RemapState.progressA (lit32 (remapStage1 s.quant.useDitherMap) *₃ lit32 (1/4))
  if abort then AM.throw (.err .aborted)
  else
    AM.modify fun s => { s with image := s.image.freeHistogramInputs }
    let re ← remapBodyA env s.quant
    AM.modify fun s => { s with quant := { s.quant with remapped := some re } }

/-- `quant.rs:265-271`, `remap_into`: the outcome and the number of the next request -/
def remapIntoA (env : RemapEnv F) (mem : Answers) (i : ℕ) (q : QuantizationResult F) (img : Image F) (buf : List (Option UInt8)) (log : List F) :
    RemapIntoOut F × ℕ :=
  let required := img.width * img.height
  if buf.length < required then (⟨.error (.err .bufferTooSmall), q, img, buf, log, false⟩, i)
  else
    let r := writeRemappedA env mem (i, ⟨q, img, chunksExact img.width (buf.take required), log, false⟩)
    (⟨r.1, r.2.2.quant, r.2.2.image, r.2.2.out.flatten ++ buf.drop required, r.2.2.log, r.2.2.uninit⟩, r.2.1)

/-- `quant.rs:276-283`, `palette_vec`: no palette if there is no memory for it -/
def paletteVecA (mem : Answers) (i : ℕ) (q : QuantizationResult F) : QuantizationResult F × List RGBA × ℕ :=
  (q.getPalette.1, if mem i then q.getPalette.2 else [], i + 1)

/-- `quant.rs:232-254`, `remapped` and `remap_into_vec` -/
def remappedA (env : RemapEnv F) (mem : Answers) (i : ℕ) (q : QuantizationResult F) (img : Image F) (log : List F) :
    Res (List RGBA × List (Option UInt8)) × RemapIntoOut F × ℕ :=
  if mem i then
    let r := remapIntoA env mem (i + 1) q img (List.replicate (img.width * img.height) none) log
    match r.1.res with
    | .error e => (.error e, r)
    | .ok () =>
      let p := paletteVecA mem r.2 r.1.quant
      (.ok (p.2.1, r.1.buf), { r.1 with quant := p.1 }, p.2.2)
  else (.error (.err .outOfMemory), ⟨.error (.err .outOfMemory), q, img, [], log, false⟩, i + 1)

end Verif
