import Verif.Model.Attr

/-!
# Histogram (`src/hist.rs`)

The image part of `add_image` (contrast maps, rows) is in `Model/Image.lean`; here the pixels arrive as
a list of rows.
-/

namespace Verif
open Flt

variable {F : Type} [Flt F]

/-- A `HashMap<u32, (u32, RGBA)>` (`hist.rs:30-32`) as an association list with distinct keys. The `u32` key
is the four bytes of an RGBA value (`RGBAInt`, `hist.rs:360-364`), kept as an RGBA. -/
abbrev ColorMap := List (RGBA × (ℕ × RGBA))

/-- `entry(k).and_modify(f).or_insert(v)` / `insert`: updates the entry of `k` or appends one -/
def ColorMap.upsert (m : ColorMap) (k : RGBA) (f : Option (ℕ × RGBA) → ℕ × RGBA) : ColorMap :=
  match m with
  | [] => [(k, f none)]
  | (k', v) :: t => if k' = k then (k', f (some v)) :: t else (k', v) :: ColorMap.upsert t k f

/-- `HashColor` (`hist.rs:415-420`); `PartialEq` is derived, so the index takes part in equality. -/
abbrev HashColor := RGBA × ℕ

/-- Iteration order of the two hash collections: any permutation (std leaves it unspecified). -/
structure HashOrder where
  map : ColorMap → ColorMap
  map_perm : ∀ m, (map m).Perm m
  set : List HashColor → List HashColor
  set_perm : ∀ s, (set s).Perm s

/-- `hist.rs:26-36` -/
structure Histogram (F : Type) where
  gamma : Option F
  fixedColors : List HashColor
  hashmap : ColorMap
  posterizeBits : ℕ
  maxHistogramEntries : ℕ

/-- `hist.rs:40-48`; the union `tmp` (`hist.rs:77-82`) is one number: `mc_sort_value` and
`likely_palette_index` are never live at the same time. -/
structure HistItem (F : Type) where
  color : FPixel F
  adjustedWeight : F
  perceptualWeight : F
  mcColorWeight : F
  tmp : ℕ

/-- `hist.rs:369-374` -/
structure HistogramInternal (F : Type) where
  items : List (HistItem F)
  totalPerceptualWeight : F
  /-- `Cluster { begin, end }`, `hist.rs:377-381` -/
  clusters : List (ℕ × ℕ)
  fixedColors : List (FPixel F)

/-- `hist.rs:229-233` applied to one channel: `c & (255 << bits)` in `u8` -/
def maskChannel (bits : ℕ) (c : UInt8) : UInt8 := c &&& ((255 : UInt8) <<< UInt8.ofNat bits)

/-- `posterize_mask() & rgba`, `hist.rs:215`, `246` -/
def maskColor (bits : ℕ) (c : RGBA) : RGBA := c.map (maskChannel bits)

namespace Histogram

/-- `hist.rs:90-98` -/
def new (attr : Attr F) : Histogram F :=
  { posterizeBits := attr.posterizeBits, maxHistogramEntries := attr.maxHistogramEntries
    fixedColors := [], hashmap := [], gamma := none }

/-- `u32::saturating_add` -/
def satAdd (a b : ℕ) : ℕ := min (a + b) (2 ^ 32 - 1)

/-- `hist.rs:209-222`, `add_color` -/
def addColor (h : Histogram F) (rgba : RGBA) (boost : ℕ) : Histogram F :=
  if boost = 0 then h
  else
    let key := if rgba.a ≠ 0 then maskColor h.posterizeBits rgba else ⟨0, 0, 0, 0⟩
    { h with hashmap := ColorMap.upsert h.hashmap key fun
        | some (n, c) => (satAdd n boost, c)
        | none => (boost, rgba) }

/-- `hist.rs:236-248`, `init_posterize_bits`; `extend` inserts the re-keyed entries one after the other,
a later one replaces an earlier one with the same key -/
def initPosterizeBits (ho : HashOrder) (h : Histogram F) (bits : ℕ) : Histogram F :=
  if h.posterizeBits ≥ bits then h
  else
    { h with
      posterizeBits := bits
      hashmap := (ho.map h.hashmap).foldl
        (fun m (k, v) => ColorMap.upsert m (maskColor bits k) (fun _ => v)) [] }

/-- inner loop of `hist.rs:263-266`: one row with its importance row -/
def addRow (h : Histogram F) : List RGBA → List ℕ → Histogram F
  | [], _ => h
  | px :: pxs, [] => addRow (h.addColor px 255) pxs []
  | px :: pxs, b :: bs => addRow (h.addColor px b) pxs bs

/-- `hist.rs:260-267`: rows, with `chunks_exact(width)` of the importance map (an exhausted map gives `255`) -/
def addRows (h : Histogram F) (width : ℕ) : List (List RGBA) → List ℕ → Histogram F
  | [], _ => h
  | row :: rows, imp =>
    if imp.length < width
    then addRows (h.addRow row []) width rows []
    else addRows (h.addRow row (imp.take width)) width rows (imp.drop width)

/-- `hist.rs:268-273`, end of `add_pixel_rows` -/
def finishRows (ho : HashOrder) (h : Histogram F) (bits : ℕ) : Histogram F :=
  let h := h.initPosterizeBits ho bits
  if h.hashmap.length > h.maxHistogramEntries ∧ h.posterizeBits < 3
  then h.initPosterizeBits ho (h.posterizeBits + 1) else h

/-- `hist.rs:250-274`, `add_pixel_rows` -/
def addPixelRows (ho : HashOrder) (h : Histogram F) (width : ℕ) (rows : List (List RGBA))
    (importance : Option (List ℕ)) (bits : ℕ) : Histogram F :=
  (h.addRows width rows (importance.getD [])).finishRows ho bits

/-- `HashSet::insert` -/
def insertFixed (s : List HashColor) (c : HashColor) : List HashColor :=
  if c ∈ s then s else s ++ [c]

/-- `hist.rs:114-118`: fixed colours of an image are added with their position as index -/
def extendFixed (h : Histogram F) (cs : List RGBA) : Histogram F :=
  { h with fixedColors := (cs.zipIdx).foldl (fun s (c, i) => insertFixed s (c, i % 256)) h.fixedColors }

/-- `hist.rs:140-160`, `add_colors` -/
def addColors (h : Histogram F) (entries : List (RGBA × ℕ)) (gamma : F) : Res (Histogram F) :=
  if entries.isEmpty ∨ entries.length > 2 ^ 24 then .error (.err .valueOutOfRange)
  else if ¬ (le (lit64 0) gamma = true ∧ lt gamma (lit64 1) = true) then .error (.err .valueOutOfRange)
  else
    let h := if h.gamma.isNone ∧ lt (lit64 0) gamma = true then { h with gamma := some gamma } else h
    .ok (entries.foldl (fun h (c, n) => h.addColor c n) h)

/-- `hist.rs:165-178`, `add_fixed_color` -/
def addFixedColor (h : Histogram F) (rgba : RGBA) (gamma : F) : Res (Histogram F) :=
  if h.fixedColors.length ≥ maxColorsCap then .error (.err .unsupported)
  else
    let h := if h.gamma.isNone ∧ lt (lit64 0) gamma = true then { h with gamma := some gamma } else h
    .ok { h with fixedColors := insertFixed h.fixedColors (rgba, h.fixedColors.length % 256) }

/-- `hist.rs:294` -/
def clusterIndex (c : RGBA) : ℕ :=
  (((c.r >>> 7) <<< 3) ||| ((c.g >>> 7) <<< 2) ||| ((c.b >>> 7) <<< 1) ||| (c.a >>> 7)).toNat

/-- `hist.rs:353-358` -/
structure TempHistItem (F : Type) where
  color : RGBA
  weight : F
  cluster : ℕ

/-- `hist.rs:281-287`: fixed colours enter the map with count 0 (unmasked key) -/
def insertFixedColors (ho : HashOrder) (h : Histogram F) : ColorMap :=
  (ho.set h.fixedColors).foldl (fun m (rgba, _) =>
    let key : RGBA := if rgba.a ≠ 0 then rgba else ⟨0, 0, 0, 0⟩
    ColorMap.upsert m key (fun _ => (0, rgba))) h.hashmap

/-- `hist.rs:293-300` -/
def tempItems (ho : HashOrder) (m : ColorMap) : List (TempHistItem F) :=
  (ho.map m).map fun (_, (boost, color)) =>
    { color := color, weight := lit32 boost, cluster := clusterIndex color }

/-- `hist.rs:367` -/
def maxCluster : ℕ := 16

/-- `hist.rs:292-295`: `counts[cluster_index] += 1` for every entry -/
def clusterCounts (temp : List (TempHistItem F)) : List ℕ :=
  temp.foldl (fun counts t => counts.modify t.cluster (· + 1)) (List.replicate maxCluster 0)

/-- `hist.rs:302-308`: running sums -/
def clusterBegins : ℕ → List ℕ → List (ℕ × ℕ)
  | _, [] => []
  | next, c :: cs => (next, next) :: clusterBegins (next + c) cs

/-- `hist.rs:323` -/
def maxPerceptualWeight (temp : List (TempHistItem F)) : F :=
  lit32 (1/10) *₃ to32 ((temp.foldl (fun s t => s +₆ t.weight) (lit64 0)) /₆ lit64 256)

/-- `hist.rs:333-337` -/
def itemWeight (maxW : F) (t : TempHistItem F) : F :=
  if lt (lit32 0) t.weight then Flt.fmin (t.weight *₃ (lit32 1 /₃ lit32 256)) maxW
  else maxW *₃ lit32 10

/-- `hist.rs:333-342`: the finished item -/
def mkItem (lut : UInt8 → F) (maxW : F) (t : TempHistItem F) : HistItem F :=
  let w := itemWeight maxW t
  { color := FPixel.fromRgba lut t.color, perceptualWeight := w, adjustedWeight := w
    mcColorWeight := lit32 0, tmp := 0 }

/-- placeholder filled in by `items.resize`, `hist.rs:312-318` (release build) -/
def blankItem : HistItem F := ⟨FPixel.default, lit32 0, lit32 0, lit32 0, 0⟩

/-- body of the loop `hist.rs:327-343`: counting-sort placement -/
def placeItem (lut : UInt8 → F) (maxW : F)
    (st : List (ℕ × ℕ) × List (HistItem F) × F) (t : TempHistItem F) :
    Res (List (ℕ × ℕ) × List (HistItem F) × F) :=
  let (clusters, items, total) := st
  match clusters[t.cluster]? with
  | none => .error .panic
  | some (b, e) =>
    if e < items.length then
      .ok (clusters.set t.cluster (b, e + 1), items.set e (mkItem lut maxW t),
        total +₆ itemWeight maxW t)
    else .error .panic

/-- the histogram after `finalize_builder`: the fixed colours stay in the map, `hist.rs:281-287` -/
def afterFinalize (ho : HashOrder) (h : Histogram F) : Histogram F :=
  { h with hashmap := h.insertFixedColors ho }

/-- `hist.rs:276-350`, `finalize_builder`; allocation failure is not modelled. The change it makes to the
histogram itself is `afterFinalize`. -/
def finalizeBuilder (ho : HashOrder) (h : Histogram F) (gamma : F) : Res (HistogramInternal F) := do
  let map := h.insertFixedColors ho
  let temp : List (TempHistItem F) := tempItems ho map
  let clusters := clusterBegins 0 (clusterCounts temp)
  let maxW := maxPerceptualWeight temp
  let lut := gammaLut gamma
  let (clusters, items, total) ← temp.foldlM (placeItem lut maxW)
    (clusters, List.replicate temp.length blankItem, lit64 0)
  let fixed := (ho.set h.fixedColors).mergeSort (fun x y => decide (x.2 ≤ y.2))
  return { items := items, totalPerceptualWeight := total, clusters := clusters
           fixedColors := fixed.map fun c => FPixel.fromRgba lut c.1 }

end Histogram
end Verif
