import Verif.Model.Pal

/-!
# Nearest-colour search (`src/nearest.rs`)
-/

namespace Verif
open Flt

variable {F : Type} [Flt F]

/-- `nearest.rs:85-105` vantage-point tree. A leaf keeps its (at most 6) entries as a list instead of
a length and two 6-element arrays. -/
inductive Node (F : Type) where
  | leaf (vp : FPixel F) (idx : ℕ) (items : List (ℕ × FPixel F))
  | nodes (vp : FPixel F) (idx : ℕ) (radius radiusSq : F) (near far : Node F)

/-- `nearest.rs:91` -/
def leafMaxSize : ℕ := 6

/-- `palette.get(idx).copied().unwrap_or_default()`, `nearest.rs:115`, `128` -/
def palColor (p : PalF F) (i : ℕ) : FPixel F :=
  match p[i]? with
  | some e => e.color
  | none => FPixel.default

/-- `nearest.rs:122-123` -/
def palPopularity (p : PalF F) (i : ℕ) : F :=
  match p[i]? with
  | some e => e.pop.popularity
  | none => zero

/-- `nearest.rs:130-131`, `156-157`: `palette.get(i).map(|px| vp.diff(px)).unwrap_or_default()` -/
def vpDist (p : PalF F) (vp : FPixel F) (i : ℕ) : F :=
  match p[i]? with
  | some e => vp.diff e.color
  | none => zero

/-- `nearest.rs:156-157`: distance of `far[0]` (`far` is never empty) -/
def farRadiusSq (p : PalF F) (vp : FPixel F) : List ℕ → F
  | [] => zero
  | f :: _ => vpDist p vp f

/-- `nearest.rs:140-145` filling of one leaf slot -/
def leafItem (p : PalF F) (i : ℕ) : ℕ × FPixel F :=
  match p[i]? with
  | some e => (i, e.color)
  | none => (0, FPixel.default)

/-- `nearest.rs:121-125`: moves the (last) most popular index to the front by a swap. -/
def popularFirst (p : PalF F) (l : List ℕ) : List ℕ :=
  let m := match maxByKey (fun (x : ℕ × ℕ) => palPopularity p x.1) l.zipIdx with
    | some (_, n) => n
    | none => 0
  swapAt l m 0

theorem length_swapAt {α : Type} (l : List α) (i j : ℕ) : (swapAt l i j).length = l.length := by
  unfold swapAt; split <;> simp

theorem length_popularFirst (p : PalF F) (l : List ℕ) : (popularFirst p l).length = l.length := by
  simp [popularFirst, length_swapAt]

/-- `nearest.rs:108-171`, `vp_create_node`. Indices are natural numbers (the `as PalIndex` cast is
exact because `Nearest::new` bounds the palette length by 256). -/
def vpCreate (p : PalF F) (indexes : List ℕ) : Node F :=
  if indexes.length ≤ 1 then
    let idx := indexes.headD 0
    .leaf (palColor p idx) idx []
  else
    match h : popularFirst p indexes with
    | [] => .leaf FPixel.default 0 []   -- unreachable: `split_first_mut().unwrap()` on a non-empty slice
    | ref :: rest =>
      let vp := palColor p ref
      let sorted := sortByKey (vpDist p vp) rest
      if sorted.length ≤ leafMaxSize then
        .leaf vp ref (sorted.map (leafItem p))
      else
        let half := sorted.length / 2
        let near := sorted.take half
        let far := sorted.drop half
        let radiusSq := farRadiusSq p vp far
        .nodes vp ref (sqrt32 radiusSq) radiusSq (vpCreate p near) (vpCreate p far)
termination_by indexes.length
decreasing_by
  all_goals
    have hl := length_popularFirst p indexes
    rw [h] at hl
    simp [sortByKey] at *
    omega

/-- `nearest.rs:67-72` -/
structure Visitor (F : Type) where
  distance : F
  distanceSq : F
  idx : ℕ
  exclude : Option ℕ

/-- `nearest.rs:76-82` -/
def Visitor.visit (v : Visitor F) (distance distanceSq : F) (idx : ℕ) : Visitor F :=
  if lt distanceSq v.distanceSq && decide (v.exclude ≠ some idx)
  then { v with distance := distance, distanceSq := distanceSq, idx := idx } else v

/-- `nearest.rs:203-206` scan of a leaf -/
def leafScan (needle : FPixel F) (v : Visitor F) : List (ℕ × FPixel F) → Visitor F
  | [] => v
  | (i, c) :: rest =>
    let d := c.diff needle
    leafScan needle (v.visit (sqrt32 d) d i) rest

/-- `nearest.rs:174-211`, `vp_search_node`; the `loop` with `node = far/near; continue` is a tail call. -/
def vpSearch (needle : FPixel F) : Node F → Visitor F → Visitor F
  | .leaf vp idx items, v =>
    let d := vp.diff needle
    leafScan needle (v.visit (sqrt32 d) d idx) items
  | .nodes vp idx radius radiusSq near far, v =>
    let d := vp.diff needle
    let dist := sqrt32 d
    let v := v.visit dist d idx
    if lt d radiusSq then
      let v := vpSearch needle near v
      if le (radius -₃ v.distance) dist then vpSearch needle far v else v
    else
      let v := vpSearch needle far v
      if le dist (radius +₃ v.distance) then vpSearch needle near v else v

/-- `nearest.rs:57-61` -/
structure Nearest (F : Type) where
  root : Node F
  palette : PalF F
  /-- `nearest_other_color_dist`: a 256-element array whose first `palette.len()` entries are set -/
  nearestOther : List F

/-- body of the loop `nearest.rs:21-28` -/
def nearestOtherDist (root : Node F) (p : PalF F) (i : ℕ) : F :=
  let best : Visitor F := { idx := 0, distance := f32Max, distanceSq := f32Max, exclude := some i }
  (vpSearch (palColor p i) root best).distanceSq /₃ lit32 4

/-- `nearest.rs:6-30`, `Nearest::new` -/
def Nearest.new (p : PalF F) : Res (Nearest F) :=
  if p.length > 256 then .error (.err .unsupported)
  else if p.length = 0 then .error (.err .unsupported)
  else
    let root := vpCreate p (List.range p.length)
    .ok { root := root, palette := p
          nearestOther := (List.range p.length).map (nearestOtherDist root p) }

/-- `nearest.rs:35-54`, `Nearest::search` -/
def Nearest.search (n : Nearest F) (px : FPixel F) (likely : ℕ) : ℕ × F :=
  match n.palette[likely]? with
  | some e =>
    let guess := px.diff e.color
    if lt guess (n.nearestOther.getD likely zero) then (likely, guess)
    else
      let v := vpSearch px n.root
        { distance := sqrt32 guess, distanceSq := guess, idx := likely, exclude := none }
      (v.idx, v.distanceSq)
  | none =>
    let v := vpSearch px n.root { distance := inf, distanceSq := inf, idx := 0, exclude := none }
    (v.idx, v.distanceSq)

end Verif
