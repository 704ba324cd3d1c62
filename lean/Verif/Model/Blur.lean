import Verif.Model.Flt

/-!
# Filters of the noise maps (`src/blur.rs`)

Maps are flat lists of bytes, row by row, as in the code. Every index, slice and 16-bit operation is checked
and panics when it is out of range, so a theorem `= ok …` says that no such thing happens.
-/

namespace Verif

/-- `l[i]` -/
def index {α : Type} (l : List α) (i : ℕ) : Res α :=
  match l[i]? with
  | some x => .ok x
  | none => .error .panic

/-- `l[i] = v` -/
def store {α : Type} (l : List α) (i : ℕ) (v : α) : Res (List α) :=
  if i < l.length then .ok (l.set i v) else .error .panic

/-- `&l[start..][..len]` -/
def slice {α : Type} (l : List α) (start len : ℕ) : Res (List α) :=
  if start + len ≤ l.length then .ok ((l.drop start).take len) else .error .panic

/-- `chunks_exact(w)`; only used with `w > 0` -/
def chunksExact {α : Type} (w : ℕ) (l : List α) : List (List α) :=
  (List.range (l.length / w)).map fun j => (l.drop (j * w)).take w

/-- `u16` subtraction -/
def sub16 (a b : ℕ) : Res ℕ := if b ≤ a then .ok (a - b) else .error .panic
/-- `u16` addition -/
def add16 (a b : ℕ) : Res ℕ := if a + b < 65536 then .ok (a + b) else .error .panic
/-- `u16` multiplication -/
def mul16 (a b : ℕ) : Res ℕ := if a * b < 65536 then .ok (a * b) else .error .panic
/-- `u16` division -/
def div16 (a b : ℕ) : Res ℕ := if b = 0 then .error .panic else .ok (a / b)

namespace Blur

/-- one round of the loops `blur.rs:13-27`: `sum -= row[sub]; sum += row[add]; dst[i * height + j] = …` -/
def step (row : List UInt8) (height size j : ℕ) (i sub add : ℕ) (st : ℕ × List UInt8) : Res (ℕ × List UInt8) := do
  let sum ← sub16 st.1 (← index row sub).toNat
  let sum ← add16 sum (← index row add).toNat
  let q ← div16 sum (← mul16 size 2)
  let dst ← store st.2 (i * height + j) (UInt8.ofNat q)
  return (sum, dst)

/-- `blur.rs:9-27`: one row of the source -/
def line (width height size : ℕ) (row : List UInt8) (j : ℕ) (dst : List UInt8) : Res (List UInt8) := do
  let sum ← mul16 (← index row 0).toNat size
  let sum ← (← slice row 0 size).foldlM (fun s v => add16 s v.toNat) sum
  let st ← (List.range size).foldlM (fun st i => step row height size j i 0 (i + size) st) (sum, dst)
  let st ← (List.range' size (width - size - size)).foldlM
    (fun st i => step row height size j i (i - size) (i + size) st) st
  let st ← (List.range' (width - size) size).foldlM
    (fun st i => step row height size j i (i - size) (width - 1) st) st
  return st.2

/-- `blur.rs:3-29`, `transposing_1d_blur` -/
def transposing (src dst : List UInt8) (width height size : ℕ) : Res (List UInt8) :=
  if width < 2 * size + 1 ∨ height < 2 * size + 1 then .ok dst
  else (chunksExact width src).zipIdx.foldlM (fun dst (row, j) => line width height size row j dst) dst

/-- `blur.rs:68-71`, `liq_blur`: returns `(src_dst, tmp)` -/
def blur (srcDst tmp : List UInt8) (width height size : ℕ) : Res (List UInt8 × List UInt8) := do
  let tmp ← transposing srcDst tmp width height size
  let srcDst ← transposing tmp srcDst height width size
  return (srcDst, tmp)

/-- body of the inner loop `blur.rs:46-53`; the state is `(curr, next, dst)` -/
def op3Step (op : UInt8 → UInt8 → UInt8) (row prevrow nextrow : List UInt8) (base : ℕ)
    (st : UInt8 × UInt8 × List UInt8) (i : ℕ) : Res (UInt8 × UInt8 × List UInt8) := do
  let prev := st.1
  let curr := st.2.1
  let next ← index row (i + 1)
  let t1 := op prev next
  let t2 := op (← index nextrow i) (← index prevrow i)
  let dst ← store st.2.2 (base + i) (op curr (op t1 t2))
  return (curr, next, dst)

/-- `blur.rs:38-57`: one row -/
def op3Line (op : UInt8 → UInt8 → UInt8) (src : List UInt8) (width height : ℕ) (dst : List UInt8) (j : ℕ) :
    Res (List UInt8) := do
  let row ← slice src (j * width) width
  let _ ← slice dst (j * width) width
  let prevrow ← slice src ((j - 1) * width) width
  let nextrow ← slice src (min (j + 1) (height - 1) * width) width
  let first ← index row 0
  let st ← (List.range (width - 1)).foldlM (op3Step op row prevrow nextrow (j * width)) (first, first, dst)
  let t1 := op st.1 st.2.1
  let t2 := op (← index nextrow (width - 1)) (← index prevrow (width - 1))
  store st.2.2 (j * width + (width - 1)) (op st.1 (op t1 t2))

/-- `blur.rs:37-58`, `liq_op3` -/
def op3 (op : UInt8 → UInt8 → UInt8) (src dst : List UInt8) (width height : ℕ) : Res (List UInt8) :=
  (List.range height).foldlM (op3Line op src width height) dst

/-- `blur.rs:33-35` -/
def max3 (src dst : List UInt8) (width height : ℕ) : Res (List UInt8) := op3 max src dst width height
/-- `blur.rs:62-64` -/
def min3 (src dst : List UInt8) (width height : ℕ) : Res (List UInt8) := op3 min src dst width height

end Blur
end Verif
