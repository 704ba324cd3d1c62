import Verif.Model.Hist

/-!
# The hasher of the colour map and of the set of fixed colours (`hist.rs:384-433`)

`Model/Hist.lean` models `HashMap` and `HashSet` as lists without duplicates. That is what the standard library
promises if the hash of a key depends only on what equality compares, and hashing does not panic.
-/

namespace Verif

/-- calls a `Hash` implementation can make on the hasher, `hist.rs:399-412` -/
inductive HashWrite where
  | u32 (i : BitVec 32)
  | bytes (l : List UInt8)
  /-- any other width: `write_u8`, `write_u16`, `write_u64`, … -/
  | other

/-- `hist.rs:394-413`: one call on `U32Hasher`; everything except `write_u32` is `unimplemented!()` -/
def HashWrite.run (w : HashWrite) (_state : BitVec 32) : Res (BitVec 32) :=
  match w with
  | .u32 i => .ok i
  | .bytes _ => .error .panic
  | .other => .error .panic

/-- `hist.rs:397`: `finish` -/
def hashFinish (state : BitVec 32) : BitVec 64 := state.zeroExtend 64 * 0x517cc1b727220a95#64

/-- `BuildHasher::hash_one`: a fresh hasher with state 0 (`hist.rs:388-390`), the writes of the key, `finish` -/
def hashOne (writes : List HashWrite) : Res (BitVec 64) := do
  return hashFinish (← writes.foldlM (fun s w => w.run s) 0#32)

/-- The four bytes of a colour as one number: `u32::from_ne_bytes` on either kind of machine, and the union
`RGBAInt`, `hist.rs:360-364` -/
def RGBA.toBits (bigEndian : Bool) (c : RGBA) : BitVec 32 :=
  if bigEndian then c.r.toBitVec ++ c.g.toBitVec ++ c.b.toBitVec ++ c.a.toBitVec
  else c.a.toBitVec ++ c.b.toBitVec ++ c.g.toBitVec ++ c.r.toBitVec

/-- keys of the colour map are plain `u32`; their `Hash` is one `write_u32` -/
def mapKeyWrites (key : BitVec 32) : List HashWrite := [.u32 key]

/-- `hist.rs:422-428`, `HashColor::hash`: the index is not written -/
def HashColor.writes (be : Bool) (c : HashColor) : List HashWrite := [.u32 (c.1.toBits be)]

end Verif
