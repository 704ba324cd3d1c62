import Verif.Model.Hasher
import Mathlib.Tactic.Ring

/-! # Property C56: hashing of colours -/

namespace Verif

theorem hashFinish_injective {x y : BitVec 32} (h : hashFinish x = hashFinish y) : x = y := by
  unfold hashFinish at h
  obtain ⟨k, hk⟩ : ∃ k : BitVec 64, 0x517cc1b727220a95#64 * k = 1#64 := ⟨0x2040003d780970bd#64, by decide +kernel⟩
  have h2 := congrArg (· * k) h
  simp only [BitVec.mul_assoc, hk, BitVec.mul_one] at h2
  have h3 := congrArg BitVec.toNat h2
  simp only [BitVec.truncate_eq_setWidth, BitVec.toNat_setWidth] at h3
  apply BitVec.eq_of_toNat_eq
  have h1 := x.isLt
  have h4 := y.isLt
  omega

theorem append_inj {m n : ℕ} {x x' : BitVec m} {y y' : BitVec n} (h : x ++ y = x' ++ y') : x = x' ∧ y = y' := by
  constructor
  · have := congrArg (BitVec.extractLsb' n m) h
    rwa [BitVec.extractLsb'_append_eq_left, BitVec.extractLsb'_append_eq_left] at this
  · have := congrArg (BitVec.extractLsb' 0 n) h
    rwa [BitVec.extractLsb'_append_eq_right, BitVec.extractLsb'_append_eq_right] at this

theorem toBits_injective {be : Bool} {x y : RGBA} (h : x.toBits be = y.toBits be) : x = y := by
  obtain ⟨r, g, b, a⟩ := x
  obtain ⟨r', g', b', a'⟩ := y
  unfold RGBA.toBits at h
  cases be
  · obtain ⟨h1, h⟩ := append_inj (m := 24) h
    obtain ⟨h2, h3⟩ := append_inj (m := 16) h1
    obtain ⟨h4, h5⟩ := append_inj (m := 8) h2
    simp only [RGBA.mk.injEq]
    exact ⟨UInt8.toBitVec_inj.1 h, UInt8.toBitVec_inj.1 h3, UInt8.toBitVec_inj.1 h5, UInt8.toBitVec_inj.1 h4⟩
  · obtain ⟨h1, h⟩ := append_inj (m := 24) h
    obtain ⟨h2, h3⟩ := append_inj (m := 16) h1
    obtain ⟨h4, h5⟩ := append_inj (m := 8) h2
    simp only [RGBA.mk.injEq]
    exact ⟨UInt8.toBitVec_inj.1 h4, UInt8.toBitVec_inj.1 h5, UInt8.toBitVec_inj.1 h3, UInt8.toBitVec_inj.1 h⟩

/-- **C56** Hashing a colour of the set of fixed colours never panics; equal entries have equal hashes (what
`HashSet` relies on), and two entries have the same 64-bit hash exactly when they are the same colour. -/
theorem C56_fixed_colors (be : Bool) (x y : HashColor) :
    ∃ hx hy, hashOne (HashColor.writes be x) = .ok hx ∧ hashOne (HashColor.writes be y) = .ok hy ∧
      (x = y → hx = hy) ∧ (hx = hy ↔ x.1 = y.1) :=
  ⟨_, _, rfl, rfl, fun h => by rw [h], fun h => toBits_injective (be := be) (hashFinish_injective h),
    fun h => by rw [h]⟩

/-- **C56** The same for the keys of the colour map: no panic, and different keys never collide. -/
theorem C56_map_keys (x y : BitVec 32) :
    ∃ hx hy, hashOne (mapKeyWrites x) = .ok hx ∧ hashOne (mapKeyWrites y) = .ok hy ∧ (hx = hy ↔ x = y) :=
  ⟨_, _, rfl, rfl, hashFinish_injective, fun h => by rw [h]⟩

/-- two entries that differ only in the index: different elements of the set, same hash -/
example : ((⟨1, 2, 3, 4⟩, 0) : HashColor) ≠ (⟨1, 2, 3, 4⟩, 1) ∧
    hashOne (HashColor.writes false (⟨1, 2, 3, 4⟩, 0)) = hashOne (HashColor.writes false (⟨1, 2, 3, 4⟩, 1)) :=
  ⟨by decide, rfl⟩

/-- a key whose hash wraps around -/
example : hashOne (HashColor.writes false (⟨1, 2, 3, 4⟩, 0)) = .ok (0x04030201#64 * 0x517cc1b727220a95#64) := by
  decide +kernel

end Verif
