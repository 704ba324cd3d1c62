import Verif.Lemmas.Blur
import Verif.Spec.Filters
import Mathlib.Order.Interval.Finset.Basic
import Mathlib.Data.Int.Interval
import Mathlib.Tactic.NormNum

/-! # Property C35: the filters of the noise maps -/

namespace Verif
open Blur

open Spec

private theorem clampPos_eq (x n s d : ℕ) (hn : 0 < n) :
    Spec.clampPos ((x : ℤ) + ((d : ℤ) + 1 - s)) n = min (x + 1 + d - s) (n - 1) := by
  unfold Spec.clampPos; omega

private theorem sum_window (f : ℤ → ℕ) (s : ℕ) :
    ∑ o ∈ Finset.Ioc (-(s : ℤ)) s, f o = ∑ d ∈ Finset.range (2 * s), f ((d : ℤ) + 1 - s) := by
  symm
  refine Finset.sum_nbij' (fun d : ℕ => (d : ℤ) + 1 - s) (fun o => (o + s - 1).toNat) ?_ ?_ ?_ ?_ ?_
  · intro d hd; simp at hd ⊢; omega
  · intro o ho; simp at ho ⊢; omega
  · intro d hd; simp
  · intro o ho; simp at ho ⊢; omega
  · intro d hd; rfl

private theorem boxRow_eq (m : List UInt8) (w s y x : ℕ) (hw : 0 < w) :
    Spec.boxRow (Spec.px m w) w s y x = Blur.rowSum m w s y x / (2 * s) := by
  unfold Spec.boxRow Blur.rowSum
  rw [sum_window (fun o => Spec.px m w y (Spec.clampPos (x + o) w))]
  congr 1
  refine Finset.sum_congr rfl fun d _ => ?_
  simp only [clampPos_eq x w s d hw]
  rfl

private theorem box_bounds (f : ℤ → ℕ) (s lo hi : ℕ) (hs : 0 < s) (h : ∀ o, lo ≤ f o ∧ f o ≤ hi) :
    lo ≤ (∑ o ∈ Finset.Ioc (-(s : ℤ)) s, f o) / (2 * s) ∧ (∑ o ∈ Finset.Ioc (-(s : ℤ)) s, f o) / (2 * s) ≤ hi := by
  rw [sum_window]
  have h1 := Finset.card_nsmul_le_sum (Finset.range (2 * s)) (fun d : ℕ => f ((d : ℤ) + 1 - s)) lo (fun d _ => (h _).1)
  have h2 := Finset.sum_le_card_nsmul (Finset.range (2 * s)) (fun d : ℕ => f ((d : ℤ) + 1 - s)) hi (fun d _ => (h _).2)
  simp only [Finset.card_range, smul_eq_mul] at h1 h2
  constructor
  · rw [Nat.le_div_iff_mul_le (by omega), Nat.mul_comm]; exact h1
  · rw [Nat.div_le_iff_le_mul_add_pred (by omega)]; omega

private theorem px_le (m : List UInt8) (w y x : ℕ) : Spec.px m w y x ≤ 255 := by
  have := (m.getD (y * w + x) 0).toNat_lt
  unfold Spec.px; omega

private theorem boxRow_le (m : List UInt8) (w s y x : ℕ) (hs : 0 < s) : Spec.boxRow (Spec.px m w) w s y x ≤ 255 :=
  (box_bounds _ s 0 255 hs (fun _ => ⟨Nat.zero_le _, px_le _ _ _ _⟩)).2

/-- one pass of the blur, as a map of its own -/
private theorem transposing_spec {src dst : List UInt8} {w h s : ℕ} (hsrc : src.length = w * h) (hdst : dst.length = w * h)
    (hs : 0 < s) (hs' : s ≤ 128) (hw : 2 * s < w) (hh : 2 * s < h) :
    ∃ out, transposing src dst w h s = .ok out ∧ out.length = w * h ∧
      ∀ y < h, ∀ x < w, Spec.px out h x y = Spec.boxRow (Spec.px src w) w s y x := by
  obtain ⟨out, e, hl, hv⟩ := transposing_ok hsrc hdst hs hs' hw hh
  refine ⟨out, e, hl, fun y hy x hx => ?_⟩
  have hb := boxRow_le src w s y x hs
  rw [boxRow_eq _ _ _ _ _ (by omega)] at hb ⊢
  unfold Spec.px
  simp only [List.getD, hv y hy x hx, Option.getD_some]
  exact UInt8.toNat_ofNat_of_lt' (by simp only [UInt8.size]; omega)

/-- **C35** (box blur). For every map of `w * h` bytes and size up to 128 the blur succeeds – no index is out of bounds
and the 16-bit sum neither over- nor underflows – and each pixel is the mean of `2 * size` clamped neighbours, first
along rows, then along columns. Maps not larger than the window are left alone. -/
theorem C35_blur (src tmp : List UInt8) (w h s : ℕ) (hsrc : src.length = w * h) (htmp : tmp.length = w * h)
    (hs : 0 < s) (hs' : s ≤ 128) :
    ∃ out tmp', blur src tmp w h s = .ok (out, tmp') ∧ out.length = w * h ∧ tmp'.length = w * h ∧
      (2 * s < w ∧ 2 * s < h → ∀ y < h, ∀ x < w,
        Spec.px out w y x = Spec.boxColumn (Spec.boxRow (Spec.px src w) w s) h s y x) ∧
      (¬ (2 * s < w ∧ 2 * s < h) → out = src) := by
  unfold blur
  by_cases hc : 2 * s < w ∧ 2 * s < h
  · obtain ⟨t, e1, l1, v1⟩ := transposing_spec hsrc htmp hs hs' hc.1 hc.2
    obtain ⟨o, e2, l2, v2⟩ := transposing_spec (src := t) (dst := src) (w := h) (h := w)
      (by rw [l1, Nat.mul_comm]) (by rw [hsrc, Nat.mul_comm]) hs hs' hc.2 hc.1
    rw [e1]
    simp only [bind, Except.bind]
    rw [e2]
    refine ⟨o, t, rfl, by rw [l2, Nat.mul_comm], l1, fun _ y hy x hx => ?_, fun h => absurd hc h⟩
    rw [v2 x hx y hy]
    unfold Spec.boxRow Spec.boxColumn
    congr 1
    refine Finset.sum_congr rfl fun o _ => ?_
    exact v1 _ (by unfold Spec.clampPos; omega) x hx
  · rw [transposing_small _ _ hc]
    simp only [bind, Except.bind]
    rw [transposing_small _ _ (fun h => hc ⟨h.2, h.1⟩)]
    exact ⟨src, tmp, rfl, hsrc, htmp, fun h => absurd h hc, fun _ => rfl⟩

private theorem mem_px {m : List UInt8} {w h y x : ℕ} (hm : m.length = w * h) (hy : y < h) (hx : x < w) :
    ∃ v ∈ m, v.toNat = Spec.px m w y x := by
  have hlt : y * w + x < m.length := by rw [hm, Nat.mul_comm w h]; exact pos_lt hy hx
  refine ⟨m[y * w + x], List.getElem_mem _, ?_⟩
  simp [Spec.px, List.getD, List.getElem?_eq_getElem hlt]

/-- every pixel of a map -/
private theorem px_of_mem {m : List UInt8} {w h : ℕ} (hm : m.length = w * h) {v : UInt8} (hv : v ∈ m) :
    ∃ y x, y < h ∧ x < w ∧ v.toNat = Spec.px m w y x := by
  obtain ⟨n, hn, rfl⟩ := List.mem_iff_getElem.mp hv
  have hw : 0 < w := by
    rcases Nat.eq_zero_or_pos w with h0 | h0
    · subst h0; simp at hm; subst hm; simp at hn
    · exact h0
  refine ⟨n / w, n % w, ?_, Nat.mod_lt _ hw, ?_⟩
  · rw [Nat.div_lt_iff_lt_mul hw, Nat.mul_comm, ← hm]; exact hn
  · have : n / w * w + n % w = n := Nat.div_add_mod' n w
    simp [Spec.px, this, List.getD, List.getElem?_eq_getElem hn]

/-- **C35** (box blur, range). The blur keeps values between the smallest and the largest input. -/
theorem C35_blur_range (src tmp out tmp' : List UInt8) (w h s : ℕ) (hsrc : src.length = w * h)
    (htmp : tmp.length = w * h) (hs : 0 < s) (hs' : s ≤ 128) (e : blur src tmp w h s = .ok (out, tmp'))
    (lo hi : ℕ) (hr : ∀ v ∈ src, lo ≤ v.toNat ∧ v.toNat ≤ hi) : ∀ v ∈ out, lo ≤ v.toNat ∧ v.toNat ≤ hi := by
  obtain ⟨o, t, e', hl, _, h1, h2⟩ := C35_blur src tmp w h s hsrc htmp hs hs'
  rw [e'] at e
  cases e
  intro v hv
  by_cases hc : 2 * s < w ∧ 2 * s < h
  · obtain ⟨y, x, hy, hx, ev⟩ := px_of_mem hl hv
    rw [ev, h1 hc y hy x hx]
    refine box_bounds _ s lo hi hs fun o => box_bounds _ s lo hi hs fun o' => ?_
    obtain ⟨u, hu, eu⟩ := mem_px hsrc (y := Spec.clampPos (y + o) h) (x := Spec.clampPos (x + o') w)
      (by unfold Spec.clampPos; omega) (by unfold Spec.clampPos; omega)
    rw [← eu]
    exact hr u hu
  · rw [h2 hc] at hv; exact hr v hv

/-! ### plus-shaped filters -/

private theorem plus_set {m : List UInt8} {w h y x : ℕ} (hy : y < h) (hx : x < w) (v : ℕ) :
    v ∈ Spec.plusValues m w h y x ↔
      v = Spec.px m w y x ∨ v = Spec.px m w y (x - 1) ∨ v = Spec.px m w y (min (x + 1) (w - 1)) ∨
      v = Spec.px m w (min (y + 1) (h - 1)) x ∨ v = Spec.px m w (y - 1) x := by
  constructor
  · rintro ⟨y', x', hy', hx', hd, rfl⟩
    have h1 := le_abs_self ((y : ℤ) - y')
    have h2 := neg_abs_le ((y : ℤ) - y')
    have h3 := le_abs_self ((x : ℤ) - x')
    have h4 := neg_abs_le ((x : ℤ) - x')
    have h5 := abs_nonneg ((y : ℤ) - y')
    have h6 := abs_nonneg ((x : ℤ) - x')
    by_cases ey : y' = y
    · subst ey
      by_cases ex : x' = x
      · subst ex; exact .inl rfl
      · by_cases ex' : x' = x - 1
        · subst ex'; exact .inr (.inl rfl)
        · have : x' = min (x + 1) (w - 1) := by omega
          rw [this]; exact .inr (.inr (.inl rfl))
    · have hne : ((y : ℤ) - y') ≠ 0 := by omega
      have h7 : 1 ≤ |(y : ℤ) - y'| := Int.one_le_abs hne
      have ex : x' = x := by omega
      subst ex
      by_cases ey' : y' = y - 1
      · subst ey'; exact .inr (.inr (.inr (.inr rfl)))
      · have : y' = min (y + 1) (h - 1) := by omega
        rw [this]; exact .inr (.inr (.inr (.inl rfl)))
  · have key : ∀ y' x', y' < h → x' < w → ((y' = y ∧ x' ≤ x + 1 ∧ x ≤ x' + 1) ∨ (x' = x ∧ y' ≤ y + 1 ∧ y ≤ y' + 1)) →
        Spec.px m w y' x' ∈ Spec.plusValues m w h y x := by
      intro y' x' hy' hx' hd
      refine ⟨y', x', hy', hx', ?_, rfl⟩
      rcases hd with ⟨rfl, a, b⟩ | ⟨rfl, a, b⟩
      · have : |(x : ℤ) - x'| ≤ 1 := abs_le.mpr ⟨by omega, by omega⟩
        simpa using this
      · have : |(y : ℤ) - y'| ≤ 1 := abs_le.mpr ⟨by omega, by omega⟩
        simpa using this
    rintro (rfl | rfl | rfl | rfl | rfl)
    · exact key _ _ hy hx (.inl ⟨rfl, by omega, by omega⟩)
    · exact key _ _ hy (by omega) (.inl ⟨rfl, by omega, by omega⟩)
    · exact key _ _ hy (by omega) (.inl ⟨rfl, by omega, by omega⟩)
    · exact key _ _ (by omega) hx (.inr ⟨rfl, by omega, by omega⟩)
    · exact key _ _ (by omega) hx (.inr ⟨rfl, by omega, by omega⟩)

private theorem toNat_max (a b : UInt8) : (@max UInt8 instMaxUInt8 a b).toNat = max a.toNat b.toNat := by
  show (if a ≤ b then b else a).toNat = _
  by_cases h : a ≤ b
  · have h' : a.toNat ≤ b.toNat := UInt8.le_iff_toNat_le.mp h
    rw [if_pos h]; omega
  · have h' : ¬ a.toNat ≤ b.toNat := fun k => h (UInt8.le_iff_toNat_le.mpr k)
    rw [if_neg h]; omega

private theorem toNat_min (a b : UInt8) : (@min UInt8 instMinUInt8 a b).toNat = min a.toNat b.toNat := by
  show (if a ≤ b then a else b).toNat = _
  by_cases h : a ≤ b
  · have h' : a.toNat ≤ b.toNat := UInt8.le_iff_toNat_le.mp h
    rw [if_pos h]; omega
  · have h' : ¬ a.toNat ≤ b.toNat := fun k => h (UInt8.le_iff_toNat_le.mpr k)
    rw [if_neg h]; omega

private theorem op3_spec (op : UInt8 → UInt8 → UInt8) (src dst : List UInt8) (w h : ℕ) (hsrc : src.length = w * h)
    (hdst : dst.length = w * h) (hw : 0 < w) :
    ∃ out, op3 op src dst w h = .ok out ∧ out.length = w * h ∧ ∀ y < h, ∀ x < w,
      Spec.px out w y x = (if x = w - 1 then plusLast op src w h y else plus op src w h y x).toNat := by
  obtain ⟨out, e, hl, hv⟩ := op3_ok (op := op) hsrc hdst hw
  refine ⟨out, e, hl, fun y hy x hx => ?_⟩
  unfold Spec.px
  simp only [List.getD, hv y hy x hx, Option.getD_some]

/-- **C35** (max filter). The filter succeeds on every map and each pixel becomes the largest value among the pixels of
the image at most one step away. -/
theorem C35_max (src dst : List UInt8) (w h : ℕ) (hsrc : src.length = w * h) (hdst : dst.length = w * h) (hw : 0 < w) :
    ∃ out, max3 src dst w h = .ok out ∧ out.length = w * h ∧
      ∀ y < h, ∀ x < w, IsGreatest (Spec.plusValues src w h y x) (Spec.px out w y x) := by
  obtain ⟨out, e, hl, hv⟩ := op3_spec (@max UInt8 instMaxUInt8) src dst w h hsrc hdst hw
  refine ⟨out, e, hl, fun y hy x hx => ?_⟩
  have hp : ∀ y x, (Blur.px src w y x).toNat = Spec.px src w y x := fun _ _ => rfl
  have hval : Spec.px out w y x = max (Spec.px src w y x) (max (max (Spec.px src w y (x - 1))
      (Spec.px src w y (min (x + 1) (w - 1)))) (max (Spec.px src w (min (y + 1) (h - 1)) x) (Spec.px src w (y - 1) x))) := by
    rw [hv y hy x hx]
    split
    next ex =>
      subst ex
      unfold plusLast
      simp only [toNat_max, hp]
      rw [show min (w - 1 + 1) (w - 1) = w - 1 by omega]
      omega
    next => unfold plus; simp only [toNat_max, hp]
  rw [hval]
  constructor
  · rw [plus_set hy hx]; omega
  · intro v hv'
    rw [plus_set hy hx] at hv'
    omega

/-- **C35** (min filter). -/
theorem C35_min (src dst : List UInt8) (w h : ℕ) (hsrc : src.length = w * h) (hdst : dst.length = w * h) (hw : 0 < w) :
    ∃ out, min3 src dst w h = .ok out ∧ out.length = w * h ∧
      ∀ y < h, ∀ x < w, IsLeast (Spec.plusValues src w h y x) (Spec.px out w y x) := by
  obtain ⟨out, e, hl, hv⟩ := op3_spec (@min UInt8 instMinUInt8) src dst w h hsrc hdst hw
  refine ⟨out, e, hl, fun y hy x hx => ?_⟩
  have hp : ∀ y x, (Blur.px src w y x).toNat = Spec.px src w y x := fun _ _ => rfl
  have hval : Spec.px out w y x = min (Spec.px src w y x) (min (min (Spec.px src w y (x - 1))
      (Spec.px src w y (min (x + 1) (w - 1)))) (min (Spec.px src w (min (y + 1) (h - 1)) x) (Spec.px src w (y - 1) x))) := by
    rw [hv y hy x hx]
    split
    next ex =>
      subst ex
      unfold plusLast
      simp only [toNat_min, hp]
      rw [show min (w - 1 + 1) (w - 1) = w - 1 by omega]
      omega
    next => unfold plus; simp only [toNat_min, hp]
  rw [hval]
  constructor
  · rw [plus_set hy hx]; omega
  · intro v hv'
    rw [plus_set hy hx] at hv'
    omega

/-- all values of a map are in a range -/
def InRange (lo hi : ℕ) (m : List UInt8) : Prop := ∀ v ∈ m, lo ≤ v.toNat ∧ v.toNat ≤ hi

theorem max3_range {src dst : List UInt8} {w h lo hi : ℕ} (hsrc : src.length = w * h) (hdst : dst.length = w * h)
    (hw : 0 < w) (hr : InRange lo hi src) :
    ∃ out, max3 src dst w h = .ok out ∧ out.length = w * h ∧ InRange lo hi out := by
  obtain ⟨out, e, hl, hv⟩ := C35_max src dst w h hsrc hdst hw
  refine ⟨out, e, hl, fun v hv' => ?_⟩
  obtain ⟨y, x, hy, hx, ev⟩ := px_of_mem hl hv'
  obtain ⟨y', x', hy', hx', _, e'⟩ := (hv y hy x hx).1
  obtain ⟨u, hu, eu⟩ := mem_px hsrc hy' hx'
  rw [ev, e', ← eu]; exact hr u hu

theorem min3_range {src dst : List UInt8} {w h lo hi : ℕ} (hsrc : src.length = w * h) (hdst : dst.length = w * h)
    (hw : 0 < w) (hr : InRange lo hi src) :
    ∃ out, min3 src dst w h = .ok out ∧ out.length = w * h ∧ InRange lo hi out := by
  obtain ⟨out, e, hl, hv⟩ := C35_min src dst w h hsrc hdst hw
  refine ⟨out, e, hl, fun v hv' => ?_⟩
  obtain ⟨y, x, hy, hx, ev⟩ := px_of_mem hl hv'
  obtain ⟨y', x', hy', hx', _, e'⟩ := (hv y hy x hx).1
  obtain ⟨u, hu, eu⟩ := mem_px hsrc hy' hx'
  rw [ev, e', ← eu]; exact hr u hu

theorem blur_range {src tmp : List UInt8} {w h s lo hi : ℕ} (hsrc : src.length = w * h) (htmp : tmp.length = w * h)
    (hs : 0 < s) (hs' : s ≤ 128) (hr : InRange lo hi src) :
    ∃ out tmp', blur src tmp w h s = .ok (out, tmp') ∧ out.length = w * h ∧ tmp'.length = w * h ∧ InRange lo hi out := by
  obtain ⟨o, t, e, hl, hl', _⟩ := C35_blur src tmp w h s hsrc htmp hs hs'
  exact ⟨o, t, e, hl, hl', C35_blur_range src tmp o t w h s hsrc htmp hs hs' e lo hi hr⟩

/-- a 3 × 2 map: maximum of the plus around the middle of the first row (not of the whole 3 × 3 square) -/
example : ∃ out, max3 [1, 2, 3, 9, 5, 8] [0, 0, 0, 0, 0, 0] 3 2 = .ok out ∧ Spec.px out 3 0 1 = 5 ∧ out.length = 6 :=
  ⟨[9, 5, 8, 9, 9, 8], by decide +kernel, by decide, rfl⟩
example : ∃ out tmp, blur [0, 0, 90, 0, 0, 0, 0, 0, 0] (List.replicate 9 0) 3 3 1 = .ok (out, tmp) ∧ out.length = 9 :=
  ⟨[0, 22, 45, 0, 0, 0, 0, 0, 0], [0, 0, 0, 45, 0, 0, 90, 0, 0], by decide +kernel, rfl⟩

end Verif
