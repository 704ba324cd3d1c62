import Verif.Lemmas.Rows
import Mathlib.Algebra.BigOperators.Intervals
import Mathlib.Tactic.Ring
import Mathlib.Tactic.Linarith
import Mathlib.Algebra.Order.BigOperators.Group.Finset
import Mathlib.Order.Bounds.Basic
import Mathlib.Data.UInt

/-! # Loops of the noise-map filters -/

namespace Verif

/-- invariant of a `foldlM` whose steps all succeed -/
theorem foldlM_inv {α σ : Type} {f : σ → α → Res σ} (P : ℕ → σ → Prop) (l : List α) (s : σ) (h0 : P 0 s)
    (hs : ∀ (k : ℕ) (x : α) (s : σ), l[k]? = some x → P k s → ∃ s', f s x = .ok s' ∧ P (k + 1) s') :
    ∃ s', l.foldlM f s = .ok s' ∧ P l.length s' := by
  induction l generalizing s P with
  | nil => exact ⟨s, rfl, h0⟩
  | cons x xs ih =>
    obtain ⟨s1, e1, p1⟩ := hs 0 x s rfl h0
    obtain ⟨s2, e2, p2⟩ := ih (fun k => P (k + 1)) s1 p1 (fun k y s hy hp => hs (k + 1) y s (by simpa using hy) hp)
    refine ⟨s2, ?_, p2⟩
    rw [List.foldlM_cons, e1]
    exact e2

theorem foldlM_range'_inv {σ : Type} {f : σ → ℕ → Res σ} (P : ℕ → σ → Prop) (a n : ℕ) (s : σ) (h0 : P a s)
    (hs : ∀ (i : ℕ) (s : σ), a ≤ i → i < a + n → P i s → ∃ s', f s i = .ok s' ∧ P (i + 1) s') :
    ∃ s', (List.range' a n).foldlM f s = .ok s' ∧ P (a + n) s' := by
  have := foldlM_inv (f := f) (fun k => P (a + k)) (List.range' a n) s h0 (by
    intro k x s hx hp
    obtain ⟨hk, rfl⟩ := List.getElem?_eq_some_iff.mp hx
    simp only [List.length_range'] at hk
    simp only [List.getElem_range', Nat.one_mul]
    exact hs _ s (by omega) (by omega) hp)
  simpa using this

theorem foldlM_range_inv {σ : Type} {f : σ → ℕ → Res σ} (P : ℕ → σ → Prop) (n : ℕ) (s : σ) (h0 : P 0 s)
    (hs : ∀ (i : ℕ) (s : σ), i < n → P i s → ∃ s', f s i = .ok s' ∧ P (i + 1) s') :
    ∃ s', (List.range n).foldlM f s = .ok s' ∧ P n s' := by
  have := foldlM_range'_inv (f := f) P 0 n s h0 (fun i s _ hi hp => hs i s (by omega) hp)
  rw [← List.range_eq_range'] at this
  simpa using this

theorem getElem?_set_iff {α : Type} (l : List α) (i n : ℕ) (v : α) (h : i < l.length) :
    (l.set i v)[n]? = if n = i then some v else l[n]? := by
  rw [List.getElem?_set]
  by_cases e : n = i
  · subst e; simp [h]
  · simp [e, Ne.symm e]

/-- row-major positions of a `… × h` map are different -/
theorem pos_inj {h i j i' j' : ℕ} (hj : j < h) (hj' : j' < h) (e : i * h + j = i' * h + j') : i = i' ∧ j = j' := by
  have h0 : 0 < h := by omega
  have e1 : (i * h + j) / h = i := by rw [Nat.add_comm, Nat.add_mul_div_right _ _ h0, Nat.div_eq_of_lt hj]; omega
  have e2 : (i' * h + j') / h = i' := by rw [Nat.add_comm, Nat.add_mul_div_right _ _ h0, Nat.div_eq_of_lt hj']; omega
  have : i = i' := by rw [← e1, ← e2, e]
  subst this
  exact ⟨rfl, by omega⟩

theorem pos_lt {w h i j : ℕ} (hi : i < w) (hj : j < h) : i * h + j < w * h := by
  calc i * h + j < i * h + h := by omega
    _ = (i + 1) * h := by ring
    _ ≤ w * h := Nat.mul_le_mul_right _ (by omega)

namespace Blur

/-- pixel `k` of a row extended by its border pixels, beginning `size` pixels before the row -/
def ext (row : List UInt8) (width size k : ℕ) : ℕ := (row.getD (min (k - size) (width - 1)) 0).toNat

/-- sum of the `2 * size` pixels from `k` on -/
def win (row : List UInt8) (width size k : ℕ) : ℕ := ∑ d ∈ Finset.range (2 * size), ext row width size (k + d)

theorem ext_le (row : List UInt8) (width size k : ℕ) : ext row width size k ≤ 255 := by
  have := (row.getD (min (k - size) (width - 1)) 0).toNat_lt
  unfold ext; omega

theorem win_le (row : List UInt8) (width size k : ℕ) : win row width size k ≤ 255 * (2 * size) := by
  have := Finset.sum_le_card_nsmul (Finset.range (2 * size)) (fun d => ext row width size (k + d)) 255
    (fun d _ => ext_le _ _ _ _)
  simpa [win, Nat.mul_comm] using this

theorem win_succ (row : List UInt8) (width size k : ℕ) :
    win row width size (k + 1) + ext row width size k = win row width size k + ext row width size (k + 2 * size) := by
  unfold win
  have h1 := Finset.sum_range_succ (fun d => ext row width size (k + d)) (2 * size)
  have h2 := Finset.sum_range_succ' (fun d => ext row width size (k + d)) (2 * size)
  have h3 : ∑ d ∈ Finset.range (2 * size), ext row width size (k + 1 + d)
      = ∑ d ∈ Finset.range (2 * size), ext row width size (k + (d + 1)) :=
    Finset.sum_congr rfl fun d _ => by rw [show k + 1 + d = k + (d + 1) by ring]
  rw [h3, ← h1, h2]
  simp

theorem ext_mem_win (row : List UInt8) (width size k : ℕ) (hs : 0 < size) :
    ext row width size k ≤ win row width size k := by
  unfold win
  have := Finset.single_le_sum (f := fun d => ext row width size (k + d)) (fun _ _ => Nat.zero_le _)
    (Finset.mem_range.mpr (show 0 < 2 * size by omega))
  simpa using this

/-- state of the loops after `i` pixels -/
structure Inv (row : List UInt8) (width height size j : ℕ) (dst : List UInt8) (i : ℕ) (st : ℕ × List UInt8) : Prop where
  sum : st.1 = win row width size i
  len : st.2.length = dst.length
  done : ∀ i' < i, st.2[i' * height + j]? = some (UInt8.ofNat (win row width size (i' + 1) / (2 * size)))
  rest : ∀ n, (∀ i' < i, n ≠ i' * height + j) → st.2[n]? = dst[n]?

variable {row dst : List UInt8} {width height size j : ℕ}

theorem Inv.step {i sub add : ℕ} {st : ℕ × List UInt8} (hi : Inv row width height size j dst i st)
    (hrow : row.length = width) (hd : dst.length = width * height) (hj : j < height)
    (hs : 0 < size) (hs' : size ≤ 128) (hw : i < width)
    (esub : sub = i - size) (eadd : add = min (i + size) (width - 1)) :
    ∃ st', step row height size j i sub add st = .ok st' ∧ Inv row width height size j dst (i + 1) st' := by
  have hsub : sub < row.length := by omega
  have hadd : add < row.length := by omega
  have e1 : (row.getD sub 0).toNat = ext row width size i := by
    unfold ext; rw [esub, Nat.min_eq_left (by omega)]
  have e2 : (row.getD add 0).toNat = ext row width size (i + 2 * size) := by
    unfold ext; rw [eadd, show i + 2 * size - size = i + size by omega]
  have hpos : i * height + j < st.2.length := by
    rw [hi.len, hd]; exact pos_lt hw hj
  have hsum := win_succ row width size i
  have hle := win_le row width size (i + 1)
  have hle0 := ext_mem_win row width size i hs
  have hq : win row width size (i + 1) / (2 * size) ≤ 255 := by
    rw [Nat.div_le_iff_le_mul_add_pred (by omega)]
    rw [Nat.mul_comm (2 * size)]; omega
  refine ⟨(win row width size (i + 1), st.2.set (i * height + j)
    (UInt8.ofNat (win row width size (i + 1) / (2 * size)))), ?_, ?_⟩
  · unfold Blur.step
    rw [index_getD hsub 0, index_getD hadd 0]
    simp only [bind, Except.bind]
    rw [e1, e2, hi.sum]
    unfold sub16
    rw [if_pos hle0]
    simp only
    unfold add16
    rw [if_pos (by omega)]
    simp only
    unfold mul16
    rw [if_pos (by omega)]
    simp only
    unfold div16
    rw [if_neg (by omega)]
    simp only
    rw [store_of_lt hpos]
    have : win row width size i - ext row width size i + ext row width size (i + 2 * size)
      = win row width size (i + 1) := by omega
    rw [this, Nat.mul_comm size 2]
    rfl
  · refine ⟨rfl, by simp [hi.len], fun i' hi' => ?_, fun n hn => ?_⟩
    · show (st.2.set _ _)[_]? = _
      rw [getElem?_set_iff _ _ _ _ hpos]
      by_cases e : i' = i
      · subst e; rw [if_pos rfl]
      · rw [if_neg (fun h => e (pos_inj hj hj h).1)]
        exact hi.done i' (by omega)
    · show (st.2.set _ _)[_]? = _
      rw [getElem?_set_iff _ _ _ _ hpos, if_neg (hn i (by omega))]
      exact hi.rest n fun i' hi' => hn i' (by omega)

theorem sum_take (l : List UInt8) (hb : ∀ n ≤ l.length, (((l.take n).map UInt8.toNat).sum) + s < 65536) :
    l.foldlM (fun s (v : UInt8) => add16 s v.toNat) s = .ok (s + (l.map UInt8.toNat).sum) := by
  induction l generalizing s with
  | nil => simp; rfl
  | cons x xs ih =>
    rw [List.foldlM_cons]
    have h1 := hb 1 (by simp)
    simp only [List.take_succ_cons, List.take_zero, List.map_cons, List.map_nil, List.sum_cons, List.sum_nil] at h1
    unfold add16
    rw [if_pos (by omega)]
    have := ih (s := s + x.toNat) (fun n hn => by
      have := hb (n + 1) (by simpa using hn)
      simp only [List.take_succ_cons, List.map_cons, List.sum_cons] at this
      omega)
    simp only [bind, Except.bind]
    unfold add16 at this
    rw [this, List.map_cons, List.sum_cons, Nat.add_assoc]

theorem win_zero (hrow : row.length = width) (hw : 2 * size < width) :
    win row width size 0 = (row.getD 0 0).toNat * size + ((row.take size).map UInt8.toNat).sum := by
  unfold win
  rw [Nat.two_mul, Finset.sum_range_add]
  congr 1
  · rw [Finset.sum_congr rfl (g := fun _ => (row.getD 0 0).toNat)]
    · simp [Nat.mul_comm]
    · intro d hd
      have := Finset.mem_range.mp hd
      unfold ext
      rw [show 0 + d - size = 0 by omega, Nat.min_eq_left (by omega)]
  · have : ∀ n ≤ row.length, ((row.take n).map UInt8.toNat).sum = ∑ d ∈ Finset.range n, (row.getD d 0).toNat := by
      intro n
      induction n with
      | zero => simp
      | succ n ih =>
        intro hn
        rw [Finset.sum_range_succ, ← ih (by omega), List.take_succ_eq_append_getElem (by omega)]
        simp only [List.map_append, List.sum_append, List.map_cons, List.map_nil, List.sum_cons, List.sum_nil,
          List.getD, List.getElem?_eq_getElem (show n < row.length by omega), Option.getD_some, Nat.add_zero]
    rw [this size (by omega)]
    refine Finset.sum_congr rfl fun d hd => ?_
    have := Finset.mem_range.mp hd
    unfold ext
    rw [show 0 + (size + d) - size = d by omega, Nat.min_eq_left (by omega)]

/-- one row of the blur -/
theorem line_ok (hrow : row.length = width) (hd : dst.length = width * height) (hj : j < height)
    (hs : 0 < size) (hs' : size ≤ 128) (hw : 2 * size < width) :
    ∃ dst', line width height size row j dst = .ok dst' ∧ dst'.length = dst.length ∧
      (∀ i < width, dst'[i * height + j]? = some (UInt8.ofNat (win row width size (i + 1) / (2 * size)))) ∧
      ∀ n, (∀ i < width, n ≠ i * height + j) → dst'[n]? = dst[n]? := by
  unfold line
  rw [index_getD (show 0 < row.length by omega) 0]
  simp only [bind, Except.bind]
  have hz := win_zero (row := row) hrow hw
  have hle := win_le row width size 0
  unfold mul16
  rw [if_pos (by omega)]
  simp only
  rw [slice_of_le (by omega), List.drop_zero]
  simp only
  rw [sum_take]
  swap
  · intro n hn
    have hsub : ((List.take n (List.take size row)).map UInt8.toNat).sum ≤ ((row.take size).map UInt8.toNat).sum :=
      List.Sublist.sum_le_sum ((List.take_sublist _ _).map _) (fun _ _ => Nat.zero_le _)
    omega
  simp only
  rw [← hz]
  have h0 : Inv row width height size j dst 0 (win row width size 0, dst) :=
    ⟨rfl, rfl, fun i' hi' => by omega, fun n _ => rfl⟩
  obtain ⟨s1, e1, i1⟩ := foldlM_range_inv (f := fun st i => Blur.step row height size j i 0 (i + size) st)
    (Inv row width height size j dst) size _ h0
    (fun i s hi hp => hp.step hrow hd hj hs hs' (by omega) (by omega) (by omega))
  obtain ⟨s2, e2, i2⟩ := foldlM_range'_inv (f := fun st i => Blur.step row height size j i (i - size) (i + size) st)
    (Inv row width height size j dst) size (width - size - size) _ i1
    (fun i s hi hi' hp => hp.step hrow hd hj hs hs' (by omega) (by omega) (by omega))
  rw [show size + (width - size - size) = width - size by omega] at i2
  obtain ⟨s3, e3, i3⟩ := foldlM_range'_inv (f := fun st i => Blur.step row height size j i (i - size) (width - 1) st)
    (Inv row width height size j dst) (width - size) size _ i2
    (fun i s hi hi' hp => hp.step hrow hd hj hs hs' (by omega) (by omega) (by omega))
  rw [show width - size + size = width by omega] at i3
  rw [e1]
  simp only
  rw [e2]
  simp only
  rw [e3]
  exact ⟨s3.2, rfl, i3.len, i3.done, i3.rest⟩

/-- pixel of a map -/
def px (m : List UInt8) (width y x : ℕ) : UInt8 := m.getD (y * width + x) 0

theorem chunksExact_get {m : List UInt8} {w h j : ℕ} (hm : m.length = w * h) (hw : 0 < w) (hj : j < h) :
    (chunksExact w m)[j]? = some ((m.drop (j * w)).take w) := by
  unfold chunksExact
  rw [List.getElem?_map, List.getElem?_range]
  · rfl
  · rw [hm, Nat.mul_div_cancel_left _ hw]; exact hj

theorem chunksExact_length {m : List UInt8} {w h : ℕ} (hm : m.length = w * h) (hw : 0 < w) :
    (chunksExact w m).length = h := by
  unfold chunksExact
  rw [List.length_map, List.length_range, hm, Nat.mul_div_cancel_left _ hw]

theorem row_length {m : List UInt8} {w h j : ℕ} (hm : m.length = w * h) (hj : j < h) :
    ((m.drop (j * w)).take w).length = w := by
  rw [List.length_take, List.length_drop, hm]
  have : j * w + w ≤ w * h := by
    rw [Nat.mul_comm w h]; calc j * w + w = (j + 1) * w := by ring
      _ ≤ h * w := Nat.mul_le_mul_right _ (by omega)
  omega

theorem row_getD {m : List UInt8} {w x j : ℕ} (hx : x < w) :
    ((m.drop (j * w)).take w).getD x 0 = px m w j x := by
  unfold px
  simp only [List.getD]
  rw [List.getElem?_take_of_lt hx, List.getElem?_drop]

/-- sum of the `2 * size` pixels of row `y` around `x`: columns `x + 1 - size` to `x + size`, clamped -/
def rowSum (m : List UInt8) (width size y x : ℕ) : ℕ :=
  ∑ d ∈ Finset.range (2 * size), (px m width y (min (x + 1 + d - size) (width - 1))).toNat

theorem win_row {m : List UInt8} {w y x : ℕ} (hw : 0 < w) :
    win ((m.drop (y * w)).take w) w size (x + 1) = rowSum m w size y x := by
  unfold win rowSum
  refine Finset.sum_congr rfl fun d _ => ?_
  unfold ext
  rw [row_getD (by omega)]

theorem transposing_ok {src dst : List UInt8} {width height size : ℕ} (hsrc : src.length = width * height)
    (hdst : dst.length = width * height) (hs : 0 < size) (hs' : size ≤ 128)
    (hw : 2 * size < width) (hh : 2 * size < height) :
    ∃ out, transposing src dst width height size = .ok out ∧ out.length = width * height ∧
      ∀ y < height, ∀ x < width, out[x * height + y]? = some (UInt8.ofNat (rowSum src width size y x / (2 * size))) := by
  unfold transposing
  rw [if_neg (by omega)]
  have hlen : (chunksExact width src).zipIdx.length = height := by
    rw [List.length_zipIdx, chunksExact_length hsrc (by omega)]
  have := foldlM_inv (f := fun dst (x : List UInt8 × ℕ) => line width height size x.1 x.2 dst)
    (fun k (out : List UInt8) => out.length = width * height ∧ ∀ y < k, y < height → ∀ x < width,
      out[x * height + y]? = some (UInt8.ofNat (rowSum src width size y x / (2 * size))))
    (chunksExact width src).zipIdx dst ⟨hdst, fun y hy => by omega⟩ (by
      intro k x s hx hp
      have hk : k < height := by
        have := (List.getElem?_eq_some_iff.mp hx).1; omega
      rw [List.getElem?_zipIdx, chunksExact_get hsrc (by omega) hk] at hx
      simp only [Option.map_some, Option.some.injEq, Nat.zero_add] at hx
      subst hx
      obtain ⟨o, e, l, d, r⟩ := line_ok (row := (src.drop (k * width)).take width) (dst := s) (j := k)
        (row_length hsrc hk) hp.1 hk hs hs' hw
      refine ⟨o, e, l.trans hp.1, fun y hy hyh x hx => ?_⟩
      by_cases eq : y = k
      · subst eq
        rw [d x hx, win_row (by omega)]
      · rw [r _ (fun i _ h => eq (pos_inj hyh hk h).2)]
        exact hp.2 y (by omega) hyh x hx)
  obtain ⟨out, e, hl, hv⟩ := this
  rw [hlen] at hv
  exact ⟨out, e, hl, fun y hy x hx => hv y hy hy x hx⟩

theorem transposing_small (src dst : List UInt8) {width height size : ℕ} (h : ¬ (2 * size < width ∧ 2 * size < height)) :
    transposing src dst width height size = .ok dst := by
  unfold transposing; rw [if_pos (by omega)]

/-! ### Plus-shaped filters -/

section op3

variable {op : UInt8 → UInt8 → UInt8}

/-- value of a pixel, except in the last column -/
def plus (op : UInt8 → UInt8 → UInt8) (m : List UInt8) (w h y x : ℕ) : UInt8 :=
  op (px m w y x) (op (op (px m w y (x - 1)) (px m w y (min (x + 1) (w - 1))))
    (op (px m w (min (y + 1) (h - 1)) x) (px m w (y - 1) x)))

/-- value in the last column (`curr` there is the pixel before it) -/
def plusLast (op : UInt8 → UInt8 → UInt8) (m : List UInt8) (w h y : ℕ) : UInt8 :=
  op (px m w y (w - 1 - 1)) (op (op (px m w y (w - 1 - 1)) (px m w y (w - 1)))
    (op (px m w (min (y + 1) (h - 1)) (w - 1)) (px m w (y - 1) (w - 1))))

structure OpInv (op : UInt8 → UInt8 → UInt8) (m : List UInt8) (w h y : ℕ) (dst : List UInt8) (i : ℕ)
    (st : UInt8 × UInt8 × List UInt8) : Prop where
  curr : st.1 = px m w y (i - 1)
  next : st.2.1 = px m w y i
  len : st.2.2.length = dst.length
  done : ∀ x < i, st.2.2[y * w + x]? = some (plus op m w h y x)
  rest : ∀ n, (∀ x < i, n ≠ y * w + x) → st.2.2[n]? = dst[n]?

theorem op3Line_ok {m dst : List UInt8} {w h y : ℕ} (hm : m.length = w * h) (hd : dst.length = w * h)
    (hw : 0 < w) (hy : y < h) :
    ∃ out, op3Line op m w h dst y = .ok out ∧ out.length = w * h ∧
      (∀ x < w, out[y * w + x]? = some (if x = w - 1 then plusLast op m w h y else plus op m w h y x)) ∧
      ∀ n, (∀ x < w, n ≠ y * w + x) → out[n]? = dst[n]? := by
  have hrow : ∀ j < h, j * w + w ≤ w * h := by
    intro j hj
    rw [Nat.mul_comm w h]
    calc j * w + w = (j + 1) * w := by ring
      _ ≤ h * w := Nat.mul_le_mul_right _ (by omega)
  have hidx : ∀ j < h, ∀ x < w, index ((m.drop (j * w)).take w) x = .ok (px m w j x) := by
    intro j hj x hx
    rw [index_getD (by rw [row_length hm hj]; exact hx) 0, row_getD hx]
  unfold op3Line
  have hy' : y - 1 < h := by omega
  have hy'' : min (y + 1) (h - 1) < h := by omega
  rw [slice_of_le (by rw [hm]; exact hrow y hy), slice_of_le (by rw [hd]; exact hrow y hy),
    slice_of_le (by rw [hm]; exact hrow _ hy'), slice_of_le (by rw [hm]; exact hrow _ hy'')]
  simp only [bind, Except.bind]
  rw [hidx y hy 0 hw]
  simp only
  obtain ⟨st, e, inv⟩ := foldlM_range_inv (f := op3Step op ((m.drop (y * w)).take w) ((m.drop ((y - 1) * w)).take w)
      ((m.drop (min (y + 1) (h - 1) * w)).take w) (y * w)) (OpInv op m w h y dst) (w - 1)
    (px m w y 0, px m w y 0, dst) ⟨rfl, rfl, rfl, fun x hx => by omega, fun n _ => rfl⟩ (by
      intro i st hi inv
      have hpos : y * w + i < st.2.2.length := by rw [inv.len, hd, Nat.mul_comm w h]; exact pos_lt hy (by omega)
      have hval : op st.2.1 (op (op st.1 (px m w y (i + 1))) (op (px m w (min (y + 1) (h - 1)) i) (px m w (y - 1) i)))
          = plus op m w h y i := by
        unfold plus
        rw [inv.curr, inv.next, Nat.min_eq_left (show i + 1 ≤ w - 1 by omega)]
      refine ⟨(st.2.1, px m w y (i + 1), st.2.2.set (y * w + i) (plus op m w h y i)), ?_, ?_⟩
      · unfold op3Step
        rw [hidx y hy (i + 1) (by omega), hidx _ hy'' i (by omega), hidx _ hy' i (by omega)]
        simp only [bind, Except.bind]
        rw [hval, store_of_lt hpos]
        rfl
      · refine ⟨by simpa using inv.next, rfl, by simp [inv.len], fun x hx => ?_, fun n hn => ?_⟩
        · show (st.2.2.set _ _)[_]? = _
          rw [getElem?_set_iff _ _ _ _ hpos]
          by_cases ex : x = i
          · subst ex; rw [if_pos rfl]
          · rw [if_neg (by omega)]; exact inv.done x (by omega)
        · show (st.2.2.set _ _)[_]? = _
          rw [getElem?_set_iff _ _ _ _ hpos, if_neg (hn i (by omega))]
          exact inv.rest n fun x hx => hn x (by omega))
  rw [e]
  simp only
  rw [hidx _ hy'' (w - 1) (by omega), hidx _ hy' (w - 1) (by omega)]
  simp only
  have hpos : y * w + (w - 1) < st.2.2.length := by rw [inv.len, hd, Nat.mul_comm w h]; exact pos_lt hy (by omega)
  rw [store_of_lt hpos]
  refine ⟨_, rfl, by rw [List.length_set, inv.len, hd], fun x hx => ?_, fun n hn => ?_⟩
  · rw [getElem?_set_iff _ _ _ _ hpos]
    by_cases ex : x = w - 1
    · subst ex
      rw [if_pos rfl, if_pos rfl]
      unfold plusLast
      rw [inv.curr, inv.next]
    · rw [if_neg (by omega), if_neg ex]
      exact inv.done x (by omega)
  · rw [getElem?_set_iff _ _ _ _ hpos, if_neg (hn _ (by omega))]
    exact inv.rest n fun x hx => hn x (by omega)

theorem op3_ok {m dst : List UInt8} {w h : ℕ} (hm : m.length = w * h) (hd : dst.length = w * h) (hw : 0 < w) :
    ∃ out, op3 op m dst w h = .ok out ∧ out.length = w * h ∧ ∀ y < h, ∀ x < w,
      out[y * w + x]? = some (if x = w - 1 then plusLast op m w h y else plus op m w h y x) := by
  unfold op3
  obtain ⟨out, e, hl, hv⟩ := foldlM_range_inv (f := op3Line op m w h)
    (fun k (out : List UInt8) => out.length = w * h ∧ ∀ y < k, ∀ x < w,
      out[y * w + x]? = some (if x = w - 1 then plusLast op m w h y else plus op m w h y x)) h dst
    ⟨hd, fun y hy => by omega⟩ (by
      intro k s hk hp
      obtain ⟨o, e, l, d, r⟩ := op3Line_ok (op := op) hm hp.1 hw hk
      refine ⟨o, e, l, fun y hy x hx => ?_⟩
      by_cases ey : y = k
      · subst ey; exact d x hx
      · rw [r _ (fun x' hx' hc => ey (pos_inj hx hx' hc).1)]
        exact hp.2 y (by omega) x hx)
  exact ⟨out, e, hl, hv⟩

end op3
end Blur
end Verif
