import Verif.Lemmas.FiniteRemap
import Verif.Lemmas.RemapRows

/-! # The palette that an undithered remap leaves behind, with rounding -/

set_option linter.unusedSectionVars false

namespace Verif
open Flt FltRound FltCorrect
open FltFull (r32_idem r64 r64_mono r64_idem r64_nat lit64_eq add64_eq div64_eq to32_eq pow32_unit)

variable {F : Type} [Flt F] [FltMin F] {op : Prop}

/-- importance of a pixel as a weight -/
structure ByteWeight (w : F) : Prop where
  nn : NN 255 w
  own : r32 F (val w) = val w
  whole : val w = 0 ∨ 1 ≤ val w

theorem byteWeight (k : UInt8) : ByteWeight (Flt.lit32 (k.toNat : ℕ) : F) := by
  have hk := k.toNat_lt
  have hr : ((k.toNat : ℕ) : ℝ) ≤ 255 := by exact_mod_cast (by omega : k.toNat ≤ 255)
  have hf : Fits32 (((k.toNat : ℕ) : ℚ) : ℝ) := by
    rw [Rat.cast_natCast]
    exact fits32_nn (Nat.cast_nonneg _) hr (by norm_num)
  have e : val (Flt.lit32 (k.toNat : ℕ) : F) = k.toNat := by
    rw [FltCorrect.lit32_eq _ hf]
    have := FltCorrect.r32_nat (F := F) k.toNat (by omega)
    simpa using this
  refine ⟨⟨(FltRound.lit32 (F := F) _ hf).1, by rw [e]; exact Nat.cast_nonneg _, by rw [e]; exact hr⟩, ?_, ?_⟩
  · rw [e]; exact FltCorrect.r32_nat (F := F) k.toNat (by omega)
  · rw [e]
    rcases Nat.eq_zero_or_pos k.toNat with h | h
    · left; rw [h]; norm_num
    · right; exact_mod_cast h

/-- the running sums of one palette entry after `m` additions -/
structure Cell (op : Prop) (m : ℕ) (s : ColorAvg F) : Prop where
  total : NN (512 * m) s.total
  a : NN (val s.total) s.sum.a
  r : NN (val s.total) s.sum.r
  g : NN (val s.total) s.sum.g
  b : NN (val s.total) s.sum.b
  dense : op → Kmeans.Dense m s

/-- the sums are numbers of double precision -/
structure OwnCell (s : ColorAvg F) : Prop where
  total : r64 F (val s.total) = val s.total
  a : r64 F (val s.sum.a) = val s.sum.a
  r : r64 F (val s.sum.r) = val s.sum.r
  g : r64 F (val s.sum.g) = val s.sum.g
  b : r64 F (val s.sum.b) = val s.sum.b

theorem Cell.mono {m k : ℕ} {s : ColorAvg F} (h : Cell op m s) (hmk : m ≤ k) : Cell op k s :=
  ⟨h.total.mono (by have : (m : ℝ) ≤ k := by exact_mod_cast hmk
                    linarith), h.a, h.r, h.g, h.b, fun ho => (h.dense ho).mono h.total.lo hmk⟩

theorem wsum_room {m : ℕ} (hm : m ≤ 2 ^ 34) : 512 * (m : ℝ) + 255 ≤ 2 ^ 45 := by
  have hm' : (m : ℝ) ≤ 2 ^ 34 := by exact_mod_cast hm
  linarith

/-- two sums are added; as `dense_add`, with room for more terms -/
theorem dense_add' {m : ℕ} (hm : m ≤ 2 ^ 34) {X B : ℝ} {S A : F} (hX0 : 0 ≤ X) (hB0 : 0 ≤ B) (hB : 0.62498 * (1 - m * 2⁻¹ ^ 50) * X ≤ B)
    (hX : X = 0 ∨ 1 / 7000 ≤ X) (rS : RoundsTo u64 tiny64 X (val S)) (rA : RoundsTo u64 tiny64 B (val A)) (hA : 0 ≤ val A) :
    0.62498 * (1 - (m + 1 : ℕ) * 2⁻¹ ^ 50) * val S ≤ val A := by
  rcases hX with h | h
  · rw [rS.2 h, mul_zero]; exact hA
  · have hmr : (m : ℝ) ≤ 2 ^ 34 := by exact_mod_cast hm
    have hk : (m : ℝ) * 2⁻¹ ^ 50 ≤ 2 ^ 34 * 2⁻¹ ^ 50 := by gcongr
    have ht : tiny64 ≤ 1 / 10 ^ 40 := by
      refine tiny64_share.trans ?_; norm_num
    have := dense_step (δ := 2⁻¹ ^ 50) hB (rounds_abs_nn rS hX0) (rounds_abs_nn rA hB0) h (by norm_num) (by norm_num) (by positivity)
      (by norm_num at hk ⊢; linarith) (by rw [u64_val]; positivity) (by rw [u64_val]; norm_num) tiny64_nonneg ht (by rw [u64_val]; norm_num)
    refine le_trans (le_of_eq ?_) this
    push_cast; ring

/-- two running sums are joined -/
theorem Cell.join {m j : ℕ} {x y : ColorAvg F} (hx : Cell op m x) (hy : Cell op j y) (hm : m + j ≤ 2 ^ 34) :
    let s : ColorAvg F := ⟨⟨x.sum.a +₆ y.sum.a, x.sum.r +₆ y.sum.r, x.sum.g +₆ y.sum.g, x.sum.b +₆ y.sum.b⟩, x.total +₆ y.total⟩
    Cell op (m + j + 1) s ∧ OwnCell s := by
  intro s
  have hs := wsum_room hm
  push_cast at hs
  have room' : 512 * (m : ℝ) + 512 * j ≤ 2 ^ 45 := by linarith
  have room : 512 * (m : ℝ) + 512 * j ≤ 2 ^ 127 := le_trans room' (show (2:ℝ) ^ 45 ≤ 2 ^ 127 by norm_num)
  have key : ∀ c d : F, NN (val x.total) c → NN (val y.total) d → NN (val (x.total +₆ y.total)) (c +₆ d) := fun c d hc hd =>
    add64_mono hx.total hy.total room hc hd
  have own : ∀ c d : F, NN (val x.total) c → NN (val y.total) d → r64 F (val (c +₆ d)) = val (c +₆ d) := fun c d hc hd =>
    add64_own hc.fin hd.fin (add_nonneg hc.lo hd.lo) (add_le_add (hc.hi.trans hx.total.hi) (hd.hi.trans hy.total.hi)) room
  refine ⟨⟨(add64_le hx.total hy.total room).mono ?_, key _ _ hx.a hy.a, key _ _ hx.r hy.r, key _ _ hx.g hy.g, key _ _ hx.b hy.b, ?_⟩,
    add64_own hx.total.fin hy.total.fin (add_nonneg hx.total.lo hy.total.lo) (add_le_add hx.total.hi hy.total.hi) room,
    own _ _ hx.a hy.a, own _ _ hx.r hy.r, own _ _ hx.g hy.g, own _ _ hx.b hy.b⟩
  · push_cast
    norm_num at room' ⊢
    linarith
  intro ho
  have d1 := (hx.dense ho).mono hx.total.lo (Nat.le_add_right m j)
  have d2 := (hy.dense ho).mono hy.total.lo (Nat.le_add_left j m)
  have hS0 := add_nonneg hx.total.lo hy.total.lo
  have hA0 := add_nonneg hx.a.lo hy.a.lo
  have hfS := fits64_nn hS0 (add_le_add hx.total.hi hy.total.hi) room
  have hfA := fits64_nn hA0 (add_le_add (hx.a.hi.trans hx.total.hi) (hy.a.hi.trans hy.total.hi)) room
  have eA := add64_eq _ _ hx.a.fin hy.a.fin hfA
  have rS := (FltRound.add64 _ _ hx.total.fin hy.total.fin hfS).2
  have hlo := Kmeans.r64_lo (F := F)
  have hcase : (val x.total + val y.total = 0) ∨ r64 F (1 / 6000) ≤ val x.total + val y.total := by
    rcases d1.2 with h1 | h1
    · rcases d2.2 with h2 | h2
      · left; rw [h1, h2, add_zero]
      · right; rw [h1, zero_add]; exact h2
    · right; have := hy.total.lo; linarith
  refine ⟨?_, ?_⟩
  · show _ * val (x.total +₆ y.total) ≤ val (x.sum.a +₆ y.sum.a)
    refine dense_add' hm hS0 hA0 ?_ ?_ rS (FltRound.add64 _ _ hx.a.fin hy.a.fin hfA).2 (by rw [eA]; exact r64_nonneg hA0)
    · have := d1.1; have := d2.1; rw [mul_add]; linarith
    · rcases hcase with h | h
      · exact .inl h
      · exact .inr (hlo.trans h)
  · show val (x.total +₆ y.total) = 0 ∨ _ ≤ val (x.total +₆ y.total)
    rcases hcase with h | h
    · exact .inl (rS.2 h)
    · right
      rw [add64_eq _ _ hx.total.fin hy.total.fin hfS, ← r64_idem (F := F) (1 / 6000)]
      exact r64_mono h

/-- the sums of a single pixel -/
theorem cell_single {c : FPixel F} (hc : c.UnitFin) (hs : op → solidLo ≤ val c.a) {w : F} (hw : ByteWeight w) :
    Cell op 1 ⟨⟨c.a *₃ w, c.r *₃ w, c.g *₃ w, c.b *₃ w⟩, w⟩ := by
  have hb : (255 : ℝ) ≤ 2 ^ 127 := by norm_num
  have m := fun (x : F) (hx : NN 1 x) => mul_unit hx hw.nn hb hw.own
  refine ⟨hw.nn.mono (by norm_num), m _ hc.a, m _ hc.r, m _ hc.g, m _ hc.b, fun ho => ⟨?_, ?_⟩⟩
  · show _ * val w ≤ val (c.a *₃ w)
    rcases hw.whole with h | h
    · rw [h, mul_zero]; exact (m _ hc.a).lo
    · refine le_trans ?_ (solid_mul hc.a (hs ho) (hw.nn.mono (by unfold termMax; norm_num)) (by linarith))
      apply mul_le_mul_of_nonneg_right _ hw.nn.lo
      unfold solidLo
      norm_num
  · rcases hw.whole with h | h
    · exact .inl h
    · right
      show r64 F (1 / 6000) ≤ val w
      have h1 : r64 F (1 / 6000) ≤ r64 F 1 := r64_mono (by norm_num)
      have h2 : r64 F 1 = 1 := by simpa using r64_nat (F := F) 1 (by norm_num)
      linarith

/-- a sum to which nothing was added leaves the other one as it is -/
theorem Cell.join_empty {m : ℕ} {x y : ColorAvg F} (hx : Cell op m x) (ox : OwnCell x) (hy : Cell op 0 y) (hm : m ≤ 2 ^ 34) :
    let s : ColorAvg F := ⟨⟨x.sum.a +₆ y.sum.a, x.sum.r +₆ y.sum.r, x.sum.g +₆ y.sum.g, x.sum.b +₆ y.sum.b⟩, x.total +₆ y.total⟩
    Cell op m s ∧ OwnCell s := by
  intro s
  obtain ⟨-, oj⟩ := hx.join hy (by omega)
  refine ⟨?_, oj⟩
  have room : 512 * (m : ℝ) ≤ 2 ^ 127 := by
    have := wsum_room hm
    exact le_trans (by linarith) (show (2:ℝ) ^ 45 ≤ 2 ^ 127 by norm_num)
  have z0 : val y.total = 0 := le_antisymm (by simpa using hy.total.hi) hy.total.lo
  have key : ∀ c d : F, NN (val x.total) c → r64 F (val c) = val c → NN (val y.total) d → fin (c +₆ d) ∧ val (c +₆ d) = val c := by
    intro c d hc oc hd
    have hd0 : val d = 0 := le_antisymm (by rw [← z0]; exact hd.hi) hd.lo
    have hf : Fits64 (val c + val d) := by
      rw [hd0, add_zero]; exact fits64_nn hc.lo (hc.hi.trans hx.total.hi) room
    refine ⟨(FltRound.add64 _ _ hc.fin hd.fin hf).1, ?_⟩
    rw [add64_eq _ _ hc.fin hd.fin hf, hd0, add_zero, oc]
  have t := key x.total y.total ⟨hx.total.fin, hx.total.lo, le_rfl⟩ ox.total ⟨hy.total.fin, hy.total.lo, le_rfl⟩
  have ch : ∀ c d : F, NN (val x.total) c → r64 F (val c) = val c → NN (val y.total) d → NN (val (x.total +₆ y.total)) (c +₆ d) := by
    intro c d hc oc hd
    obtain ⟨f, e⟩ := key c d hc oc hd
    exact ⟨f, by rw [e]; exact hc.lo, by rw [e, t.2]; exact hc.hi⟩
  refine ⟨⟨t.1, by rw [t.2]; exact hx.total.lo, by rw [t.2]; exact hx.total.hi⟩, ch _ _ hx.a ox.a hy.a, ch _ _ hx.r ox.r hy.r,
    ch _ _ hx.g ox.g hy.g, ch _ _ hx.b ox.b hy.b, fun ho => ?_⟩
  obtain ⟨d1, d2⟩ := hx.dense ho
  unfold Kmeans.Dense
  rw [show s.total = x.total +₆ y.total from rfl, show s.sum.a = x.sum.a +₆ y.sum.a from rfl, t.2, (key _ _ hx.a ox.a hy.a).2]
  exact ⟨d1, d2⟩

theorem Cell.empty_join {m : ℕ} {x y : ColorAvg F} (hx : Cell op 0 x) (hy : Cell op m y) (oy : OwnCell y) (hm : m ≤ 2 ^ 34) :
    let s : ColorAvg F := ⟨⟨x.sum.a +₆ y.sum.a, x.sum.r +₆ y.sum.r, x.sum.g +₆ y.sum.g, x.sum.b +₆ y.sum.b⟩, x.total +₆ y.total⟩
    Cell op m s ∧ OwnCell s := by
  intro s
  obtain ⟨-, oj⟩ := hx.join hy (by omega)
  refine ⟨?_, oj⟩
  have room : 512 * (m : ℝ) ≤ 2 ^ 127 := by
    have := wsum_room hm
    exact le_trans (by linarith) (show (2:ℝ) ^ 45 ≤ 2 ^ 127 by norm_num)
  have z0 : val x.total = 0 := le_antisymm (by simpa using hx.total.hi) hx.total.lo
  have key : ∀ c d : F, NN (val x.total) c → NN (val y.total) d → r64 F (val d) = val d → fin (c +₆ d) ∧ val (c +₆ d) = val d := by
    intro c d hc hd od
    have hc0 : val c = 0 := le_antisymm (by rw [← z0]; exact hc.hi) hc.lo
    have hf : Fits64 (val c + val d) := by
      rw [hc0, zero_add]; exact fits64_nn hd.lo (hd.hi.trans hy.total.hi) room
    refine ⟨(FltRound.add64 _ _ hc.fin hd.fin hf).1, ?_⟩
    rw [add64_eq _ _ hc.fin hd.fin hf, hc0, zero_add, od]
  have t := key x.total y.total ⟨hx.total.fin, hx.total.lo, le_rfl⟩ ⟨hy.total.fin, hy.total.lo, le_rfl⟩ oy.total
  have ch : ∀ c d : F, NN (val x.total) c → NN (val y.total) d → r64 F (val d) = val d → NN (val (x.total +₆ y.total)) (c +₆ d) := by
    intro c d hc hd od
    obtain ⟨f, e⟩ := key c d hc hd od
    exact ⟨f, by rw [e]; exact hd.lo, by rw [e, t.2]; exact hd.hi⟩
  refine ⟨⟨t.1, by rw [t.2]; exact hy.total.lo, by rw [t.2]; exact hy.total.hi⟩, ch _ _ hx.a hy.a oy.a, ch _ _ hx.r hy.r oy.r,
    ch _ _ hx.g hy.g oy.g, ch _ _ hx.b hy.b oy.b, fun ho => ?_⟩
  obtain ⟨d1, d2⟩ := hy.dense ho
  unfold Kmeans.Dense
  rw [show s.total = x.total +₆ y.total from rfl, show s.sum.a = x.sum.a +₆ y.sum.a from rfl, t.2, (key _ _ hx.a hy.a oy.a).2]
  exact ⟨d1, d2⟩

/-- running sums of all entries -/
def Cells (op : Prop) (m : ℕ) (k : Kmeans F) : Prop := ∀ s ∈ k.averages, Cell op m s ∧ OwnCell s

theorem cells_new (len : ℕ) : Cells op 0 (Kmeans.new len : Kmeans F) := by
  intro s hs
  have hz := nn_zero64 (F := F)
  have hz0 : val (Flt.lit64 0 : F) = 0 := le_antisymm hz.hi hz.lo
  have hz' : NN (val (Flt.lit64 0 : F)) (Flt.lit64 0 : F) := hz0.symm ▸ hz
  have h0 : r64 F 0 = 0 := by simpa using r64_nat (F := F) 0 (by norm_num)
  have o : r64 F (val (Flt.lit64 0 : F)) = val (Flt.lit64 0 : F) := by rw [hz0, h0]
  rw [(List.mem_replicate.1 hs).2]
  exact ⟨⟨by simpa using hz, hz', hz', hz', hz', fun _ => ⟨by show _ * val (Flt.lit64 0 : F) ≤ val (Flt.lit64 0 : F); rw [hz0]; simp, .inl hz0⟩⟩, o, o, o, o, o⟩

theorem Cells.update {m : ℕ} {k : Kmeans F} (h : Cells op m k) {c : FPixel F} (hc : c.UnitFin) (hs : op → solidLo ≤ val c.a) {w : F}
    (hw : ByteWeight w) (hm : m + 1 ≤ 2 ^ 34) (i : ℕ) : Cells op (m + 2) (k.updateColor c w i) := by
  intro s hmem
  rcases Kmeans.mem_modify_cases hmem with hmem | ⟨x, hx, rfl⟩
  · exact ⟨(h s hmem).1.mono (by omega), (h s hmem).2⟩
  · exact (h x hx).1.join (cell_single hc hs hw) hm

theorem Cells.merge {m j : ℕ} {a b : Kmeans F} (ha : Cells op m a) (hb : Cells op j b) (hm : m + j ≤ 2 ^ 34) :
    Cells op (m + j + 1) (a.merge b) ∧ (j = 0 → Cells op m (a.merge b)) ∧ (m = 0 → Cells op j (a.merge b)) := by
  have key : ∀ s ∈ (a.merge b).averages, ∃ x ∈ a.averages, ∃ y ∈ b.averages,
      s = ⟨⟨x.sum.a +₆ y.sum.a, x.sum.r +₆ y.sum.r, x.sum.g +₆ y.sum.g, x.sum.b +₆ y.sum.b⟩, x.total +₆ y.total⟩ := by
    intro s hs
    obtain ⟨i, hi, rfl⟩ := List.getElem_of_mem hs
    unfold Kmeans.merge at hi
    simp only [List.length_zipWith] at hi
    refine ⟨_, List.getElem_mem (l := a.averages) (n := i) (by omega), _, List.getElem_mem (l := b.averages) (n := i) (by omega), ?_⟩
    unfold Kmeans.merge
    simp only [List.getElem_zipWith]
  refine ⟨fun s hs => ?_, fun h0 s hs => ?_, fun h0 s hs => ?_⟩ <;> obtain ⟨x, hx, y, hy, rfl⟩ := key s hs
  · exact (ha x hx).1.join (hb y hy).1 hm
  · subst h0
    exact (ha x hx).1.join_empty (ha x hx).2 (hb y hy).1 (by omega)
  · subst h0
    exact (ha x hx).1.empty_join (hb y hy).1 (hb y hy).2 (by omega)

/-- an update that a remap makes -/
structure GoodUpdate (op : Prop) (u : FPixel F × F × ℕ) : Prop where
  color : u.1.UnitFin
  solid : op → solidLo ≤ val u.1.a
  weight : ByteWeight u.2.1

theorem Cells.updates {l : List (FPixel F × F × ℕ)} (hl : ∀ u ∈ l, GoodUpdate op u) {m : ℕ} {k : Kmeans F} (h : Cells op m k)
    (hm : m + 2 * l.length ≤ 2 ^ 34) : Cells op (m + 2 * l.length) (l.foldl (fun k u => k.updateColor u.1 u.2.1 u.2.2) k) := by
  induction l generalizing m k with
  | nil => simpa using h
  | cons u l ih =>
    rw [List.length_cons] at hm ⊢
    have hu := hl u (by simp)
    have := ih (fun v hv => hl v (by simp [hv])) (h.update hu.color hu.solid hu.weight (by omega) u.2.2) (by omega)
    rw [show m + 2 * (l.length + 1) = m + 2 + 2 * l.length by ring]
    exact this

/-- rows with at most `w` updates each -/
theorem cells_worker {w : ℕ} {outs : List (RowOut F)} (ho : ∀ r ∈ outs, r.updates.length ≤ w ∧ ∀ u ∈ r.updates, GoodUpdate op u)
    (rows : List ℕ) {m : ℕ} {k : Kmeans F} (h : Cells op m k) (hm : m + 2 * w * rows.length ≤ 2 ^ 34) :
    Cells op (m + 2 * w * rows.length) (remapWorker outs k rows) := by
  induction rows generalizing m k with
  | nil => simpa [remapWorker] using h
  | cons y ys ih =>
    rw [List.length_cons] at hm ⊢
    have e1 : m + 2 * w * (ys.length + 1) = m + 2 * w + 2 * w * ys.length := by ring
    rw [e1] at hm ⊢
    have hstep : Cells op (m + 2 * w) (match outs[y]? with
        | some r => r.updates.foldl (fun k u => k.updateColor u.1 u.2.1 u.2.2) k
        | none => k) := by
      cases hy : outs[y]? with
      | none => exact fun s hs => ⟨(h s hs).1.mono (by omega), (h s hs).2⟩
      | some r =>
        obtain ⟨h1, h2⟩ := ho r (List.mem_of_getElem? hy)
        exact fun s hs => by
          have := Cells.updates h2 h (by omega) s hs
          exact ⟨this.1.mono (by omega), this.2⟩
    exact ih hstep hm

theorem cells_merged {w : ℕ} (hw : 0 < w) (ws : List (ℕ × Kmeans F)) (hs : ∀ x ∈ ws, Cells op (2 * w * x.1) x.2) {n : ℕ} {k : Kmeans F}
    (h : Cells op (3 * w * n) k) (hm : 3 * w * (n + (ws.map (·.1)).sum) ≤ 2 ^ 34) :
    Cells op (3 * w * (n + (ws.map (·.1)).sum)) ((ws.map (·.2)).foldl Kmeans.merge k) := by
  induction ws generalizing n k with
  | nil => simpa using h
  | cons x ws ih =>
    simp only [List.map_cons, List.sum_cons, List.foldl_cons] at hm ⊢
    have hx := hs x (by simp)
    have hnext : Cells op (3 * w * (n + x.1)) (k.merge x.2) := by
      have hle : 3 * w * n + 2 * w * x.1 ≤ 2 ^ 34 := by
        refine le_trans ?_ hm
        rw [Nat.mul_add, Nat.mul_add]
        have : 2 * w * x.1 ≤ 3 * w * x.1 := Nat.mul_le_mul_right _ (by omega)
        omega
      obtain ⟨m1, m2, -⟩ := h.merge hx hle
      rcases Nat.eq_zero_or_pos x.1 with h0 | h0
      · rw [h0, Nat.add_zero]; exact m2 (by rw [h0, Nat.mul_zero])
      · have : 1 ≤ w * x.1 := Nat.mul_pos hw h0
        exact fun s hs => ⟨(m1 s hs).1.mono (by nlinarith), (m1 s hs).2⟩
    have := ih (fun y hy => hs y (by simp [hy])) hnext (by rw [Nat.add_assoc]; exact hm)
    rw [Nat.add_assoc] at this
    exact this

theorem finalizeEntry_cell {m : ℕ} (hm : m ≤ 2 ^ 34) {avg : ColorAvg F} (h : Cell op m avg) {e : PalEntry F}
    (he : (e.color.UnitFin ∧ fin e.pop.val) ∧ (op → palLo ≤ val e.color.a)) :
    ((Kmeans.finalizeEntry avg e).color.UnitFin ∧ fin (Kmeans.finalizeEntry avg e).pop.val) ∧
    (op → palLo ≤ val (Kmeans.finalizeEntry avg e).color.a) := by
  have room : 512 * (m : ℝ) ≤ 2 ^ 127 := by
    have := wsum_room hm
    exact le_trans (by linarith) (show (2:ℝ) ^ 45 ≤ 2 ^ 127 by norm_num)
  have hpop := (nn_to32 h.total room).fin
  unfold Kmeans.finalizeEntry
  split
  · exact he
  · dsimp only
    split
    next hc =>
      have hz := nn_zero64 (F := F)
      have hpos : 0 < val avg.total := by
        have := (FltRound.lt _ _ hz.fin h.total.fin).1 ((Bool.and_eq_true _ _).mp hc).1
        exact lt_of_le_of_lt hz.lo this
      refine ⟨⟨⟨unit_to32 (unit_div64 h.a h.total hpos), unit_to32 (unit_div64 h.r h.total hpos), unit_to32 (unit_div64 h.g h.total hpos),
        unit_to32 (unit_div64 h.b h.total hpos)⟩, hpop⟩, fun ho => ?_⟩
      have hq := unit_div64 h.a h.total hpos
      have q0 := div_nonneg h.a.lo h.total.lo
      have q1 := (div_le_one hpos).2 h.a.hi
      have hmr : (m : ℝ) ≤ 2 ^ 34 := by exact_mod_cast hm
      have hk : (m : ℝ) * 2⁻¹ ^ 50 ≤ 2 ^ 34 * 2⁻¹ ^ 50 := by gcongr
      have hlo : 0.6249 ≤ val avg.sum.a / val avg.total := by
        rw [le_div_iff₀ hpos]
        refine le_trans ?_ (h.dense ho).1
        apply mul_le_mul_of_nonneg_right _ h.total.lo
        norm_num at hk ⊢
        linarith
      have r1 := (abs_le.1 (rounds_abs_nn (FltRound.div64 _ _ h.a.fin h.total.fin hpos.ne' (fits64_nn q0 q1 (by norm_num))).2 q0)).1
      have r2 := (abs_le.1 (rounds_abs_nn (FltRound.to32 _ hq.fin (fits32_nn hq.lo hq.hi (by norm_num))).2 hq.lo)).1
      have t1 := tiny32_le
      have t2 : tiny64 ≤ 1 / 10 ^ 40 := by
        refine tiny64_share.trans ?_; norm_num
      rw [u32_val] at r2
      rw [u64_val] at r1
      show palLo ≤ val (to32 (avg.sum.a /₆ avg.total))
      unfold palLo
      norm_num at r1 r2 t1 t2 hlo ⊢
      linarith
    · exact ⟨⟨he.1.1, hpop⟩, he.2⟩

theorem finalizePalette_cells {m : ℕ} (hm : m ≤ 2 ^ 34) (as : List (ColorAvg F)) (ha : ∀ s ∈ as, Cell op m s) (p : PalF F)
    (hp : PalFin op p) : PalFin op (Kmeans.finalizePalette as p) := by
  induction as generalizing p with
  | nil => cases p <;> exact hp
  | cons a as ih =>
    cases p with
    | nil => exact hp
    | cons e es =>
      intro x hx
      have hx' : x ∈ Kmeans.finalizeEntry a e :: Kmeans.finalizePalette as es := hx
      rcases List.mem_cons.1 hx' with rfl | hx'
      · exact finalizeEntry_cell hm (ha a (by simp)) (hp e (by simp))
      · exact ih (fun b hb => ha b (by simp [hb])) es (fun y hy => hp y (by simp [hy])) x hx'

theorem remapFinish_fin (env : RemapEnv F) {w : ℕ} (hw : 0 < w) {outs : List (RowOut F)}
    (ho : ∀ r ∈ outs, r.updates.length ≤ w ∧ ∀ u ∈ r.updates, GoodUpdate op u) (hm : w * outs.length ≤ 2 ^ 32) (ti : UInt8)
    {p : PalF F} (hp : PalFin op p) : PalFin op (remapFinish env outs false ti p) := by
  have hv := (env.sched_valid outs.length).1
  have hlen := hv.length_eq
  simp only [List.length_append, List.length_flatten, List.length_range] at hlen
  have hb := fun ws : List (List ℕ) => (ws.map List.length).sum
  unfold remapFinish
  dsimp only
  generalize env.sched outs.length = s at *
  have hst : remapMainStart p.length false ti = (Kmeans.new p.length : Kmeans F) := rfl
  rw [hst]
  -- all workers, with the number of their rows
  let all : List (List ℕ) := s.before ++ s.main :: s.after
  have hall : (all.map List.length).sum = outs.length := by
    simp only [all, List.map_append, List.map_cons, List.sum_append, List.sum_cons]
    omega
  have hmap : s.before.map (remapWorker outs (Kmeans.new p.length)) ++
      remapWorker outs (Kmeans.new p.length) s.main :: s.after.map (remapWorker outs (Kmeans.new p.length)) =
      all.map (remapWorker outs (Kmeans.new p.length)) := by simp [all]
  rw [hmap]
  have hle : ∀ l ∈ all, l.length ≤ outs.length := by
    intro l hl
    rw [← hall]
    exact List.single_le_sum (by simp) _ (List.mem_map_of_mem hl)
  have hworker : ∀ l ∈ all, Cells op (2 * w * l.length) (remapWorker outs (Kmeans.new p.length) l) := by
    intro l hl
    have := hle l hl
    have h2 : 2 * w * l.length ≤ 2 ^ 34 := by nlinarith
    have := cells_worker ho l (cells_new (op := op) p.length) (by omega)
    rwa [Nat.zero_add] at this
  cases hcase : all with
  | nil => exact hp
  | cons l ls =>
    rw [hcase] at hworker hall hle
    simp only [List.map_cons, List.sum_cons] at hall
    simp only [List.map_cons, Kmeans.reduceWorkers]
    have h0 : Cells op (3 * w * l.length) (remapWorker outs (Kmeans.new p.length) l) := fun s hs =>
      ⟨(hworker l (by simp) s hs).1.mono (by nlinarith), (hworker l (by simp) s hs).2⟩
    have e1 : (ls.map fun l => (l.length, remapWorker outs (Kmeans.new p.length : Kmeans F) l)).map (·.1) = ls.map List.length := by
      simp [List.map_map, Function.comp_def]
    have e2 : (ls.map fun l => (l.length, remapWorker outs (Kmeans.new p.length : Kmeans F) l)).map (·.2) =
        ls.map (remapWorker outs (Kmeans.new p.length)) := by simp [List.map_map, Function.comp_def]
    have hm3 : 3 * w * outs.length ≤ 2 ^ 34 := by nlinarith
    have := cells_merged hw (ls.map fun l => (l.length, remapWorker outs (Kmeans.new p.length : Kmeans F) l)) (by
      intro x hx
      obtain ⟨l', hl', rfl⟩ := List.mem_map.1 hx
      exact hworker l' (by simp [hl'])) h0 (by rw [e1, hall]; exact hm3)
    rw [e1, e2, hall] at this
    exact finalizePalette_cells hm3 _ (fun s hs => (this s hs).1) p hp

theorem remapPixels_good (n : Nearest F) (ti : UInt8) (pxs bgs : List (FPixel F)) (imps : List UInt8) (last : UInt8) (err : F)
    (hx : ∀ c ∈ pxs, c.UnitFin ∧ (op → solidLo ≤ val c.a)) :
    (remapPixels n ti pxs bgs imps last err).updates.length ≤ pxs.length ∧
    ∀ u ∈ (remapPixels n ti pxs bgs imps last err).updates, GoodUpdate op u := by
  induction pxs generalizing bgs imps last err with
  | nil => simp [remapPixels]
  | cons c ps ih =>
    have hc := hx c (by simp)
    have key := fun e => ih bgs.tail imps.tail (UInt8.ofNat (n.search c last.toNat).1) e (fun c h => hx c (by simp [h]))
    rw [remapPixels]
    dsimp only
    split
    next d _ =>
      obtain ⟨k1, k2⟩ := key (err +₆ d)
      exact ⟨by simp only [List.length_cons]; omega, k2⟩
    next =>
      obtain ⟨k1, k2⟩ := key (err +₆ (n.search c last.toNat).2)
      refine ⟨by simp only [List.length_cons]; omega, fun u hu => ?_⟩
      rcases List.mem_cons.1 hu with rfl | hu
      · exact ⟨hc.1, hc.2, byteWeight _⟩
      · exact k2 u hu

/-- all pixels are finite, and opaque if `op` -/
def Rows.Sound (op : Prop) (r : Rows F) : Prop := ∀ y < r.height, ∀ c ∈ r.pixelsF y, c.UnitFin ∧ (op → solidLo ≤ val c.a)

/-- The palette after an undithered remap without a background stays finite, and opaque if it and the image were. -/
theorem remapToPalette_pal (env : RemapEnv F) {px : Rows F} (imp : Option (List UInt8)) {p : PalF F}
    (hp0 : 0 < p.length) (hp : p.length ≤ 256) (hpu : PalFin op p) (hpx : px.Readable) (hu : px.Sound op)
    (hw : 0 < px.width) (ha : px.width * px.height ≤ 2 ^ 32) :
    PalFin op (remapToPalette env px none imp px.height p).2.palette := by
  obtain ⟨n, hnew⟩ := Nearest.new_of_len hp0 hp
  obtain ⟨px', bg', -, -, h⟩ := remapToPalette_eq (bg := none) imp hnew hpx (fun b hb => by cases hb) (le_refl px.height)
  rw [h env]
  split
  · exact hpu
  · have hpick : (pickBackground n (none : Option (Rows F))).1.isSome = false := rfl
    simp only [hpick]
    refine remapFinish_fin env hw ?_ ?_ _ hpu
    · intro r hr
      unfold plainRows at hr
      simp only [List.mem_map, List.mem_range] at hr
      obtain ⟨y, hy, rfl⟩ := hr
      have := remapPixels_good n (pickBackground n (none : Option (Rows F))).2 (px.pixelsF y) [] ((imp.getD []).drop (y * px.width)) 0
        (Flt.lit64 0) (hu y hy)
      rw [(hpx.rowF hy).2] at this
      exact this
    · unfold plainRows
      simpa using ha

end Verif
