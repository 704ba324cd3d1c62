import Verif.Lemmas.RoundedDither
import Verif.Lemmas.Lossless
import Verif.Props.Rounded

/-! Means of equal colours with rounding errors: refining a palette whose colours the image has does not change it
visibly. -/

set_option linter.unusedSectionVars false

namespace Verif
open Flt Spec Kmeans

variable {F : Type} [Flt F] [FltOrd F]
open FltRound (val fin)

theorem w64_pos : 0 < w64 := by rw [w64_val]; norm_num
theorem w32_pos : 0 < w32 := by rw [w32_val]; norm_num

/-- a sum of at most `D + 1` numbers, with its exact value; the numbers have errors `k` -/
structure Acc (k : ℝ) (D : ℕ) (x : F) (r : ℝ) : Prop where
  fin : fin x
  rel : Rel (k + D * w64) (val x) r
  nonneg : 0 ≤ r
  le : r ≤ 1000 * (D + 1)
  away : r = 0 ∨ 2⁻¹ ^ 110 ≤ r

theorem Acc.mono {k r : ℝ} {D E : ℕ} {x : F} (h : Acc k D x r) (hDE : D ≤ E) : Acc k E x r := by
  have : (D : ℝ) ≤ E := by exact_mod_cast hDE
  have := w64_pos
  exact ⟨h.fin, h.rel.mono (by nlinarith), h.nonneg, h.le.trans (by linarith), h.away⟩

theorem Acc.mid {k r : ℝ} {D : ℕ} {x : F} (h : Acc k D x r) (hD : D ≤ 2 ^ 28) (h0 : r ≠ 0) : Mid r := by
  refine ⟨h.away.resolve_left h0, h.le.trans ?_⟩
  have : (D : ℝ) ≤ 268435456 := by exact_mod_cast hD
  norm_num
  linarith

theorem Rel.zero {k y : ℝ} (h : Rel k y 0) : y = 0 := by
  obtain ⟨t, -, rfl⟩ := h
  simp

theorem Acc.small {k : ℝ} {D : ℕ} (hk : k ≤ w32) (hD : D ≤ 2 ^ 28) : k + D * w64 ≤ 1 := by
  have : (D : ℝ) ≤ 268435456 := by exact_mod_cast hD
  rw [w32_val] at hk
  rw [w64_val]
  linarith

theorem Acc.add {k a b : ℝ} {D E : ℕ} {x y : F} (hx : Acc k D x a) (hy : Acc k E y b) (hk : k ≤ w32)
    (hD : D + E + 1 ≤ 2 ^ 28) : Acc k (D + E + 1) (x +₆ y) (a + b) := by
  have hw := w64_pos
  have hrel : Rel (k + (D + E : ℕ) * w64) (val x + val y) (a + b) := by
    have h1 := (hx.mono (Nat.le_add_right D E)).rel
    have h2 := (hy.mono (Nat.le_add_left E D)).rel
    rcases hx.away with ha | ha
    · rw [ha] at h1 ⊢
      rw [h1.zero, zero_add, zero_add]; exact h2
    · rcases hy.away with hb | hb
      · rw [hb] at h2 ⊢
        rw [h2.zero, add_zero, add_zero]; exact h1
      · exact h1.add h2 (lt_of_lt_of_le (by positivity) ha) (lt_of_lt_of_le (by positivity) hb)
  have hle : a + b ≤ 1000 * ((D + E + 1 : ℕ) + 1) := by
    have := hx.le
    have := hy.le
    push_cast
    linarith
  have hnn := add_nonneg hx.nonneg hy.nonneg
  have haway : a + b = 0 ∨ 2⁻¹ ^ 110 ≤ a + b := by
    rcases hx.away with ha | ha
    · rw [ha, zero_add]; exact hy.away
    · exact .inr (by linarith [hy.nonneg])
  by_cases h0 : a + b = 0
  · rw [h0] at hrel
    have e := hrel.zero
    obtain ⟨f1, -, f2⟩ := FltRound.add64 x y hx.fin hy.fin (by rw [e]; unfold Fits64; simp)
    refine ⟨f1, ?_, hnn, hle, haway⟩
    rw [f2 e, h0]
    exact (Rel.refl 0).mono (by obtain ⟨t, ht, -⟩ := hx.rel; have := (abs_nonneg t).trans ht; push_cast; nlinarith [hx.rel])
  · have hm : Mid (a + b) := by
      refine ⟨haway.resolve_left h0, hle.trans ?_⟩
      have : ((D + E + 1 : ℕ) : ℝ) ≤ 268435456 := by exact_mod_cast hD
      norm_num at this ⊢
      linarith
    have hwide := hm.wide hrel (Acc.small hk (by omega))
    obtain ⟨f1, f2⟩ := FltRound.add64 x y hx.fin hy.fin (fits64_of hwide)
    refine ⟨f1, ((rel64 f2 hwide.1).trans hrel).mono ?_, hnn, hle, haway⟩
    push_cast
    linarith

theorem Acc.zero {k : ℝ} (hk : 0 ≤ k) : Acc k 0 (lit64 0 : F) 0 := by
  obtain ⟨f1, -, f2⟩ := FltRound.lit64 (F := F) 0 (by unfold Fits64; simp)
  have : val (lit64 0 : F) = 0 := f2 (by simp)
  exact ⟨f1, by rw [this]; exact (Rel.refl 0).mono (by simpa using hk), le_rfl, by norm_num, .inl rfl⟩

/-! ### Averages of one entry -/

/-- the average of an entry has been fed with copies of one colour -/
def ColorAvg.Of (c : FPixel F) (D : ℕ) (a : ColorAvg F) : Prop :=
  ∃ T, Acc 0 D a.total T ∧ Acc w32 D a.sum.a (val c.a * T) ∧ Acc w32 D a.sum.r (val c.r * T) ∧
    Acc w32 D a.sum.g (val c.g * T) ∧ Acc w32 D a.sum.b (val c.b * T)

/-- channels that are zero or not too small -/
structure FPixel.Coarse (c : FPixel F) : Prop where
  a : fin c.a ∧ val c.a ≤ 9 / 8 ∧ (val c.a = 0 ∨ 1 / 10 ^ 7 ≤ val c.a)
  r : fin c.r ∧ val c.r ≤ 9 / 8 ∧ (val c.r = 0 ∨ 1 / 10 ^ 7 ≤ val c.r)
  g : fin c.g ∧ val c.g ≤ 9 / 8 ∧ (val c.g = 0 ∨ 1 / 10 ^ 7 ≤ val c.g)
  b : fin c.b ∧ val c.b ≤ 9 / 8 ∧ (val c.b = 0 ∨ 1 / 10 ^ 7 ≤ val c.b)

theorem byte_weight (b : UInt8) : fin (lit32 b.toNat : F) ∧ (val (lit32 b.toNat : F) = 0 ∨
    1 / 2 ≤ val (lit32 b.toNat : F) ∧ val (lit32 b.toNat : F) ≤ 256) := by
  by_cases hb : b.toNat = 0
  · rw [hb]
    have := IsZero.lit32 (F := F)
    exact ⟨by simpa using this.fin, .inl (by simpa using this.zero)⟩
  · have hlt := b.toNat_lt
    have h := approx_nat (F := F) (n := b.toNat) (by omega) (by omega)
    have h1 : (1:ℝ) ≤ b.toNat := by exact_mod_cast (by omega : 1 ≤ b.toNat)
    have h2 : (b.toNat : ℝ) ≤ 255 := by exact_mod_cast (by omega : b.toNat ≤ 255)
    refine ⟨h.fin, .inr ⟨?_, ?_⟩⟩
    · have := h.rel.ge (by linarith)
      rw [w32_val] at this
      linarith
    · have := h.rel.le (by linarith) (by rw [w32_val]; norm_num)
      rw [w32_val] at this
      linarith

theorem unit_acc {x : F} {b : UInt8} {v : ℝ} (hx : fin x ∧ val x ≤ 9 / 8 ∧ (val x = 0 ∨ 1 / 10 ^ 7 ≤ val x)) (hv : val x = v) :
    Acc w32 0 (x *₃ lit32 b.toNat) (v * val (lit32 b.toNat : F)) := by
  subst hv
  obtain ⟨h1, h2, h3⟩ := hx
  obtain ⟨k1, k2⟩ := byte_weight (F := F) b
  have hz : val x * val (lit32 b.toNat : F) = 0 → Acc w32 0 (x *₃ lit32 b.toNat) (val x * val (lit32 b.toNat : F)) := by
    intro h0
    obtain ⟨f1, -, f2⟩ := FltRound.mul32 x (lit32 b.toNat) h1 k1 (by rw [h0]; unfold Fits32; simp)
    refine ⟨f1, ?_, h0.ge, by rw [h0]; norm_num, .inl h0⟩
    rw [f2 h0, h0]
    exact (Rel.refl 0).mono (by have := w32_pos; simp; linarith)
  rcases h3 with h3 | h3
  · exact hz (by rw [h3, zero_mul])
  · rcases k2 with k2 | ⟨k2, k3⟩
    · exact hz (by rw [k2, mul_zero])
    · have lo : 1 / 10 ^ 8 ≤ val x * val (lit32 b.toNat : F) := by
        have : 1 / 10 ^ 7 * (1 / 2) ≤ val x * val (lit32 b.toNat : F) := mul_le_mul h3 k2 (by norm_num) (by linarith)
        linarith
      have hi : val x * val (lit32 b.toNat : F) ≤ 1000 := by
        have : val x * val (lit32 b.toNat : F) ≤ 9 / 8 * 256 := mul_le_mul h2 k3 (by linarith) (by norm_num)
        linarith
      have := (Approx.exact h1).mul32 (Approx.exact k1) (mid_of (by linarith) (by linarith)) (by norm_num)
      refine ⟨this.fin, this.rel.mono (by simp), by linarith, by push_cast; linarith, .inr ?_⟩
      refine le_trans ?_ lo
      norm_num

theorem ColorAvg.Of.addTo {c : FPixel F} {D : ℕ} {a : ColorAvg F} (h : a.Of c D) {px : FPixel F} (hpx : px.Coarse)
    (hv : px.vals = c.vals) (b : UInt8) (hD : D + 1 ≤ 2 ^ 28) : (Kmeans.addTo px (lit32 b.toNat) a).Of c (D + 1) := by
  unfold FPixel.vals at hv
  simp only [Color.mk.injEq] at hv
  obtain ⟨T, h0, h1, h2, h3, h4⟩ := h
  obtain ⟨k1, k2⟩ := byte_weight (F := F) b
  have u0 : Acc 0 0 (lit32 b.toNat : F) (val (lit32 b.toNat : F)) := by
    refine ⟨k1, (Rel.refl _).mono (by simp), ?_, ?_, ?_⟩
    · rcases k2 with k | k
      · exact k.ge
      · linarith
    · rcases k2 with k | k
      · rw [k]; norm_num
      · push_cast; linarith
    · rcases k2 with k | k
      · exact .inl k
      · exact .inr (le_trans (by norm_num) k.1)
  refine ⟨T + val (lit32 b.toNat : F), ?_, ?_, ?_, ?_, ?_⟩
  · exact h0.add u0 w32_pos.le (by omega)
  · rw [mul_add]; exact h1.add (unit_acc hpx.a hv.1) le_rfl (by omega)
  · rw [mul_add]; exact h2.add (unit_acc hpx.r hv.2.1) le_rfl (by omega)
  · rw [mul_add]; exact h3.add (unit_acc hpx.g hv.2.2.1) le_rfl (by omega)
  · rw [mul_add]; exact h4.add (unit_acc hpx.b hv.2.2.2) le_rfl (by omega)

theorem ColorAvg.Of.mono {c : FPixel F} {D E : ℕ} {a : ColorAvg F} (h : a.Of c D) (hDE : D ≤ E) : a.Of c E := by
  obtain ⟨T, h0, h1, h2, h3, h4⟩ := h
  exact ⟨T, h0.mono hDE, h1.mono hDE, h2.mono hDE, h3.mono hDE, h4.mono hDE⟩

/-- the mean is the colour, up to rounding -/
theorem Acc.mean {x t : F} {D : ℕ} {v T : ℝ} (hx : Acc w32 D x (v * T)) (ht : Acc 0 D t T) (hT : T ≠ 0) (hD : D ≤ 2 ^ 28 - 1)
    (hv : v ≤ 9 / 8 ∧ (v = 0 ∨ 1 / 10 ^ 7 ≤ v)) : Approx (3 * w32) (to32 (x /₆ t)) v := by
  have hb : (w32 + D * w64) + (0 + D * w64) + w64 ≤ 2 * w32 := by
    have : (D : ℝ) ≤ 268435455 := by exact_mod_cast hD
    rw [w32_val, w64_val]
    linarith
  have hT0 : 0 < T := lt_of_le_of_ne ht.nonneg (Ne.symm hT)
  rcases hv.2 with h0 | h0
  · have e : val x = 0 := by
      have := hx.rel
      rw [h0, zero_mul] at this
      exact this.zero
    have htp := ht.rel.pos hT0
    have q0 : val x / val t = 0 := by rw [e, zero_div]
    obtain ⟨f1, -, f2⟩ := FltRound.div64 x t hx.fin ht.fin htp.ne' (by rw [q0]; unfold Fits64; simp)
    have q1 := f2 q0
    obtain ⟨g1, -, g2⟩ := FltRound.to32 (x /₆ t) f1 (by rw [q1]; unfold Fits32; simp)
    refine ⟨g1, ?_⟩
    rw [g2 q1, h0]
    exact (Rel.refl 0).mono (by have := w32_pos; linarith)
  · have hsm := Acc.small (k := w32) (D := D) le_rfl (by omega)
    have hsm0 : (0:ℝ) + D * w64 ≤ 1 := by have := w32_pos; linarith
    have m : Mid v := mid_of (le_trans (by norm_num) h0) (by linarith [hv.1])
    have ax : Approx (w32 + D * w64) x (v * T) := ⟨hx.fin, hx.rel⟩
    have at' : Approx (0 + D * w64) t T := ⟨ht.fin, ht.rel⟩
    have e : v * T / T = v := by field_simp
    have q := ax.div64 at' hT0 (by rw [e]; exact m) (by
      have : w32 ≤ 1 / 8 := by rw [w32_val]; norm_num
      have := w64_pos
      linarith)
    rw [e] at q
    refine (q.to32 m (by rw [w32_val] at *; linarith)).mono ?_
    linarith

theorem finalizeEntry_alike {c : FPixel F} {D : ℕ} {a : ColorAvg F} (h : a.Of c D) (hc : c.Coarse) (hD : D ≤ 2 ^ 28 - 1)
    (e : PalEntry F) (he : e.color = c) :
    (finalizeEntry a e).color = c ∨ (eq c.a (lit32 0) = false ∧ (finalizeEntry a e).color.Alike (3 * w32) c) := by
  obtain ⟨T, h0, h1, h2, h3, h4⟩ := h
  unfold finalizeEntry
  split
  · exact .inl he
  · dsimp only
    split
    next hpos =>
      simp only [Bool.and_eq_true, Bool.not_eq_true'] at hpos
      have z := (Acc.zero (F := F) le_rfl).fin
      have z0 : val (lit64 0 : F) = 0 := (Acc.zero (F := F) le_rfl).rel.zero
      have := (FltRound.lt _ _ z h0.fin).1 hpos.1
      rw [z0] at this
      have hT : T ≠ 0 := by
        intro hT
        have h0' := h0.rel
        rw [hT] at h0'
        rw [h0'.zero] at this
        exact lt_irrefl _ this
      refine .inr ⟨he ▸ hpos.2, ?_, ?_, ?_, ?_⟩
      · exact h1.mean h0 hT hD hc.a.2
      · exact h2.mean h0 hT hD hc.r.2
      · exact h3.mean h0 hT hD hc.g.2
      · exact h4.mean h0 hT hD hc.b.2
    · exact .inl he

/-! ### Averages of a whole palette -/

theorem finalizePalette_len (as : List (ColorAvg F)) (p : PalF F) : (finalizePalette as p).length = p.length := by
  induction as generalizing p with
  | nil => cases p <;> rfl
  | cons a as ih =>
    cases p with
    | nil => rfl
    | cons e p => simp [finalizePalette, ih]

theorem finalizePalette_at (as : List (ColorAvg F)) (p : PalF F) (i : ℕ) {a : ColorAvg F} (ha : as[i]? = some a) {e : PalEntry F}
    (he : p[i]? = some e) : (finalizePalette as p)[i]? = some (finalizeEntry a e) := by
  induction as generalizing p i with
  | nil => simp at ha
  | cons b as ih =>
    cases p with
    | nil => simp at he
    | cons f p =>
      cases i with
      | zero =>
        simp only [List.getElem?_cons_zero, Option.some.injEq] at ha he
        subst ha he
        simp [finalizePalette]
      | succ i =>
        simp only [List.getElem?_cons_succ] at ha he
        simpa [finalizePalette] using ih p i ha he


/-- the averages have been fed, in `D` steps, with copies of the entries -/
def Kmeans.Of (p : PalF F) (D : ℕ) (k : Kmeans F) : Prop :=
  k.averages.length = p.length ∧ ∀ (j : ℕ) (a : ColorAvg F), k.averages[j]? = some a → a.Of (palColor p j) D

theorem Kmeans.Of.mono {p : PalF F} {D E : ℕ} {k : Kmeans F} (h : k.Of p D) (hDE : D ≤ E) : k.Of p E :=
  ⟨h.1, fun j a ha => (h.2 j a ha).mono hDE⟩

theorem Kmeans.of_new (p : PalF F) : (Kmeans.new p.length : Kmeans F).Of p 0 := by
  refine ⟨by simp [Kmeans.new], fun j a ha => ?_⟩
  simp only [Kmeans.new, List.getElem?_replicate] at ha
  split at ha
  · simp only [Option.some.injEq] at ha
    subst ha
    have := w32_pos.le
    exact ⟨0, .zero le_rfl, by rw [mul_zero]; exact .zero this, by rw [mul_zero]; exact .zero this, by rw [mul_zero]; exact .zero this,
      by rw [mul_zero]; exact .zero this⟩
  · cases ha

/-- the palette's colours are coarse -/
def PalF.Coarse (p : PalF F) : Prop := ∀ j < p.length, (palColor p j).Coarse

/-- an update that copies an entry -/
def Copies (p : PalF F) (u : FPixel F × F × ℕ) : Prop :=
  u.1.Coarse ∧ u.2.2 < p.length ∧ u.1.vals = (palColor p u.2.2).vals ∧ ∃ b : UInt8, u.2.1 = lit32 b.toNat

theorem Kmeans.Of.update {p : PalF F} {D : ℕ} {k : Kmeans F} (h : k.Of p D) {u : FPixel F × F × ℕ} (hu : Copies p u)
    (hD : D + 1 ≤ 2 ^ 28) : (k.updateColor u.1 u.2.1 u.2.2).Of p (D + 1) := by
  obtain ⟨h1, h2, h3, b, hb⟩ := hu
  refine ⟨by simp [Kmeans.updateColor, h.1], fun j a ha => ?_⟩
  simp only [Kmeans.updateColor, List.getElem?_modify] at ha
  split at ha
  next hj =>
    subst hj
    obtain ⟨a', ha', rfl⟩ := Option.map_eq_some_iff.mp ha
    rw [hb]
    exact (h.2 _ a' ha').addTo h1 h3 b hD
  · exact (h.2 _ a (by simpa using ha)).mono (by omega)

theorem Kmeans.Of.updates {p : PalF F} (l : List (FPixel F × F × ℕ)) (hl : ∀ u ∈ l, Copies p u) {D : ℕ} {k : Kmeans F}
    (h : k.Of p D) (hD : D + l.length ≤ 2 ^ 28) : (l.foldl (fun k u => k.updateColor u.1 u.2.1 u.2.2) k).Of p (D + l.length) := by
  induction l generalizing k D with
  | nil => exact h
  | cons u l ih =>
    rw [List.foldl_cons, List.length_cons]
    rw [List.length_cons] at hD
    have := ih (fun v hv => hl v (by simp [hv])) (h.update (hl u (by simp)) (by omega)) (by omega)
    exact this.mono (by omega)

theorem rowUpdates_cons (outs : List (RowOut F)) (y : ℕ) (ys : List ℕ) :
    (outs[y]? = none → rowUpdates outs (y :: ys) = rowUpdates outs ys) ∧
    ∀ r, outs[y]? = some r → rowUpdates outs (y :: ys) = r.updates ++ rowUpdates outs ys := by
  unfold rowUpdates
  rw [List.flatMap_cons]
  exact ⟨fun h => by rw [h]; rfl, fun r h => by rw [h]⟩

theorem Kmeans.Of.worker {p : PalF F} {outs : List (RowOut F)} (hl : ∀ r ∈ outs, ∀ u ∈ r.updates, Copies p u)
    (rows : List ℕ) {D : ℕ} {k : Kmeans F} (h : k.Of p D) (hD : D + (rowUpdates outs rows).length ≤ 2 ^ 28) :
    (remapWorker outs k rows).Of p (D + (rowUpdates outs rows).length) := by
  unfold remapWorker
  induction rows generalizing k D with
  | nil => exact h.mono (by omega)
  | cons y ys ih =>
    obtain ⟨g1, g2⟩ := rowUpdates_cons outs y ys
    rw [List.foldl_cons]
    cases hy : outs[y]? with
    | none =>
      rw [g1 hy] at hD ⊢
      exact ih h hD
    | some r =>
      rw [g2 r hy, List.length_append] at hD ⊢
      have := ih (h.updates r.updates (hl r (List.mem_of_getElem? hy)) (by omega)) (by omega)
      exact this.mono (by omega)

theorem Kmeans.Of.merge {p : PalF F} {D E : ℕ} {k l : Kmeans F} (hk : k.Of p D) (hl : l.Of p E) (hD : D + E + 1 ≤ 2 ^ 28) :
    (Kmeans.merge k l).Of p (D + E + 1) := by
  refine ⟨by simp [Kmeans.merge, hk.1, hl.1], fun j a ha => ?_⟩
  simp only [Kmeans.merge, List.getElem?_zipWith] at ha
  cases h1 : k.averages[j]? with
  | none => simp [h1] at ha
  | some x =>
    cases h2 : l.averages[j]? with
    | none => simp [h1, h2] at ha
    | some y =>
      simp only [h1, h2, Option.some.injEq] at ha
      subst ha
      obtain ⟨T, a0, a1, a2, a3, a4⟩ := hk.2 _ _ h1
      obtain ⟨U, b0, b1, b2, b3, b4⟩ := hl.2 _ _ h2
      refine ⟨T + U, a0.add b0 w32_pos.le hD, ?_, ?_, ?_, ?_⟩
      · rw [mul_add]; exact a1.add b1 le_rfl hD
      · rw [mul_add]; exact a2.add b2 le_rfl hD
      · rw [mul_add]; exact a3.add b3 le_rfl hD
      · rw [mul_add]; exact a4.add b4 le_rfl hD

theorem Kmeans.Of.mergeAll {p : PalF F} (ws : List (Kmeans F × ℕ)) (hw : ∀ w ∈ ws, w.1.Of p w.2) {D : ℕ} {k : Kmeans F} (h : k.Of p D)
    (hD : D + (ws.map (·.2)).sum + ws.length ≤ 2 ^ 28) :
    ((ws.map (·.1)).foldl Kmeans.merge k).Of p (D + (ws.map (·.2)).sum + ws.length) := by
  induction ws generalizing k D with
  | nil => exact h.mono (by simp)
  | cons w ws ih =>
    simp only [List.map_cons, List.foldl_cons, List.sum_cons, List.length_cons] at *
    have := ih (fun v hv => hw v (by simp [hv])) (h.merge (hw w (by simp)) (by omega)) (by omega)
    exact this.mono (by omega)

/-- number of workers of a schedule -/
def RemapSched.workers (s : RemapSched) : ℕ := s.before.length + 1 + s.after.length

/-- **For every schedule** with few enough workers, averaging copies of the entries gives the entries back, up to
rounding. -/
theorem remapFinish_alike (env : RemapEnv F) {outs : List (RowOut F)} {p : PalF F} (hp : p.Coarse)
    (hl : ∀ r ∈ outs, ∀ u ∈ r.updates, Copies p u)
    (hsize : (rowUpdates outs (List.range outs.length)).length + (env.sched outs.length).workers ≤ 2 ^ 28) {i : ℕ} {e : PalEntry F}
    (he : (remapFinish env outs false 0 p)[i]? = some e) :
    e.color = palColor p i ∨ (eq (palColor p i).a (lit32 0) = false ∧ e.color.Alike (3 * w32) (palColor p i)) := by
  obtain ⟨hv, -⟩ := env.sched_valid outs.length
  have hsum : ∀ ws : List (List ℕ), (ws.map fun w => (rowUpdates outs w).length).sum = (rowUpdates outs ws.flatten).length := by
    intro ws
    induction ws with
    | nil => rfl
    | cons w ws ih =>
      rw [List.map_cons, List.sum_cons, ih, List.flatten_cons]
      unfold rowUpdates
      rw [List.flatMap_append, List.length_append]
  unfold remapFinish at he
  dsimp only at he
  generalize env.sched outs.length = s at *
  have hperm : (rowUpdates outs (s.before.flatten ++ s.main ++ s.after.flatten)).length =
      (rowUpdates outs (List.range outs.length)).length := (hv.flatMap_right _).length_eq
  have hsplit : (rowUpdates outs (s.before.flatten ++ s.main ++ s.after.flatten)).length =
      (s.before.map fun w => (rowUpdates outs w).length).sum + (rowUpdates outs s.main).length +
        (s.after.map fun w => (rowUpdates outs w).length).sum := by
    rw [hsum, hsum]
    unfold rowUpdates
    simp only [List.flatMap_append, List.length_append]
  have hms : (remapMainStart p.length false 0 : Kmeans F) = Kmeans.new p.length := by simp [remapMainStart]
  rw [hms] at he
  have hws : s.before.map (remapWorker outs (Kmeans.new p.length)) ++ remapWorker outs (Kmeans.new p.length) s.main ::
      s.after.map (remapWorker outs (Kmeans.new p.length)) =
      (s.before ++ s.main :: s.after).map (remapWorker outs (Kmeans.new p.length)) := by simp
  rw [hws] at he
  have hws2 : ((s.before ++ s.main :: s.after).map fun w => (rowUpdates outs w).length).sum =
      (rowUpdates outs (List.range outs.length)).length := by
    rw [← hperm, hsplit]
    simp only [List.map_append, List.map_cons, List.sum_append, List.sum_cons]
    omega
  have hlen : (s.before ++ s.main :: s.after).length = s.workers := by
    simp [RemapSched.workers]; omega
  generalize s.before ++ s.main :: s.after = ws at *
  cases ws with
  | nil =>
    simp only [List.map_nil, reduceWorkers] at he
    left
    simp [palColor, he]
  | cons w ws =>
    simp only [List.map_cons, reduceWorkers] at he
    simp only [List.map_cons, List.sum_cons, List.length_cons] at hws2 hlen
    have hle : ∀ x ∈ w :: ws, (rowUpdates outs x).length ≤ 2 ^ 28 := by
      intro x hx
      have : (rowUpdates outs x).length ≤ ((w :: ws).map fun w => (rowUpdates outs w).length).sum :=
        List.single_le_sum (by simp) _ (List.mem_map_of_mem hx)
      simp only [List.map_cons, List.sum_cons] at this
      omega
    have h1 := (Kmeans.of_new p).worker hl w (by have := hle w (by simp); omega)
    have h2 := h1.mergeAll (ws.map fun x => (remapWorker outs (Kmeans.new p.length) x, (rowUpdates outs x).length)) (by
      intro v hv
      obtain ⟨x, hx, rfl⟩ := List.mem_map.mp hv
      exact ((Kmeans.of_new p).worker hl x (by have := hle x (by simp [hx]); omega)).mono (by simp)) (by
      simp only [List.map_map, List.length_map, Function.comp_def]
      omega)
    simp only [List.map_map, List.length_map, Function.comp_def] at h2
    have hi : i < p.length := by
      have := (List.getElem?_eq_some_iff.mp he).1
      rwa [finalizePalette_len] at this
    rw [finalizePalette_at _ _ i (List.getElem?_eq_getElem (by rw [h2.1]; exact hi)) (List.getElem?_eq_getElem hi)] at he
    simp only [Option.some.injEq] at he
    subst he
    exact finalizeEntry_alike (h2.2 _ _ (List.getElem?_eq_getElem (by rw [h2.1]; exact hi))) (hp i hi) (by omega) _ (by
      simp [palColor, List.getElem?_eq_getElem hi])

theorem remapPixels_updates_length (n : Nearest F) (ti : UInt8) (pxs bgs : List (FPixel F)) (imps : List UInt8) (last : UInt8) (err : F) :
    (remapPixels n ti pxs bgs imps last err).updates.length ≤ pxs.length := by
  induction pxs generalizing bgs imps last err with
  | nil => simp [remapPixels]
  | cons p ps ih =>
    rw [remapPixels]
    simp only
    split
    · exact (ih _ _ _ _).trans (by simp)
    · simp only [List.length_cons]
      exact Nat.succ_le_succ (ih _ _ _ _)

theorem rowUpdates_length_le {outs : List (RowOut F)} {w : ℕ} (h : ∀ r ∈ outs, r.updates.length ≤ w) (rows : List ℕ) :
    (rowUpdates outs rows).length ≤ rows.length * w := by
  induction rows with
  | nil => simp [rowUpdates]
  | cons y ys ih =>
    obtain ⟨g1, g2⟩ := rowUpdates_cons outs y ys
    rw [List.length_cons, Nat.succ_mul]
    cases hy : outs[y]? with
    | none => rw [g1 hy]; omega
    | some r =>
      rw [g2 r hy, List.length_append]
      have := h r (List.mem_of_getElem? hy)
      omega

/-- If the pixels have colours of the palette, refining changes the palette by no more than rounding errors. -/
theorem remapToPalette_alike (env : RemapEnv F) {px : Rows F} (imp : Option (List UInt8)) {nrows : ℕ} {p : PalF F}
    (h0 : 0 < p.length) (h1 : p.length ≤ 256) (hr : p.Reach) (hc : p.Coarse)
    (hpx : px.Readable) (hn : nrows ≤ px.height) (hall : ∀ y < nrows, ∀ c ∈ px.pixelsF y, p.Own c ∧ c.Coarse)
    (hsize : nrows * px.width + (env.sched nrows).workers ≤ 2 ^ 28)
    {e : F} {r : RemapOut F} (hok : remapToPalette env px none imp nrows p = (.ok e, r)) {i : ℕ} {x : PalEntry F}
    (hx : r.palette[i]? = some x) :
    x.color = palColor p i ∨ (eq (palColor p i).a (lit32 0) = false ∧ x.color.Alike (3 * w32) (palColor p i)) := by
  obtain ⟨n, hnew⟩ := Nearest.new_of_len h0 h1
  have hplen : n.palette = p := (Nearest.new_ok hnew).2.2.1
  have hn' : Nearest.new n.palette = .ok n := by rw [hplen]; exact hnew
  obtain ⟨px', bg', _, _, heq⟩ := remapToPalette_eq (bg := none) imp hnew hpx (fun b hb => by cases hb) hn
  rw [heq env] at hok
  split at hok
  · cases hok
  · simp only [Prod.mk.injEq] at hok
    rw [← hok.2] at hx
    dsimp only at hx
    have hpick : pickBackground n (none : Option (Rows F)) = (none, 0) := rfl
    have hups : ∀ r ∈ plainRows n px none imp nrows, ∀ u ∈ r.updates, Copies p u := by
      intro r hr' u hu
      unfold plainRows at hr'
      simp only [List.mem_map, List.mem_range] at hr'
      obtain ⟨y, hy, rfl⟩ := hr'
      unfold plainRow at hu
      obtain ⟨hmem, ⟨hint, hidx⟩, hb⟩ := remapPixels_updates hn' _ _ _ _ _ _ u hu
      obtain ⟨ho, hco⟩ := hall y hy _ hmem
      have := Nearest.search_own hnew hr ho hint.toNat
      refine ⟨hco, ?_, ?_, hb⟩
      · rw [hidx]; exact this.1
      · rw [hidx]; exact this.2.symm
    rw [hpick] at hx
    simp only [Option.isSome_none] at hx
    have hlen : (plainRows n px none imp nrows).length = nrows := by simp [plainRows]
    refine remapFinish_alike env hc hups ?_ hx
    rw [hlen]
    have := rowUpdates_length_le (outs := plainRows n px none imp nrows) (w := px.width) (by
      intro r hr'
      unfold plainRows at hr'
      simp only [List.mem_map, List.mem_range] at hr'
      obtain ⟨y, hy, rfl⟩ := hr'
      refine (remapPixels_updates_length _ _ _ _ _ _ _).trans ?_
      rw [(hpx.rowF (by omega)).2]) (List.range nrows)
    rw [List.length_range] at this
    omega

/-! ### Colours of 8 bits -/

theorem within_coarse {k r : ℝ} {x : F} (h : Within k x r) (hk : k ≤ 1 / 8) (h1 : r ≤ 1) (h0 : r = 0 ∨ 1 / 10 ^ 6 ≤ r) :
    fin x ∧ val x ≤ 9 / 8 ∧ (val x = 0 ∨ 1 / 10 ^ 7 ≤ val x) := by
  obtain ⟨hf, hv⟩ := h
  rcases h0 with h0 | h0
  · rw [h0] at hv
    simp only [sub_zero, mul_zero, abs_nonpos_iff] at hv
    exact ⟨hf, by rw [hv]; norm_num, .inl hv⟩
  · have h2 := abs_le.1 hv
    have : k * r ≤ 1 / 8 * r := mul_le_mul_of_nonneg_right hk (by linarith)
    refine ⟨hf, by linarith, .inr ?_⟩
    norm_num at h0 ⊢
    linarith

theorem level_ge {γ : F} (h : BrightGamma γ) {i : UInt8} (hi : i ≠ 0) : 1 / 1219 ≤ level γ i := by
  have h0 : (0 : UInt8).toNat < i.toNat := by
    have : i.toNat ≠ 0 := fun h => hi (UInt8.toNat_inj.mp (by simpa using h))
    simp; omega
  have := (level_gap h h0).2
  rw [level_zero h.toUsualGamma] at this
  linarith

theorem fromRgba_coarse {γ : F} (h : BrightGamma γ) (c : RGBA) : (FPixel.fromRgba (gammaLut γ) c).Coarse := by
  obtain ⟨ca, cr, cg, cb⟩ := fromRgba_converted_bright h c
  have s0 := share_nonneg c.a
  have s1 := share_le_one c.a
  have hs : share c.a = 0 ∨ 1 / 255 ≤ share c.a := by
    by_cases ha : c.a = 0
    · left; rw [ha]; simp [share]
    · exact .inr (share_ge ha)
  have hl : ∀ i, level γ i = 0 ∨ 1 / 1219 ≤ level γ i := by
    intro i
    by_cases hi : i = 0
    · left; rw [hi]; exact level_zero h.toUsualGamma
    · exact .inr (level_ge h hi)
  have chan : ∀ i (w : ℝ), 9 / 20 ≤ w → w ≤ 1 → level γ i * w * share c.a ≤ 1 ∧
      (level γ i * w * share c.a = 0 ∨ 1 / 10 ^ 6 ≤ level γ i * w * share c.a) := by
    intro i w w1 w2
    have l0 := level_nonneg γ i
    have l1 := level_le_one h.toUsualGamma i
    have m1 : level γ i * w ≤ 1 * 1 := mul_le_mul l1 w2 (by linarith) (by norm_num)
    have m0 : 0 ≤ level γ i * w := mul_nonneg l0 (by linarith)
    refine ⟨?_, ?_⟩
    · have := mul_le_mul m1 s1 s0 (by norm_num); linarith
    · rcases hl i with z | z
      · left; rw [z]; ring
      · rcases hs with y | y
        · left; rw [y]; ring
        · right
          have a1 : 1 / 1219 * (9 / 20) ≤ level γ i * w := mul_le_mul z w1 (by norm_num) l0
          have a2 : 1 / 1219 * (9 / 20) * (1 / 255) ≤ level γ i * w * share c.a := mul_le_mul a1 y (by norm_num) m0
          norm_num at a2 ⊢
          linarith
  have hk : (63 : ℝ) / 10 ^ 7 ≤ 1 / 8 := by norm_num
  refine ⟨within_coarse ca hk (by linarith) ?_, ?_, ?_, ?_⟩
  · rcases hs with y | y
    · left; rw [y]; ring
    · right; norm_num; linarith
  · obtain ⟨a, b⟩ := chan c.r (1 / 2) (by norm_num) (by norm_num)
    exact within_coarse cr hk a b
  · obtain ⟨a, b⟩ := chan c.g 1 (by norm_num) (by norm_num)
    exact within_coarse cg hk a b
  · obtain ⟨a, b⟩ := chan c.b (9 / 20) (by norm_num) (by norm_num)
    exact within_coarse cb hk a b

/-- fully transparent colours are all zero -/
theorem vals_transparent {γ : F} (h : UsualGamma γ) {c : RGBA} (ha : c.a = 0) : (FPixel.fromRgba (gammaLut γ) c).vals = ⟨0, 0, 0, 0⟩ := by
  obtain ⟨⟨-, ca⟩, ⟨-, cr⟩, ⟨-, cg⟩, ⟨-, cb⟩⟩ := fromRgba_converted_wide h c
  have : share c.a = 0 := by rw [ha]; simp [share]
  rw [this] at ca cr cg cb
  simp only [zero_mul, mul_zero, sub_zero, abs_nonpos_iff] at ca cr cg cb
  unfold FPixel.vals
  rw [ca, cr, cg, cb]

theorem vals_looks {γ : F} (h : UsualGamma γ) {c d : RGBA} (hl : c.Looks d) :
    (FPixel.fromRgba (gammaLut γ) c).vals = (FPixel.fromRgba (gammaLut γ) d).vals := by
  rcases hl with rfl | ⟨h1, h2⟩
  · rfl
  · rw [vals_transparent h h1, vals_transparent h h2]

theorem looks_of_vals {γ : F} (h : BrightGamma γ) {c d : RGBA} (hc : c.Solid)
    (hv : (FPixel.fromRgba (gammaLut γ) c).vals = (FPixel.fromRgba (gammaLut γ) d).vals) : c.Looks d := by
  by_contra hne
  have := apart h hc hne
  unfold FPixel.dist at this
  rw [hv] at this
  have h0 : Spec.dist (FPixel.fromRgba (gammaLut γ) d).vals (FPixel.fromRgba (gammaLut γ) d).vals = 0 :=
    FPixel.dist_self (FPixel.fromRgba (gammaLut γ) d)
  rw [h0] at this
  unfold fuzz at this
  norm_num at this

/-- a palette of 8-bit colours has a colour, which is not almost transparent -/
theorem PalF.own_of {γ : F} (h : BrightGamma γ) {p : PalF F} (hp : ∀ j < p.length, ∃ d, palColor p j = FPixel.fromRgba (gammaLut γ) d)
    {c : RGBA} (hc : c.Solid) (hhas : ∃ j < p.length, ∃ d, palColor p j = FPixel.fromRgba (gammaLut γ) d ∧ d.Looks c) :
    p.Own (FPixel.fromRgba (gammaLut γ) c) := by
  refine ⟨fromRgba_reach h.toUsualGamma c, ?_, fun j hj => ?_⟩
  · obtain ⟨j, hj, d, hd, hl⟩ := hhas
    exact ⟨j, hj, by rw [hd]; exact vals_looks h.toUsualGamma hl⟩
  · obtain ⟨d, hd⟩ := hp j hj
    rw [hd]
    by_cases hl : c.Looks d
    · exact .inl (vals_looks h.toUsualGamma hl).symm
    · exact .inr (apart h hc hl)

end Verif
