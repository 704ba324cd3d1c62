import Verif.Lemmas.FiniteSplit

/-! Opaque colours: bounds of red, blue and alpha, and how far apart a mirrored colour and a colour of the palette can be. -/

set_option linter.unusedSectionVars false

namespace Verif
open Flt FltRound FltCorrect
open FltFull (r32_idem r64 r64_mono r64_idem r64_nat lit64_eq add64_eq div64_eq to32_eq pow32_unit)

variable {F : Type} [Flt F] [FltMin F]

/-! ### The search returns no more than the difference of the hint -/

theorem visit_le {B : ℝ} {v : Visitor F} {dist d : F} {i : ℕ} (hd : NN diffMax d) (hv : NN B v.distanceSq) :
    NN B (v.visit dist d i).distanceSq := by
  unfold Visitor.visit
  split
  next h =>
    have hlt := (FltRound.lt _ _ hd.fin hv.fin).1 ((Bool.and_eq_true _ _).mp h).1
    exact ⟨hd.fin, hd.lo, hlt.le.trans hv.hi⟩
  · exact hv

theorem leafScan_le {B : ℝ} {needle : FPixel F} {items : List (ℕ × FPixel F)} (h : ∀ x ∈ items, NN diffMax (x.2.diff needle))
    {v : Visitor F} (hv : NN B v.distanceSq) : NN B (leafScan needle v items).distanceSq := by
  induction items generalizing v with
  | nil => exact hv
  | cons x l ih => exact ih (fun y hy => h y (by simp [hy])) (visit_le (h x (by simp)) hv)

theorem vpSearch_le {B : ℝ} {needle : FPixel F} {n : Node F} (h : n.All fun c => NN diffMax (c.diff needle)) {v : Visitor F}
    (hv : NN B v.distanceSq) : NN B (vpSearch needle n v).distanceSq := by
  induction n generalizing v with
  | leaf vp idx items => exact leafScan_le h.2 (visit_le h.1 hv)
  | nodes vp idx radius radiusSq near far ih1 ih2 =>
    have h1 := visit_le (dist := sqrt32 (vp.diff needle)) (i := idx) h.1 hv
    unfold vpSearch
    dsimp only
    split
    · have h2 := ih1 h.2.1 h1
      split
      · exact ih2 h.2.2 h2
      · exact h2
    · have h2 := ih2 h.2.2 h1
      split
      · exact ih1 h.2.1 h2
      · exact h2

theorem search_le {p : PalF F} {n : Nearest F} (hn : Nearest.new p = .ok n) (hp : ∀ e ∈ p, e.color.UnitFin) {px : FPixel F}
    (hx : px.Wide) {hint : ℕ} (hh : hint < p.length) {B : ℝ} (hB : NN B (px.diff (palColor p hint))) : NN B (n.search px hint).2 := by
  have hpal : n.palette = p ∧ n.root = vpCreate p (List.range p.length) := by
    unfold Nearest.new at hn
    split at hn
    · cases hn
    · split at hn
      · cases hn
      · cases hn; exact ⟨rfl, rfl⟩
  have hall : n.root.All fun c => NN diffMax (c.diff px) := by
    rw [hpal.2]
    exact vpCreate_all (P := fun c => NN diffMax (c.diff px)) (fun e he => diff_unit_wide hx (hp e he))
      (diff_unit_wide hx FPixel.unitFin_default) _
  have hget : p[hint]? = some p[hint] := List.getElem?_eq_getElem hh
  have hcol : palColor p hint = p[hint].color := by unfold palColor; rw [hget]
  rw [hcol] at hB
  unfold Nearest.search
  rw [hpal.1, hget]
  dsimp only
  split
  · exact hB
  · exact vpSearch_le hall hB

/-! ### Differences of mirrored colours -/

/-- the part of the difference that belongs to one channel -/
theorem chan_le {xc yc xa ya : F} {W B : ℝ} (c : |val xc - val yc| ≤ W) (a : |val ya - val xa| ≤ 2)
    (w : |val xc - val yc + (val ya - val xa)| ≤ W) (h1 : fin xc) (h2 : fin yc) (h3 : fin xa) (h4 : fin ya) (hW : W ≤ 3) (hW0 : 0 ≤ W)
    (hB : (W + 1 / 10 ^ 5) * (W + 1 / 10 ^ 5) + 1 / 10 ^ 5 ≤ B) :
    NN B (Flt.fmax ((xc -₃ yc) *₃ (xc -₃ yc)) (((xc -₃ yc) +₃ (ya -₃ xa)) *₃ ((xc -₃ yc) +₃ (ya -₃ xa)))) := by
  obtain ⟨f1, r1⟩ := FltRound.sub32 _ _ h1 h2 (fits32_small (by linarith))
  obtain ⟨f2, r2⟩ := FltRound.sub32 _ _ h4 h3 (fits32_small (by linarith))
  have e40 : (1:ℝ) / 10 ^ 40 ≤ 1 / 10 ^ 8 := by norm_num
  have b1 : |val (xc -₃ yc)| ≤ W + 3 / 10 ^ 6 := (rounds_abs r1 c).trans (by norm_num at e40 ⊢; linarith)
  have g1 := r1.1
  have g2 := r2.1
  have ht := tiny32_le
  rw [u32_val] at g1 g2
  have k1 : |val (xc -₃ yc) - (val xc - val yc)| ≤ 3 / 10 ^ 7 := by norm_num at g1 e40 ht ⊢; linarith
  have k2 : |val (ya -₃ xa) - (val ya - val xa)| ≤ 3 / 10 ^ 7 := by norm_num at g2 e40 ht ⊢; linarith
  have b3 : |val (xc -₃ yc) + val (ya -₃ xa)| ≤ W + 6 / 10 ^ 6 := by
    obtain ⟨p1, p2⟩ := abs_le.1 k1
    obtain ⟨p3, p4⟩ := abs_le.1 k2
    obtain ⟨p5, p6⟩ := abs_le.1 w
    rw [abs_le]
    constructor <;> linarith
  obtain ⟨f3, r3⟩ := FltRound.add32 _ _ f1 f2 (fits32_small (by norm_num at b3; linarith))
  have b4 : |val ((xc -₃ yc) +₃ (ya -₃ xa))| ≤ W + 1 / 10 ^ 5 := (rounds_abs r3 b3).trans (by norm_num at e40 ⊢; linarith)
  have sq : ∀ x : F, fin x → |val x| ≤ W + 1 / 10 ^ 5 → NN B (x *₃ x) := by
    intro x hx hb
    have h0 : 0 ≤ val x * val x := mul_self_nonneg _
    have hle : val x * val x ≤ (W + 1 / 10 ^ 5) * (W + 1 / 10 ^ 5) := by
      rw [← abs_mul_abs_self]; exact mul_self_le_mul_self (abs_nonneg _) hb
    have h17 : (W + 1 / 10 ^ 5) * (W + 1 / 10 ^ 5) ≤ 17 := by
      have := mul_self_le_mul_self (a := W + 1 / 10 ^ 5) (b := 4) (by positivity) (by norm_num; linarith)
      refine this.trans (by norm_num)
    have hf := fits32_nn h0 (hle.trans h17) (by norm_num)
    obtain ⟨f, r⟩ := FltRound.mul32 _ _ hx hx hf
    refine ⟨f, ?_, (rounds32_le r h0 hle).trans (by norm_num at e40 hB h17 ⊢; linarith)⟩
    rw [mul32_eq _ _ hx hx hf]; exact r32_nonneg h0
  have s1 := sq _ f1 (b1.trans (by norm_num))
  have s2 := sq _ f3 b4
  obtain ⟨f, e⟩ := FltRound.max _ _ s1.fin s2.fin
  exact ⟨f, e ▸ le_max_of_le_left s1.lo, e ▸ max_le s1.hi s2.hi⟩

/-- A mirrored channel is twice as far from its mirror as the channel was. -/
theorem mirror_near {x y : F} (hx : NN 1 x) (hy : NN 1 y) :
    |val (x +₃ x -₃ y) - val y - 2 * (val x - val y)| ≤ 1 / 10 ^ 6 := by
  have e40 : (1:ℝ) / 10 ^ 40 ≤ 1 / 10 ^ 9 := by norm_num
  have h2 : |val x + val x| ≤ 2 := by
    rw [abs_le]; have := hx.lo; have := hx.hi; constructor <;> linarith
  obtain ⟨f1, r1⟩ := FltRound.add32 _ _ hx.fin hx.fin (fits32_small (by linarith))
  have g1 := r1.1
  have ht := tiny32_le
  rw [u32_val] at g1
  have b1 : |val (x +₃ x) - (val x + val x)| ≤ 1 / 10 ^ 6 / 4 := by
    norm_num at g1 e40 ht ⊢; linarith
  obtain ⟨l1, l2⟩ := abs_le.1 b1
  have b2 : |val (x +₃ x) - val y| ≤ 3 := by
    rw [abs_le]
    have := hx.lo; have := hx.hi; have := hy.lo; have := hy.hi
    norm_num at l1 l2
    constructor <;> linarith
  obtain ⟨f2, r2⟩ := FltRound.sub32 _ _ f1 hy.fin (fits32_small (by linarith))
  have g2 := r2.1
  rw [u32_val] at g2
  have b3 : |val (x +₃ x -₃ y) - (val (x +₃ x) - val y)| ≤ 1 / 10 ^ 6 / 4 := by
    norm_num at g2 e40 ht ⊢; linarith
  obtain ⟨l3, l4⟩ := abs_le.1 b3
  rw [abs_le]
  constructor <;> linarith

/-- bounds of a colour of the histogram: channels are multiplied by alpha and by their weights -/
structure FPixel.Slim (c : FPixel F) : Prop where
  a : val c.a ≤ 0.62501
  r : val c.r ≤ 0.8 * val c.a + 1 / 10 ^ 6
  g : val c.g ≤ 1.6 * val c.a + 1 / 10 ^ 6
  b : val c.b ≤ 0.8 * val c.a + 1 / 10 ^ 6

/-- bounds of an average of such colours -/
structure FPixel.Thin (c : FPixel F) : Prop where
  a : val c.a ≤ 0.6345
  r : val c.r ≤ val c.a + 2 / 10 ^ 6
  g : val c.g ≤ val c.a + 0.3903
  b : val c.b ≤ val c.a + 2 / 10 ^ 6

theorem FPixel.Slim.thin {c : FPixel F} (h : c.Slim) (hc : c.UnitFin) : c.Thin := by
  have := hc.a.lo
  obtain ⟨a, r, g, b⟩ := h
  norm_num at a r g b
  refine ⟨?_, ?_, ?_, ?_⟩ <;> norm_num <;> linarith

/-- the difference of a mirrored colour and an average -/
theorem mirror_diff {x y : FPixel F} (hx : x.UnitFin) (hy : y.UnitFin) (sx : x.Slim) (ty : y.Thin) :
    NN 7.35 ((FPixel.sub ⟨x.a +₃ x.a, x.r +₃ x.r, x.g +₃ x.g, x.b +₃ x.b⟩ y).diff y) := by
  have wa := mirror_wide hx.a hy.a
  have wr := mirror_wide hx.r hy.r
  have wg := mirror_wide hx.g hy.g
  have wb := mirror_wide hx.b hy.b
  obtain ⟨a1, a2⟩ := abs_le.1 (mirror_near hx.a hy.a)
  obtain ⟨r1, r2⟩ := abs_le.1 (mirror_near hx.r hy.r)
  obtain ⟨g1, g2⟩ := abs_le.1 (mirror_near hx.g hy.g)
  obtain ⟨b1, b2⟩ := abs_le.1 (mirror_near hx.b hy.b)
  obtain ⟨sa, sr, sg, sb⟩ := sx
  obtain ⟨ta, tr, tg, tb⟩ := ty
  have xa := hx.a.lo
  have xr := hx.r.lo
  have xg := hx.g.lo
  have xg' := hx.g.hi
  have xb := hx.b.lo
  have ya := hy.a.lo
  have yr := hy.r.lo
  have yg := hy.g.lo
  have yg' := hy.g.hi
  have yb := hy.b.lo
  norm_num at a1 a2 r1 r2 g1 g2 b1 b2 sa sr sg sb ta tr tg tb
  have ha : |val y.a - val (x.a +₃ x.a -₃ y.a)| ≤ 2 := by rw [abs_le]; constructor <;> linarith
  have h1 := chan_le (xc := x.r +₃ x.r -₃ y.r) (yc := y.r) (xa := x.a +₃ x.a -₃ y.a) (ya := y.a) (W := 1.26903) (B := 1.6106)
    (by rw [abs_le]; constructor <;> norm_num <;> linarith) ha (by rw [abs_le]; constructor <;> norm_num <;> linarith)
    wr.1 hy.r.fin wa.1 hy.a.fin (by norm_num) (by norm_num) (by norm_num)
  have h2 := chan_le (xc := x.g +₃ x.g -₃ y.g) (yc := y.g) (xa := x.a +₃ x.a -₃ y.a) (ya := y.a) (W := 2.0307) (B := 4.1239)
    (by rw [abs_le]; constructor <;> norm_num <;> linarith) ha (by rw [abs_le]; constructor <;> norm_num <;> linarith)
    wg.1 hy.g.fin wa.1 hy.a.fin (by norm_num) (by norm_num) (by norm_num)
  have h3 := chan_le (xc := x.b +₃ x.b -₃ y.b) (yc := y.b) (xa := x.a +₃ x.a -₃ y.a) (ya := y.a) (W := 1.26903) (B := 1.6106)
    (by rw [abs_le]; constructor <;> norm_num <;> linarith) ha (by rw [abs_le]; constructor <;> norm_num <;> linarith)
    wb.1 hy.b.fin wa.1 hy.a.fin (by norm_num) (by norm_num) (by norm_num)
  have h12 := (add32_le h1 h2 (by norm_num)).mono (b := 5.73451) (by norm_num)
  exact (add32_le h12 h3 (by norm_num)).mono (by norm_num)

/-! ### Sums -/

/-- One step of a sum of rounded terms: `S` is near the exact sum `T`, the term `p` is near `q`. -/
theorem track_step {κ τ u t T S p q R : ℝ} (hT : 0 ≤ T) (hq : 0 ≤ q) (hS : |S - T| ≤ κ * T + τ) (hp : |p - q| ≤ u * q + t)
    (hR : |R - (S + p)| ≤ u * (S + p) + t) (hκ : 0 ≤ κ) (hκ1 : κ ≤ 1 / 100) (hu : 0 ≤ u) (hu1 : u ≤ 1 / 100) (ht : 0 ≤ t)
    (hτ : u * τ ≤ t / 2) : |R - (T + q)| ≤ (κ + 5 / 2 * u) * (T + q) + (τ + 3 * t) := by
  have e : R - (T + q) = (R - (S + p)) + (S - T) + (p - q) := by ring
  have h1 : |R - (T + q)| ≤ |R - (S + p)| + |S - T| + |p - q| := by
    rw [e]; exact (abs_add_le _ _).trans (add_le_add (abs_add_le _ _) le_rfl)
  have hS' := (abs_le.1 hS).2
  have hp' := (abs_le.1 hp).2
  have h2 : u * (S + p) ≤ u * ((T + (κ * T + τ)) + (q + (u * q + t))) := mul_le_mul_of_nonneg_left (by linarith) hu
  have e2 : u * ((T + (κ * T + τ)) + (q + (u * q + t))) = u * T + κ * (u * T) + u * τ + u * q + u * (u * q) + u * t := by ring
  have uT : 0 ≤ u * T := mul_nonneg hu hT
  have uq : 0 ≤ u * q := mul_nonneg hu hq
  have h3 : κ * (u * T) ≤ 1 / 100 * (u * T) := mul_le_mul_of_nonneg_right hκ1 uT
  have h4 : u * (u * q) ≤ 1 / 100 * (u * q) := mul_le_mul_of_nonneg_right hu1 uq
  have h5 : u * t ≤ 1 / 100 * t := mul_le_mul_of_nonneg_right hu1 ht
  have h6 : 0 ≤ κ * q := mul_nonneg hκ hq
  have e3 : (κ + 5 / 2 * u) * (T + q) = κ * T + κ * q + 5 / 2 * (u * T) + 5 / 2 * (u * q) := by ring
  rw [e3]
  linarith

end Verif
