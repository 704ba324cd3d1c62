import Verif.Props.FloatArgs
import Verif.Props.Debug
import Verif.Lemmas.QuantError

/-! Errors of palettes for histograms without weights, in arithmetic in which `0 / 0` is NaN. -/

set_option linter.unusedSectionVars false

namespace Verif
open Flt Spec

/-- What IEEE arithmetic does with zeros and NaN. -/
class FltZero (F : Type) [Flt F] extends FltVal F where
  /-- whole numbers up to 2⁵³ are represented exactly -/
  lit64_nat : ∀ n : ℕ, n ≤ 2 ^ 53 → val (lit64 (n : ℚ)) = some ((n : ℝ) : EReal)
  lit32_fin : ∀ q : ℚ, |q| ≤ 1000 → ∃ r : ℝ, val (lit32 q) = some (r : EReal)
  zero_add : ∀ a b : F, val a = some 0 → val b = some 0 → val (a +₆ b) = some 0
  nan_add : ∀ a b : F, val a = none ∨ val b = none → val (a +₆ b) = none
  mul_zero : ∀ (a b : F) (r : ℝ), val a = some (r : EReal) → val b = some 0 → val (a *₃ b) = some 0 ∧ val (b *₃ a) = some 0
  /-- NaN or infinity times zero -/
  mul_inf : ∀ a b : F, (¬ ∃ r : ℝ, val a = some (r : EReal)) → val b = some 0 → val (a *₃ b) = none
  to32_zero : ∀ a : F, val a = some 0 → val (to32 a) = some 0
  zero_div : ∀ (a b : F) (r : ℝ), val a = some 0 → val b = some (r : EReal) → r ≠ 0 → val (a /₆ b) = some 0
  div_zero : ∀ a b : F, val a = some 0 ∨ val a = none → val b = some 0 → val (a /₆ b) = none

namespace Ext

theorem op2_coe (f : ℝ → ℝ → ℝ) (x y : ℝ) : op2 f (some (x : EReal)) (some (y : EReal)) = some ((f x y : ℝ) : EReal) := by
  simp [op2]

theorem div_coe (x y : ℝ) (hy : y ≠ 0) : div (some (x : EReal)) (some (y : EReal)) = some ((x / y : ℝ) : EReal) := by
  simp [div, hy]

theorem zero_div_zero : div (some ((0 : ℝ) : EReal)) (some ((0 : ℝ) : EReal)) = none := by
  simp [div]

/-- The example of arithmetic with NaN obeys these rules. -/
noncomputable instance : FltZero Ext where
  lit64_nat n _ := by
    show some _ = some _
    push_cast; rfl
  lit32_fin q _ := ⟨(q : ℝ), rfl⟩
  zero_add a b ha hb := by
    obtain rfl : a = some ((0 : ℝ) : EReal) := ha
    obtain rfl : b = some ((0 : ℝ) : EReal) := hb
    exact (op2_coe _ 0 0).trans (by rw [add_zero]; rfl)
  nan_add a b h := by
    show op2 _ a b = none
    rcases h with h | h
    · obtain rfl : a = none := h
      rfl
    · obtain rfl : b = none := h
      cases a <;> rfl
  mul_zero a b r ha hb := by
    obtain rfl : a = some (r : EReal) := ha
    obtain rfl : b = some ((0 : ℝ) : EReal) := hb
    exact ⟨(op2_coe _ r 0).trans (by rw [MulZeroClass.mul_zero]; rfl), (op2_coe _ 0 r).trans (by rw [zero_mul]; rfl)⟩
  mul_inf a b ha hb := by
    obtain rfl : b = some ((0 : ℝ) : EReal) := hb
    show op2 _ a _ = none
    rcases a with _ | x
    · rfl
    · have hx : x = ⊤ ∨ x = ⊥ := by
        by_contra hc
        rw [not_or] at hc
        exact ha ⟨x.toReal, congrArg some (EReal.coe_toReal hc.1 hc.2).symm⟩
      exact if_pos (by tauto)
  to32_zero a h := h
  zero_div a b r ha hb hr := by
    obtain rfl : a = some ((0 : ℝ) : EReal) := ha
    obtain rfl : b = some (r : EReal) := hb
    exact (div_coe 0 r hr).trans (by rw [_root_.zero_div]; rfl)
  div_zero a b ha hb := by
    obtain rfl : b = some ((0 : ℝ) : EReal) := hb
    rcases ha with ha | ha
    · obtain rfl : a = some ((0 : ℝ) : EReal) := ha
      exact zero_div_zero
    · obtain rfl : a = none := ha
      rfl

end Ext

variable {F : Type} [Flt F]

section zeros
variable [FltZero F]

/-- zero or NaN -/
def ZeroOrNan (x : F) : Prop := FltVal.val x = some 0 ∨ FltVal.val x = none

theorem ZeroOrNan.add {a b : F} (ha : ZeroOrNan a) (hb : ZeroOrNan b) : ZeroOrNan (a +₆ b) := by
  rcases ha with ha | ha
  · rcases hb with hb | hb
    · exact .inl (FltZero.zero_add _ _ ha hb)
    · exact .inr (FltZero.nan_add _ _ (.inr hb))
  · exact .inr (FltZero.nan_add _ _ (.inl ha))

theorem ZeroOrNan.zero : ZeroOrNan (lit64 0 : F) := .inl FltVal.val_zero64

theorem ZeroOrNan.mul (a : F) {b : F} (hb : FltVal.val b = some 0) : ZeroOrNan (a *₃ b) := by
  by_cases h : ∃ r : ℝ, FltVal.val a = some (r : EReal)
  · obtain ⟨r, hr⟩ := h
    exact .inl (FltZero.mul_zero a b r hr hb).1
  · exact .inr (FltZero.mul_inf a b h hb)

theorem ZeroOrNan.sum {l : List F} (h : ∀ x ∈ l, ZeroOrNan x) : ZeroOrNan (sum64 l) := by
  unfold sum64
  generalize h0 : (lit64 0 : F) = s
  have hs : ZeroOrNan s := h0 ▸ ZeroOrNan.zero
  clear h0
  induction l generalizing s with
  | nil => exact hs
  | cons x l ih => exact ih (fun y hy => h y (by simp [hy])) _ (hs.add (h x (by simp)))

namespace Kmeans

theorem updateColor_diff (l : List (HistItem F × F)) (k : Kmeans F) :
    (l.foldl (fun k (x : HistItem F × F) => k.updateColor x.1.color x.1.adjustedWeight x.1.tmp) k).weighedDiffSum = k.weighedDiffSum := by
  induction l generalizing k with
  | nil => rfl
  | cons x l ih => rw [List.foldl_cons, ih]; rfl

theorem iterateBatch_zero (n : Nearest F) (adj : Bool) {k : Kmeans F} (hk : ZeroOrNan k.weighedDiffSum)
    {batch : List (HistItem F)} (hb : ∀ x ∈ batch, FltVal.val x.perceptualWeight = some 0) :
    ZeroOrNan (iterateBatch n adj k batch).weighedDiffSum := by
  unfold iterateBatch
  dsimp only
  rw [updateColor_diff]
  refine hk.add (ZeroOrNan.sum ?_)
  intro y hy
  rw [List.map_map] at hy
  obtain ⟨x, hx, rfl⟩ := List.mem_map.1 hy
  exact ZeroOrNan.mul _ (by rw [(matchItem_color n adj x).2]; exact hb x hx)

theorem worker_zero (n : Nearest F) (adj : Bool) (len : ℕ) {items : List (HistItem F)}
    (hb : ∀ x ∈ items, FltVal.val x.perceptualWeight = some 0) (chunks : List ℕ) :
    ZeroOrNan (worker n adj len items chunks).weighedDiffSum := by
  unfold worker
  generalize h0 : (Kmeans.new len : Kmeans F) = k
  have hk : ZeroOrNan k.weighedDiffSum := h0 ▸ ZeroOrNan.zero
  clear h0
  induction chunks generalizing k with
  | nil => exact hk
  | cons i l ih =>
    refine ih _ (iterateBatch_zero n adj hk ?_)
    intro x hx
    exact hb x (List.mem_of_mem_drop (List.mem_of_mem_take hx))

theorem reduce_zero {l : List (Kmeans F)} {k : Kmeans F} (h : ∀ x ∈ l, ZeroOrNan x.weighedDiffSum)
    (e : reduceWorkers l = some k) : ZeroOrNan k.weighedDiffSum := by
  cases l with
  | nil => cases e
  | cons a l =>
    cases e
    have ha := h a (by simp)
    have hl : ∀ x ∈ l, ZeroOrNan x.weighedDiffSum := fun x hx => h x (by simp [hx])
    clear h
    induction l generalizing a with
    | nil => exact ha
    | cons b l ih => exact ih _ (ha.add (hl b (by simp))) (fun x hx => hl x (by simp [hx]))

/-- A pass over a histogram without weights reports NaN. -/
theorem iteration_nan {sched : List (List ℕ)} {hist hist' : HistogramInternal F} {p p' : PalF F} {adj : Bool} {err : F}
    (hs : SchedValid (numChunks hist.items.length) sched) (hne : hist.items ≠ [])
    (hw : ∀ x ∈ hist.items, FltVal.val x.perceptualWeight = some 0)
    (ht : FltVal.val hist.totalPerceptualWeight = some 0)
    (h : iteration sched hist p adj = .ok (hist', p', err)) : FltVal.val err = none := by
  unfold iteration at h
  rw [if_neg (by simpa using hne)] at h
  cases hn : Nearest.new p with
  | error f => rw [hn] at h; cases h
  | ok n =>
    rw [hn] at h
    simp only [bind, Except.bind] at h
    cases hr : reduceWorkers (sched.map (worker n adj p.length hist.items)) with
    | none =>
      have hnil : sched = [] := by
        cases sched with
        | nil => rfl
        | cons a l => simp [reduceWorkers] at hr
      have hp := hs.1.length_eq
      rw [hnil] at hp
      simp only [List.flatten_nil, List.length_nil, List.length_range] at hp
      have := List.length_pos_iff.2 hne
      unfold numChunks chunkSize at hp
      omega
    | some k =>
      rw [hr] at h
      dsimp only at h
      have hk : ZeroOrNan k.weighedDiffSum := by
        refine reduce_zero ?_ hr
        intro x hx
        obtain ⟨c, -, rfl⟩ := List.mem_map.1 hx
        exact worker_zero n adj _ hw c
      split at h
      · cases h
      · cases h
        exact FltZero.div_zero _ _ hk ht

end Kmeans
end zeros

/-! ### Every error that is returned comes from a pass -/

theorem trialUpdate_error (st : FindState F) (t e : F) (p : PalF F) :
    (trialUpdate st t e p).paletteError = some e ∨ (trialUpdate st t e p).paletteError = st.paletteError := by
  unfold trialUpdate
  split
  · exact .inl rfl
  · exact .inr rfl

theorem findLoop_errors {env : Env F} {attr : Attr F} {H : HistogramInternal F → Prop} {P : PalF F → Prop} {E : F → Prop}
    (k : Kept env attr.maxColors H P)
    (hE : ∀ t h p adj h' p' e, H h → P p → env.kmeans t h p adj = .ok (h', p', e) → E e)
    (targetMse : F) (total : ℕ) (st : FindState F) (log : List F)
    (h0 : H st.hist) (h1 : 1 ≤ st.maxColors) (h1' : st.maxColors ≤ attr.maxColors)
    (h3 : ∀ e, st.paletteError = some e → E e) {p : PalF F} {st' : FindState F} {log' : List F}
    (e : findLoop env attr targetMse total st log = (.ok (p, st'), log')) : ∀ e, st'.paletteError = some e → E e := by
  generalize hn : st.trialsLeft.toNat = n
  induction n using Nat.strong_induction_on generalizing st log with
  | _ n ih =>
    rw [findLoop] at e
    obtain ⟨⟨pal, hist⟩, l1, e1, ee1⟩ := PM.bind_ok_inv e
    clear e; have e := ee1; clear ee1
    obtain ⟨fe1, hl1⟩ := PM.lift_ok_inv e1; subst hl1
    dsimp only at e
    obtain ⟨pal2, l2, e2, ee2⟩ := PM.bind_ok_inv e
    clear e; have e := ee2; clear ee2
    obtain ⟨fe2, hl2⟩ := PM.lift_ok_inv e2; subst hl2
    obtain ⟨hh, hp⟩ := k.cut _ _ _ _ _ _ _ h0 h1 h1' fe1 fe2
    by_cases ht : st.trialsLeft ≤ 0
    · rw [dif_pos ht] at e
      cases e
      exact h3
    · rw [dif_neg ht] at e
      obtain ⟨⟨hist', p', err⟩, l3, e3, ee3⟩ := PM.bind_ok_inv e
      clear e; have e := ee3; clear ee3
      obtain ⟨fe3, hl3⟩ := PM.lift_ok_inv e3; subst hl3
      obtain ⟨hh', hp'⟩ := k.pass _ _ _ _ _ _ _ hh hp fe3
      dsimp only at e
      rw [PM.bind_ok (progress_eq _ _ _)] at e
      have hb : ∀ q, (trialUpdate st targetMse err p').paletteError = some q → E q := by
        intro q hq
        rcases trialUpdate_error st targetMse err p' with h | h
        · rw [h] at hq; cases hq; exact hE _ _ _ _ _ _ _ hh hp fe3
        · rw [h] at hq; exact h3 q hq
      split at e
      · cases hq : (trialUpdate st targetMse err p').best with
        | some q =>
          simp only [hq] at e
          cases e
          exact hb
        | none =>
          simp only [hq] at e
          cases e
      next hd =>
        have hlt := trialUpdate_lt st targetMse err p'
        refine ih _ ?_ (nextState st targetMse err p' hist') _ hh' (trialUpdate_maxColors st targetMse err p' h1).1
          ((trialUpdate_maxColors st targetMse err p' h1).2.trans h1') hb e rfl
        rw [← hn]
        show (trialUpdate st targetMse err p').trialsLeft.toNat < _
        omega

theorem refineLoop_errors {env : Env F} {attr : Attr F} {H : HistogramInternal F → Prop} {P : PalF F → Prop} {m : ℕ} {E : F → Prop}
    (k : Kept env m H P)
    (hE : ∀ t h p adj h' p' e, H h → P p → env.kmeans t h p adj = .ok (h', p', e) → E e)
    (maxMse : Option F) (iterations : ℕ) (limit : F) (clock i : ℕ)
    (hist : HistogramInternal F) (p : PalF F) (err : Option F) (log : List F) (h0 : H hist) (h1 : P p)
    (h2 : ∀ e, err = some e → E e) {p' : PalF F} {err' : Option F} {log' : List F}
    (e : refineLoop env attr maxMse iterations limit clock i hist p err log = (.ok (p', err'), log')) :
    ∀ e, err' = some e → E e := by
  generalize hn : iterations - i = n
  induction n using Nat.strong_induction_on generalizing clock i hist p err log with
  | _ n ih =>
    rw [refineLoop] at e
    by_cases hi : i < iterations
    · rw [dif_pos hi, PM.bind_ok (progress_eq _ _ _)] at e
      split at e
      · cases e; exact h2
      · obtain ⟨⟨hist', q, pe⟩, l3, e3, ee4⟩ := PM.bind_ok_inv e
        clear e; have e := ee4; clear ee4
        obtain ⟨fe3, hl4⟩ := PM.lift_ok_inv e3; subst hl4
        obtain ⟨hh', hp'⟩ := k.pass _ _ _ _ _ _ _ h0 h1 fe3
        have hpe : ∀ e, some pe = some e → E e := by
          intro e he; cases he; exact hE _ _ _ _ _ _ _ h0 h1 fe3
        dsimp only at e
        have key : ∀ b : Bool, (if b = true then (pure (q, some pe) : PM F (PalF F × Option F)) else
            refineLoop env attr maxMse iterations limit (clock + 1)
            (i + if lt (maxMse.getD (lit64 (10 ^ 20)) *₆ lit64 (15/10)) pe then 2 else 1) hist' q (some pe))
            (reported attr.progressCallback log (refineDone attr iterations i)) = (.ok (p', err'), log') →
            ∀ e, err' = some e → E e := by
          intro b e
          cases b with
          | true => cases e; exact hpe
          | false => exact ih _ (by split <;> omega) _ _ _ _ _ _ hh' hp' hpe e rfl
        exact key _ e
    · rw [dif_neg hi] at e
      cases e; exact h2

/-- Errors of the palette search are errors of passes, unless the palette is the histogram. -/
theorem findBestPalette_errors {env : Env F} {attr : Attr F} {H : HistogramInternal F → Prop} {P : PalF F → Prop} {E : F → Prop}
    (k : Kept env attr.maxColors H P)
    (hE : ∀ t h p adj h' p' e, H h → P p → env.kmeans t h p adj = .ok (h', p', e) → E e)
    (hm : 1 ≤ attr.maxColors) {targetMse : F} {z : Bool} {maxMse : Option F}
    {hist : HistogramInternal F} (h0 : H hist) (hmany : ¬ (hist.items.length ≤ attr.maxColors ∧ z = true))
    {log log' : List F} {p : PalF F} {err : Option F}
    (e : findBestPalette env attr targetMse z maxMse hist log = (.ok (p, err), log')) : ∀ e, err = some e → E e := by
  unfold findBestPalette at e
  split at e
  next hc =>
    simp only [Bool.and_eq_true, decide_eq_true_eq] at hc
    exact absurd hc hmany
  · obtain ⟨⟨q, st⟩, l1, e1, ee5⟩ := PM.bind_ok_inv e
    clear e; have e := ee5; clear ee5
    have hinit : ∀ e, (FindState.init attr hist).paletteError = some e → E e := by
      intro e he; simp [FindState.init] at he
    have h2 := findLoop_errors k hE _ _ (FindState.init attr hist) _ h0 hm le_rfl hinit e1
    obtain ⟨hq, hh⟩ := findLoop_kept k _ _ (FindState.init attr hist) _ h0 hm le_rfl
      (by intro p hp; simp [FindState.init] at hp) e1
    exact refineLoop_errors k hE _ _ _ _ _ _ _ _ _ hh hq h2 e

section zeros
variable [FltZero F]

/-- If no colour counts, every weight of the finished histogram is zero. -/
theorem finalized_weightless {ho : HashOrder} {h : Histogram F} (hd : ColorMap.Distinct h.hashmap) (hc : ¬ HasCount h)
    {gamma : F} {r : HistogramInternal F} (e : h.finalizeBuilder ho gamma = .ok r) :
    (∀ x ∈ r.items, FltVal.val x.perceptualWeight = some 0) ∧ FltVal.val r.totalPerceptualWeight = some 0 := by
  have hz : ∀ y ∈ h.insertFixedColors ho, y.2.1 = 0 := by
    intro y hy
    by_contra h0
    exact hc ((counted_iff hd ho).1 ⟨y, hy, Nat.pos_of_ne_zero h0⟩)
  obtain ⟨r', e1, e2, -, e4, -⟩ := h.finalize_spec ho gamma
  rw [e] at e1; cases e1
  set temp : List (Histogram.TempHistItem F) := Histogram.tempItems ho (h.insertFixedColors ho) with htemp
  have hw : ∀ t ∈ temp, FltVal.val t.weight = some 0 := by
    intro t ht
    rw [htemp, Histogram.tempItems, List.mem_map] at ht
    obtain ⟨y, hy, rfl⟩ := ht
    have := hz y ((ho.map_perm _).mem_iff.1 hy)
    dsimp only
    rw [this, Nat.cast_zero]
    exact FltVal.val_zero32
  have hsum : ∀ (l : List (Histogram.TempHistItem F)) (f : Histogram.TempHistItem F → F) (s : F), FltVal.val s = some 0 →
      (∀ t ∈ l, FltVal.val (f t) = some 0) → FltVal.val (l.foldl (fun s t => s +₆ f t) s) = some 0 := by
    intro l f
    induction l with
    | nil => intro s hs _; exact hs
    | cons t l ih =>
      intro s hs hl
      exact ih _ (FltZero.zero_add _ _ hs (hl t (by simp))) (fun u hu => hl u (by simp [hu]))
  have hmax : FltVal.val (Histogram.maxPerceptualWeight temp) = some 0 := by
    unfold Histogram.maxPerceptualWeight
    obtain ⟨q, hq⟩ := FltZero.lit32_fin (F := F) (1/10) (by rw [abs_of_pos (by norm_num)]; norm_num)
    refine (FltZero.mul_zero _ _ q hq (FltZero.to32_zero _ ?_)).1
    have h256 := FltZero.lit64_nat (F := F) 256 (by norm_num)
    exact FltZero.zero_div _ _ 256 (hsum _ _ _ FltVal.val_zero64 hw) (by simpa using h256) (by norm_num)
  have hitem : ∀ t ∈ temp, FltVal.val (Histogram.itemWeight (Histogram.maxPerceptualWeight temp) t) = some 0 := by
    intro t ht
    unfold Histogram.itemWeight
    have hlt : lt (lit32 0) t.weight = false := by
      rw [Bool.eq_false_iff]
      intro h
      obtain ⟨x, y, hx, hy, hxy⟩ := (FltVal.lt_iff _ _).1 h
      rw [FltVal.val_zero32] at hx
      rw [hw t ht] at hy
      cases hx; cases hy
      exact lt_irrefl _ hxy
    rw [hlt]
    obtain ⟨q, hq⟩ := FltZero.lit32_fin (F := F) 10 (by rw [abs_of_pos (by norm_num)]; norm_num)
    exact (FltZero.mul_zero _ _ q hq hmax).2
  constructor
  · intro x hx
    rw [e2, (Histogram.placed_perm _ _ _ (Histogram.tempItems_cluster ho _)).mem_iff] at hx
    obtain ⟨t, ht, rfl⟩ := List.mem_map.1 hx
    exact hitem t ht
  · rw [e4]
    exact hsum _ _ _ FltVal.val_zero64 hitem

end zeros

end Verif
