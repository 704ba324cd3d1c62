import Verif.Lemmas.SortHalf
import Verif.Lemmas.MedianCutResult
import Verif.Lemmas.Metric
import Verif.Lemmas.Quality
import Verif.Spec.MedianCut
import Verif.Spec.Dither

/-! # Median cut is the greedy algorithm of the specification (exact) -/

set_option linter.unusedSectionVars false
set_option linter.unusedVariables false

namespace Verif
open Flt

/-- a histogram item for the specification -/
def HistItem.spec (x : HistItem ℝ) : Spec.Item := ⟨x.color.spec, x.adjustedWeight, x.perceptualWeight⟩

/-- a box for the specification -/
def MBox.spec (b : MBox ℝ) : Spec.Box := ⟨b.colors.map HistItem.spec, b.avgColor.spec⟩

/-- colours in range, weights not negative -/
structure ItemOK (x : HistItem ℝ) : Prop where
  unit : x.color.InUnit
  weight : 0 ≤ x.adjustedWeight
  share : 0 ≤ x.perceptualWeight

/-- the cached numbers of a box are what they should be -/
structure MBox.Sound (b : MBox ℝ) : Prop where
  items : ∀ x ∈ b.colors, ItemOK x
  variance : ∀ k, b.variance.spec.chan k = b.spec.spread k
  weight : b.adjustedWeightSum = b.spec.weight
  worst : b.spec.IsWorst b.maxError
  error : ∀ e, b.totalError = some e → e = b.spec.error

theorem boxStats_foldl (avg : FPixel ℝ) (l : List (HistItem ℝ)) (v : FPixel ℝ) (m : ℝ) :
    let r := l.foldl (fun (v, m) c =>
      let d := FPixel.sub avg c.color
      let w := c.adjustedWeight
      let v : FPixel ℝ := ⟨v.a +₃ d.a *₃ d.a *₃ w, v.r +₃ d.r *₃ d.r *₃ w,
        v.g +₃ d.g *₃ d.g *₃ w, v.b +₃ d.b *₃ d.b *₃ w⟩
      let diff := avg.diff c.color
      (v, if lt m diff then diff else m)) (v, m)
    (∀ k, r.1.spec.chan k = v.spec.chan k +
      (l.map fun x => x.adjustedWeight * (avg.spec.chan k - x.color.spec.chan k) ^ 2).sum) ∧
    (r.2 = m ∨ ∃ x ∈ l, avg.diff x.color = r.2) ∧ m ≤ r.2 ∧ ∀ x ∈ l, avg.diff x.color ≤ r.2 := by
  induction l generalizing v m with
  | nil => simp
  | cons x xs ih =>
    simp only [List.foldl_cons]
    have := ih ⟨v.a +₃ (FPixel.sub avg x.color).a *₃ (FPixel.sub avg x.color).a *₃ x.adjustedWeight,
      v.r +₃ (FPixel.sub avg x.color).r *₃ (FPixel.sub avg x.color).r *₃ x.adjustedWeight,
      v.g +₃ (FPixel.sub avg x.color).g *₃ (FPixel.sub avg x.color).g *₃ x.adjustedWeight,
      v.b +₃ (FPixel.sub avg x.color).b *₃ (FPixel.sub avg x.color).b *₃ x.adjustedWeight⟩
      (if lt m (avg.diff x.color) then avg.diff x.color else m)
    obtain ⟨h1, h2, h3, h4⟩ := this
    have hm : m ≤ (if lt m (avg.diff x.color) = true then avg.diff x.color else m) ∧
        avg.diff x.color ≤ (if lt m (avg.diff x.color) = true then avg.diff x.color else m) := by
      split
      next h => rw [real_lt] at h; exact ⟨h.le, le_rfl⟩
      next h => rw [real_lt] at h; exact ⟨le_rfl, not_lt.1 h⟩
    refine ⟨?_, ?_, hm.1.trans h3, ?_⟩
    · intro k
      rw [h1 k, List.map_cons, List.sum_cons]
      fin_cases k <;>
        simp [Spec.Color.chan, FPixel.spec, FPixel.sub] <;> ring
    · rcases h2 with h2 | ⟨y, hy, h2⟩
      · rw [h2]
        split
        · exact Or.inr ⟨x, by simp, rfl⟩
        · exact Or.inl rfl
      · exact Or.inr ⟨y, by simp [hy], h2⟩
    · intro y hy
      rcases List.mem_cons.1 hy with rfl | hy
      · exact hm.2.trans h3
      · exact h4 y hy

theorem newC_sound (s : ℕ) (l : List (HistItem ℝ)) (w : ℝ) (avg : FPixel ℝ) (hl : ∀ x ∈ l, ItemOK x)
    (hw : w = (l.map (·.adjustedWeight)).sum) : (MBox.newC s l w avg).Sound := by
  obtain ⟨h1, h2, h3, h4⟩ := boxStats_foldl avg l FPixel.default (lit32 0)
  refine ⟨hl, ?_, ?_, ?_, by intro e he; cases he⟩
  · intro k
    refine (h1 k).trans ?_
    have : (FPixel.default : FPixel ℝ).spec.chan k = 0 := by
      fin_cases k <;> simp [Spec.Color.chan, FPixel.spec, FPixel.default]
    rw [this, zero_add]
    simp [Spec.Box.spread, MBox.spec, MBox.newC, HistItem.spec, Function.comp_def]
  · show w = _
    rw [hw]; simp [Spec.Box.weight, MBox.spec, HistItem.spec, Function.comp_def]
  · have e : (MBox.newC s l w avg).spec = ⟨l.map HistItem.spec, avg.spec⟩ := rfl
    rw [e]
    refine ⟨?_, ?_⟩
    · rcases h2 with h2 | ⟨x, hx, h2⟩
      · cases hl0 : l with
        | nil =>
          subst hl0
          exact Or.inl ⟨rfl, by rw [show (MBox.newC s [] w avg).maxError = lit32 0 from h2]; simp⟩
        | cons x xs =>
          refine Or.inr ⟨x.spec, by simp, ?_⟩
          have h5 := h4 x (by simp [hl0])
          rw [h2] at h5
          have h6 := FPixel.diff_nonneg avg x.color
          rw [real_lit32] at h5
          show Spec.diff avg.spec x.color.spec = (MBox.newC s (x :: xs) w avg).maxError
          rw [← FPixel.diff_spec, ← hl0, show (MBox.newC s l w avg).maxError = lit32 0 from h2, real_lit32]
          push_cast at h5 ⊢
          linarith
      · refine Or.inr ⟨x.spec, List.mem_map_of_mem hx, ?_⟩
        show Spec.diff avg.spec x.color.spec = _
        rw [← FPixel.diff_spec]; exact h2
    · intro y hy
      obtain ⟨x, hx, rfl⟩ := List.mem_map.1 hy
      show Spec.diff avg.spec x.color.spec ≤ _
      rw [← FPixel.diff_spec]; exact h4 x hx

theorem avgStep_foldl (l : List (HistItem ℝ)) (s : ℝ) (t : FPixel ℝ) :
    let r := l.foldl avgStep (s, t)
    r.1 = s + (l.map (·.adjustedWeight)).sum ∧
    ∀ k, r.2.spec.chan k = t.spec.chan k + (l.map fun x => x.color.spec.chan k * x.adjustedWeight).sum := by
  induction l generalizing s t with
  | nil => simp
  | cons x xs ih =>
    simp only [List.foldl_cons]
    obtain ⟨h1, h2⟩ := ih (avgStep (s, t) x).1 (avgStep (s, t) x).2
    refine ⟨?_, ?_⟩
    · rw [h1, List.map_cons, List.sum_cons]; simp [avgStep]; ring
    · intro k
      rw [h2 k, List.map_cons, List.sum_cons]
      fin_cases k <;> simp [Spec.Color.chan, FPixel.spec, avgStep] <;> ring

theorem Spec.Color.ext_chan {x y : Spec.Color} (h : ∀ k, x.chan k = y.chan k) : x = y := by
  have h0 := h 0; have h1 := h 1; have h2 := h 2; have h3 := h 3
  cases x; cases y
  simp [Spec.Color.chan] at h0 h1 h2 h3
  simp [h0, h1, h2, h3]

theorem mean_spec (l : List (HistItem ℝ)) (hl : ∀ x ∈ l, ItemOK x) :
    (weighedAverageColor l).spec = Spec.mean (l.map HistItem.spec) := by
  obtain ⟨h1, h2⟩ := avgStep_foldl l (lit32 0) FPixel.default
  have hmean : ∀ k, (Spec.mean (l.map HistItem.spec)).chan k =
      (l.map fun x => x.color.spec.chan k * x.adjustedWeight).sum / (l.map (·.adjustedWeight)).sum := by
    intro k
    fin_cases k <;>
      simp [Spec.mean, Spec.meanColor, Spec.Color.chan, HistItem.spec, Function.comp_def]
  have h0 : ∀ k, (FPixel.default : FPixel ℝ).spec.chan k = 0 := by
    intro k; fin_cases k <;> simp [Spec.Color.chan, FPixel.spec, FPixel.default]
  apply Spec.Color.ext_chan
  intro k
  rw [hmean k]
  unfold weighedAverageColor
  simp only
  split
  next hne =>
    have hs : (l.foldl avgStep (lit32 0, FPixel.default)).1 = (l.map (·.adjustedWeight)).sum := by
      rw [h1]; simp
    have ht : (l.foldl avgStep (lit32 0, FPixel.default)).2.spec.chan k =
        (l.map fun x => x.color.spec.chan k * x.adjustedWeight).sum := by
      rw [h2 k, h0, zero_add]
    rw [← ht, ← hs]
    fin_cases k <;> simp [Spec.Color.chan, FPixel.spec]
  next hne =>
    have hs : (l.map (·.adjustedWeight)).sum = 0 := by
      have : (l.foldl avgStep (lit32 0, FPixel.default)).1 = lit32 0 := by
        simpa using hne
      rw [h1] at this
      simpa using this
    have hall : ∀ x ∈ l, x.adjustedWeight = 0 := by
      intro x hx
      have h := List.single_le_sum (l := l.map (·.adjustedWeight)) (by
        intro y hy
        obtain ⟨z, hz, rfl⟩ := List.mem_map.1 hy
        exact (hl z hz).weight) _ (List.mem_map_of_mem (f := (·.adjustedWeight)) hx)
      rw [hs] at h
      exact le_antisymm h (hl x hx).weight
    rw [hs, div_zero, h2 k, h0, zero_add]
    apply List.sum_eq_zero
    intro y hy
    obtain ⟨x, hx, rfl⟩ := List.mem_map.1 hy
    rw [hall x hx, mul_zero]

/-! ### Which box -/

theorem maxByKey_ge_real {α : Type} (key : α → ℝ) {l : List α} {m : α} (h : maxByKey key l = some m) :
    ∀ x ∈ l, key x ≤ key m := by
  have hf : ∀ (l : List α) (a : α), key a ≤ key (l.foldl (fun best y => if lt (key y) (key best) then best else y) a) ∧
      ∀ x ∈ l, key x ≤ key (l.foldl (fun best y => if lt (key y) (key best) then best else y) a) := by
    intro l
    induction l with
    | nil => simp
    | cons y ys ih =>
      intro a
      simp only [List.foldl_cons]
      obtain ⟨h1, h2⟩ := ih (if lt (key y) (key a) then a else y)
      have h3 : key a ≤ key (if lt (key y) (key a) = true then a else y) ∧
          key y ≤ key (if lt (key y) (key a) = true then a else y) := by
        split
        next h => rw [real_lt] at h; exact ⟨le_rfl, h.le⟩
        next h => rw [real_lt] at h; exact ⟨not_lt.1 h, le_rfl⟩
      refine ⟨h3.1.trans h1, ?_⟩
      intro x hx
      rcases List.mem_cons.1 hx with rfl | hx
      · exact h3.2.trans h1
      · exact h2 x hx
  cases l with
  | nil => simp [maxByKey] at h
  | cons a l =>
    simp only [maxByKey, Option.some.injEq] at h
    rw [← h]
    intro x hx
    rcases List.mem_cons.1 hx with rfl | hx
    · exact (hf l x).1
    · exact (hf l a).2 x hx

theorem minByKey_le_real {α : Type} (key : α → ℝ) {l : List α} {m : α} (h : minByKey key l = some m) :
    ∀ x ∈ l, key m ≤ key x := by
  have hf : ∀ (l : List α) (a : α), key (l.foldl (fun best y => if lt (key y) (key best) then y else best) a) ≤ key a ∧
      ∀ x ∈ l, key (l.foldl (fun best y => if lt (key y) (key best) then y else best) a) ≤ key x := by
    intro l
    induction l with
    | nil => simp
    | cons y ys ih =>
      intro a
      simp only [List.foldl_cons]
      obtain ⟨h1, h2⟩ := ih (if lt (key y) (key a) then y else a)
      have h3 : key (if lt (key y) (key a) = true then y else a) ≤ key a ∧
          key (if lt (key y) (key a) = true then y else a) ≤ key y := by
        split
        next h => rw [real_lt] at h; exact ⟨h.le, le_rfl⟩
        next h => rw [real_lt] at h; exact ⟨le_rfl, not_lt.1 h⟩
      refine ⟨h1.trans h3.1, ?_⟩
      intro x hx
      rcases List.mem_cons.1 hx with rfl | hx
      · exact h1.trans h3.2
      · exact h2 x hx
  cases l with
  | nil => simp [minByKey] at h
  | cons a l =>
    simp only [minByKey, Option.some.injEq] at h
    rw [← h]
    intro x hx
    rcases List.mem_cons.1 hx with rfl | hx
    · exact (hf l x).1
    · exact (hf l a).2 x hx

theorem Spec.Box.IsWidth.unique {b : Spec.Box} {s t : ℝ} (h : b.IsWidth s) (h' : b.IsWidth t) : s = t := by
  obtain ⟨⟨k, rfl⟩, h2⟩ := h
  obtain ⟨⟨j, rfl⟩, h4⟩ := h'
  exact le_antisymm (h4 k) (h2 j)

theorem Spec.Box.IsWorst.unique {b : Spec.Box} {s t : ℝ} (h : b.IsWorst s) (h' : b.IsWorst t) : s = t := by
  obtain ⟨h1, h2⟩ := h
  obtain ⟨h3, h4⟩ := h'
  rcases h1 with ⟨e, rfl⟩ | ⟨x, hx, rfl⟩
  · rcases h3 with ⟨-, rfl⟩ | ⟨y, hy, -⟩
    · rfl
    · rw [e] at hy; cases hy
  · rcases h3 with ⟨e, -⟩ | ⟨y, hy, rfl⟩
    · rw [e] at hx; cases hx
    · exact le_antisymm (h4 x hx) (h2 y hy)

theorem Spec.Box.IsPriority.unique {b : Spec.Box} {limit p q : ℝ} (h : b.IsPriority limit p) (h' : b.IsPriority limit q) :
    p = q := by
  obtain ⟨s, e, h1, h2, rfl⟩ := h
  obtain ⟨s', e', h3, h4, rfl⟩ := h'
  rw [h1.unique h3, h2.unique h4]

theorem MBox.Sound.priority {b : MBox ℝ} (h : b.Sound) {limit : ℝ} (hl : 0 < limit) :
    b.spec.IsPriority limit (splitPriority limit b) := by
  have h0 := h.variance 0; have h1 := h.variance 1; have h2 := h.variance 2; have h3 := h.variance 3
  simp only [Spec.Color.chan, FPixel.spec] at h0 h1 h2 h3
  simp only [Matrix.cons_val_zero, Matrix.cons_val_one, Matrix.cons_val] at h0 h1 h2 h3
  refine ⟨max (max (max b.variance.r b.variance.g) b.variance.b) b.variance.a, b.maxError, ⟨?_, ?_⟩, h.worst, ?_⟩
  · rcases max_choice (max (max b.variance.r b.variance.g) b.variance.b) b.variance.a with e | e <;> rw [e]
    · rcases max_choice (max b.variance.r b.variance.g) b.variance.b with e | e <;> rw [e]
      · rcases max_choice b.variance.r b.variance.g with e | e <;> rw [e]
        · exact ⟨1, h1.symm⟩
        · exact ⟨2, h2.symm⟩
      · exact ⟨3, h3.symm⟩
    · exact ⟨0, h0.symm⟩
  · intro k
    fin_cases k
    · exact h0 ▸ le_max_right _ _
    · exact h1 ▸ (le_max_left _ _).trans ((le_max_left _ _).trans (le_max_left _ _))
    · exact h2 ▸ (le_max_right _ _).trans ((le_max_left _ _).trans (le_max_left _ _))
    · exact h3 ▸ (le_max_right _ _).trans (le_max_left _ _)
  · unfold splitPriority
    simp only [real_max, real_mul64, real_div64]
    rw [h.weight]
    split
    next hlt =>
      rw [real_lt] at hlt
      rw [max_eq_right ((one_le_div hl).2 hlt.le), mul_div_assoc]
    next hlt =>
      rw [real_lt] at hlt
      rw [max_eq_left ((div_le_one hl).2 (not_lt.1 hlt)), mul_one]

/-! ### Where to divide -/

theorem MBox.chan_spec (c : FPixel ℝ) (k : Fin 4) : MBox.chan c k = c.spec.chan k := by
  fin_cases k <;> simp [MBox.chan, Spec.Color.chan, FPixel.spec]

theorem channelOrder_perm (v : FPixel ℝ) : (MBox.channelOrder v).Perm [0, 1, 2, 3] := List.mergeSort_perm _ _

theorem channelOrder_sorted (v : FPixel ℝ) :
    (MBox.channelOrder v).Pairwise (fun x y => MBox.chan v y ≤ MBox.chan v x) := by
  have := List.pairwise_mergeSort (le := fun x y => !lt (MBox.chan v x) (MBox.chan v y))
    (by intro a b c h1 h2; simp only [Bool.not_eq_true', real_lt_false] at *; exact h2.trans h1)
    (by intro a b; simp only [Bool.or_eq_true, Bool.not_eq_true', real_lt_false]; exact le_total _ _) [0, 1, 2, 3]
  refine this.imp ?_
  intro a b h
  simpa only [Bool.not_eq_true', real_lt_false] using h

/-- the channel the box is sorted by -/
theorem channelOrder_head (v : FPixel ℝ) : ∃ k : Fin 4, (MBox.channelOrder v).getD 0 0 = k ∧
    ∀ j : Fin 4, v.spec.chan j ≤ v.spec.chan k := by
  have hp := channelOrder_perm v
  have hs := channelOrder_sorted v
  cases ho : MBox.channelOrder v with
  | nil => rw [ho] at hp; simpa using hp.length_eq
  | cons a l =>
    rw [ho] at hp hs
    have ha : a ∈ [0, 1, 2, 3] := hp.mem_iff.1 (by simp)
    have ha4 : a < 4 := by simp at ha; omega
    refine ⟨⟨a, ha4⟩, rfl, ?_⟩
    intro j
    rw [← MBox.chan_spec, ← MBox.chan_spec]
    have hj : (j : ℕ) ∈ a :: l := hp.mem_iff.2 (by fin_cases j <;> simp)
    rcases List.mem_cons.1 hj with e | hj
    · rw [e]
    · exact (List.pairwise_cons.1 hs).1 _ hj

theorem chan_unit {c : FPixel ℝ} (h : c.InUnit) (k : ℕ) : 0 ≤ MBox.chan c k ∧ MBox.chan c k ≤ 1 := by
  have h0 := h 0; have h1 := h 1; have h2 := h 2; have h3 := h 3
  simp only [FPixel.chan, Matrix.cons_val_zero, Matrix.cons_val_one, Matrix.cons_val] at h0 h1 h2 h3
  unfold MBox.chan
  split
  · exact h0
  · exact h1
  · exact h2
  · exact h3

/-- the sort value in units of two steps of the first channel -/
theorem sortValue_div (ord : List ℕ) {c : FPixel ℝ} (h : c.InUnit) :
    MBox.sortValue ord c / 2 ^ 17 = ⌊MBox.chan c (ord.getD 0 0) * 65535⌋₊ / 2 := by
  have h0 := chan_unit h (ord.getD 0 0)
  have h1 := chan_unit h (ord.getD 1 0)
  have h2 := chan_unit h (ord.getD 2 0)
  have h3 := chan_unit h (ord.getD 3 0)
  unfold MBox.sortValue
  simp only [real_toU32, real_mul32, real_add32, real_div32, real_lit32]
  push_cast
  set a := MBox.chan c (ord.getD 0 0)
  have hbb : 0 ≤ MBox.chan c (ord.getD 2 0) + MBox.chan c (ord.getD 1 0) / 2 + MBox.chan c (ord.getD 3 0) / 4 ∧
      MBox.chan c (ord.getD 2 0) + MBox.chan c (ord.getD 1 0) / 2 + MBox.chan c (ord.getD 3 0) / 4 ≤ 7 / 4 := by
    constructor <;> linarith
  generalize MBox.chan c (ord.getD 2 0) + MBox.chan c (ord.getD 1 0) / 2 + MBox.chan c (ord.getD 3 0) / 4 = b at *
  have ha : ⌊a * 65535⌋₊ ≤ 65535 := Nat.floor_le_of_le (by push_cast; nlinarith)
  have hb : ⌊b * 65535⌋₊ < 2 ^ 17 := by
    rw [Nat.floor_lt (by linarith [hbb.1])]
    push_cast
    linarith [hbb.2]
  have e1 : Nat.min 4294967295 ⌊a * 65535⌋₊ = ⌊a * 65535⌋₊ := Nat.min_eq_right (by omega)
  have e2 : Nat.min 4294967295 ⌊b * 65535⌋₊ = ⌊b * 65535⌋₊ := Nat.min_eq_right (by omega)
  rw [e1, e2, Nat.mod_eq_of_lt (by omega)]
  rw [show 131072 = 2 ^ 17 from rfl, ← Nat.shiftRight_eq_div_pow, Nat.shiftRight_or_distrib]
  have e3 : ⌊b * 65535⌋₊ >>> 17 = 0 := by rw [Nat.shiftRight_eq_div_pow, Nat.div_eq_of_lt hb]
  rw [e3, Nat.or_zero, Nat.shiftRight_eq_div_pow]
  omega

/-- the order of sort values is the order of the first channel, up to the resolution -/
theorem sortValue_below {v : FPixel ℝ} {k : Fin 4} (hk : (MBox.channelOrder v).getD 0 0 = k) {x y : FPixel ℝ}
    (hx : x.InUnit) (hy : y.InUnit)
    (h : MBox.sortValue (MBox.channelOrder v) y ≤ MBox.sortValue (MBox.channelOrder v) x) :
    y.spec.chan k < x.spec.chan k + Spec.tick := by
  have h1 := Nat.div_le_div_right (c := 2 ^ 17) h
  rw [sortValue_div _ hx, sortValue_div _ hy, hk, MBox.chan_spec, MBox.chan_spec] at h1
  have hx0 := (chan_unit hx k).1
  rw [MBox.chan_spec] at hx0
  have h2 := Nat.floor_le (a := x.spec.chan k * 65535) (by positivity)
  have h3 := Nat.lt_floor_add_one (y.spec.chan k * 65535)
  have h4 : ⌊y.spec.chan k * 65535⌋₊ ≤ ⌊x.spec.chan k * 65535⌋₊ + 1 := by omega
  have h5 : (⌊y.spec.chan k * 65535⌋₊ : ℝ) ≤ ⌊x.spec.chan k * 65535⌋₊ + 1 := by exact_mod_cast h4
  unfold Spec.tick
  linarith

/-- what the preparation of a split leaves in every item -/
structure Prepared (v m : FPixel ℝ) (x : HistItem ℝ) : Prop where
  ok : ItemOK x
  tmp : x.tmp = MBox.sortValue (MBox.channelOrder v) x.color
  pull : x.mcColorWeight = Real.sqrt (m.diff x.color) * Real.sqrt (1 + x.adjustedWeight)

theorem spec_of_core {l l' : List (HistItem ℝ)} (h : (l.map HistItem.core).Perm (l'.map HistItem.core)) :
    (l.map HistItem.spec).Perm (l'.map HistItem.spec) := by
  have e : ∀ l : List (HistItem ℝ), l.map HistItem.spec =
      (l.map HistItem.core).map (fun c => (⟨c.1.spec, c.2.1, c.2.2⟩ : Spec.Item)) := by
    intro l; simp only [List.map_map]; rfl
  rw [e, e]; exact h.map _

theorem colorWeights_spec (o : SortOracle ℝ) {b : MBox ℝ} (hb : b.Sound) (hlen : 1 < b.colors.length) {k : Fin 4}
    (hk : (MBox.channelOrder b.variance).getD 0 0 = k) :
    ∃ m : HistItem ℝ, Spec.IsMedian k b.spec.items m.spec ∧
      ∀ x ∈ MBox.colorWeights o b.prepareSort, Prepared b.variance m.color x := by
  have hperm := o.selectNth_perm b.prepareSort (b.prepareSort.length / 2)
  have hplen := length_prepareSort b
  set n := b.prepareSort.length / 2 with hn
  have hslen : (o.selectNth b.prepareSort n).length = b.colors.length := by rw [hperm.length_eq, hplen]
  have hlt : n < (o.selectNth b.prepareSort n).length := by rw [hslen]; omega
  have hprep : ∀ x ∈ b.prepareSort, ItemOK x ∧ x.tmp = MBox.sortValue (MBox.channelOrder b.variance) x.color := by
    intro x hx
    simp only [MBox.prepareSort, List.mem_map] at hx
    obtain ⟨c, hc, rfl⟩ := hx
    exact ⟨⟨(hb.items c hc).unit, (hb.items c hc).weight, (hb.items c hc).share⟩, rfl⟩
  have hsel : ∀ x ∈ o.selectNth b.prepareSort n, ItemOK x ∧ x.tmp = MBox.sortValue (MBox.channelOrder b.variance) x.color :=
    fun x hx => hprep x (hperm.mem_iff.1 hx)
  obtain ⟨m, hm⟩ : ∃ m, (o.selectNth b.prepareSort n)[n]? = some m := ⟨_, List.getElem?_eq_getElem hlt⟩
  have hmm := hsel m (List.mem_of_getElem? hm)
  refine ⟨m, ⟨((o.selectNth b.prepareSort n).take n).map HistItem.spec, ((o.selectNth b.prepareSort n).drop (n + 1)).map HistItem.spec,
    ?_, ?_, ?_, ?_⟩, ?_⟩
  · have e : (o.selectNth b.prepareSort n).take n ++ m :: (o.selectNth b.prepareSort n).drop (n + 1) =
        o.selectNth b.prepareSort n := by
      obtain ⟨h, e⟩ := List.getElem?_eq_some_iff.1 hm
      rw [← e, ← List.drop_eq_getElem_cons h, List.take_append_drop]
    rw [← List.map_cons, ← List.map_append, e]
    apply spec_of_core
    rw [← prepareSort_core]
    exact (hperm.map _).symm
  · rw [List.length_map, List.length_take, hslen]
    show min n _ = (b.colors.map HistItem.spec).length / 2
    rw [List.length_map]; omega
  · intro y hy
    obtain ⟨x, hx, rfl⟩ := List.mem_map.1 hy
    obtain ⟨i, hi⟩ := List.mem_iff_getElem?.1 hx
    rw [List.getElem?_take] at hi
    split at hi
    next hin =>
      have h1 := o.selectNth_le b.prepareSort n i n x m hi hm hin.le le_rfl (Or.inr rfl)
      have hxx := hsel x (List.mem_of_getElem? hi)
      rw [hxx.2, hmm.2] at h1
      exact sortValue_below hk hmm.1.unit hxx.1.unit h1
    · cases hi
  · intro y hy
    obtain ⟨x, hx, rfl⟩ := List.mem_map.1 hy
    obtain ⟨i, hi⟩ := List.mem_iff_getElem?.1 hx
    rw [List.getElem?_drop] at hi
    have h1 := o.selectNth_le b.prepareSort n n (n + 1 + i) m x hm hi le_rfl (by omega) (Or.inl rfl)
    have hxx := hsel x (List.mem_of_getElem? hi)
    rw [hxx.2, hmm.2] at h1
    exact sortValue_below hk hxx.1.unit hmm.1.unit h1
  · intro x hx
    simp only [MBox.colorWeights, List.mem_map] at hx
    obtain ⟨c, hc, rfl⟩ := hx
    have e : (o.selectNth b.prepareSort n).length / 2 = n := by rw [hslen, hn, hplen]
    rw [← hn, e, hm]
    have hcc := hsel c hc
    refine ⟨⟨hcc.1.unit, hcc.1.weight, hcc.1.share⟩, hcc.2, ?_⟩
    simp only [real_sqrt32, real_mul32, real_add32, real_lit32]
    push_cast; rfl

theorem pull_spec {v : FPixel ℝ} {m x : HistItem ℝ} (h : Prepared v m.color x) :
    Spec.pull m.spec x.spec = x.mcColorWeight := by
  rw [h.pull, FPixel.diff_spec]; rfl

theorem pull_sum {v : FPixel ℝ} {m : HistItem ℝ} {l : List (HistItem ℝ)} (h : ∀ x ∈ l, Prepared v m.color x) :
    ((l.map HistItem.spec).map (Spec.pull m.spec)).sum = mcSum l := by
  unfold mcSum
  rw [List.map_map]
  congr 1
  apply List.map_congr_left
  intro x hx
  exact pull_spec (h x hx)

/-- the two halves of a split -/
theorem split_halved (o : SortOracle ℝ) {b : MBox ℝ} (hb : b.Sound) (hlen : 1 < b.colors.length) (others : List (MBox ℝ)) :
    Spec.Halved b.spec (b.split o others).1.spec.items (b.split o others).2.spec.items := by
  have hl1 := split_left_pos o b others (List.ne_nil_of_length_pos (by omega))
  have hr1 := split_right_pos o b others hlen
  have hp1 := split_perm o b others
  refine ⟨?_, ?_, ?_, ?_⟩
  · show ((b.split o others).1.colors.map HistItem.spec ++ (b.split o others).2.colors.map HistItem.spec).Perm _
    rw [← List.map_append]
    exact spec_of_core hp1
  · simpa [MBox.spec] using hl1
  · simpa [MBox.spec] using hr1
  obtain ⟨k, hk, hmax⟩ := channelOrder_head b.variance
  refine ⟨k, fun j => by rw [← hb.variance, ← hb.variance]; exact hmax j, ?_⟩
  obtain ⟨m, hmed, hprep⟩ := colorWeights_spec o hb hlen hk
  set cw := MBox.colorWeights o b.prepareSort with hcw
  set half := sum64 (cw.map (·.mcColorWeight)) /₆ lit64 2 with hhalf
  have hcwlen : cw.length = b.colors.length := by rw [hcw, length_colorWeights, length_prepareSort]
  have hhalf' : half = mcSum cw / 2 := by rw [hhalf, sum64_real]; simp [mcSum]
  have hnn : 0 ≤ mcSum cw := by
    apply List.sum_nonneg
    intro x hx
    obtain ⟨c, hc, rfl⟩ := List.mem_map.1 hx
    exact colorWeights_nonneg o _ c hc
  have hperm := sortHalf_perm o cw half
  have hlt := sortHalf_lt_real o cw half (List.ne_nil_of_length_pos (by omega)) (by
    show half ≤ mcSum cw; rw [hhalf']; linarith)
  have hord := sortHalf_order o cw half
  have hlow := sortHalf_low o cw half
  obtain ⟨x, hx, hw, hxmax⟩ := sortHalf_high o cw half hlt
  have e1 : (b.split o others).1.spec.items = ((sortHalf o cw half).1.take (max (sortHalf o cw half).2 1)).map HistItem.spec := rfl
  have e2 : (b.split o others).2.spec.items = ((sortHalf o cw half).1.drop (max (sortHalf o cw half).2 1)).map HistItem.spec := rfl
  rw [e1, e2]
  generalize sortHalf o cw half = r at *
  have hmem : ∀ y ∈ r.1, Prepared b.variance m.color y := fun y hy => hprep y (hperm.mem_iff.1 hy)
  have hbelow : ∀ y ∈ r.1, ∀ z ∈ r.1, y.tmp ≤ z.tmp → Spec.Below k y.spec z.spec := by
    intro y hy z hz h
    rw [(hmem y hy).tmp, (hmem z hz).tmp] at h
    exact sortValue_below hk (hmem z hz).ok.unit (hmem y hy).ok.unit h
  have hxm : x ∈ r.1 := List.mem_of_getElem? hx
  have hitems : (b.spec.items.map (Spec.pull m.spec)).sum = mcSum cw := by
    have h1 : (cw.map HistItem.spec).Perm b.spec.items := by
      apply spec_of_core
      rw [← prepareSort_core]
      exact colorWeights_core o _
    rw [← (h1.map _).sum_eq]
    exact pull_sum hprep
  have hxspec := pull_spec (hmem x hxm)
  by_cases h0 : r.2 = 0
  · have hmx : max r.2 1 = 1 := by omega
    rw [h0] at hx hw hxmax
    have ht : r.1.take 1 = [x] := by rw [List.take_add_one, List.take_zero, hx]; rfl
    rw [hmx, ht]
    refine ⟨?_, m.spec, hmed, ?_⟩
    · intro y hy z hz
      simp only [List.map_cons, List.map_nil, List.mem_singleton] at hy
      subst hy
      obtain ⟨z', hz', rfl⟩ := List.mem_map.1 hz
      exact hbelow z' (List.mem_of_mem_drop hz') x hxm (hxmax z' (by simpa using List.mem_of_mem_drop hz'))
    · right
      refine ⟨x.spec, rfl, ?_⟩
      rw [hxspec, hitems, ← hhalf']
      simpa [mcSum] using hw
  · have hmx : max r.2 1 = r.2 := by omega
    rw [hmx]
    refine ⟨?_, m.spec, hmed, ?_⟩
    · intro y hy z hz
      obtain ⟨y', hy', rfl⟩ := List.mem_map.1 hy
      obtain ⟨z', hz', rfl⟩ := List.mem_map.1 hz
      exact hbelow z' (List.mem_of_mem_drop hz') y' (List.mem_of_mem_take hy') (hord y' hy' z' hz')
    · left
      rw [pull_sum (fun y hy => hmem y (List.mem_of_mem_take hy)), hitems, ← hhalf']
      refine ⟨hlow h0, x.spec, List.mem_map_of_mem (List.mem_of_getElem? (i := 0) (by simpa using hx)), ?_, ?_⟩
      · intro z hz
        obtain ⟨z', hz', rfl⟩ := List.mem_map.1 hz
        exact hbelow z' (List.mem_of_mem_drop hz') x hxm (hxmax z' hz')
      · rw [hxspec]; exact hw

/-! ### Representatives -/

theorem newS_represents (s : ℕ) {l : List (HistItem ℝ)} (hl : ∀ x ∈ l, ItemOK x) (hne : l ≠ []) (w : ℝ)
    (others : List (MBox ℝ)) :
    Spec.Represents (others.map MBox.spec) (l.map HistItem.spec) (MBox.newS s l w others).avgColor.spec := by
  have hmean := mean_spec l hl
  have hcond : ((decide (l.length < 500) && decide (l.length > 2)) ||
      MBox.isUselessColor (weighedAverageColor l) l others) = true ↔
      ((3 ≤ (l.map HistItem.spec).length ∧ (l.map HistItem.spec).length < 500) ∨
        ∀ x ∈ l.map HistItem.spec, ∃ o ∈ others.map MBox.spec, Spec.diff o.rep x.color <
          Spec.diff (Spec.mean (l.map HistItem.spec)) x.color) := by
    rw [← hmean]
    simp only [Bool.or_eq_true, Bool.and_eq_true, decide_eq_true_eq, List.length_map, MBox.isUselessColor,
      List.all_eq_true, List.any_eq_true, real_lt, List.forall_mem_map, FPixel.diff_spec]
    apply or_congr
    · constructor
      · rintro ⟨h1, h2⟩; exact ⟨by omega, h1⟩
      · rintro ⟨h1, h2⟩; exact ⟨h2, by omega⟩
    · constructor
      · intro h x hx
        obtain ⟨o, ho, hlt⟩ := h x hx
        exact ⟨o.spec, List.mem_map_of_mem ho, hlt⟩
      · intro h x hx
        obtain ⟨o', ho', hlt⟩ := h x hx
        obtain ⟨o, ho, rfl⟩ := List.mem_map.1 ho'
        exact ⟨o, ho, hlt⟩
  unfold Spec.Represents
  split
  next hc =>
    obtain ⟨c, hmin⟩ := minByKey_isSome (fun c : HistItem ℝ => (weighedAverageColor l).diff c.color) hne
    simp only [MBox.newS, MBox.newC]
    rw [if_pos (hcond.2 hc), hmin]
    refine ⟨c.spec, List.mem_map_of_mem (minByKey_mem _ hmin), rfl, ?_⟩
    intro y hy
    obtain ⟨x, hx, rfl⟩ := List.mem_map.1 hy
    rw [← hmean]
    show Spec.diff _ c.color.spec ≤ Spec.diff _ x.color.spec
    rw [← FPixel.diff_spec, ← FPixel.diff_spec]
    exact minByKey_le_real _ hmin x hx
  next hc =>
    simp only [MBox.newS, MBox.newC]
    rw [if_neg (fun h => hc (hcond.1 h)), hmean]

theorem split_sound (o : SortOracle ℝ) {b : MBox ℝ} (hb : b.Sound) (others : List (MBox ℝ)) :
    (b.split o others).1.Sound ∧ (b.split o others).2.Sound := by
  have hok : ∀ x ∈ (b.split o others).1.colors ++ (b.split o others).2.colors, ItemOK x := by
    intro x hx
    have h1 := (split_perm o b others).mem_iff.1 (List.mem_map_of_mem (f := HistItem.core) hx)
    obtain ⟨y, hy, e⟩ := List.mem_map.1 h1
    simp only [HistItem.core, Prod.mk.injEq] at e
    have := hb.items y hy
    exact ⟨e.1 ▸ this.unit, e.2.1 ▸ this.weight, e.2.2 ▸ this.share⟩
  have hsum : ((b.split o others).1.colors.map (·.adjustedWeight)).sum +
      ((b.split o others).2.colors.map (·.adjustedWeight)).sum = (b.colors.map (·.adjustedWeight)).sum := by
    rw [← List.sum_append, ← List.map_append]
    have := ((split_perm o b others).map (fun c => c.2.1)).sum_eq
    simpa only [List.map_map, Function.comp_def, HistItem.core] using this
  have hw : b.adjustedWeightSum = (b.colors.map (·.adjustedWeight)).sum := by
    rw [hb.weight]; simp [Spec.Box.weight, MBox.spec, HistItem.spec, Function.comp_def]
  constructor
  · apply newC_sound
    · exact fun x hx => hok x (List.mem_append_left _ hx)
    · exact sum64_real _
  · apply newC_sound
    · exact fun x hx => hok x (List.mem_append_right _ hx)
    · have e : ∀ l : List (HistItem ℝ), sum64 (l.map (·.adjustedWeight)) = (l.map (·.adjustedWeight)).sum := fun l => sum64_real _
      rw [real_sub64, hw, e, ← hsum]
      exact add_sub_cancel_left _ _

/-! ### When to stop -/

theorem computeTotalError_spec (b : MBox ℝ) : b.computeTotalError = b.spec.error := by
  unfold MBox.computeTotalError
  rw [sum64_real]
  simp only [Spec.Box.error, MBox.spec, List.map_map]
  congr 1
  apply List.map_congr_left
  intro x _
  simp only [Function.comp, HistItem.spec, real_mul64, FPixel.diff_spec]
  ring

theorem MBox.Sound.error_nonneg {b : MBox ℝ} (h : b.Sound) : 0 ≤ b.spec.error := by
  unfold Spec.Box.error
  apply List.sum_nonneg
  intro y hy
  obtain ⟨x, hx, rfl⟩ := List.mem_map.1 hy
  obtain ⟨z, hz, rfl⟩ := List.mem_map.1 hx
  exact mul_nonneg (h.items z hz).share (Spec.diff_nonneg _ _)

theorem MBox.Sound.cached {b : MBox ℝ} (h : b.Sound) :
    ({ b with totalError := some b.computeTotalError } : MBox ℝ).Sound :=
  ⟨h.items, h.variance, h.weight, h.worst, by
    intro e he
    injection he with he
    rw [← he]; exact computeTotalError_spec b⟩

/-- the errors that are not cached -/
noncomputable def missing (l : List (MBox ℝ)) : ℝ := ((l.filter (·.totalError.isNone)).map fun b => b.spec.error).sum

theorem missing_nonneg {l : List (MBox ℝ)} (h : ∀ b ∈ l, b.Sound) : 0 ≤ missing l := by
  apply List.sum_nonneg
  intro y hy
  obtain ⟨x, hx, rfl⟩ := List.mem_map.1 hy
  exact (h x (List.mem_of_mem_filter hx)).error_nonneg

theorem errorsFrom_spec (target total : ℝ) (l : List (MBox ℝ)) (hl : ∀ b ∈ l, b.Sound) (ht : total ≤ target) :
    ((errorsFrom target total l).1 = true ↔ total + missing l ≤ target) ∧
    (errorsFrom target total l).2.map MBox.spec = l.map MBox.spec ∧
    ∀ b ∈ (errorsFrom target total l).2, b.Sound := by
  induction l generalizing total with
  | nil => simp [errorsFrom, missing, ht]
  | cons b bs ih =>
    have hb := hl b (by simp)
    have hbs : ∀ b ∈ bs, b.Sound := fun x hx => hl x (by simp [hx])
    unfold errorsFrom
    cases he : b.totalError with
    | some e =>
      obtain ⟨h1, h2, h3⟩ := ih total hbs ht
      refine ⟨?_, by simp [h2], ?_⟩
      · have : missing (b :: bs) = missing bs := by simp [missing, he]
        rw [this]; exact h1
      · intro x hx
        rcases List.mem_cons.1 hx with rfl | hx
        · exact hb
        · exact h3 x hx
    | none =>
      have hm : missing (b :: bs) = b.spec.error + missing bs := by simp [missing, he]
      have hce := computeTotalError_spec b
      have hmn := missing_nonneg hbs
      dsimp only
      split
      next hlt =>
        rw [real_lt, real_add64, hce] at hlt
        refine ⟨?_, rfl, ?_⟩
        · rw [hm]
          constructor
          · intro h; cases h
          · intro h; linarith
        · intro x hx
          rcases List.mem_cons.1 hx with rfl | hx
          · exact hb.cached
          · exact hbs x hx
      next hlt =>
        rw [real_lt, real_add64, hce] at hlt
        obtain ⟨h1, h2, h3⟩ := ih (total +₆ b.computeTotalError) hbs (by rw [real_add64, hce]; exact not_lt.1 hlt)
        refine ⟨?_, ?_, ?_⟩
        · rw [hm, ← add_assoc]
          rw [real_add64, hce] at h1
          simpa only [real_add64, hce] using h1
        · rw [List.map_cons, List.map_cons, h2]; rfl
        · intro x hx
          rcases List.mem_cons.1 hx with rfl | hx
          · exact hb.cached
          · exact h3 x hx

theorem error_sum (l : List (MBox ℝ)) (hl : ∀ b ∈ l, b.Sound) :
    ((l.map MBox.spec).map Spec.Box.error).sum = (l.filterMap (·.totalError)).sum + missing l := by
  induction l with
  | nil => simp [missing]
  | cons b bs ih =>
    have h := ih (fun x hx => hl x (by simp [hx]))
    rw [List.map_cons, List.map_cons, List.sum_cons, h]
    cases he : b.totalError with
    | some e =>
      have e1 : missing (b :: bs) = missing bs := by simp [missing, he]
      rw [e1, List.filterMap_cons, he, List.sum_cons, (hl b (by simp)).error e he]
      ring
    | none =>
      have e1 : missing (b :: bs) = b.spec.error + missing bs := by simp [missing, he]
      rw [e1, List.filterMap_cons, he]
      ring

theorem belowTarget_spec (l : List (MBox ℝ)) (hl : ∀ b ∈ l, b.Sound) (w t : ℝ) :
    ((totalBoxErrorBelowTarget l w t).1 = true ↔ ((l.map MBox.spec).map Spec.Box.error).sum ≤ t * w) ∧
    (totalBoxErrorBelowTarget l w t).2.map MBox.spec = l.map MBox.spec ∧
    ∀ b ∈ (totalBoxErrorBelowTarget l w t).2, b.Sound := by
  rw [error_sum l hl]
  have hmn := missing_nonneg hl
  unfold totalBoxErrorBelowTarget
  simp only [sum64_real, real_mul64]
  split
  next hlt =>
    rw [real_lt] at hlt
    refine ⟨⟨fun h => (by cases h), fun h => (by linarith)⟩, rfl, hl⟩
  next hlt =>
    rw [real_lt] at hlt
    exact errorsFrom_spec _ _ l hl (not_lt.1 hlt)

/-! ### The loop -/

theorem cutLoop_spec (o : SortOracle ℝ) (target : ℕ) (hw tm mm : ℝ) (hmm : 0 < mm) (boxes : List (MBox ℝ))
    (h : ∀ b ∈ boxes, b.Sound) :
    Spec.Cut target mm (tm * hw) (boxes.map MBox.spec) ((cutLoop o target hw tm mm boxes).map MBox.spec) := by
  have step : ∀ (boxes : List (MBox ℝ)) (b : MBox ℝ) (i : ℕ), boxes.length < target → (∀ b ∈ boxes, b.Sound) →
      bestSplittable boxes (fma64 (lit64 boxes.length /₆ lit64 target *₆ lit64 16) mm mm) = some (b, i) →
      Spec.CutStep target mm (boxes.map MBox.spec) ((splitStep o boxes b i).map MBox.spec) ∧
      ∀ x ∈ splitStep o boxes b i, x.Sound := by
    intro boxes b i hlt hs hsome
    obtain ⟨hi, hlen⟩ := bestSplittable_some hsome
    have hperm := swapRemove_perm hi
    have hb := hs b (List.mem_of_getElem? hi)
    have hpos : 0 < (1 + 16 * (((boxes.map MBox.spec).length : ℝ) / target)) * mm := by positivity
    have hlim : (fma64 (lit64 boxes.length /₆ lit64 target *₆ lit64 16) mm mm : ℝ) =
        (1 + 16 * (((boxes.map MBox.spec).length : ℝ) / target)) * mm := by
      simp only [real_fma64, real_div64, real_mul64, real_lit64, List.length_map]
      push_cast; ring
    rw [hlim] at hsome
    have hsplit := split_sound o hb (swapRemove boxes i)
    refine ⟨⟨by rwa [List.length_map], b.spec, (swapRemove boxes i).map MBox.spec, (b.split o (swapRemove boxes i)).1.spec,
      (b.split o (swapRemove boxes i)).2.spec, ?_, by simpa [MBox.spec] using hlen, ?_,
      split_halved o hb hlen _, ?_, ?_, ?_⟩, ?_⟩
    · rw [← List.map_cons]; exact (hperm.map _).symm
    · intro b' hb' hl' p p' hp hp'
      obtain ⟨c, hc, rfl⟩ := List.mem_map.1 hb'
      rw [hp.unique (hb.priority hpos), hp'.unique ((hs c hc).priority hpos)]
      obtain ⟨j, hj⟩ := List.mem_iff_getElem?.1 hc
      refine maxByKey_ge_real (fun x : MBox ℝ × ℕ => splitPriority _ x.1) hsome (c, j) ?_
      rw [List.mem_filter]
      exact ⟨List.mem_zipIdx_iff_getElem?.2 (by simpa using hj), by simpa [MBox.spec] using hl'⟩
    · exact newS_represents _ hsplit.1.items (split_left_pos o b _ (List.ne_nil_of_length_pos (by omega))) _ _
    · exact newS_represents _ hsplit.2.items (split_right_pos o b _ hlen) _ _
    · rw [← List.map_cons, ← List.map_cons]
      exact List.Perm.map _ List.perm_append_comm
    · intro x hx
      simp only [splitStep, List.mem_append, List.mem_cons, List.not_mem_nil, or_false] at hx
      rcases hx with hx | rfl | rfl
      · exact hs x (hperm.mem_iff.1 (List.mem_cons_of_mem _ hx))
      · exact hsplit.1
      · exact hsplit.2
  fun_induction cutLoop with
  | case1 boxes hlt _ _ hnone =>
    refine Spec.Cut.single _ (by rwa [List.length_map]) ?_
    intro b' hb'
    obtain ⟨b, hb, rfl⟩ := List.mem_map.1 hb'
    by_contra hgt
    obtain ⟨j, hj⟩ := List.mem_iff_getElem?.1 hb
    have hmem : (b, j) ∈ boxes.zipIdx.filter fun x => decide (x.1.colors.length > 1) := by
      rw [List.mem_filter]
      exact ⟨List.mem_zipIdx_iff_getElem?.2 (by simpa using hj), by simpa [MBox.spec] using hgt⟩
    unfold bestSplittable at hnone
    cases hf : boxes.zipIdx.filter fun x => decide (x.1.colors.length > 1) with
    | nil => rw [hf] at hmem; cases hmem
    | cons y ys => rw [hf] at hnone; simp [maxByKey] at hnone
  | case2 boxes hlt _ _ b i hsome rest r boxes' e he =>
    obtain ⟨h1, h2⟩ := step boxes b i hlt h hsome
    obtain ⟨h3, h4, h5⟩ := belowTarget_spec (splitStep o boxes b i) h2 hw tm
    have e4 : e.2.map MBox.spec = (splitStep o boxes b i).map MBox.spec := h4
    rw [e4]
    exact Spec.Cut.good _ _ h1 (h3.1 he)
  | case3 boxes hlt _ _ b i hsome rest r boxes' e he ih =>
    obtain ⟨h1, h2⟩ := step boxes b i hlt h hsome
    obtain ⟨h3, h4, h5⟩ := belowTarget_spec (splitStep o boxes b i) h2 hw tm
    have e4 : e.2.map MBox.spec = (splitStep o boxes b i).map MBox.spec := h4
    have h6 := ih h5
    rw [e4] at h6
    refine Spec.Cut.more _ _ _ h1 ?_ h6
    by_contra hle
    exact he (h3.2 (not_lt.1 hle))
  | case4 boxes hlt => exact Spec.Cut.enough _ (by rw [List.length_map]; omega)

theorem new_sound (s : ℕ) {l : List (HistItem ℝ)} (hl : ∀ x ∈ l, ItemOK x) :
    (MBox.new s l).Sound ∧ (MBox.new s l).spec.rep = Spec.mean (MBox.new s l).spec.items :=
  ⟨newC_sound s l _ _ hl (sum64_real _), mean_spec l hl⟩

theorem clusterBoxes_start (start s n : ℕ) (all : List (HistItem ℝ)) (cs : List (ℕ × ℕ))
    (h : ClusterChain s n cs) (hall : ∀ x ∈ all, ItemOK x) (boxes : List (MBox ℝ))
    (hb : clusterBoxes start (all.drop s) cs = .ok boxes) :
    boxes.map (fun b => b.colors) = (cs.map fun c => (all.drop c.1).take (c.2 - c.1)) ∧
    ∀ b ∈ boxes, b.Sound ∧ b.spec.rep = Spec.mean b.spec.items := by
  induction cs generalizing start s boxes with
  | nil =>
    simp only [clusterBoxes] at hb
    injection hb with hb
    subst hb; simp
  | cons c cs ih =>
    obtain ⟨b, e⟩ := c
    obtain ⟨rfl, h2, h3⟩ := h
    simp only [clusterBoxes] at hb
    split at hb
    next hfit =>
      rw [List.drop_drop, Nat.add_sub_cancel' h2] at hb
      cases hr : clusterBoxes (start + (e - b)) (all.drop e) cs with
      | error x => rw [hr] at hb; cases hb
      | ok rest =>
        rw [hr] at hb
        injection hb with hb
        obtain ⟨i1, i2⟩ := ih (start + (e - b)) e h3 rest hr
        subst hb
        refine ⟨by simp [i1], ?_⟩
        intro x hx
        rcases List.mem_cons.1 hx with rfl | hx
        · exact new_sound _ (fun y hy => hall y (List.mem_of_mem_drop (List.mem_of_mem_take hy)))
        · exact i2 x hx
    next => cases hb

theorem initialBoxes_start (h : HistogramInternal ℝ) (target : ℕ) (ht : h.Tiled) (hall : ∀ x ∈ h.items, ItemOK x)
    (boxes : List (MBox ℝ)) (hb : initialBoxes h target = .ok boxes) :
    Spec.IsStart (h.items.map HistItem.spec) h.clusters target (boxes.map MBox.spec) ∧ ∀ b ∈ boxes, b.Sound := by
  unfold initialBoxes at hb
  simp only at hb
  split at hb
  next hle =>
    obtain ⟨h1, h2⟩ := clusterBoxes_start 0 0 h.items.length h.items _ ht.filter hall boxes (by rwa [List.drop_zero])
    refine ⟨⟨?_, ?_⟩, fun b hb => (h2 b hb).1⟩
    · rw [if_pos hle, List.map_map]
      have := congrArg (List.map (List.map HistItem.spec)) h1
      simp only [List.map_map] at this
      refine Eq.trans ?_ (this.trans ?_)
      · rfl
      · apply List.map_congr_left
        intro c _
        simp [List.map_take, List.map_drop]
    · intro b' hb'
      obtain ⟨b, hb2, rfl⟩ := List.mem_map.1 hb'
      exact (h2 b hb2).2
  next hle =>
    injection hb with hb
    subst hb
    have := new_sound 0 hall
    refine ⟨⟨?_, ?_⟩, ?_⟩
    · rw [if_neg hle]; rfl
    · intro b' hb'
      simp only [List.map_cons, List.map_nil, List.mem_singleton] at hb'
      subst hb'; exact this.2
    · intro b hb
      simp only [List.mem_singleton] at hb
      subst hb; exact this.1

end Verif
