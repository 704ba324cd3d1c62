import Verif.Model.Machine
import Verif.Lemmas.QuantError
import Verif.Lemmas.Debug
import Verif.Lemmas.Reach

/-! Quantization in machine integers is quantization in unbounded integers. -/

set_option linter.unusedSectionVars false

namespace Verif
open Flt Mach

/-! ### Operations -/

namespace Mach

theorem fit_lt {n a : ℕ} (h : a < 2 ^ n) : fit n a = .ok a := if_pos h
theorem add_lt {n a b : ℕ} (h : a + b < 2 ^ n) : add n a b = .ok (a + b) := if_pos h
theorem mul_lt {n a b : ℕ} (h : a * b < 2 ^ n) : mul n a b = .ok (a * b) := if_pos h
theorem sub_le {a b : ℕ} (h : b ≤ a) : sub a b = .ok (a - b) := if_pos h
theorem div_pos {a b : ℕ} (h : 0 < b) : div a b = .ok (a / b) := if_neg (by omega)
theorem ifit_in {n : ℕ} {a : ℤ} (h1 : -(2 ^ (n - 1)) ≤ a) (h2 : a < 2 ^ (n - 1)) : ifit n a = .ok a := if_pos ⟨h1, h2⟩
theorem iadd16 {a b : ℤ} (h1 : -32768 ≤ a + b) (h2 : a + b < 32768) : iadd 16 a b = .ok (a + b) := ifit_in (by simpa using h1) (by simpa using h2)
theorem isub16 {a b : ℤ} (h1 : -32768 ≤ a - b) (h2 : a - b < 32768) : isub 16 a b = .ok (a - b) := ifit_in (by simpa using h1) (by simpa using h2)
theorem icast16 {a : ℕ} (h : a < 32768) : icast 16 a = a := by
  unfold icast
  rw [Nat.mod_eq_of_lt (by omega), if_pos (by simpa using h)]
theorem cast16 {a : ℕ} (h : a < 65536) : cast 16 a = a := by
  unfold cast
  rw [show ((a : ℤ) % 2 ^ 16) = a by norm_num; omega]; simp
theorem ione32 {s : ℕ} (h : s < 31) : ione 32 s = .ok (2 ^ s) := by
  unfold ione
  rw [if_pos ⟨by omega, by omega⟩, Int.toNat_natCast]
  have : (2 : ℤ) ^ s < 2 ^ 31 := by
    exact_mod_cast Nat.pow_lt_pow_right (by norm_num : 1 < 2) h
  have h0 : (0 : ℤ) < 2 ^ s := by positivity
  exact ifit_in (by norm_num; omega) (by norm_num at this ⊢; omega)

end Mach

variable {F : Type} [Flt F]

/-! ### `attr.rs` -/

namespace Attr

theorem setSpeedM_eq (a : Attr F) (v : ℤ) : a.setSpeedM v = a.setSpeed v := by
  unfold setSpeedM setSpeed
  split
  · rfl
  next h =>
    rw [not_not] at h
    obtain ⟨h1, h2⟩ := h
    interval_cases v <;> simp [isub, iadd, imul, idiv, ione, ifit, Mach.cast, add, sub, mul, fit, checkedFit, checkedSub, Bind.bind, Except.bind] <;> norm_num

theorem reduceM_eq {x : ℕ} (h : x < 20000) : reduceM x = .ok (reduce x) := by
  unfold reduceM reduce
  rw [mul_lt (by norm_num; omega), Res.ok_bind, add_lt (by norm_num; omega), Res.ok_bind]
  rfl

theorem reduce_le (x : ℕ) : reduce x ≤ x := by
  unfold reduce; omega

theorem reduceBySizeM_eq {x : ℕ} (h : x < 20000) (n : ℕ) : reduceBySizeM x n = .ok (reduceBySize x n) := by
  have l1 := reduce_le x
  have l2 := reduce_le (reduce x)
  have l3 := reduce_le (reduce (reduce x))
  have e0 := reduceM_eq h
  have e1 := reduceM_eq (show reduce x < 20000 by omega)
  have e2 := reduceM_eq (show reduce (reduce x) < 20000 by omega)
  have e3 := reduceM_eq (show reduce (reduce (reduce x)) < 20000 by omega)
  unfold reduceBySizeM reduceBySize
  by_cases h1 : n > 5000 <;> by_cases h2 : n > 25000 <;> by_cases h3 : n > 50000 <;> by_cases h4 : n > 100000 <;>
    simp [h1, h2, h3, h4, e0, e1, e2, e3, Bind.bind, Except.bind]

theorem reduceBySize_le (x n : ℕ) : reduceBySize x n ≤ x := by
  have key : ∀ (y : ℕ) (c : Prop) [Decidable c], (if c then reduce y else y) ≤ y := by
    intro y c _
    split
    · exact reduce_le y
    · exact le_rfl
  unfold reduceBySize
  exact (key _ _).trans ((key _ _).trans ((key _ _).trans (key _ _)))

theorem feedbackTrialsM_eq {a : Attr F} (h : a.feedbackLoopTrials < 20000) (n : ℕ) :
    a.feedbackTrialsM n = .ok (a.feedbackTrials n) := reduceBySizeM_eq h n

theorem kmeansIterationsForM_eq {a : Attr F} (h : a.kmeansIterations < 20000) (n : ℕ) (b : Bool) :
    a.kmeansIterationsForM n b = .ok (a.kmeansIterationsFor n b) := by
  unfold kmeansIterationsForM
  rw [reduceBySizeM_eq h]
  rfl

end Attr

/-! ### The search -/

variable {env : Env F} {attr : Attr F} {H : HistogramInternal F → Prop} {P : PalF F → Prop}

theorem overallDoneM_eq (attr : Attr F) {total : ℕ} (h : total < 32767) (left : ℤ) :
    overallDoneM attr total left = .ok (overallDone attr total left) := by
  unfold overallDoneM overallDone
  rw [iadd16 (by omega) (by omega), Res.ok_bind]
  norm_cast

/-- `trials_left` and `fails_in_a_row` stay far from the ends of `i16` -/
theorem trialUpdateM_eq (st : FindState F) (t e : F) (p : PalF F) (hp : p.length < 65535) (h0 : 0 < st.trialsLeft)
    (h1 : st.trialsLeft + st.failsInARow < 16000) : trialUpdateM st t e p = .ok (trialUpdate st t e p) := by
  unfold trialUpdateM trialUpdate
  split
  · rw [cast16 (by omega), add_lt (by norm_num; omega), Res.ok_bind, isub16 (by omega) (by omega), Res.ok_bind]
    rfl
  · rw [iadd16 (by omega) (by omega), Res.ok_bind, iadd16 (by omega) (by omega), Res.ok_bind, isub16 (by omega) (by omega), Res.ok_bind]
    simp only [pure, Except.pure]
    norm_cast

theorem trialUpdate_sum (st : FindState F) (t e : F) (p : PalF F) :
    (trialUpdate st t e p).trialsLeft + (trialUpdate st t e p).failsInARow ≤ st.trialsLeft + st.failsInARow := by
  unfold trialUpdate
  split
  · simp only; omega
  · simp only; omega

theorem findLoopM_eq (c : Kept env attr.maxColors H P) (hP : ∀ p, P p → p.length < 65535) (targetMse : F) {total : ℕ} (ht : total < 32767)
    (st : FindState F) (log : List F) (h0 : H st.hist) (h1 : 1 ≤ st.maxColors) (h1' : st.maxColors ≤ attr.maxColors)
    (hs : st.trialsLeft + st.failsInARow < 16000) :
    findLoopM env attr targetMse total st log = findLoop env attr targetMse total st log := by
  generalize hn : st.trialsLeft.toNat = n
  induction n using Nat.strong_induction_on generalizing st log with
  | _ n ih =>
    rw [findLoopM, findLoop]
    refine PM.bind_congr fun ⟨pal, hist⟩ l e1 => ?_
    obtain ⟨f1, rfl⟩ := PM.lift_ok_inv e1
    dsimp only
    refine PM.bind_congr fun pal2 l2 e2 => ?_
    obtain ⟨f2, rfl⟩ := PM.lift_ok_inv e2
    obtain ⟨hh, hp⟩ := c.cut _ _ _ _ _ _ _ h0 h1 h1' f1 f2
    rw [overallDoneM_eq attr ht, PM.bind_ok (m := PM.lift (Except.ok _)) (log := l2) (log' := l2) rfl]
    by_cases hz : st.trialsLeft ≤ 0
    · rw [dif_pos hz, dif_pos hz]
    · rw [dif_neg hz, dif_neg hz]
      refine PM.bind_congr fun ⟨hist', p', err⟩ l3 e3 => ?_
      obtain ⟨f3, rfl⟩ := PM.lift_ok_inv e3
      obtain ⟨hh', hp'⟩ := c.pass _ _ _ _ _ _ _ hh hp f3
      dsimp only
      have hu := trialUpdateM_eq st targetMse err p' (hP _ hp') (by omega) hs
      rw [hu]
      refine PM.bind_congr fun ab l4 e4 => ?_
      split
      · rfl
      next hd =>
        have hlt := trialUpdate_lt st targetMse err p'
        have hsum := trialUpdate_sum st targetMse err p'
        refine ih _ ?_ (nextState st targetMse err p' hist') _ hh' (trialUpdate_maxColors st targetMse err p' h1).1
          ((trialUpdate_maxColors st targetMse err p' h1).2.trans h1') ?_ rfl
        · rw [← hn]
          show (trialUpdate st targetMse err p').trialsLeft.toNat < _
          omega
        · show (trialUpdate st targetMse err p').trialsLeft + (trialUpdate st targetMse err p').failsInARow < _
          omega

theorem refineLoopM_eq (maxMse : Option F) {iterations : ℕ} (hit : iterations < 65530) (limit : F) (clock i : ℕ)
    (hist : HistogramInternal F) (p : PalF F) (err : Option F) (log : List F) :
    refineLoopM env attr maxMse iterations limit clock i hist p err log =
      refineLoop env attr maxMse iterations limit clock i hist p err log := by
  generalize hn : iterations - i = n
  induction n using Nat.strong_induction_on generalizing clock i hist p err log with
  | _ n ih =>
    rw [refineLoopM, refineLoop]
    by_cases hi : i < iterations
    · rw [dif_pos hi, dif_pos hi]
      refine PM.bind_congr fun ab l e => ?_
      split
      · rfl
      · refine PM.bind_congr fun ⟨hist', q, pe⟩ l3 e3 => ?_
        dsimp only
        have ha : add 16 i (if lt (maxMse.getD (lit64 (10 ^ 20)) *₆ lit64 (15/10)) pe then 2 else 1) =
            .ok (i + if lt (maxMse.getD (lit64 (10 ^ 20)) *₆ lit64 (15/10)) pe then 2 else 1) :=
          add_lt (by norm_num; split <;> omega)
        have key : ∀ b : Bool, (if b = true then (pure (q, some pe) : PM F (PalF F × Option F)) else
            match _h : add 16 i (if lt (maxMse.getD (lit64 (10 ^ 20)) *₆ lit64 (15/10)) pe then 2 else 1) with
            | .error e => PM.throw e
            | .ok i' => refineLoopM env attr maxMse iterations limit (clock + 1) i' hist' q (some pe)) l3 =
            (if b = true then (pure (q, some pe) : PM F (PalF F × Option F)) else
            refineLoop env attr maxMse iterations limit (clock + 1)
            (i + if lt (maxMse.getD (lit64 (10 ^ 20)) *₆ lit64 (15/10)) pe then 2 else 1) hist' q (some pe)) l3 := by
          intro b
          cases b with
          | true => rfl
          | false =>
            simp only [Bool.false_eq_true, if_false]
            rw [ha]
            exact ih _ (by split <;> omega) _ _ _ _ _ _ rfl
        exact key _
    · rw [dif_neg hi, dif_neg hi]

theorem findBestPaletteM_eq (c : Kept env attr.maxColors H P) (hP : ∀ p, P p → p.length < 65535) (hm1 : 1 ≤ attr.maxColors)
    (ht : attr.feedbackLoopTrials < 16000) (hk : attr.kmeansIterations < 16000) (targetMse : F) (zero : Bool) (maxMse : Option F)
    {hist : HistogramInternal F} (h0 : H hist) (log : List F) :
    findBestPaletteM env attr targetMse zero maxMse hist log = findBestPalette env attr targetMse zero maxMse hist log := by
  unfold findBestPaletteM findBestPalette
  split
  · rfl
  · have hle : attr.feedbackTrials hist.items.length ≤ attr.feedbackLoopTrials := Attr.reduceBySize_le _ _
    rw [Attr.feedbackTrialsM_eq (by omega), PM.bind_ok (m := PM.lift (Except.ok _)) (log := log) (log' := log) rfl]
    dsimp only
    rw [icast16 (by omega)]
    have hi : FindState.initM attr (attr.feedbackTrials hist.items.length : ℕ) hist = FindState.init attr hist := by
      unfold FindState.initM FindState.init
      norm_cast
    rw [hi, PM.bind_apply, PM.bind_apply, findLoopM_eq c hP _ (by omega) _ _ h0 hm1 le_rfl (by
      show ((attr.feedbackTrials hist.items.length : ℕ) : ℤ) + ((0 : ℕ) : ℤ) < 16000
      omega)]
    cases hfl : findLoop env attr targetMse (attr.feedbackTrials hist.items.length) (FindState.init attr hist) log with
    | mk r l =>
      cases r with
      | error f => rfl
      | ok x =>
        obtain ⟨p, st⟩ := x
        show refinePaletteM env attr maxMse st.clock st.hist p st.paletteError l = _
        unfold refinePaletteM
        rw [Attr.kmeansIterationsForM_eq (by omega), PM.bind_ok (m := PM.lift (Except.ok _)) (log := l) (log' := l) rfl]
        refine refineLoopM_eq _ ?_ _ _ _ _ _ _ _
        have := Attr.reduceBySize_le attr.kmeansIterations st.hist.items.length
        show (if Attr.reduceBySize attr.kmeansIterations st.hist.items.length = 0 ∧ ¬ st.paletteError.isSome = true ∧
          attr.maxMse.isSome = true then 1 else Attr.reduceBySize attr.kmeansIterations st.hist.items.length) < 65530
        split <;> omega

theorem newM_eq (c : Kept env attr.maxColors H P) (hP : ∀ p, P p → p.length < 65535) (hm1 : 1 ≤ attr.maxColors)
    (ht : attr.feedbackLoopTrials < 16000) (hk : attr.kmeansIterations < 16000) (hb : attr.minPosterizationOutput < 31)
    {hist : HistogramInternal F} (h0 : H hist) (freeze : Bool) (gamma : F) (log : List F) :
    QuantizationResult.newM env attr hist freeze gamma log = QuantizationResult.new env attr hist freeze gamma log := by
  unfold QuantizationResult.newM QuantizationResult.new
  refine PM.bind_congr fun ab l e => ?_
  split
  · rfl
  · rw [ione32 hb, PM.bind_ok (m := PM.lift (Except.ok _)) (log := l) (log' := l) rfl]
    dsimp only
    rw [PM.bind_apply, PM.bind_apply, findBestPaletteM_eq c hP hm1 ht hk _ _ _ h0]

end Verif
