import Verif.Lemmas.RoundedFloyd

/-! # Strengths of dithering with rounding errors -/

set_option linter.unusedSectionVars false

namespace Verif
open Flt
open FltRound (val fin)

variable {F : Type} [Flt F] [FltOrd F]

theorem mul_near {a b x y d e A B : ℝ} (h1 : |a - x| ≤ d) (h2 : |b - y| ≤ e) (hx : |x| ≤ A) (hb : |b| ≤ B) (d0 : 0 ≤ d) (A0 : 0 ≤ A) :
    |a * b - x * y| ≤ d * B + A * e := by
  have : a * b - x * y = (a - x) * b + x * (b - y) := by ring
  rw [this]
  refine (abs_add_le _ _).trans (add_le_add ?_ ?_)
  · rw [abs_mul]; exact mul_le_mul h1 hb (abs_nonneg _) d0
  · rw [abs_mul]; exact mul_le_mul hx h2 (abs_nonneg _) A0

/-- strength before the map -/
theorem strength_upTo {level : F} (hf : fin level) (h0 : 0 ≤ val level) (h1 : val level ≤ 1.01) :
    fin (baseDitherLevel level false) ∧
      |val (baseDitherLevel level false) - (1 - (1 - val level) ^ 2) * (15/16)| ≤ 15 / 10 ^ 7 := by
  have l15 := approx_nat (F := F) (n := 15) (by norm_num) (by norm_num)
  have l16 := approx_nat (F := F) (n := 16) (by norm_num) (by norm_num)
  push_cast at l15 l16
  have q := l15.div32 l16 (by norm_num) (mid_of (by norm_num) (by norm_num)) (by rw [w32_val]; norm_num)
  have qv : |val (lit32 15 /₃ lit32 16 : F) - 15 / 16| ≤ 7 / 10 ^ 7 := by
    refine (q.rel.sub_le (by norm_num) (by rw [w32_val]; norm_num)).trans ?_
    rw [w32_val]; norm_num
  obtain ⟨o1, o2⟩ := lit_upTo (F := F) (q := 1) (B := 1) (by norm_num) (by norm_num) (by norm_num)
  push_cast at o2
  have o3 := abs_le.1 o2
  obtain ⟨s1, s2⟩ := sub_upTo (F := F) o1 hf (B := 101 / 100) (by rw [abs_le]; constructor <;> linarith) (by norm_num) (by norm_num)
  have s3 := abs_le.1 s2
  have s4 : |val (lit32 1 -₃ level : F) - (1 - val level)| ≤ 21 / 10 ^ 8 := by rw [abs_le]; constructor <;> linarith
  have s5 : |val (lit32 1 -₃ level : F)| ≤ 101 / 100 := by
    have := abs_le.1 s4
    rw [abs_le]; constructor <;> linarith
  obtain ⟨n1, n2⟩ := FltRound.neg (F := F) _ s1
  have hsq : |val (lit32 1 -₃ level : F) * val (lit32 1 -₃ level : F) - (1 - val level) * (1 - val level)| ≤ 43 / 10 ^ 8 :=
    (mul_near s4 s4 (A := 1) (by rw [abs_le]; constructor <;> linarith) s5 (by norm_num) (by norm_num)).trans (by norm_num)
  have hsq' := abs_le.1 hsq
  have hl2 : 0 ≤ (1 - val level) * (1 - val level) ∧ (1 - val level) * (1 - val level) ≤ 1 := ⟨mul_self_nonneg _, by nlinarith⟩
  obtain ⟨f1, f2⟩ := fma_upTo (F := F) s1 n1 o1 (B := 101 / 100) (by rw [n2, abs_le]; constructor <;> linarith) (by norm_num) (by norm_num)
  rw [n2] at f2
  have f3 := abs_le.1 f2
  have f4 : |val (fma32 (lit32 1 -₃ level) (fneg (lit32 1 -₃ level)) (lit32 1) : F) - (1 - (1 - val level) ^ 2)| ≤ 65 / 10 ^ 8 := by
    rw [abs_le]; constructor <;> linarith
  have f5 : |1 - (1 - val level) ^ 2| ≤ 1 := by rw [abs_le]; constructor <;> linarith
  have qa : |val (lit32 15 /₃ lit32 16 : F)| ≤ 95 / 100 := by
    have := abs_le.1 qv
    rw [abs_le]; constructor <;> linarith
  have pm := mul_near f4 qv f5 qa (by norm_num) (by norm_num)
  have pm' := abs_le.1 pm
  have fq : |(1 - (1 - val level) ^ 2) * (15 / 16 : ℝ)| ≤ 15 / 16 := by rw [abs_mul, abs_of_pos (a := (15 / 16 : ℝ)) (by norm_num)]; linarith
  have fq' := abs_le.1 fq
  obtain ⟨p1, p2⟩ := mul_upTo (F := F) f1 q.fin (B := 1) (by rw [abs_le]; constructor <;> linarith) (by norm_num) (by norm_num)
  have p3 := abs_le.1 p2
  refine ⟨p1, ?_⟩
  show |val (fma32 (lit32 1 -₃ level) (fneg (lit32 1 -₃ level)) (lit32 1) *₃ (lit32 15 /₃ lit32 16) : F) - _| ≤ _
  rw [abs_le]; constructor <;> linarith

/-- strength before it is multiplied by the entry of a map -/
theorem strength_map_upTo {level : F} (hf : fin level) (h0 : 0 ≤ val level) (h1 : val level ≤ 1.01) :
    fin (baseDitherLevel level true) ∧
      |val (baseDitherLevel level true) - (1 - (1 - val level) ^ 2) * (15/16) * (1/255)| ≤ 14 / 10 ^ 9 := by
  obtain ⟨b1, b2⟩ := strength_upTo hf h0 h1
  have l1 := approx_nat (F := F) (n := 1) (by norm_num) (by norm_num)
  have l255 := approx_nat (F := F) (n := 255) (by norm_num) (by norm_num)
  push_cast at l1 l255
  have q := l1.div32 l255 (by norm_num) (mid_of (by norm_num) (by norm_num)) (by rw [w32_val]; norm_num)
  have qv : |val (lit32 1 /₃ lit32 255 : F) - 1 / 255| ≤ 29 / 10 ^ 10 := by
    refine (q.rel.sub_le (by norm_num) (by rw [w32_val]; norm_num)).trans ?_
    rw [w32_val]; norm_num
  have qa : |val (lit32 1 /₃ lit32 255 : F)| ≤ 1 / 254 := by
    have := abs_le.1 qv
    rw [abs_le]; constructor <;> linarith
  have f5 : |(1 - (1 - val level) ^ 2) * (15/16 : ℝ)| ≤ 15 / 16 := by
    rw [abs_mul, abs_of_pos (a := (15 / 16 : ℝ)) (by norm_num)]
    have : |1 - (1 - val level) ^ 2| ≤ 1 := by rw [abs_le]; constructor <;> nlinarith
    linarith
  have pm := mul_near b2 qv f5 qa (by norm_num) (by norm_num)
  have pm' := abs_le.1 pm
  have f6 := abs_le.1 f5
  obtain ⟨p1, p2⟩ := mul_upTo (F := F) b1 q.fin (B := 1/20) (by rw [abs_le]; constructor <;> linarith) (by norm_num) (by norm_num)
  have p3 := abs_le.1 p2
  refine ⟨p1, ?_⟩
  show |val (baseDitherLevel level false *₃ (lit32 1 /₃ lit32 255) : F) - _| ≤ _
  rw [abs_le]; constructor <;> linarith

theorem level_upTo {ctx : DitherCtx F} {level : F} (hf : fin level) (h0 : 0 ≤ val level) (h1 : val level ≤ 1.01) {m : List UInt8}
    {dmap : ℕ → List UInt8} {w h : ℕ} (hm : m = [] ∨ m.length = w * h) (hb : ctx.base = baseDitherLevel level (!m.isEmpty))
    (hd : ∀ y, dmap y = if y * w + w ≤ m.length then (m.drop (y * w)).take w else []) :
    (∀ y x, fin (ditherLevelAt ctx (dmap y) x) ∧ |val (ditherLevelAt ctx (dmap y) x)| ≤ 1) ∧
    ∃ map : ℕ → ℕ → ℕ, (∀ y < h, ∀ x < w, (m = [] → map y x = 255) ∧ (m ≠ [] → m[y * w + x]?.map UInt8.toNat = some (map y x))) ∧
      ∀ y < h, ∀ x < w,
        |val (ditherLevelAt ctx (dmap y) x) - (1 - (1 - val level) ^ 2) * (15/16) * (map y x / 255)| ≤ 5 / 10 ^ 6 := by
  have hS : |(1 - (1 - val level) ^ 2) * (15/16 : ℝ)| ≤ 15 / 16 := by
    rw [abs_mul, abs_of_pos (a := (15 / 16 : ℝ)) (by norm_num)]
    have : |1 - (1 - val level) ^ 2| ≤ 1 := by rw [abs_le]; constructor <;> nlinarith
    linarith
  have hS' := abs_le.1 hS
  by_cases he : m = []
  · have hdn : ∀ y, dmap y = [] := by
      intro y
      rw [hd, he]
      split
      · simp
      · rfl
    have hbase : ctx.base = baseDitherLevel level false := by rw [hb, he]; rfl
    obtain ⟨b1, b2⟩ := strength_upTo hf h0 h1
    have hat : ∀ y x, ditherLevelAt ctx (dmap y) x = baseDitherLevel level false := by
      intro y x
      unfold ditherLevelAt
      rw [hdn, ← hbase]; rfl
    have b3 := abs_le.1 b2
    refine ⟨fun y x => ?_, fun _ _ => 255, fun y _ x _ => ⟨fun _ => rfl, fun h => absurd he h⟩, fun y _ x hx => ?_⟩
    · rw [hat]
      exact ⟨b1, by rw [abs_le]; constructor <;> linarith⟩
    · rw [hat]
      dsimp only
      rw [show ((255 : ℕ) : ℝ) / 255 = 1 by norm_num, mul_one]
      linarith
  · have hbase : ctx.base = baseDitherLevel level true := by
      rw [hb]
      cases m with
      | nil => exact absurd rfl he
      | cons a l => rfl
    obtain ⟨b1, b2⟩ := strength_map_upTo hf h0 h1
    have b3 := abs_le.1 b2
    have key : ∀ l : UInt8, fin (baseDitherLevel level true *₃ lit32 l.toNat : F) ∧
        |val (baseDitherLevel level true *₃ lit32 l.toNat : F) - (1 - (1 - val level) ^ 2) * (15/16) * (l.toNat / 255)| ≤ 5 / 10 ^ 6 := by
      intro l
      have hl : (l.toNat : ℝ) ≤ 255 := by
        have := l.toNat_lt
        exact_mod_cast (by omega : l.toNat ≤ 255)
      have hl0 : (0 : ℝ) ≤ l.toNat := Nat.cast_nonneg _
      obtain ⟨l1, l2⟩ := lit_upTo (F := F) (q := l.toNat) (B := 255) (by
        push_cast
        rw [abs_of_nonneg hl0]; exact hl) (by norm_num) (by norm_num)
      push_cast at l2
      have l3 := abs_le.1 l2
      have la : |val (lit32 l.toNat : F)| ≤ 256 := by rw [abs_le]; constructor <;> linarith
      have hq : |(1 - (1 - val level) ^ 2) * (15/16) * (1/255 : ℝ)| ≤ 15 / 16 / 255 := by
        rw [abs_mul, abs_of_pos (a := (1 / 255 : ℝ)) (by norm_num)]; linarith
      have pm := mul_near b2 l2 hq la (by norm_num) (by norm_num)
      have pm' := abs_le.1 pm
      have e : (1 - (1 - val level) ^ 2) * (15/16) * (1/255) * (l.toNat : ℝ) = (1 - (1 - val level) ^ 2) * (15/16) * (l.toNat / 255) := by ring
      have hr : |(1 - (1 - val level) ^ 2) * (15/16) * ((l.toNat : ℝ) / 255)| ≤ 15 / 16 := by
        rw [abs_mul]
        have : |(l.toNat : ℝ) / 255| ≤ 1 := by rw [abs_of_nonneg (by positivity)]; linarith
        exact (mul_le_mul hS this (abs_nonneg _) (by norm_num)).trans (by norm_num)
      have hr' := abs_le.1 hr
      rw [e] at pm'
      obtain ⟨p1, p2⟩ := mul_upTo (F := F) b1 l1 (B := 1) (by rw [abs_le]; constructor <;> linarith) (by norm_num) (by norm_num)
      have p3 := abs_le.1 p2
      exact ⟨p1, by rw [abs_le]; constructor <;> linarith⟩
    have hl : m.length = w * h := hm.resolve_left he
    have hlt : ∀ y < h, y * w + w ≤ w * h := by
      intro y hy
      calc y * w + w = w * (y + 1) := by ring
        _ ≤ w * h := Nat.mul_le_mul_left _ hy
    refine ⟨fun y x => ?_, fun y x => (m[y * w + x]?.map UInt8.toNat).getD 0, fun y hy x hx => ⟨fun h => absurd h he, fun _ => ?_⟩, fun y hy x hx => ?_⟩
    · unfold ditherLevelAt
      rw [hbase]
      split
      next l _ =>
        obtain ⟨k1, k2⟩ := key l
        have k3 := abs_le.1 k2
        have hr : |(1 - (1 - val level) ^ 2) * (15/16) * ((l.toNat : ℝ) / 255)| ≤ 15 / 16 := by
          rw [abs_mul]
          have hl : (l.toNat : ℝ) ≤ 255 := by
            have := l.toNat_lt
            exact_mod_cast (by omega : l.toNat ≤ 255)
          have : |(l.toNat : ℝ) / 255| ≤ 1 := by rw [abs_of_nonneg (by positivity)]; linarith
          exact (mul_le_mul hS this (abs_nonneg _) (by norm_num)).trans (by norm_num)
        have hr' := abs_le.1 hr
        exact ⟨k1, by rw [abs_le]; constructor <;> linarith⟩
      · exact ⟨b1, by rw [abs_le]; constructor <;> linarith⟩
    · have := hlt y hy
      dsimp only
      rw [List.getElem?_eq_getElem (show y * w + x < m.length by omega)]
      rfl
    · have := hlt y hy
      have hget : (dmap y)[x]? = m[y * w + x]? := by
        rw [hd, if_pos (by omega), List.getElem?_take_of_lt hx, List.getElem?_drop]
      have hx' := List.getElem?_eq_getElem (show y * w + x < m.length by omega)
      have hat : ditherLevelAt ctx (dmap y) x = baseDitherLevel level true *₃ lit32 (m[y * w + x]'(by omega)).toNat := by
        unfold ditherLevelAt
        rw [hget, hx', hbase]
      rw [hat]
      dsimp only
      rw [hx']
      exact (key _).2

/-! ### Larger tolerances -/

theorem Spec.LargeUpTo.mono {ε ε' n : ℝ} {limit : Option ℝ} {large : Bool} (h : Spec.LargeUpTo ε limit n large) (h0 : 0 ≤ ε)
    (he : ε ≤ ε') (hn : 0 ≤ n) : Spec.LargeUpTo ε' limit n large := by
  intro l hl
  obtain ⟨a, b⟩ := h l hl
  have e2 : ε ^ 2 ≤ ε' ^ 2 := pow_le_pow_left₀ h0 he 2
  have en : ε * n ≤ ε' * n := mul_le_mul_of_nonneg_right he hn
  exact ⟨fun h => (a h).trans (by linarith), fun h => le_trans (by linarith) (b h)⟩

theorem Spec.PushedUpTo.mono {ε ε' : ℝ} {limit : Option ℝ} {px s t : Fin 4 → ℝ} (h : Spec.PushedUpTo ε limit px s t) (h0 : 0 ≤ ε)
    (he : ε ≤ ε') : Spec.PushedUpTo ε' limit px s t := by
  rcases h with ⟨h1, h2⟩ | ⟨h1, h2, u, large, h3, h4, h5⟩
  · exact .inl ⟨h1.trans (by linarith), h2⟩
  · exact .inr ⟨le_trans (by linarith) h1, h2.trans he, u, large, h3, h4.mono h0 he (normSq_nonneg _), fun i hi => (h5 i hi).trans he⟩

/-- what a pixel receives from errors that are bounded -/
theorem received_le {err : ℤ → ℤ → Fin 4 → ℝ} {B : ℝ} (y x : ℤ) (i : Fin 4) (h : ∀ x', |err y x' i| ≤ B) (h' : ∀ x', |err (y - 1) x' i| ≤ B) :
    |Spec.received err y x i| ≤ B := by
  unfold Spec.received
  dsimp only
  have h1 := abs_le.1 (h (x - Spec.direction y))
  have h2 := abs_le.1 (h' (x - Spec.direction y))
  have h3 := abs_le.1 (h' x)
  have h4 := abs_le.1 (h' (x + Spec.direction y))
  rw [abs_le]; constructor <;> linarith

/-- the strengths need not be exact either -/
theorem Spec.DitheredUpTo.strength {ε ε' d : ℝ} {w top bottom : ℕ} {k k' : ℕ → ℕ → ℝ} {limit : Option ℝ} {px shown target : ℕ → ℕ → Color}
    {err : ℤ → ℤ → Fin 4 → ℝ} (h : Spec.DitheredUpTo ε w top bottom k limit px shown target err) (h0 : 0 ≤ ε)
    (hk : ∀ y x, y < bottom → x < w → |k y x - k' y x| ≤ d) (d0 : 0 ≤ d)
    (hB : ∀ y x : ℕ, top ≤ y → y < bottom → x < w → ∀ i, |err y x i| ≤ 111 / 100) (he : ε + d * (111 / 100) ≤ ε') :
    Spec.DitheredUpTo ε' w top bottom k' limit px shown target err where
  outside := h.outside
  wanted y x h1 h2 h3 := by
    obtain ⟨s, s1, s2⟩ := h.wanted y x h1 h2 h3
    refine ⟨s, fun i => ?_, s2.mono h0 (by linarith)⟩
    have hall : ∀ y' : ℤ, y' < bottom → ∀ x', |err y' x' i| ≤ 111 / 100 := by
      intro y' hy' x'
      by_cases ho : y' < top ∨ x' < 0 ∨ (w : ℤ) ≤ x'
      · rw [h.outside y' x' ho]; simp
        norm_num
      · push Not at ho
        obtain ⟨a, rfl⟩ := Int.eq_ofNat_of_zero_le (show 0 ≤ y' by omega)
        obtain ⟨b, rfl⟩ := Int.eq_ofNat_of_zero_le ho.2.1
        exact hB a b (by omega) (by omega) (by omega) i
    have hr := received_le y x i (hall y (by omega)) (hall (y - 1) (by omega))
    have : s i - k' y x * Spec.received err y x i =
        (s i - k y x * Spec.received err y x i) + (k y x - k' y x) * Spec.received err y x i := by ring
    rw [this]
    refine (abs_add_le _ _).trans ((add_le_add (s1 i) ?_).trans he)
    rw [abs_mul]
    exact mul_le_mul (hk y x h2 h3) hr (abs_nonneg _) d0
  error y x h1 h2 h3 := by
    obtain ⟨large, a, b⟩ := h.error y x h1 h2 h3
    exact ⟨large, a.mono h0 (by linarith) (normSq_nonneg _), fun i => (b i).trans (by linarith)⟩

end Verif
