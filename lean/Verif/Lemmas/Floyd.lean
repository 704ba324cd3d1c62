import Verif.Lemmas.Diffuse
import Verif.Spec.Floyd

/-! # The rolling buffers of the dithering compute Floyd-Steinberg error diffusion -/

namespace Verif
open Flt

theorem chans_spec (p : FPixel ℝ) : p.spec.chans = p.chan := rfl

theorem normSq_chan (p : FPixel ℝ) : p.normSq = Spec.normSq p.chan := by
  unfold FPixel.normSq Spec.normSq
  simp [Fin.sum_univ_four, FPixel.chan]
  ring

theorem limitRatio_iff {ratio px s t : ℝ} (h1 : ratio ≤ 1) (hl : -0.1 ≤ px) (hu : px ≤ 1.1) (h0 : 0 ≤ ratio)
    (ht : 0 ≤ t) : t ≤ limitRatio ratio px s ↔ t ≤ ratio ∧ -0.1 ≤ px + t * s ∧ px + t * s ≤ 1.1 := by
  obtain ⟨a1, a2, a3⟩ := limitRatio_spec (s := s) h0 h1 hl hu
  constructor
  · intro h
    obtain ⟨b1, b2⟩ := a3 t ht h
    exact ⟨h.trans a2, by rw [mul_comm]; exact b1, by rw [mul_comm]; exact b2⟩
  · rintro ⟨b1, b2, b3⟩
    unfold limitRatio
    simp only [real_lt, real_add32, real_sub32, real_div32, real_lit32, real_min]
    push_cast
    norm_num at hl hu b2 b3 ⊢
    split
    next h =>
      have hs : 0 < s := by linarith
      exact le_min b1 ((le_div_iff₀ hs).mpr (by linarith))
    next h =>
      split
      next h2 =>
        have hs : s < 0 := by linarith
        exact le_min b1 ((le_div_iff_of_neg hs).mpr (by linarith))
      next h2 => exact b1

/-- the part of `s` that is added is the largest one that fits -/
theorem limitRatio_greatest {px s : Fin 4 → ℝ} (h : ∀ i ≠ 0, -0.1 ≤ px i ∧ px i ≤ 1.1) :
    let t1 := limitRatio 1 (px 1) (s 1)
    let t2 := limitRatio t1 (px 2) (s 2)
    let t3 := limitRatio t2 (px 3) (s 3)
    t1 ≤ 1 ∧ t2 ≤ 1 ∧ IsGreatest {t | 0 ≤ t ∧ t ≤ 1 ∧ Spec.Fits px s t} t3 := by
  intro t1 t2 t3
  obtain ⟨hr, hr'⟩ := h 1 (by decide)
  obtain ⟨hg, hg'⟩ := h 2 (by decide)
  obtain ⟨hb, hb'⟩ := h 3 (by decide)
  obtain ⟨a1, a2, a3⟩ := limitRatio_spec (ratio := 1) (s := s 1) (by norm_num) (le_refl _) hr hr'
  obtain ⟨b1, b2, b3⟩ := limitRatio_spec (s := s 2) a1 a2 hg hg'
  obtain ⟨c1, c2, c3⟩ := limitRatio_spec (s := s 3) b1 (b2.trans a2) hb hb'
  have key : ∀ t, 0 ≤ t → (t ≤ t3 ↔ t ≤ 1 ∧ Spec.Fits px s t) := by
    intro t ht
    rw [limitRatio_iff (b2.trans a2) hb hb' b1 ht, limitRatio_iff a2 hg hg' a1 ht, limitRatio_iff (le_refl _) hr hr' zero_le_one ht]
    unfold Spec.Fits
    constructor
    · rintro ⟨⟨⟨h1, hr⟩, hg⟩, hb⟩
      refine ⟨h1, fun i hi => ?_⟩
      fin_cases i
      · simp at hi
      · exact hr
      · exact hg
      · exact hb
    · rintro ⟨h1, h2⟩
      exact ⟨⟨⟨h1, h2 1 (by decide)⟩, h2 2 (by decide)⟩, h2 3 (by decide)⟩
  refine ⟨a2, b2.trans a2, ⟨c1, (key _ c1).mp (le_refl _)⟩, ?_⟩
  rintro t ⟨h0, h1⟩
  exact (key t h0).mpr h1

/-- the colour searched for -/
theorem ditheredPixel_pushed (level maxErr : ℝ) (e : FPixel ℝ) {px : FPixel ℝ} (h : px.InBox) :
    Spec.Pushed maxErr px.spec.chans (fun i => level * e.chan i) (ditheredPixel level maxErr e px).spec.chans := by
  have hs : (fun i => level * e.chan i) = (e.scale level).chan := by
    funext i; rw [chan_scale, mul_comm]
  rw [hs, chans_spec, chans_spec]
  obtain ⟨hr, hg, hb, ha⟩ := h
  unfold ditheredPixel Spec.Pushed
  simp only
  generalize e.scale level = s
  rw [normSq_chan]
  simp only [real_lt, real_lit32]
  push_cast
  split
  next hlt => exact .inl ⟨hlt, rfl⟩
  next hlt =>
    refine .inr ⟨not_lt.mp hlt, ?_, ?_⟩
    · simp only [FPixel.chan, Matrix.cons_val_zero]
      unfold clamp
      simp only [real_lt, real_add32]
      split
      next h1 => rw [min_eq_right (by linarith), max_eq_left h1.le]
      next h1 =>
        push Not at h1
        split
        next h2 => rw [min_eq_left h2.le, max_eq_right zero_le_one]
        next h2 => push Not at h2; rw [min_eq_right h2, max_eq_right h1]
    · refine ⟨limitRatio (limitRatio (limitRatio 1 px.r s.r) px.g s.g) px.b s.b, ?_, ?_⟩
      · refine (limitRatio_greatest (px := px.chan) (s := s.chan) fun i hi => ?_).2.2
        fin_cases i
        · simp at hi
        · exact hr
        · exact hg
        · exact hb
      · intro i hi
        fin_cases i
        · simp at hi
        all_goals
          simp only [FPixel.chan, real_fma32, real_mul32, Fin.mk_one, Matrix.cons_val_one, Matrix.cons_val_zero,
            Matrix.cons_val, Fin.reduceFinMk]
          norm_num
          split <;> ring

/-- the error of a pixel -/
theorem pixelError_chan (limit : ℝ) (t s : FPixel ℝ) (i : Fin 4) :
    let e := fun i => t.chan i - s.chan i
    (pixelError limit t s).chan i = if limit < Spec.normSq e then 3/4 * e i else e i := by
  have he : (fun i => t.chan i - s.chan i) = (t.sub s).chan := by funext i; rw [chan_sub]
  simp only
  rw [he]
  unfold pixelError
  simp only [real_lt, normSq_chan]
  split
  · rw [chan_scale, chan_sub]
    simp; ring
  · rw [chan_sub]

theorem ditherCol_ditherCol {w c : ℕ} (even : Bool) (hc : c < w) : ditherCol w even (ditherCol w even c) = c := by
  unfold ditherCol; cases even <;> simp; omega

/-- the cell of a column -/
theorem cellAt_col {F : Type} [Flt F] {w c : ℕ} (even : Bool) (hc : c < w) (l : List (FPixel F)) :
    cellAt w even l (ditherCol w even c + 1) = l.getD (c + 1) FPixel.default := by
  unfold cellAt mirror ditherCol
  congr 1
  cases even <;> simp; omega

/-- the errors of the pixels of a band, by row and column -/
noncomputable def bandError (w top bottom : ℕ) (E : ℕ → ℕ → FPixel ℝ) (y x : ℤ) : Fin 4 → ℝ :=
  if (top : ℤ) ≤ y ∧ y < bottom ∧ 0 ≤ x ∧ x < w then (E y.toNat (ditherCol w (decide (y.toNat % 2 = 0)) x.toNat)).chan else 0

theorem bandError_nat {w top bottom : ℕ} (E : ℕ → ℕ → FPixel ℝ) {y x : ℕ} (h1 : top ≤ y) (h2 : y < bottom) (h3 : x < w) :
    bandError w top bottom E y x = (E y (ditherCol w (decide (y % 2 = 0)) x)).chan := by
  unfold bandError
  rw [if_pos ⟨by omega, by omega, by omega, by omega⟩]
  simp

theorem bandError_out {w top bottom : ℕ} (E : ℕ → ℕ → FPixel ℝ) {y x : ℤ}
    (h : y < top ∨ (bottom : ℤ) ≤ y ∨ x < 0 ∨ (w : ℤ) ≤ x) : bandError w top bottom E y x = 0 := by
  unfold bandError
  rw [if_neg (by omega)]

/-- what the pixels of a row whose errors are `E` have left in cell `j` of the row below after `k` pixels -/
noncomputable def leftBelow (E : ℕ → ℝ) (k j : ℕ) : ℝ :=
  (if j < k then 3/16 * E j else 0) + (if 1 ≤ j ∧ j < k + 1 then 5/16 * E (j - 1) else 0) +
    (if 2 ≤ j ∧ j < k + 2 then 1/16 * E (j - 2) else 0)

/-- and in cell `j` of their own row -/
noncomputable def leftBeside (E : ℕ → ℝ) (k j : ℕ) : ℝ := if 2 ≤ j ∧ j < k + 2 then 7/16 * E (j - 2) else 0

/-- one row: what is left to a pixel of the row below after the whole row -/
theorem leftBelow_col {w : ℕ} {even : Bool} (E : ℕ → ℝ) {c : ℕ} (hc : c < w) :
    let at' := fun c => if 0 ≤ c ∧ c < (w : ℤ) then E (ditherCol w even c.toNat) else 0
    let d : ℤ := if even then 1 else -1
    leftBelow E w (ditherCol w even c + 1) = 3/16 * at' (c + d) + 5/16 * at' c + 1/16 * at' (c - d) := by
  intro at' d
  unfold leftBelow
  have hx := ditherCol_lt even hc
  have e1 : at' c = E (ditherCol w even c) := by
    simp only [at']
    rw [if_pos ⟨by omega, by omega⟩]; simp
  have e2 : at' (c + d) = if ditherCol w even c + 1 < w then E (ditherCol w even c + 1) else 0 := by
    simp only [at', d]
    cases even
    · simp only [ditherCol, Bool.false_eq_true, if_false]
      by_cases c1 : w - 1 - c + 1 < w
      · rw [if_pos c1, if_pos (by omega)]
        congr 1; omega
      · rw [if_neg c1, if_neg (by omega)]
    · simp only [ditherCol, if_true]
      by_cases c1 : c + 1 < w
      · rw [if_pos c1, if_pos (by omega)]
        congr 1
      · rw [if_neg c1, if_neg (by omega)]
  have e3 : at' (c - d) = if 2 ≤ ditherCol w even c + 1 then E (ditherCol w even c - 1) else 0 := by
    simp only [at', d]
    cases even
    · simp only [ditherCol, Bool.false_eq_true, if_false]
      by_cases c1 : 2 ≤ w - 1 - c + 1
      · rw [if_pos c1, if_pos (by omega)]
        congr 1
      · rw [if_neg c1, if_neg (by omega)]
    · simp only [ditherCol, if_true]
      by_cases c1 : 2 ≤ c + 1
      · rw [if_pos c1, if_pos (by omega)]
        congr 1; omega
      · rw [if_neg c1, if_neg (by omega)]
  rw [e1, e2, e3, if_pos (show 1 ≤ ditherCol w even c + 1 ∧ ditherCol w even c + 1 < w + 1 by omega), Nat.add_sub_cancel,
    show ditherCol w even c + 1 - 2 = ditherCol w even c - 1 by omega]
  congr 1
  · congr 1
    split <;> ring
  · by_cases c1 : 2 ≤ ditherCol w even c + 1
    · rw [if_pos c1, if_pos ⟨c1, by omega⟩]
    · rw [if_neg c1, if_neg (by omega)]; ring

/-- one row: what is left to a pixel when it is its turn -/
theorem leftBeside_col {w : ℕ} {even : Bool} (E : ℕ → ℝ) {c : ℕ} (hc : c < w) :
    let at' := fun c => if 0 ≤ c ∧ c < (w : ℤ) then E (ditherCol w even c.toNat) else 0
    let d : ℤ := if even then 1 else -1
    leftBeside E (ditherCol w even c) (ditherCol w even c + 1) = 7/16 * at' (c - d) := by
  intro at' d
  unfold leftBeside
  have hx := ditherCol_lt even hc
  simp only [at', d]
  cases even
  · simp only [ditherCol, Bool.false_eq_true, if_false]
    by_cases c1 : 2 ≤ w - 1 - c + 1
    · rw [if_pos ⟨c1, by omega⟩, if_pos (by omega)]
      congr 2
    · rw [if_neg (by omega), if_neg (by omega)]; ring
  · simp only [ditherCol, if_true]
    by_cases c1 : 2 ≤ c + 1
    · rw [if_pos ⟨c1, by omega⟩, if_pos (by omega)]
      congr 2; omega
    · rw [if_neg (by omega), if_neg (by omega)]; ring

/-- one row: the cells of the row below after the whole row -/
theorem RowInv.below {w : ℕ} {even : Bool} {this0 : List (FPixel ℝ)} {E : ℕ → FPixel ℝ} {a b : List (FPixel ℝ)}
    (h : RowInv w even this0 E w a b) {c : ℕ} (hc : c < w) (i : Fin 4) :
    let at' := fun c => if 0 ≤ c ∧ c < (w : ℤ) then (E (ditherCol w even c.toNat)).chan i else 0
    let d : ℤ := if even then 1 else -1
    (b.getD (c + 1) FPixel.default).chan i = 3/16 * at' (c + d) + 5/16 * at' c + 1/16 * at' (c - d) := by
  rw [← cellAt_col even hc, h.next _ (by have := ditherCol_lt even hc; omega)]
  exact leftBelow_col (fun x => (E x).chan i) hc

/-- one row: the cell of a pixel when it is its turn -/
theorem RowInv.turn {w : ℕ} {even : Bool} {this0 : List (FPixel ℝ)} {E : ℕ → FPixel ℝ} {a b : List (FPixel ℝ)} {c : ℕ}
    (hc : c < w) (h : RowInv w even this0 E (ditherCol w even c) a b) (i : Fin 4) :
    let at' := fun c => if 0 ≤ c ∧ c < (w : ℤ) then (E (ditherCol w even c.toNat)).chan i else 0
    let d : ℤ := if even then 1 else -1
    (a.getD (c + 1) FPixel.default).chan i = (this0.getD (c + 1) FPixel.default).chan i + 7/16 * at' (c - d) := by
  have hx := ditherCol_lt even hc
  rw [← cellAt_col even hc, h.this _ (by omega), cellAt_col even hc]
  congr 1
  exact leftBeside_col (fun x => (E x).chan i) hc

theorem RowDone.len {ctx : DitherCtx ℝ} {row bg : List (FPixel ℝ)} {dmap : List UInt8} {d : Diffusion ℝ} {even : Bool}
    {out : List (Option UInt8)} {r : DitherOut ℝ (List (Option UInt8))} {S : ℕ → DitherState ℝ}
    {target shown : ℕ → FPixel ℝ} {byte : ℕ → UInt8} (h : RowDone ctx row bg dmap d even out r S target shown byte)
    (hd : Diffusion.Len ctx.width d) : Diffusion.Len ctx.width r.diffusion := by
  have := h.inv hd (le_refl _)
  rw [h.diffusion]
  cases even
  · exact ⟨this.lenB, this.lenA⟩
  · exact ⟨this.lenA, this.lenB⟩

/-- an uninterrupted run of rows -/
theorem band_dithered {ctx : DitherCtx ℝ} {row bg : ℕ → List (FPixel ℝ)} {dmap : ℕ → List UInt8} {top bottom : ℕ}
    {D : ℕ → Diffusion ℝ} {R : ℕ → DitherOut ℝ (List (Option UInt8))} (h0 : D top = Diffusion.zero ctx.width)
    (hrun : ∀ y, top ≤ y → y < bottom → ∃ o,
      ditherRow ctx (row y) (bg y) (dmap y) (D y) (decide (y % 2 = 0)) o = .ok (R y) ∧ D (y + 1) = (R y).diffusion)
    (hbox : ∀ y, top ≤ y → y < bottom → ∀ p ∈ row y, p.InBox) :
    ∃ (target shown : ℕ → ℕ → FPixel ℝ) (byte : ℕ → ℕ → UInt8) (err : ℤ → ℤ → Fin 4 → ℝ),
      Spec.Dithered ctx.width top bottom (fun y x => ditherLevelAt ctx (dmap y) x) ctx.maxErr
        (fun y x => ((row y).getD x FPixel.default).spec) (fun y x => (shown y x).spec) (fun y x => (target y x).spec) err ∧
      ∀ y x, top ≤ y → y < bottom → x < ctx.width →
        (R y).out[x]? = some (some (byte y x)) ∧ (target y x).InBox ∧
        ((∃ e, ctx.n.palette[(byte y x).toNat]? = some e ∧ shown y x = e.color) ∨
          (byte y x = ctx.ti ∧ (bg y)[x]? = some (shown y x))) ∧
        ((bg y)[x]? = none → ∃ hint, byte y x = UInt8.ofNat (ctx.n.search (target y x) hint).1) ∧
        ∀ b, (bg y)[x]? = some b → ∃ hint px, (row y)[x]? = some px ∧
          Chosen ctx b px (target y x) (ctx.n.search (target y x) hint) (byte y x) (shown y x) := by
  have hex : ∀ y, ∃ (o : List (Option UInt8)) (S : ℕ → DitherState ℝ) (t s : ℕ → FPixel ℝ) (b : ℕ → UInt8), top ≤ y → y < bottom →
      RowDone ctx (row y) (bg y) (dmap y) (D y) (decide (y % 2 = 0)) o (R y) S t s b := by
    intro y
    by_cases hy : top ≤ y ∧ y < bottom
    · obtain ⟨o, hr, -⟩ := hrun y hy.1 hy.2
      obtain ⟨S, t, s, b, h⟩ := ditherRow_done hr
      exact ⟨o, S, t, s, b, fun _ _ => h⟩
    · exact ⟨[], fun _ => ⟨[], [], 0, 0, [], false⟩, fun _ => FPixel.default, fun _ => FPixel.default, fun _ => 0,
        fun h1 h2 => absurd ⟨h1, h2⟩ hy⟩
  choose o S t s b hdone using hex
  have hlen : ∀ k, top + k ≤ bottom → Diffusion.Len ctx.width (D (top + k)) := by
    intro k
    induction k with
    | zero => intro _; rw [Nat.add_zero, h0]; exact Diffusion.zero_len _
    | succ k ih =>
      intro hk
      obtain ⟨_, -, e⟩ := hrun (top + k) (by omega) (by omega)
      rw [← Nat.add_assoc, e]
      exact (hdone (top + k) (by omega) (by omega)).len (ih (by omega))
  have hlen' : ∀ y, top ≤ y → y < bottom → Diffusion.Len ctx.width (D y) := by
    intro y h1 h2
    have := hlen (y - top) (by omega)
    rwa [show top + (y - top) = y by omega] at this
  generalize hw : ctx.width = w at *
  let ev : ℕ → Bool := fun y => decide (y % 2 = 0)
  let E : ℕ → ℕ → FPixel ℝ := fun y x => rowError ctx (t y) (s y) x
  have hinv : ∀ y, top ≤ y → y < bottom → ∀ k ≤ w, RowInv w (ev y) (S y 0).thiserr (E y) k (S y k).thiserr (S y k).nexterr := by
    intro y h1 h2 k hk
    have := (hdone y h1 h2).inv (by rw [hw]; exact hlen' y h1 h2) (k := k) (by omega)
    rwa [hw] at this
  -- the errors of a row, by column
  have hrow : ∀ y, top ≤ y → y < bottom → ∀ (c : ℤ) (i : Fin 4), bandError w top bottom E y c i =
      if 0 ≤ c ∧ c < (w : ℤ) then (E y (ditherCol w (ev y) c.toNat)).chan i else 0 := by
    intro y h1 h2 c i
    by_cases hc : 0 ≤ c ∧ c < (w : ℤ)
    · rw [if_pos hc]
      obtain ⟨n, rfl⟩ := Int.eq_ofNat_of_zero_le hc.1
      rw [bandError_nat E h1 h2 (by omega)]
      rfl
    · rw [if_neg hc, bandError_out E (by omega)]; rfl
  -- what a row leaves to the next
  have hbelow : ∀ y, top ≤ y → y < bottom → ∀ c < w, ∀ i,
      (((if ev (y + 1) then (D (y + 1)).1 else (D (y + 1)).2)).getD (c + 1) FPixel.default).chan i =
      3/16 * bandError w top bottom E y (c + (if ev y then 1 else -1)) i + 5/16 * bandError w top bottom E y c i +
        1/16 * bandError w top bottom E y (c - (if ev y then 1 else -1)) i := by
    intro y h1 h2 c hc i
    obtain ⟨_, -, e⟩ := hrun y h1 h2
    have hb := (hinv y h1 h2 w (le_refl _)).below hc i
    simp only at hb
    rw [hrow y h1 h2, hrow y h1 h2, hrow y h1 h2, ← hb, e, (hdone y h1 h2).diffusion, hw]
    have : ev (y + 1) = !ev y := by
      simp only [ev]
      by_cases hp : y % 2 = 0
      · rw [decide_eq_true hp, decide_eq_false (by omega)]; rfl
      · rw [decide_eq_false hp, decide_eq_true (by omega)]; rfl
    rw [this]
    show ((if (!ev y) = true then (if ev y = true then _ else _ : Diffusion ℝ).1 else (if ev y = true then _ else _ : Diffusion ℝ).2).getD _ _).chan i = _
    cases ev y <;> rfl
  -- what a pixel receives
  have hrec : ∀ y, top ≤ y → y < bottom → ∀ c < w, ∀ i,
      ((S y (ditherCol w (ev y) c)).thiserr.getD (c + 1) FPixel.default).chan i =
      Spec.received (bandError w top bottom E) y c i := by
    intro y h1 h2 c hc i
    have ht := (hinv y h1 h2 _ (ditherCol_lt (ev y) hc).le).turn hc i
    simp only at ht
    rw [ht, ← hrow y h1 h2]
    have hd : (if ev y = true then (1 : ℤ) else -1) = Spec.direction y := by
      unfold Spec.direction
      by_cases hp : y % 2 = 0
      · rw [if_pos (by simp [ev, hp]), if_pos (by omega)]
      · rw [if_neg (by simp [ev, hp]), if_neg (by omega)]
    rw [hd]
    have hthis : (S y 0).thiserr = if ev y then (D y).1 else (D y).2 := (hdone y h1 h2).this0
    rw [hthis]
    unfold Spec.received
    by_cases hy : y = top
    · have : ∀ c : ℤ, bandError w top bottom E ((y : ℤ) - 1) c i = 0 := fun c => by rw [bandError_out E (by omega)]; rfl
      rw [hy, h0]
      rw [hy] at this
      simp only [this]
      have hz : ((if ev top then (Diffusion.zero w : Diffusion ℝ).1 else (Diffusion.zero w : Diffusion ℝ).2).getD (c + 1) FPixel.default).chan i = 0 := by
        have : ((if ev top then (Diffusion.zero w : Diffusion ℝ).1 else (Diffusion.zero w : Diffusion ℝ).2)) = List.replicate (w + 2) FPixel.default := by
          unfold Diffusion.zero; split <;> rfl
        rw [this, List.getD_eq_getElem?_getD, List.getElem?_replicate]
        split <;> simp [chan_default]
      rw [hz]
      ring
    · have hb := hbelow (y - 1) (by omega) (by omega) c hc i
      rw [show y - 1 + 1 = y by omega] at hb
      have hd' : (if ev (y - 1) = true then (1 : ℤ) else -1) = - Spec.direction y := by
        unfold Spec.direction
        by_cases hp : y % 2 = 0
        · rw [if_neg (by simp [ev]; omega), if_pos (by omega)]
        · rw [if_pos (by simp [ev]; omega), if_neg (by omega)]; rfl
      rw [hd', show ((y - 1 : ℕ) : ℤ) = (y : ℤ) - 1 by omega, sub_neg_eq_add, ← sub_eq_add_neg] at hb
      rw [hb]
      ring
  refine ⟨fun y x => t y (ditherCol w (ev y) x), fun y x => s y (ditherCol w (ev y) x), fun y x => b y (ditherCol w (ev y) x),
    bandError w top bottom E, ⟨?_, ?_, ?_⟩, ?_⟩
  · intro y x h
    exact bandError_out E (by omega)
  · intro y x h1 h2 hx
    have hst := (hdone y h1 h2).step (ditherCol w (ev y) x) (by rw [hw]; exact ditherCol_lt _ hx)
    obtain ⟨px, e1, e2⟩ := hst.searched
    rw [hw] at e1 e2
    rw [show (decide (y % 2 = 0)) = ev y from rfl, ditherCol_ditherCol _ hx] at e1 e2
    have hpx : (row y).getD x FPixel.default = px := by rw [List.getD_eq_getElem?_getD, e1]; rfl
    have hs : (fun i => ditherLevelAt ctx (dmap y) x * Spec.received (bandError w top bottom E) y x i) =
        fun i => ditherLevelAt ctx (dmap y) x * ((S y (ditherCol w (ev y) x)).thiserr.getD (x + 1) FPixel.default).chan i := by
      funext i; rw [hrec y h1 h2 x hx i]
    simp only [hpx]
    rw [hs, e2]
    exact ditheredPixel_pushed _ _ _ (hbox y h1 h2 _ (List.mem_of_getElem? e1))
  · intro y x h1 h2 hx i
    rw [bandError_nat E h1 h2 hx]
    exact pixelError_chan _ _ _ i
  · intro y x h1 h2 hx
    have hx' := ditherCol_lt (ev y) hx
    have hst := (hdone y h1 h2).step (ditherCol w (ev y) x) (by rw [hw]; exact hx')
    have hbo := (hdone y h1 h2).byte_out (x := ditherCol w (ev y) x) (by rw [hw]; exact hx')
    obtain ⟨px, e1, e2⟩ := hst.searched
    have hsh := hst.isShown
    have hse := hst.search
    have hch := hst.choice
    rw [hw] at e1 e2 hsh hse hbo hch
    rw [show (decide (y % 2 = 0)) = ev y from rfl, ditherCol_ditherCol _ hx] at e1 e2 hsh hse hbo hch
    refine ⟨hbo, ?_, hsh, fun h => ⟨_, hse h⟩, fun b hb => ⟨_, hch b hb⟩⟩
    dsimp only
    rw [e2]
    exact ditheredPixel_box _ _ _ (hbox y h1 h2 _ (List.mem_of_getElem? e1))

end Verif
