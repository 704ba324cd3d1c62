import Verif.Lemmas.DebugCut
import Verif.Lemmas.RemapSum
import Verif.Lemmas.User
import Verif.Props.RoundedRemap

/-! Finite numbers while remapping: the mean difference of an undithered remap. -/

set_option linter.unusedSectionVars false

namespace Verif
open Flt FltRound FltCorrect
open FltFull (r32_idem r64 r64_mono r64_idem r64_nat lit64_eq add64_eq div64_eq to32_eq pow32_unit)

variable {F : Type} [Flt F] [FltMin F]

/-- a number of type `f64`, not negative and at most 50 for each of `m` pixels or additions -/
structure Total (m : ℕ) (x : F) : Prop where
  nn : NN (50 * m) x
  own : r64 F (val x) = val x

theorem total_zero : Total 0 (lit64 0 : F) := by
  have h := nn_zero64 (F := F)
  refine ⟨by simpa using h, ?_⟩
  have e : val (lit64 0 : F) = 0 := le_antisymm h.hi h.lo
  rw [e]
  simpa using r64_nat (F := F) 0 (by norm_num)

theorem add64_own {x y : F} {b : ℝ} (hx : fin x) (hy : fin y) (h0 : 0 ≤ val x + val y) (h : val x + val y ≤ b) (hb : b ≤ 2 ^ 127) :
    r64 F (val (x +₆ y)) = val (x +₆ y) := by
  rw [add64_eq _ _ hx hy (fits64_nn h0 h hb), r64_idem]

theorem Total.add {m : ℕ} {x y : F} (hx : Total m x) (hy : NN diffMax y) (hm : m ≤ 2 ^ 40) : Total (m + 1) (x +₆ y) := by
  have hm' : (m : ℝ) ≤ 2 ^ 40 := by exact_mod_cast hm
  have hs : 50 * (m : ℝ) + diffMax ≤ 2 ^ 50 := by unfold diffMax; linarith
  have hs' := hs.trans (show (2:ℝ) ^ 50 ≤ 2 ^ 127 by norm_num)
  refine ⟨(add64_le hx.nn hy hs').mono ?_, add64_own hx.nn.fin hy.fin (add_nonneg hx.nn.lo hy.lo) (add_le_add hx.nn.hi hy.hi) hs'⟩
  push_cast
  unfold diffMax at *
  norm_num at hs ⊢
  linarith

theorem Total.join {m k : ℕ} {x y : F} (hx : Total m x) (hy : Total k y) (hm : m + k ≤ 2 ^ 40) : Total (m + k + 1) (x +₆ y) := by
  have hm' : ((m + k : ℕ) : ℝ) ≤ 2 ^ 40 := by exact_mod_cast hm
  push_cast at hm'
  have hs : 50 * (m : ℝ) + 50 * k ≤ 2 ^ 50 := by linarith
  have hs' := hs.trans (show (2:ℝ) ^ 50 ≤ 2 ^ 127 by norm_num)
  refine ⟨(add64_le hx.nn hy.nn hs').mono ?_,
    add64_own hx.nn.fin hy.nn.fin (add_nonneg hx.nn.lo hy.nn.lo) (add_le_add hx.nn.hi hy.nn.hi) hs'⟩
  push_cast
  norm_num at hs ⊢
  linarith

/-- adding nothing -/
theorem Total.plus_zero {m : ℕ} {x z : F} (hx : Total m x) (hm : m ≤ 2 ^ 40) (hz : fin z) (h0 : val z = 0) :
    Total m (x +₆ z) ∧ Total m (z +₆ x) := by
  have hm' : (m : ℝ) ≤ 2 ^ 40 := by exact_mod_cast hm
  have hb : val x ≤ 2 ^ 50 := hx.nn.hi.trans (by linarith)
  have hf : Fits64 (val x) := fits64_nn hx.nn.lo hb (by norm_num)
  have key : ∀ s : F, fin s → val s = val x → Total m s := fun s f e =>
    ⟨⟨f, e ▸ hx.nn.lo, e ▸ hx.nn.hi⟩, by rw [e]; exact hx.own⟩
  have f1 : Fits64 (val x + val z) := by rw [h0, add_zero]; exact hf
  have f2 : Fits64 (val z + val x) := by rw [h0, zero_add]; exact hf
  exact ⟨key _ (FltRound.add64 _ _ hx.nn.fin hz f1).1 (by rw [add64_eq _ _ hx.nn.fin hz f1, h0, add_zero, hx.own]),
    key _ (FltRound.add64 _ _ hz hx.nn.fin f2).1 (by rw [add64_eq _ _ hz hx.nn.fin f2, h0, zero_add, hx.own])⟩

/-- adding up rows in any order and association -/
theorem sumsTo_total {w : ℕ} {l : List F} {x : F} (h : SumsTo l x) : (∀ y ∈ l, Total w y) → l.length * (w + 1) ≤ 2 ^ 40 →
    (l = [] ∧ fin x ∧ val x = 0) ∨ ∃ k, k + 1 ≤ l.length * (w + 1) ∧ Total k x := by
  induction h with
  | nil => exact fun _ _ => .inl ⟨rfl, nn_zero64.fin, le_antisymm nn_zero64.hi nn_zero64.lo⟩
  | single x => exact fun hy _ => .inr ⟨w, by simp, hy x (by simp)⟩
  | @add l m x y h1 h2 ih1 ih2 =>
    intro hy hl
    have hl' : l.length * (w + 1) + m.length * (w + 1) ≤ 2 ^ 40 := by rw [← Nat.add_mul, ← List.length_append]; exact hl
    rw [List.length_append, Nat.add_mul]
    rcases ih1 (fun y h => hy y (by simp [h])) (by omega) with ⟨rfl, a1, a2⟩ | ⟨k, a1, a2⟩
    · rcases ih2 (fun y h => hy y (by simp [h])) (by omega) with ⟨rfl, b1, b2⟩ | ⟨k, b1, b2⟩
      · refine .inl ⟨rfl, ?_⟩
        have f1 : Fits64 (val x + val y) := by rw [a2, b2]; unfold Fits64; norm_num
        obtain ⟨f, r⟩ := FltRound.add64 _ _ a1 b1 f1
        exact ⟨f, r.2 (by rw [a2, b2]; norm_num)⟩
      · exact .inr ⟨k, by simpa using b1, (b2.plus_zero (by omega) a1 a2).2⟩
    · rcases ih2 (fun y h => hy y (by simp [h])) (by omega) with ⟨rfl, b1, b2⟩ | ⟨j, b1, b2⟩
      · exact .inr ⟨k, by simpa using a1, (a2.plus_zero (by omega) b1 b2).1⟩
      · exact .inr ⟨k + j + 1, by omega, a2.join b2 (by omega)⟩
  | @perm l m x hp h ih =>
    intro hy hl
    rw [← hp.length_eq] at hl ⊢
    rcases ih (fun y h => hy y (hp.mem_iff.1 h)) hl with ⟨rfl, b⟩ | b
    · exact .inl ⟨hp.nil_eq.symm, b⟩
    · exact .inr b

/-- every difference that is counted is small -/
theorem plainDiff_fin {p : PalF F} {n : Nearest F} (hn : Nearest.new p = .ok n) (hp : ∀ e ∈ p, e.color.UnitFin) {px : FPixel F}
    (hx : px.UnitFin) {bg : Option (FPixel F)} (hb : ∀ b, bg = some b → b.UnitFin) (hint : UInt8) :
    NN diffMax (plainDiff n bg px hint) := by
  have h := search_num hn hp hx.wide hint.toNat
  unfold plainDiff
  cases bg with
  | none => exact h
  | some b =>
    dsimp only
    split
    · exact diff_wide_unit (hb b rfl).wide hx
    · exact h

theorem remapPixels_fin {p : PalF F} {n : Nearest F} (hn : Nearest.new p = .ok n) (hp : ∀ e ∈ p, e.color.UnitFin) (ti : UInt8)
    (pxs bgs : List (FPixel F)) (hx : ∀ c ∈ pxs, c.UnitFin) (hb : ∀ c ∈ bgs, c.UnitFin) (imps : List UInt8) (last : UInt8)
    {m : ℕ} {err : F} (he : Total m err) (hm : m + pxs.length ≤ 2 ^ 40) :
    Total (m + pxs.length) (remapPixels n ti pxs bgs imps last err).err := by
  induction pxs generalizing bgs imps last err m with
  | nil => simpa [remapPixels] using he
  | cons c ps ih =>
    obtain ⟨_, h2⟩ := remapPixels_cons n ti c ps bgs imps last err
    rw [h2, List.length_cons]
    rw [List.length_cons] at hm
    have hd := plainDiff_fin hn hp (hx c (by simp)) (bg := bgs.head?) (fun b h => hb b (List.mem_of_mem_head? h)) last
    have := ih bgs.tail (fun c h => hx c (by simp [h])) (fun c h => hb c (List.mem_of_mem_tail h)) imps.tail
      (UInt8.ofNat (n.search c last.toNat).1) (he.add hd (by omega)) (by omega)
    rwa [show m + 1 + ps.length = m + (ps.length + 1) by omega] at this

/-- all pixels have finite channels between 0 and 1 -/
def Rows.UnitFin (r : Rows F) : Prop := ∀ y < r.height, ∀ c ∈ r.pixelsF y, c.UnitFin

theorem Rows.Shows.unitFin {r : Rows F} {f : ℕ → ℕ → RGBA} (h : r.Shows f) (hγ : UsualGamma r.gamma) : r.UnitFin := by
  intro y hy c hc
  unfold Rows.pixelsF at hc
  rw [h y hy] at hc
  simp only [List.mem_map] at hc
  obtain ⟨x, _, rfl⟩ := hc
  exact fromRgba_unitFin hγ _

theorem Rows.UnitFin.same {r r' : Rows F} (h : r.UnitFin) (s : Rows.Same r r') : r'.UnitFin := by
  intro y hy c hc
  rw [s.height] at hy
  rw [s.pixelsF hy] at hc
  exact h y hy c hc

theorem remapRow_fin {p : PalF F} {n : Nearest F} (hn : Nearest.new p = .ok n) (hp : ∀ e ∈ p, e.color.UnitFin) (ti : UInt8)
    {px : Rows F} {bg : Option (Rows F)} (imp : Option (List UInt8)) (hpx : px.Readable) (hbg : BgGood px bg) (hu : px.UnitFin)
    (hbu : ∀ b, bg = some b → b.UnitFin) (hw : px.width ≤ 2 ^ 40) {y : ℕ} (hy : y < px.height) {r : RowOut F}
    (e : remapRow n ti px bg imp y = .ok r) : Total px.width r.err := by
  obtain ⟨e1, l1⟩ := hpx.rowF hy
  unfold remapRow at e
  rw [e1] at e
  cases bg with
  | none =>
    cases e
    have := remapPixels_fin hn hp ti (px.pixelsF y) [] (hu y hy) (by simp) ((imp.getD []).drop (y * px.width)) 0 total_zero
      (by rw [l1]; omega)
    rwa [l1, Nat.zero_add] at this
  | some b =>
    obtain ⟨hb, -, hh⟩ := hbg b rfl
    have hyb : y < b.height := by omega
    obtain ⟨e2, _⟩ := hb.rowF hyb
    simp only [bind, Except.bind] at e
    rw [e2] at e
    cases e
    have := remapPixels_fin hn hp ti (px.pixelsF y) (b.pixelsF y) (hu y hy) (hbu b rfl y hyb) ((imp.getD []).drop (y * px.width)) 0
      total_zero (by rw [l1]; omega)
    rwa [l1, Nat.zero_add] at this

/-- The mean difference of an undithered remap is a finite number, at most 100. -/
theorem remapToPalette_fin (env : RemapEnv F) {px : Rows F} {bg : Option (Rows F)} (imp : Option (List UInt8)) {p : PalF F}
    (hp0 : 0 < p.length) (hp : p.length ≤ 256) (hpu : ∀ e ∈ p, e.color.UnitFin) (hpx : px.Readable) (hu : px.UnitFin)
    (hbg : BgGood px bg) (hbu : ∀ b, bg = some b → b.UnitFin) (hw : 0 < px.width) (hh : 0 < px.height)
    (ha : px.width * px.height < 2 ^ 32) :
    ∃ e, (remapToPalette env px bg imp px.height p).1 = .ok e ∧ NN 100 e := by
  obtain ⟨n, hnew⟩ := Nearest.new_of_len hp0 hp
  have hn' : Nearest.new n.palette = .ok n := by rw [(Nearest.new_ok hnew).2.2.1]; exact hnew
  have hw' : px.width ≤ px.width * px.height := Nat.le_mul_of_pos_right _ hh
  have hh' : px.height ≤ px.width * px.height := Nat.le_mul_of_pos_left _ hw
  unfold remapToPalette
  rw [hnew]
  obtain ⟨px', e1, s1, _⟩ := Rows.prepare_same hpx true
  simp only [e1]
  have hused : ∃ used ti, pickBackground n bg = (used, ti) ∧ (used = none ∨ used = bg) := by
    rcases pickBackground_cases n bg with ⟨b, hb, _, h⟩ | ⟨_, h⟩
    · exact ⟨_, _, h, .inr hb.symm⟩
    · exact ⟨_, _, h, .inl rfl⟩
  obtain ⟨used, ti, hpick, hor⟩ := hused
  rw [hpick]
  simp only
  have hgood : BgGood px used := by
    rcases hor with rfl | rfl
    · intro b hb; cases hb
    · exact hbg
  have husedu : ∀ b, used = some b → b.UnitFin := by
    rcases hor with rfl | rfl
    · intro b hb; cases hb
    · exact hbu
  obtain ⟨used', e2, s2⟩ := prepareOpt_ok hgood
  rw [e2]
  simp only
  have hgood' : BgGood px' used' := s2.good s1 hgood
  have hu' : ∀ b, used' = some b → b.UnitFin := by
    intro b hb
    subst hb
    cases used with
    | none => simp only [BgSame] at s2
    | some b0 => exact (husedu b0 rfl).same s2
  have hrow : ∀ y < px.height, ∃ r, remapRow n ti px' used' imp y = .ok r ∧ Total px.width r.err := by
    intro y hy
    have hy' : y < px'.height := by rw [s1.height]; exact hy
    obtain ⟨r, hr, -⟩ := remapRow_ok hn' ti imp (s1.readable hpx) hgood' hy'
    refine ⟨r, hr, ?_⟩
    have := remapRow_fin hnew hpu ti imp (s1.readable hpx) hgood' (hu.same s1) hu' (by rw [s1.width]; omega) hy' hr
    rwa [s1.width] at this
  let g : ℕ → RowOut F := fun y => match remapRow n ti px' used' imp y with
    | .ok r => r
    | .error _ => ⟨[], zero, []⟩
  have hg : ∀ y < px.height, remapRow n ti px' used' imp y = .ok (g y) ∧ Total px.width (g y).err := by
    intro y hy
    obtain ⟨r, hr, ht⟩ := hrow y hy
    have e : g y = r := by simp only [g, hr]
    rw [e]
    exact ⟨hr, ht⟩
  rw [remapLoop_ok (env.sched_valid px.height).2 n ti px' used' imp g fun y hy => (hg y hy).1]
  simp only
  have hsum := sumsTo_total (w := px.width) (env.sum_spec (((List.range px.height).map g).map (·.err))) (by
    intro x hx
    simp only [List.map_map, List.mem_map, List.mem_range] at hx
    obtain ⟨y, hy, rfl⟩ := hx
    exact (hg y hy).2) (by simp only [List.length_map, List.length_range]; nlinarith)
  generalize env.sum (((List.range px.height).map g).map (·.err)) = total at *
  rcases hsum with ⟨h, -⟩ | ⟨k, hk, ht⟩
  · have := congrArg List.length h
    simp only [List.length_map, List.length_range, List.length_nil] at this
    omega
  rw [if_neg (by rw [FltOrd.not_nan _ ht.nn.fin]; simp)]
  refine ⟨_, rfl, ?_⟩
  rw [s1.width, s1.height, Nat.mod_eq_of_lt ha]
  simp only [List.length_map, List.length_range] at hk
  obtain ⟨c1, c2⟩ := lit64_nat (F := F) (n := px.width * px.height) (by omega)
  have hpos : 0 < px.width * px.height := Nat.mul_pos hw hh
  have hpos' : (0 : ℝ) < (px.width * px.height : ℕ) := by exact_mod_cast hpos
  have hk' : k ≤ 2 * (px.width * px.height) := by nlinarith
  have hk2 : (k : ℝ) ≤ 2 * (px.width * px.height : ℕ) := by exact_mod_cast hk'
  have q0 : 0 ≤ val total / val (lit64 (px.width * px.height : ℕ) : F) := div_nonneg ht.nn.lo (by rw [c2]; exact hpos'.le)
  have q1 : val total / val (lit64 (px.width * px.height : ℕ) : F) ≤ 100 := by
    rw [c2, div_le_iff₀ hpos']
    have := ht.nn.hi
    linarith
  have hf := fits64_nn q0 q1 (by norm_num)
  have hne : val (lit64 (px.width * px.height : ℕ) : F) ≠ 0 := by rw [c2]; exact hpos'.ne'
  refine ⟨(FltRound.div64 _ _ ht.nn.fin c1 hne hf).1, ?_, ?_⟩
  · rw [div64_eq _ _ ht.nn.fin c1 hne hf]; exact r64_nonneg q0
  · rw [div64_eq _ _ ht.nn.fin c1 hne hf]
    have := r64_le (F := F) (n := 100) (by norm_num) (e := val total / val (lit64 (px.width * px.height : ℕ) : F)) (by simpa using q1)
    simpa using this

/-- an image whose pixels and background have finite channels and which is not too large -/
structure Image.Fin (img : Image F) : Prop where
  px : img.px.UnitFin
  bg : ∀ b, img.background = some b → b.UnitFin
  area : img.width * img.height < 2 ^ 32

theorem UserImage.fin {img : Image F} (h : UserImage img) (hγ : UsualGamma img.px.gamma)
    (hb : ∀ b, img.background = some b → UsualGamma b.gamma) (ha : img.width * img.height < 2 ^ 32) : img.Fin := by
  obtain ⟨⟨f, hf⟩, hg⟩ := h.shows
  refine ⟨hf.unitFin hγ, fun b e => ?_, ha⟩
  obtain ⟨g, hg⟩ := hg b e
  exact hg.unitFin (hb b e)

theorem Image.Fin.free {img : Image F} (h : img.Fin) : img.freeHistogramInputs.Fin := by
  have s := Rows.free_same img.px
  refine ⟨h.px.same s, h.bg, ?_⟩
  show img.px.freeHistogramInputs.width * img.px.freeHistogramInputs.height < 2 ^ 32
  rw [s.width, s.height]; exact h.area

theorem initIntPalette_unitFin (p : PalF F) {γ : F} (hγ : UsualGamma γ) (post : UInt8) :
    ∀ e ∈ (p.initIntPalette γ post).1, e.color.UnitFin := by
  intro e he
  obtain ⟨i, hi, rfl⟩ := List.getElem_of_mem he
  have hi' : i < p.length := by simpa [PalF.initIntPalette] using hi
  obtain ⟨d, c, h1, -⟩ := initIntPalette_get p γ post hi'
  rw [(palColor_at hi).2] at h1
  rw [h1]
  exact fromRgba_unitFin hγ d

theorem remapPlain_fin (env : RemapEnv F) {s : RemapState F} (hg : s.image.Good) (ho : OutGood s.image s.out)
    (hp0 : 0 < s.quant.palette.length) (hp : s.quant.palette.length ≤ 256) (hi : s.image.Fin) (hγ : UsualGamma s.quant.gamma) :
    ∃ re e, (remapPlain env s).1 = .ok re ∧ re.paletteError = some e ∧ NN 100 e := by
  have hl := initIntPalette_length s.quant.palette s.quant.gamma (UInt8.ofNat s.quant.minPosterizationOutput)
  obtain ⟨e, h1, h2⟩ := remapToPalette_fin env (px := s.image.px) (bg := s.image.background) s.image.importanceMap
    (p := (s.quant.palette.initIntPalette s.quant.gamma (UInt8.ofNat s.quant.minPosterizationOutput)).1)
    (by rw [hl.1]; exact hp0) (by rw [hl.1]; exact hp) (initIntPalette_unitFin _ hγ _) hg.px hi.px hg.bg hi.bg
    hg.width_pos hg.height_pos hi.area
  unfold remapPlain
  rw [show s.out.length = s.image.px.height from ho.1]
  generalize hx : remapToPalette env s.image.px s.image.background s.image.importanceMap s.image.px.height
    (s.quant.palette.initIntPalette s.quant.gamma (UInt8.ofNat s.quant.minPosterizationOutput)).1 = x at *
  obtain ⟨res, ro⟩ := x
  simp only at h1
  subst h1
  simp only [hx]
  exact ⟨⟨_, some e⟩, e, rfl, rfl, h2⟩

theorem generateDitherMap_fin (env : RemapEnv F) {s : RemapState F} (ub : Bool) {p : PalF F} (hg : s.image.Good)
    (ho : OutGood s.image s.out) (hp0 : 0 < p.length) (hp : p.length ≤ 256) (hi : s.image.Fin)
    (hpu : ∀ e ∈ p, e.color.UnitFin) :
    ∃ err p', (generateDitherMap env s ub p).1 = .ok (err, p') ∧ ∀ e, err = some e → NN 100 e := by
  by_cases hgen : generatesDitherMap s.quant.useDitherMap s.image = true
  · have spec := remapToPalette_spec env (px := s.image.px) (bg := none) s.image.importanceMap (nrows := s.image.height)
      hp0 hp hg.px (fun b h => by cases h) (le_refl _)
    obtain ⟨e, h1, h2⟩ := remapToPalette_fin env (px := s.image.px) (bg := none) s.image.importanceMap hp0 hp hpu hg.px hi.px
      (fun b h => by cases h) (fun b h => by cases h) hg.width_pos hg.height_pos hi.area
    unfold generateDitherMap
    rw [if_neg (by simp [hgen]), show s.out.length = s.image.height from ho.1]
    rw [show s.image.px.height = s.image.height from rfl] at h1
    generalize remapToPalette env s.image.px none s.image.importanceMap s.image.height p = x at *
    obtain ⟨res, ro⟩ := x
    simp only at h1 spec
    subst h1
    obtain ⟨o1, o2, rows, hrows, hlen, hb⟩ := spec.out (out := s.out) hg hp0
    have hw : ({ s.image with px := ro.px } : Image F).width = s.image.width := spec.samePx.width
    have hh : ({ s.image with px := ro.px } : Image F).height = s.image.height := spec.samePx.height
    obtain ⟨img', e', -⟩ := Image.updateDitherMap_ok (hg.change spec.samePx (BgSame.refl _)) (remapped := rows)
      (palette := ro.palette) ub (by rw [hlen]; exact hh.symm)
      (fun row hrow => ⟨by rw [(hb row hrow).1]; exact hw.symm, by rw [spec.palette]; exact (hb row hrow).2⟩)
    simp only
    rw [hrows]
    simp only [Option.getD_some]
    rw [e']
    exact ⟨_, _, rfl, fun e h => by cases h; exact h2⟩
  · unfold generateDitherMap
    rw [if_pos (by simp [hgen])]
    exact ⟨none, p, rfl, fun e h => by cases h⟩

/-- A remap does not run out of memory, and the error it measures is a finite number. -/
theorem writeRemapped_fin (env : RemapEnv F) {s : RemapState F} (hg : s.image.Good) (ho : OutGood s.image s.out)
    (hp0 : 0 < s.quant.palette.length) (hp : s.quant.palette.length ≤ 256) (hi : s.image.Fin) (hγ : UsualGamma s.quant.gamma)
    (hpu : Flt.eq s.quant.ditherLevel (Flt.lit32 0) = true ∨ ∀ e ∈ s.quant.palette, e.color.UnitFin) :
    (writeRemapped env s).1 ≠ .error (.err .outOfMemory) ∧
    ∀ re, (writeRemapped env s).2.quant.remapped = some re → (writeRemapped env s).1 = .ok () →
      ∀ e, re.paletteError = some e → NN 100 e ∨ (Flt.eq s.quant.ditherLevel (Flt.lit32 0) = false ∧ s.quant.paletteError = some e) := by
  unfold writeRemapped
  rw [progress_eq]
  generalize reported s.quant.progressCallback s.log (Flt.lit32 ↑(remapStage1 s.quant.useDitherMap) *₃ Flt.lit32 (1/4)) = log'
  cases hans : answered s.quant.progressCallback log' with
  | true => exact ⟨by simp, fun re _ h => by cases h⟩
  | false =>
    simp only
    have ho' : OutGood s.image.freeHistogramInputs s.out := ho.same (Rows.free_same _)
    by_cases hd : Flt.eq s.quant.ditherLevel (Flt.lit32 0) = true
    · rw [if_pos hd]
      obtain ⟨re, e, h1, h2, h3⟩ := remapPlain_fin env (s := { s with log := log', image := s.image.freeHistogramInputs })
        hg.free ho' hp0 hp hi.free hγ
      generalize remapPlain env { s with log := log', image := s.image.freeHistogramInputs } = x at *
      obtain ⟨res, s1⟩ := x
      simp only at h1
      subst h1
      refine ⟨by simp, fun re' h _ e' he => .inl ?_⟩
      simp only [Option.some.injEq] at h
      subst h
      rw [h2] at he
      cases he
      exact h3
    · rw [if_neg hd]
      have hd' : Flt.eq s.quant.ditherLevel (Flt.lit32 0) = false := by simpa using hd
      have hpu' := hpu.resolve_left hd
      have hg' : ({ s with log := log', image := s.image.freeHistogramInputs } : RemapState F).image.Good := hg.free
      obtain ⟨err, p', h1, h2⟩ := generateDitherMap_fin env (s := { s with log := log', image := s.image.freeHistogramInputs })
        s.image.freeHistogramInputs.background.isSome (p := s.quant.palette) hg' ho' hp0 hp hi.free hpu'
      obtain ⟨g1, -, -, -, -, -, g6⟩ := generateDitherMap_spec env (s := { s with log := log', image := s.image.freeHistogramInputs })
        s.image.freeHistogramInputs.background.isSome (p := s.quant.palette) hg' ho' hp0 hp
      unfold remapDithered
      simp only
      generalize generateDitherMap env { s with log := log', image := s.image.freeHistogramInputs }
        s.image.freeHistogramInputs.background.isSome s.quant.palette = x at *
      obtain ⟨res, s1⟩ := x
      simp only at h1 g1 g6
      subst h1
      obtain ⟨err', p'', he, hpl, hall, -⟩ := g6.resolve_right (by simp)
      cases he
      simp only
      rw [progress_eq]
      have q1 : s1.quant = s.quant := g1.quant
      generalize reported s1.quant.progressCallback s1.log (Flt.lit32 ↑(remapStage1 s1.quant.useDitherMap) *₃ Flt.lit32 (1/2)) = log2
      cases answered s1.quant.progressCallback log2 with
      | true => exact ⟨by simp, fun re _ h => by cases h⟩
      | false =>
        simp only
        have hl := initIntPalette_length p' s1.quant.gamma (UInt8.ofNat s1.quant.minPosterizationOutput)
        obtain ⟨-, f2, -⟩ := remapFloyd_spec env (s := { s1 with log := log2 })
          (p := (p'.initIntPalette s1.quant.gamma (UInt8.ofNat s1.quant.minPosterizationOutput)).1)
          (maxDitherError (err.or s1.quant.paletteError)) err.isSome g1.good g1.out
          (by rw [hl.1, hpl]; exact hp0) (by rw [hl.1, hpl]; exact hp) (fun h => by rw [hl.1, hpl]; exact (hall h).1)
        simp only at f2
        generalize remapFloyd env { s1 with log := log2 }
          (p'.initIntPalette s1.quant.gamma (UInt8.ofNat s1.quant.minPosterizationOutput)).1
          (maxDitherError (err.or s1.quant.paletteError)) err.isSome = y at *
        obtain ⟨res2, s2⟩ := y
        simp only at f2
        rcases f2 with ⟨rfl, -⟩ | ⟨rfl, -⟩
        · refine ⟨by simp, fun re' h _ e' he => ?_⟩
          simp only [Option.some.injEq] at h
          subst h
          simp only at he
          cases err with
          | some e => simp only [Option.some_or, Option.some.injEq] at he; subst he; exact .inl (h2 e rfl)
          | none => rw [Option.none_or, q1] at he; exact .inr ⟨hd', he⟩
        · exact ⟨by simp, fun re _ h => by cases h⟩

end Verif
