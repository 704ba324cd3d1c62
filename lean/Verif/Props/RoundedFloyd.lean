import Verif.Lemmas.RoundedStrength
import Verif.Props.Floyd
import Verif.Props.RoundedRemap

/-! # C60 and C23 with rounding errors -/

set_option linter.unusedSectionVars false

namespace Verif
open Flt Spec
open FltRound (val fin)

variable {F : Type} [Flt F] [FltOrd F]

/-! ### Ranges -/

theorem within_unit {r : ℝ} {x : F} (h : Within (13 / 10 ^ 6) x r) (h0 : 0 ≤ r) (h1 : r ≤ 1) :
    fin x ∧ -1 / 10000 ≤ val x ∧ val x ≤ 10001 / 10000 := by
  have := abs_le.1 h.2
  exact ⟨h.1, by linarith, by linarith⟩

theorem fromRgba_near_unit {γ : F} (h : UsualGamma γ) (c : RGBA) : (FPixel.fromRgba (gammaLut γ) c).Unit := by
  have hc := fromRgba_converted_wide h c
  have s := share_nonneg c.a
  have s1 := share_le_one c.a
  have key : ∀ (i : UInt8) (w : ℝ), 0 ≤ w → w ≤ 1 → 0 ≤ level γ i * w * share c.a ∧ level γ i * w * share c.a ≤ 1 := by
    intro i w w0 w1
    have l0 := level_nonneg γ i
    have l1 := level_le_one h i
    have a := mul_nonneg l0 w0
    have b := mul_le_one₀ l1 w0 w1
    exact ⟨mul_nonneg a s, mul_le_one₀ b s s1⟩
  intro i
  fin_cases i
  · exact within_unit hc.a (by linarith) (by linarith)
  · exact within_unit hc.r (key _ _ (by norm_num) (by norm_num)).1 (key _ _ (by norm_num) (by norm_num)).2
  · exact within_unit hc.g (key _ _ (by norm_num) (by norm_num)).1 (key _ _ (by norm_num) (by norm_num)).2
  · exact within_unit hc.b (key _ _ (by norm_num) (by norm_num)).1 (key _ _ (by norm_num) (by norm_num)).2

theorem FPixel.Wanted.reach {t : FPixel F} (h : t.Wanted) : t.Reach := by
  have key : ∀ i, fin (t.ch i) ∧ -1 / 8 ≤ val (t.ch i) ∧ val (t.ch i) ≤ 9 / 8 := fun i =>
    ⟨(h i).1, by linarith [(h i).2.1], by linarith [(h i).2.2]⟩
  exact ⟨key 0, key 1, key 2, key 3⟩

theorem shows_near_unit {r : Rows F} {f : ℕ → ℕ → RGBA} (h : r.Shows f) (hγ : UsualGamma r.gamma) {y : ℕ} (hy : y < r.height) :
    ∀ p ∈ r.pixelsF y, p.Unit := by
  intro p hp
  unfold Rows.pixelsF at hp
  rw [h y hy] at hp
  simp only [List.mem_map] at hp
  obtain ⟨x, _, rfl⟩ := hp
  exact fromRgba_near_unit hγ _

theorem initIntPalette_unit (p : PalF F) {γ : F} (hγ : UsualGamma γ) (post : UInt8) :
    ∀ e ∈ (p.initIntPalette γ post).1, e.color.Unit := by
  intro e he
  obtain ⟨i, hi, rfl⟩ := List.getElem_of_mem he
  have hi' : i < p.length := by simpa [PalF.initIntPalette] using hi
  obtain ⟨d, c, h1, -⟩ := initIntPalette_get p γ post hi'
  rw [(palColor_at hi).2] at h1
  rw [h1]
  exact fromRgba_near_unit hγ d

/-! ### Comparisons -/

theorem dist_le_of_diff {x y z w : FPixel F} (hx : x.Reach) (hy : y.Reach) (hz : z.Reach) (hw : w.Reach)
    (h : val (x.diff y) ≤ val (z.diff w)) : x.dist y ≤ z.dist w + 2 * fuzz := by
  obtain ⟨f1, n1, -, -⟩ := diff_rounded hx hy
  obtain ⟨f2, -, -, -⟩ := diff_rounded hz hw
  obtain ⟨-, r1, -⟩ := root_rounded hx hy
  obtain ⟨-, r2, -⟩ := root_rounded hz hw
  have := FltOrd.sqrt_mono _ _ f1 f2 n1 h
  have a1 := abs_le.1 r1
  have a2 := abs_le.1 r2
  linarith

theorem default_reach : (FPixel.default : FPixel F).Reach := by
  have key : ∀ i, fin ((FPixel.default : FPixel F).ch i) ∧ -1 / 8 ≤ val ((FPixel.default : FPixel F).ch i) ∧ val ((FPixel.default : FPixel F).ch i) ≤ 9 / 8 := by
    intro i
    obtain ⟨a, b⟩ := fin_default (F := F) i
    rw [b]
    exact ⟨a, by norm_num, by norm_num⟩
  exact ⟨key 0, key 1, key 2, key 3⟩

theorem default_vals : (FPixel.default : FPixel F).vals = ⟨0, 0, 0, 0⟩ := by
  unfold FPixel.vals
  have h := fun i => (fin_default (F := F) i).2
  rw [show val (FPixel.default : FPixel F).a = 0 from h 0, show val (FPixel.default : FPixel F).r = 0 from h 1,
    show val (FPixel.default : FPixel F).g = 0 from h 2, show val (FPixel.default : FPixel F).b = 0 from h 3]

theorem fromRgba_clear {γ : F} (h : UsualGamma γ) {c : RGBA} (hc : c.a = 0) : (FPixel.fromRgba (gammaLut γ) c).vals = ⟨0, 0, 0, 0⟩ := by
  have hv := fromRgba_converted_wide h c
  have hs : share c.a = 0 := by rw [hc]; unfold share; norm_num
  obtain ⟨ha, hr, hg, hb⟩ := hv
  rw [hs] at ha hr hg hb
  have z : ∀ {x : F} {r : ℝ}, r = 0 → Within (13 / 10 ^ 6) x r → val x = 0 := by
    intro x r e hx
    have := hx.2
    rw [e] at this
    simp at this
    exact this
  unfold FPixel.vals
  rw [z (by ring) ha, z (by ring) hr, z (by ring) hg, z (by ring) hb]

/-- whether a rounded palette colour counts as visible -/
theorem visible_iff {γ : F} (h : UsualGamma γ) (c : RGBA) :
    lt (minOpaqueA : F) (FPixel.fromRgba (gammaLut γ) c).a = true ↔ c.a ≠ 0 := by
  have hm := minOpaqueA_rounded (F := F)
  have hA := weightA_weight (F := F)
  have A1 := hA.lo
  have A2 := hA.hi
  have hf := (fromRgba_reach h c).a.1
  rw [FltRound.lt _ _ hm.fin hf]
  constructor
  · intro hlt hc
    have e : val (FPixel.fromRgba (gammaLut γ) c).a = 0 := congrArg Color.a (fromRgba_clear h hc)
    rw [e] at hlt
    have := hm.rel.pos (by linarith)
    linarith
  · intro hz
    have ha := fromRgba_alpha (γ := γ) hz
    have h1 : (1 : ℝ) ≤ c.a.toNat := by
      have : c.a.toNat ≠ 0 := fun h => hz (by rw [← UInt8.toNat_inj, h]; rfl)
      exact_mod_cast Nat.pos_of_ne_zero this
    have u := hm.rel.le (by linarith) (by rw [w32_val]; norm_num)
    have v := ha.rel.ge (by positivity)
    refine lt_of_le_of_lt u (lt_of_lt_of_le ?_ v)
    have : 1 / 255 * val (weightA : F) ≤ (c.a.toNat : ℝ) / 255 * val (weightA : F) := by gcongr
    have h3 : 1 / 255 * val (weightA : F) * (1 - 4 * w32) ≤ (c.a.toNat : ℝ) / 255 * val (weightA : F) * (1 - 4 * w32) := by
      apply mul_le_mul_of_nonneg_right this
      rw [w32_val]; norm_num
    refine lt_of_lt_of_le ?_ h3
    rw [w32_val]
    linarith

variable [FltSign F]

theorem background_used_rounded {p : PalF F} {γ : F} (hγ : UsualGamma γ) (post : UInt8) {n : Nearest F}
    (hn : Nearest.new (p.initIntPalette γ post).1 = .ok n) :
    (lt minOpaqueA (palColor n.palette (transparentIndex n).toNat).a = true ↔ ∀ c ∈ (p.initIntPalette γ post).2, c.a ≠ 0) ∧
    ((∃ c ∈ (p.initIntPalette γ post).2, c.a = 0) →
      ∃ c, (p.initIntPalette γ post).2[(transparentIndex n).toNat]? = some c ∧ c.a = 0) := by
  have hl1 : (p.initIntPalette γ post).1.length = p.length := by simp [PalF.initIntPalette]
  have hl2 : (p.initIntPalette γ post).2.length = p.length := by simp [PalF.initIntPalette]
  have hr := initIntPalette_reach p hγ post
  obtain ⟨a1, -, a3⟩ := Nearest.search_rounded hn hr (default_reach (F := F)) 0
  have hti : (transparentIndex n).toNat = (n.search FPixel.default 0).1 := search_toNat hn _ _
  rw [(Nearest.new_ok hn).2.2.1, hti]
  obtain ⟨d, c, e1, e2, e3, -⟩ := initIntPalette_get p γ post (hl1 ▸ a1)
  have hiff : c.a = 0 ↔ d.a = 0 := by
    rcases e3 with rfl | ⟨h1, h2⟩
    · rfl
    · exact ⟨fun _ => h2, fun _ => h1⟩
  have hback : (∃ c ∈ (p.initIntPalette γ post).2, c.a = 0) → c.a = 0 := by
    rintro ⟨c', hc', h0⟩
    obtain ⟨j, hj, rfl⟩ := List.getElem_of_mem hc'
    have hj' : j < p.length := hl2 ▸ hj
    obtain ⟨d', c'', f1, f2, f3, -⟩ := initIntPalette_get p γ post hj'
    rw [List.getElem?_eq_getElem hj] at f2
    simp only [Option.some.injEq] at f2
    rw [f2] at h0
    have hd' : d'.a = 0 := by
      rcases f3 with rfl | ⟨h1, h2⟩
      · exact h0
      · exact h2
    have := a3 j (by rw [hl1]; exact hj')
    rw [e1, f1] at this
    unfold FPixel.dist at this
    rw [default_vals, fromRgba_clear hγ hd'] at this
    have z : Spec.dist ⟨0, 0, 0, 0⟩ ⟨0, 0, 0, 0⟩ = 0 := by unfold Spec.dist; rw [Spec.diff_self, Real.sqrt_zero]
    rw [z] at this
    rw [hiff]
    by_contra hne
    obtain ⟨-, -, -, k⟩ := dist_ge_chan (x := ⟨0, 0, 0, 0⟩) (y := (FPixel.fromRgba (gammaLut γ) d).vals)
    have hs := share_ge hne
    have hw := abs_le.1 (fromRgba_converted_wide hγ d).a.2
    have hv : (FPixel.fromRgba (gammaLut γ) d).vals.a = val (FPixel.fromRgba (gammaLut γ) d).a := rfl
    have s1 := share_le_one d.a
    have ha : 2 / 1000 ≤ val (FPixel.fromRgba (gammaLut γ) d).a := by linarith [hw.1]
    rw [hv, show (0 : ℝ) - val (FPixel.fromRgba (gammaLut γ) d).a = -val (FPixel.fromRgba (gammaLut γ) d).a by ring, abs_neg,
      abs_of_pos (by linarith)] at k
    unfold fuzz at this
    linarith
  refine ⟨?_, fun h => ⟨c, e2, hback h⟩⟩
  rw [e1, visible_iff hγ, ← not_iff_not]
  push Not
  rw [← hiff]
  exact ⟨fun h => ⟨c, List.mem_of_getElem? e2, h⟩, hback⟩

/-- the limit of errors, if the error of the palette is not enormous -/
theorem maxDitherError_upTo (e : Option F) (he : ∀ x, e = some x → fin x ∧ 0 ≤ val x ∧ val x ≤ 100) :
    fin (maxDitherError e) ∧
      |val (maxDitherError e) - max ((e.map val).getD (qualityLimit 80) * 2.4) (qualityLimit 35)| ≤ 2 / 10 ^ 5 := by
  have q80 := qualityToMse_near (F := F) (q := 80) (by norm_num) (by norm_num)
  have q35 := qualityToMse_near (F := F) (q := 35) (by norm_num) (by norm_num)
  have l80 := qualityLimit_le (q := 80) (by norm_num)
  have l35 := qualityLimit_le (q := 35) (by norm_num)
  have n80 := qualityLimit_nonneg 80
  have n35 := qualityLimit_nonneg 35
  obtain ⟨x, r, hx, hr, hn, r0, r1⟩ : ∃ (x : F) (r : ℝ), e.getD (qualityToMse 80) = x ∧ (e.map val).getD (qualityLimit 80) = r ∧
      Near (1 / 100000000) x r ∧ 0 ≤ r ∧ r ≤ 100 := by
    cases e with
    | none => exact ⟨_, _, rfl, rfl, q80, n80, l80⟩
    | some x =>
      obtain ⟨a, b, c⟩ := he x rfl
      exact ⟨x, val x, rfl, rfl, ⟨a, by rw [sub_self]; norm_num⟩, b, c⟩
  unfold maxDitherError
  rw [hx, hr]
  have h24 := Near.lit (F := F) (q := 24/10) (r := 2.4) (by norm_num) (by rw [abs_of_pos (by norm_num)]; norm_num)
  have hpp : ppt = 1 / 1000000000000 := rfl
  have hn' := abs_le.1 hn.near
  have h24' := abs_le.1 h24.near
  rw [hpp] at h24'
  have hm : |val x * val (lit64 (24/10) : F) - r * 2.4| ≤ 1 / 10 ^ 7 := by
    have : val x * val (lit64 (24/10) : F) - r * 2.4 = (val x - r) * val (lit64 (24/10) : F) + r * (val (lit64 (24/10) : F) - 2.4) := by ring
    rw [this]
    refine (abs_add_le _ _).trans ?_
    rw [abs_mul, abs_mul]
    have a1 : |val (lit64 (24/10) : F)| ≤ 3 := by rw [abs_le]; constructor <;> linarith
    have a2 : |r| ≤ 100 := by rw [abs_of_nonneg r0]; exact r1
    have a3 := mul_le_mul hn.near a1 (abs_nonneg _) (by norm_num)
    have a4 := mul_le_mul a2 h24.near (abs_nonneg _) (by norm_num)
    rw [hpp] at a4
    linarith
  have hm' := abs_le.1 hm
  have hb : |val x * val (lit64 (24/10) : F)| ≤ 1000 := by rw [abs_le]; constructor <;> linarith
  obtain ⟨m1, m2⟩ := FltRound.mul64 x (lit64 (24/10)) hn.fin h24.fin (fits64_small (hb.trans (by norm_num)))
  have m3 := abs_le.1 (rounds64_abs m2 hb)
  rw [hpp] at m3
  have mn : Near (2 / 10 ^ 7) (x *₆ lit64 (24/10)) (r * 2.4) := ⟨m1, by rw [abs_le]; constructor <;> linarith⟩
  obtain ⟨k1, k2⟩ := mn.max q35
  have k3 := abs_le.1 k2
  have hmax : |max (r * 2.4) (qualityLimit 35)| ≤ 240 := by
    rw [abs_of_nonneg (le_max_of_le_right n35)]
    exact max_le (by linarith) (by linarith)
  have hmax' := abs_le.1 hmax
  have hv : |val (Flt.fmax (x *₆ lit64 (24/10)) (qualityToMse 35))| ≤ 241 := by rw [abs_le]; constructor <;> linarith
  obtain ⟨t1, t2⟩ := FltRound.to32 _ k1 (fits32_small (hv.trans (by norm_num)))
  refine ⟨t1, ?_⟩
  have t3 := abs_le.1 t2.1
  have hu := u32_val
  have hτ := tiny32_le
  have : u32 * |val (Flt.fmax (x *₆ lit64 (24/10)) (qualityToMse 35))| ≤ u32 * 241 := mul_le_mul_of_nonneg_left hv u32_nonneg
  rw [abs_le]; constructor <;> linarith

/-! ### The theorem -/

/-- nearest in the rounded palette, nearest in the palette that is reported -/
theorem nearest_reported {p : PalF F} {γ : F} (hγ : UsualGamma γ) (post : UInt8) {n : Nearest F}
    (hn : Nearest.new (p.initIntPalette γ post).1 = .ok n) {t : FPixel F} (ht : t.Reach) (hint : ℕ) :
    IsNearestUpTo (3 / 10 ^ 4) ((p.initIntPalette γ post).2.map (colorOf (val γ))) t.vals (n.search t hint).1 := by
  have hl1 : (p.initIntPalette γ post).1.length = p.length := by simp [PalF.initIntPalette]
  have hl2 : (p.initIntPalette γ post).2.length = p.length := by simp [PalF.initIntPalette]
  obtain ⟨a1, -, a3⟩ := Nearest.search_rounded hn (initIntPalette_reach p hγ post) ht hint
  obtain ⟨d, c, e1, e2, e3, -⟩ := initIntPalette_get p γ post (hl1 ▸ a1)
  refine ⟨colorOf (val γ) c, by rw [List.getElem?_map, e2]; rfl, fun c' hc' => ?_⟩
  obtain ⟨c1, hc1, rfl⟩ := List.mem_map.mp hc'
  obtain ⟨j, hj, rfl⟩ := List.getElem_of_mem hc1
  have hj' : j < p.length := hl2 ▸ hj
  obtain ⟨d', c2, f1, f2, f3, -⟩ := initIntPalette_get p γ post hj'
  rw [List.getElem?_eq_getElem hj] at f2
  simp only [Option.some.injEq] at f2
  rw [f2, colorOf_looks e3, colorOf_looks f3]
  have main := a3 j (by rw [hl1]; exact hj')
  rw [e1, f1] at main
  unfold FPixel.dist fuzz at main
  have n1 := fromRgba_near hγ d
  have n2 := fromRgba_near hγ d'
  have t2 := Spec.dist_triangle t.vals (FPixel.fromRgba (gammaLut γ) d).vals (colorOf (val γ) d)
  have t4 := Spec.dist_triangle t.vals (colorOf (val γ) d') (FPixel.fromRgba (gammaLut γ) d').vals
  have s2 := Spec.dist_comm (colorOf (val γ) d') (FPixel.fromRgba (gammaLut γ) d').vals
  linarith

/-- rounded palette colours and reported colours -/
theorem entry_reported {p : PalF F} {γ : F} (hγ : UsualGamma γ) (post : UInt8) {i : ℕ} {e : PalEntry F}
    (h : (p.initIntPalette γ post).1[i]? = some e) :
    ∃ c, ((p.initIntPalette γ post).2.map (colorOf (val γ)))[i]? = some c ∧ Spec.dist e.color.vals c ≤ 9 / 10 ^ 5 := by
  have hl1 : (p.initIntPalette γ post).1.length = p.length := by simp [PalF.initIntPalette]
  obtain ⟨hi, rfl⟩ := List.getElem?_eq_some_iff.mp h
  obtain ⟨d, c, e1, e2, e3, -⟩ := initIntPalette_get p γ post (hl1 ▸ hi)
  refine ⟨colorOf (val γ) c, by rw [List.getElem?_map, e2]; rfl, ?_⟩
  rw [(palColor_at hi).2] at e1
  rw [e1, colorOf_looks e3]
  exact fromRgba_near hγ d

/-- **C60** (rounded). What `C60_floyd_steinberg` says holds with rounding errors, up to 10⁻⁴ in every step of the
diffusion and up to 5·10⁻⁴ in distances between colours. The errors do not add up: what a pixel receives is compared with
the errors that were really made at its neighbours. No error ever exceeds 1.11 in any channel, no colour wanted leaves
[-0.1001, 1.1001], and nothing becomes infinite or NaN (**C23**, rounded). -/
theorem C60_floyd_steinberg_rounded (env : RemapEnv F) {q : QuantizationResult F} {img : Image F} (hq : UserResult q)
    (hi : UserImage img) {f : ℕ → ℕ → RGBA} (hf : img.px.Shows f) (hγq : UsualGamma q.gamma) (hγi : UsualGamma img.px.gamma)
    (hγb : ∀ b, img.background = some b → UsualGamma b.gamma)
    (hlev : fin q.ditherLevel ∧ 0 < val q.ditherLevel ∧ val q.ditherLevel ≤ 1.01) (buf : List (Option UInt8))
    (log : List F) (hok : (remapInto env q img buf log).res = .ok ()) :
    let r := remapInto env q img buf log
    ∃ (size : ℕ) (map : ℕ → ℕ → ℕ) (limit : Option ℝ) (t : UInt8), 0 < size ∧ (size = img.height ∨ 65 ≤ size) ∧
      (q.singleThreadedDithering = true ∨ img.height ≤ 128 ∨ env.cpus = 1 → size = img.height) ∧
      (∀ y < img.height, ∀ x < img.width,
        (q.useDitherMap = .none ∨ r.image.ditherMap = none ∧ r.image.edges = none → map y x = 255) ∧
        ∀ m, q.useDitherMap ≠ .none → r.image.ditherMap = some m ∨ r.image.ditherMap = none ∧ r.image.edges = some m →
          m[y * img.width + x]?.map UInt8.toNat = some (map y x)) ∧
      (∃ e, r.quant.remapped.map (·.paletteError) = some e ∧ ((∀ x, e = some x → fin x ∧ 0 ≤ val x ∧ val x ≤ 100) →
        ∃ l, limit = some l ∧ |l - max ((e.map val).getD (qualityLimit 80) * 2.4) (qualityLimit 35)| ≤ 2 / 10 ^ 5)) ∧
      (img.background ≠ none → (∃ c ∈ r.quant.getPalette.2, c.a = 0) → ∃ c, r.quant.getPalette.2[t.toNat]? = some c ∧ c.a = 0) ∧
      ∀ s, s % size = 0 → s < img.height →
        ∃ (px shown target : ℕ → ℕ → Color) (byte : ℕ → ℕ → UInt8) (err : ℤ → ℤ → Fin 4 → ℝ),
          DitheredUpTo (1 / 10 ^ 4) img.width (s - 2) (min (s + size) img.height)
            (fun y x => (1 - (1 - val q.ditherLevel) ^ 2) * (15/16) * (map y x / 255)) limit px shown target err ∧
          ∀ y x, s - 2 ≤ y → y < min (s + size) img.height → x < img.width →
            Spec.dist (px y x) (colorOf (val img.px.gamma) (f y x)) ≤ 9 / 10 ^ 5 ∧
            (∀ i, |err y x i| ≤ 1.11 ∧ -0.1001 ≤ (target y x).chans i ∧ (target y x).chans i ≤ 1.1001) ∧
            (s ≤ y → r.buf[y * img.width + x]? = some (some (byte y x))) ∧
            (img.background = none ∨ (∀ c ∈ r.quant.getPalette.2, c.a ≠ 0) →
              PlainUpTo (5 / 10 ^ 4) (r.quant.getPalette.2.map (colorOf (val q.gamma))) (target y x) (shown y x) (byte y x).toNat) ∧
            ∀ b g, img.background = some b → b.Shows g → (∃ c ∈ r.quant.getPalette.2, c.a = 0) →
              InFrontUpTo (5 / 10 ^ 4) (r.quant.getPalette.2.map (colorOf (val q.gamma))) t.toNat (colorOf (val b.gamma) (g y x))
                (colorOf (val img.px.gamma) (f y x)) (target y x) (shown y x) (byte y x).toNat := by
  have hl' : eq q.ditherLevel (lit32 0) = false := by
    have z := IsZero.lit32 (F := F)
    rw [← Bool.not_eq_true, FltRound.eq _ _ hlev.1 z.fin, z.zero]
    exact hlev.2.1.ne'
  obtain ⟨p, mapErr, old, out, ctx, bg, dmap, -, hpl, hfd, hquant, hpal, hrows⟩ :=
    remapInto_dithered env hq.good hi.good buf log hl' hok
  obtain ⟨-, hbgs⟩ := hi.shows
  have hhp : 0 < img.height := hi.good.height_pos
  obtain ⟨hs1, hs2, hs3⟩ := C60_chunks env q img hhp
  have hgood := ((remapInto_spec env buf log hq.good hi.good).good hq.good hi.good).2
  have hsize : (remapInto env q img buf log).image.width = img.width ∧ (remapInto env q img buf log).image.height = img.height := by
    by_cases hb : buf.length < img.width * img.height
    · rw [(remapInto_spec env buf log hq.good hi.good).small hb]
      exact ⟨rfl, rfl⟩
    · obtain ⟨s, d, -, e2, -⟩ := (remapInto_spec env buf log hq.good hi.good).run (by omega)
      rw [e2]
      exact ⟨d.samePx.width, d.samePx.height⟩
  have hed := hgood.edges
  have hdm := hgood.ditherMap
  rw [hsize.1, hsize.2] at hed hdm
  have hmlen : ditherMapOf (remapInto env q img buf log).image q.useDitherMap = [] ∨
      (ditherMapOf (remapInto env q img buf log).image q.useDitherMap).length = img.width * img.height := by
    unfold ditherMapOf
    split
    · cases h1 : (remapInto env q img buf log).image.ditherMap with
      | some m => right; exact hdm m h1
      | none =>
        cases h2 : (remapInto env q img buf log).image.edges with
        | some m => right; exact hed m h2
        | none => left; rfl
    · exact .inl rfl
  have hwh : 0 < img.width * img.height := Nat.mul_pos hi.good.width_pos hhp
  obtain ⟨hlevs, map, hm1, hm3⟩ := level_upTo hlev.1 hlev.2.1.le hlev.2.2 hmlen hfd.base.1 hfd.base.2
  have hpalu : ∀ e ∈ ctx.n.palette, e.color.Unit := by
    rw [hfd.palette]; exact initIntPalette_unit p hγq _
  have hpalr := initIntPalette_reach p hγq (UInt8.ofNat q.minPosterizationOutput)
  have hn : Nearest.new (p.initIntPalette q.gamma (UInt8.ofNat q.minPosterizationOutput)).1 = .ok ctx.n := by
    rw [← hfd.palette]; exact hfd.good.1
  have hbgu := background_used_rounded hγq (UInt8.ofNat q.minPosterizationOutput) hn
  rw [← hpal] at hbgu
  intro r
  classical
  refine ⟨bandSize env q img, map, if fin ctx.maxErr then some (val ctx.maxErr) else none, ctx.ti, hs1, hs2, hs3,
    fun y hy x hx => ⟨fun h => (hm1 y hy x hx).1 ?_, fun m h1 h2 => ?_⟩, ⟨_, by
    show (remapInto env q img buf log).quant.remapped.map _ = _
    rw [hquant]; rfl, fun he => by
    obtain ⟨m1, m2⟩ := maxDitherError_upTo _ he
    rw [hfd.limit]
    exact ⟨_, if_pos m1, m2⟩⟩, ?_, ?_⟩
  · unfold ditherMapOf
    rcases h with h | ⟨h1, h2⟩
    · rw [if_neg (by simp [h])]
    · show (if _ then ((remapInto env q img buf log).image.ditherMap.or (remapInto env q img buf log).image.edges).getD [] else _) = _
      rw [show (remapInto env q img buf log).image.ditherMap = none from h1, show (remapInto env q img buf log).image.edges = none from h2]
      simp
  · have : ditherMapOf (remapInto env q img buf log).image q.useDitherMap = m ∧ m.length = img.width * img.height := by
      unfold ditherMapOf
      rw [if_pos h1]
      rcases h2 with h2 | ⟨h2, h3⟩
      · rw [show (remapInto env q img buf log).image.ditherMap = some m from h2]
        exact ⟨rfl, hdm m h2⟩
      · rw [show (remapInto env q img buf log).image.ditherMap = none from h2, show (remapInto env q img buf log).image.edges = some m from h3]
        exact ⟨rfl, hed m h3⟩
    have h4 := (hm1 y hy x hx).2
    rw [this.1] at h4
    exact h4 (fun h => by rw [h] at this; simp at this; omega)
  · intro hb
    rw [(hfd.used hb).1]
    exact hbgu.2
  generalize hsz : bandSize env q img = size at *
  intro s hmod hlt
  obtain ⟨D, h0, hD⟩ := hfd.bands s hmod hlt
  have htop : bandTop s = s - 2 := by
    unfold bandTop
    rcases Nat.eq_zero_or_pos s with h | h
    · subst h; rfl
    · have : size ≤ s := Nat.le_of_dvd h (Nat.dvd_of_mod_eq_zero hmod)
      rw [if_pos (by omega)]
  rw [htop] at h0 hD
  have hex : ∀ y, ∃ o r, s - 2 ≤ y → y < min (s + size) img.height →
      ditherRow ctx (img.px.pixelsF y) (bgRowOf bg y) (dmap y) (D y) (decide (y % 2 = 0)) o = .ok r ∧ D (y + 1) = r.diffusion ∧
      (s ≤ y → out[y]? = some r.out) := by
    intro y
    by_cases hy : s - 2 ≤ y ∧ y < min (s + size) img.height
    · obtain ⟨o, r, h⟩ := hD y hy.1 (by omega) (by omega)
      exact ⟨o, r, fun _ _ => h⟩
    · exact ⟨[], ⟨D 0, [], false⟩, fun h1 h2 => absurd ⟨h1, h2⟩ hy⟩
  choose o R hR using hex
  -- the background, if it is used
  have hbgsame : bg = none ∨ ∃ b b', img.background = some b ∧ bg = some b' ∧ Rows.Same b b' := by
    cases hbb : bg with
    | none => exact .inl rfl
    | some b' =>
      right
      rcases hfd.background with h | h
      · cases hib : img.background with
        | none => rw [hib, hbb] at h; exact h.elim
        | some b => rw [hib, hbb] at h; exact ⟨b, b', rfl, rfl, h⟩
      · rw [hbb] at h; cases h
  have hbgunit : ∀ y, y < img.height → ∀ p ∈ bgRowOf bg y, p.Unit := by
    intro y hy c hc
    rcases hbgsame with h | ⟨b, b', h1, h2, h3⟩
    · rw [h] at hc; cases hc
    · rw [h2] at hc
      obtain ⟨g, hg⟩ := hbgs b h1
      have hb0 := hi.good.background b h1
      refine shows_near_unit (h3.shows hg) ?_ (show y < b'.height by rw [h3.height, hb0.2.2]; exact hy) c hc
      rw [h3.gamma]; exact hγb b h1
  obtain ⟨target, shown, byte, err, hdith, hbyte⟩ := band_near (ctx := ctx) (row := img.px.pixelsF) (bg := bgRowOf bg) (dmap := dmap)
    (top := s - 2) (bottom := min (s + size) img.height) (D := D) (R := R) h0
    (fun y h1 h2 => ⟨o y, (hR y h1 h2).1, (hR y h1 h2).2.1⟩) (limit := if fin ctx.maxErr then some (val ctx.maxErr) else none)
    (fun l hl => by
      split at hl
      next hfin => cases hl; exact ⟨hfin, rfl⟩
      · cases hl) hlevs (fun y _ h2 => shows_near_unit hf hγi (show y < img.px.height from (show y < img.height by omega)))
    (fun y _ h2 => hbgunit y (by omega)) hpalu
  rw [hfd.width] at hdith hbyte
  refine ⟨fun y x => ((img.px.pixelsF y).getD x FPixel.default).vals, fun y x => (shown y x).vals, fun y x => (target y x).vals, byte, err,
    hdith.strength (d := 5 / 10 ^ 6) (by unfold dev; norm_num) (fun y x h1 h2 => hm3 y (by omega) x h2) (by norm_num)
      (fun y x h1 h2 h3 => (hbyte y x h1 h2 h3).2.2.1) (by unfold dev; norm_num), ?_⟩
  intro y x h1 h2 hx
  obtain ⟨e1, e2, e2', e3, e4, e5⟩ := hbyte y x h1 h2 hx
  have hpx := hf.pixel (show y < img.px.height from (show y < img.height by omega)) (show x < img.px.width from hx)
  have htr := e2.reach
  refine ⟨?_, fun i => ⟨(e2' i).trans (by norm_num), ?_, ?_⟩, fun hy => ?_, ?_, ?_⟩
  · dsimp only
    rw [List.getD_eq_getElem?_getD, hpx]
    exact fromRgba_near hγi _
  · dsimp only
    rw [vals_chans]; exact le_trans (by norm_num) (e2 i).2.1
  · dsimp only
    rw [vals_chans]; exact (e2 i).2.2.trans (by norm_num)
  · obtain ⟨row, f1, f2⟩ := hrows y (by omega)
    show (remapInto env q img buf log).buf[_]? = _
    rw [f2 x hx]
    rw [(hR y h1 h2).2.2 hy] at f1
    cases f1
    exact e1
  · intro hb
    have hb' : img.background = none ∨ ∀ c ∈ (remapInto env q img buf log).quant.getPalette.2, c.a ≠ 0 := hb
    have hbn : (bgRowOf bg y)[x]? = none := by
      have hbg : bg = none := by
        rcases hbgsame with h | ⟨b, b', k1, k2, k3⟩
        · exact h
        · have hne : img.background ≠ none := by rw [k1]; simp
          exact (hfd.used hne).2.mpr (hbgu.1.mpr (hb'.resolve_left hne))
      rw [hbg]; rfl
    obtain ⟨hint, hby⟩ := e4 hbn
    show PlainUpTo _ ((remapInto env q img buf log).quant.getPalette.2.map _) _ _ _
    rw [hpal]
    constructor
    · rcases e3 with ⟨e, g1, g2⟩ | ⟨-, g1⟩
      · rw [hfd.palette] at g1
        obtain ⟨c, k1, k2⟩ := entry_reported hγq _ g1
        exact ⟨c, k1, by dsimp only; rw [g2]; exact k2.trans (by norm_num)⟩
      · rw [hbn] at g1; cases g1
    · rw [hby, search_toNat hn]
      obtain ⟨c, k1, k2⟩ := nearest_reported hγq _ hn htr hint
      exact ⟨c, k1, fun c' hc' => (k2 c' hc').trans (by linarith)⟩
  · intro b g hb hg ht
    have ht' : ∃ c ∈ (remapInto env q img buf log).quant.getPalette.2, c.a = 0 := ht
    show InFrontUpTo _ ((remapInto env q img buf log).quant.getPalette.2.map _) _ _ _ _ _ _
    rw [hpal] at ht' ⊢
    have hne : img.background ≠ none := by rw [hb]; simp
    have hbg : bg ≠ none := by
      rw [Ne, (hfd.used hne).2, hbgu.1, hpal]
      obtain ⟨c, hc, h0⟩ := ht'
      exact fun h => h c hc h0
    rcases hbgsame with h | ⟨b0, b', k1, k2, hsame⟩
    · exact absurd h hbg
    rw [hb] at k1
    cases k1
    have hb0 := hi.good.background b hb
    have hbpx := (hsame.shows hg).pixel (show y < b'.height by rw [hsame.height, hb0.2.2]; exact (show y < img.height by omega))
      (show x < b'.width by rw [hsame.width, hb0.2.1]; exact hx)
    obtain ⟨hint, px, hrow, e, j1, j2⟩ := e5 _ (by rw [k2]; exact hbpx)
    rw [hpx] at hrow
    cases hrow
    rw [hsame.gamma] at j2
    have hγb' := hγb b hb
    have nb := fromRgba_near hγb' (g y x)
    have np := fromRgba_near hγi (f y x)
    have rb := fromRgba_reach hγb' (g y x)
    have rp := fromRgba_reach hγi (f y x)
    generalize hB : FPixel.fromRgba (gammaLut b.gamma) (g y x) = bF at *
    generalize hP : FPixel.fromRgba (gammaLut img.px.gamma) (f y x) = pF at *
    generalize colorOf (val b.gamma) (g y x) = back at *
    generalize colorOf (val img.px.gamma) (f y x) = pc at *
    rw [search_toNat hn, hfd.palette] at j1
    obtain ⟨ec, m1, m2⟩ := entry_reported hγq _ j1
    obtain ⟨nc, m3, m4⟩ := nearest_reported hγq (UInt8.ofNat q.minPosterizationOutput) hn htr hint
    rw [m1] at m3
    cases m3
    have re : e.color.Reach := hpalr e (List.mem_of_getElem? j1)
    obtain ⟨a1, a2, -⟩ := Nearest.search_rounded hn hpalr htr hint
    have hpe : palColor (p.initIntPalette q.gamma (UInt8.ofNat q.minPosterizationOutput)).1 (ctx.n.search (target y x) hint).1 = e.color := by
      unfold palColor; rw [j1]
    rw [hpe] at a2
    -- the difference found, as a distance
    obtain ⟨fb, -, -, -⟩ := diff_rounded htr rb
    have hle : (le ((target y x).diff bF) (ctx.n.search (target y x) hint).2 = true →
          (target y x).dist bF ≤ (target y x).dist e.color + 2 * fuzz) ∧
        (le ((target y x).diff bF) (ctx.n.search (target y x) hint).2 = false →
          (target y x).dist e.color ≤ (target y x).dist bF + 2 * fuzz) := by
      rcases a2 with a2 | a2
      · rw [a2]
        obtain ⟨fe, -, -, -⟩ := diff_rounded htr re
        rw [← Bool.not_eq_true, FltRound.le _ _ fb fe]
        exact ⟨fun h => dist_le_of_diff htr rb htr re h, fun h => dist_le_of_diff htr re htr rb (not_le.mp h).le⟩
      · rw [a2]
        obtain ⟨fe, -, -, -⟩ := diff_rounded re htr
        rw [← Bool.not_eq_true, FltRound.le _ _ fb fe, FPixel.dist_comm (target y x) e.color]
        exact ⟨fun h => dist_le_of_diff htr rb re htr h, fun h => dist_le_of_diff re htr htr rb (not_le.mp h).le⟩
    have hz : fuzz = 4 / 10 ^ 6 := rfl
    rw [hz] at hle
    unfold FPixel.dist at hle
    have tri := fun a b c : Color => Spec.dist_triangle a b c
    have com := fun a b : Color => Spec.dist_comm a b
    have near : IsNearestUpTo (5 / 10 ^ 4) ((p.initIntPalette q.gamma (UInt8.ofNat q.minPosterizationOutput)).2.map (colorOf (val q.gamma)))
        (target y x).vals (ctx.n.search (target y x) hint).1 := ⟨_, m1, fun c' hc' => (m4 c' hc').trans (by linarith)⟩
    have hbig : le ((target y x).diff bF) (ctx.n.search (target y x) hint).2 = false →
        ∃ c ∈ (p.initIntPalette q.gamma (UInt8.ofNat q.minPosterizationOutput)).2.map (colorOf (val q.gamma)),
          Spec.dist (target y x).vals c ≤ Spec.dist (target y x).vals back + 5 / 10 ^ 4 := by
      intro h
      refine ⟨ec, List.mem_of_getElem? m1, ?_⟩
      have := hle.2 h
      linarith [tri (target y x).vals e.color.vals ec, tri (target y x).vals back bF.vals, com back bF.vals]
    rcases j2 with ⟨g1, g2, g3⟩ | ⟨g1, g2, g3⟩ | ⟨g1, e', g2, g3, g4, g5⟩
    · refine .inl ⟨fun c hc => ?_, congrArg UInt8.toNat g2, ?_⟩
      · have := hle.1 g1
        have := m4 c hc
        dsimp only
        linarith [tri (target y x).vals bF.vals back, tri (target y x).vals ec e.color.vals, com ec e.color.vals]
      · dsimp only
        rw [g3]; exact nb.trans (by norm_num)
    · refine .inr ⟨hbig g1, ⟨ec, ?_, ?_⟩, .inl ?_⟩
      · rw [g2, search_toNat hn]; exact m1
      · dsimp only
        rw [g3]; exact m2.trans (by norm_num)
      · rw [g2, search_toNat hn]; exact near
    · rw [hfd.palette] at g2
      have re' : e'.color.Reach := hpalr e' (List.mem_of_getElem? g2)
      obtain ⟨c', l1, l2⟩ := entry_reported hγq _ g2
      obtain ⟨f1, -, -, -⟩ := diff_rounded rp rb
      obtain ⟨f2, -, -, -⟩ := diff_rounded rp re
      obtain ⟨f3, -, -, -⟩ := diff_rounded rp re'
      rw [FltRound.lt _ _ f1 f2] at g4
      rw [FltRound.lt _ _ f3 f1] at g5
      have k4 := dist_le_of_diff rp rb rp re g4.le
      have k5 := dist_le_of_diff rp re' rp rb g5.le
      rw [hz] at k4 k5
      unfold FPixel.dist at k4 k5
      refine .inr ⟨hbig g1, ⟨c', l1, ?_⟩, .inr ⟨_, _, m1, near, ?_, ?_⟩⟩
      · dsimp only
        rw [g3]; exact l2.trans (by norm_num)
      · linarith [tri pc pF.vals back, tri pF.vals bF.vals back, tri pF.vals ec e.color.vals, com ec e.color.vals, tri pF.vals pc ec,
          com pc pF.vals]
      · dsimp only
        rw [g3]
        linarith [tri pc pF.vals e'.color.vals, com pc pF.vals, tri pF.vals back bF.vals, com back bF.vals, tri pF.vals pc back]

/-- **C23** (rounded). In every dithered remap that succeeds, however large the image, all errors carried from pixel to pixel
are at most 1.11 in every channel and all colours wanted are within [-0.1001, 1.1001], with rounding errors, too. -/
theorem C23_image_rounded (env : RemapEnv F) {q : QuantizationResult F} {img : Image F} (hq : UserResult q)
    (hi : UserImage img) (hγq : UsualGamma q.gamma) (hγi : UsualGamma img.px.gamma)
    (hγb : ∀ b, img.background = some b → UsualGamma b.gamma)
    (hlev : fin q.ditherLevel ∧ 0 < val q.ditherLevel ∧ val q.ditherLevel ≤ 1.01) (buf : List (Option UInt8))
    (log : List F) (hok : (remapInto env q img buf log).res = .ok ()) :
    ∃ (size : ℕ) (strength : ℕ → ℕ → ℝ) (limit : Option ℝ), 0 < size ∧ ∀ s, s % size = 0 → s < img.height →
      ∃ (px shown target : ℕ → ℕ → Color) (err : ℤ → ℤ → Fin 4 → ℝ),
        DitheredUpTo (1 / 10 ^ 4) img.width (s - 2) (min (s + size) img.height) strength limit px shown target err ∧
        ∀ y x : ℕ, s - 2 ≤ y → y < min (s + size) img.height → x < img.width → ∀ i,
          |err y x i| ≤ 1.11 ∧ -0.1001 ≤ (target y x).chans i ∧ (target y x).chans i ≤ 1.1001 := by
  obtain ⟨f, hf⟩ := hi.shows.1
  obtain ⟨size, map, limit, t, h1, -, -, -, -, -, h⟩ := C60_floyd_steinberg_rounded env hq hi hf hγq hγi hγb hlev buf log hok
  refine ⟨size, fun y x => (1 - (1 - val q.ditherLevel) ^ 2) * (15/16) * (map y x / 255), limit, h1, fun s hs hlt => ?_⟩
  obtain ⟨px, shown, target, byte, err, hd, hp⟩ := h s hs hlt
  exact ⟨px, shown, target, err, hd, fun y x a b c => (hp y x a b c).2.1⟩

/-- the hypotheses of `C60_floyd_steinberg_rounded` and `C23_image_rounded` hold for an image made of two colours, quantized with default settings,
in an arithmetic with rounding errors -/
example : ∃ (q : QuantizationResult CutReal) (img : Image CutReal), UserResult q ∧ UserImage img ∧ img.px.Shows inkPixels ∧
    UsualGamma q.gamma ∧ UsualGamma img.px.gamma ∧ (∀ b, img.background = some b → UsualGamma b.gamma) ∧
    (fin q.ditherLevel ∧ 0 < val q.ditherLevel ∧ val q.ditherLevel ≤ 1.01) ∧
    (remapInto RemapEnv.simple q img [none, none] []).res = .ok () := by
  obtain ⟨img, hm, hbr⟩ := inkPixels_made (F := CutReal)
  have hmf := hm.facts
  obtain ⟨z1, z2⟩ := FltRound.lit64 (F := CutReal) 0 (by unfold Fits64; norm_num)
  have zv : val (lit64 0 : CutReal) = 0 := z2.2 (by norm_num)
  obtain ⟨q, img', log', e, huq, hui, hshow, hbg, hw, hh, hγ, hpo, hcb, hlv, -, hgi, hbytes, hall⟩ :=
    quantizeImage_few_any Env.simple [] (by decide) (by decide) (by decide) hm
      (hmf.user.good.mapPositive_rounded hmf.shows_ hbr.toUsualGamma)
      ((FltRound.lt _ _ z1 hbr.fin).2 (by rw [zv]; linarith [hbr.bright])) ((FltRound.eq _ _ z1 z1).2 rfl)
      (fun _ => limit_scaled) [⟨10, 20, 30, 40⟩, ⟨50, 60, 70, 255⟩] (by decide) (fun y _ x _ => inkPixels_colors y x) []
  have one := Approx.lit32 (F := CutReal) (q := 1) (by push_cast; exact mid_of (by norm_num) (by norm_num))
  have hl := one.rel.le (by norm_num) (by rw [w32_val]; norm_num)
  have hp := one.rel.pos (by norm_num)
  rw [w32_val] at hl
  push_cast at hl
  refine ⟨q, img', huq, hui, hshow, ?_, ?_, fun b hb => ?_, ?_, ?_⟩
  · rw [hγ, hgi]; exact hbr.toUsualGamma
  · rw [hgi]; exact hbr.toUsualGamma
  · rw [hbg] at hb; cases hb
  · rw [hlv]; exact ⟨one.fin, hp, hl.trans (by norm_num)⟩
  · exact C48_succeeds _ huq hui _ _ (by rw [hw, hh]; simp) hcb (fun _ => rfl)

end Verif
