import Verif.Lemmas.Shows
import Mathlib.Tactic.Linarith
import Mathlib.Tactic.NormNum

/-! # Undithered remapping in exact arithmetic -/

set_option linter.unusedSectionVars false

namespace Verif
open Flt Spec

/-- After rounding, the float palette holds exactly the colours of the reported 8-bit palette. -/
theorem rounded_colors (p : PalF ℝ) (γ : ℝ) (post : UInt8) :
    (p.initIntPalette γ post).1.map (fun e => e.color.spec) = (p.initIntPalette γ post).2.map (colorOf γ) := by
  unfold PalF.initIntPalette
  rw [List.map_map, List.map_map]
  apply List.map_congr_left
  intro e _
  simp only [Function.comp, PalF.roundEntry]
  generalize (e.color.toRgb γ).map (fun c => PalF.posterizeChannel c post) = c
  rw [fromRgba_spec]
  split
  next h =>
    unfold colorOf
    simp [h.1]
  · rfl

theorem palColor_get {p : PalF ℝ} {i : ℕ} (h : i < p.length) : p[i]? = some p[i] ∧ palColor p i = p[i].color := by
  simp [palColor, List.getElem?_eq_getElem h]

/-- the result of a search is a nearest colour, and the difference is the one to that colour -/
theorem search_nearest {p : PalF ℝ} {n : Nearest ℝ} (hn : Nearest.new p = .ok n) (px : FPixel ℝ) {hint : ℕ}
    (hh : hint < p.length) :
    IsNearest (p.map fun e => e.color.spec) px.spec (n.search px hint).1 ∧
    ∃ c, (p.map fun e => e.color.spec)[(n.search px hint).1]? = some c ∧ (n.search px hint).2 = diff px.spec c ∧
      ∀ c' ∈ p.map fun e => e.color.spec, (n.search px hint).2 ≤ diff px.spec c' := by
  obtain ⟨h1, h2, h3⟩ := Nearest.search_min hn px hint (.inl hh)
  have hget : (p.map fun e => e.color.spec)[(n.search px hint).1]? = some (palColor p (n.search px hint).1).spec := by
    rw [List.getElem?_map, (palColor_get h1).1, (palColor_get h1).2]; rfl
  have hall : ∀ c' ∈ p.map fun e => e.color.spec, (n.search px hint).2 ≤ diff px.spec c' := by
    intro c' hc'
    obtain ⟨e, he, rfl⟩ := List.mem_map.mp hc'
    obtain ⟨j, hj, rfl⟩ := List.getElem_of_mem he
    have := h3 j hj
    rw [(palColor_get hj).2, FPixel.diff_spec] at this
    exact this
  have h2' : (n.search px hint).2 = diff px.spec (palColor p (n.search px hint).1).spec := by
    rw [h2, FPixel.diff_spec]
  exact ⟨⟨_, hget, fun c' hc' => h2' ▸ hall c' hc'⟩, _, hget, h2', hall⟩

/-- the place of column `x` of row `y` in a list of rows of the same length -/
theorem flatten_getElem? {α : Type} {w : ℕ} {rows : List (List α)} (h : ∀ r ∈ rows, r.length = w) {y x : ℕ} {row : List α}
    (hy : rows[y]? = some row) (hx : x < w) : rows.flatten[y * w + x]? = row[x]? := by
  induction rows generalizing y with
  | nil => simp at hy
  | cons r rs ih =>
    have hr : r.length = w := h r (by simp)
    rw [List.flatten_cons]
    cases y with
    | zero =>
      simp only [List.getElem?_cons_zero, Option.some.injEq] at hy
      subst hy
      rw [Nat.zero_mul, Nat.zero_add, List.getElem?_append_left (by omega)]
    | succ y =>
      rw [List.getElem?_cons_succ] at hy
      rw [List.getElem?_append_right (by rw [hr, Nat.add_mul]; omega), hr]
      have : (y + 1) * w + x - w = y * w + x := by rw [Nat.add_mul]; omega
      rw [this]
      exact ih (fun r hr => h r (by simp [hr])) hy

/-- A successful undithered `remap_into`, byte by byte: the reported palette is the rounded one, the remembered error
belongs to it, and each byte comes from a search in it. -/
theorem remapInto_plain {F : Type} [Flt F] (env : RemapEnv F) {q : QuantizationResult F} {img : Image F} (hq : q.Good)
    (hi : img.Good) (buf : List (Option UInt8)) (log : List F) (hl : eq q.ditherLevel (lit32 0) = true)
    (hok : (remapInto env q img buf log).res = .ok ()) :
    let P := q.palette.initIntPalette q.gamma (UInt8.ofNat q.minPosterizationOutput)
    ∃ n, Nearest.new P.1 = .ok n ∧
      (remapInto env q img buf log).quant = { q with
        remapped := some ⟨P.2, some (env.sum ((plainRows n img.px img.background img.importanceMap img.height).map (·.err)) /₆
          lit64 (img.width * img.height % 2 ^ 32 : ℕ))⟩ } ∧
      (remapInto env q img buf log).quant.getPalette.2 = P.2 ∧
      ∀ y < img.height, ∀ x < img.width, ∀ px, (img.px.pixelsF y)[x]? = some px → ∃ hint : UInt8,
        hint.toNat < P.1.length ∧ (remapInto env q img buf log).buf[y * img.width + x]? =
          some (some (plainByte n (pickBackground n img.background).2 (bgPixel (pickBackground n img.background).1 y x) px hint)) := by
  intro P
  have spec := remapInto_spec env buf log hq hi
  have hbig : img.width * img.height ≤ buf.length := by
    by_contra hlt
    rw [spec.small (by omega)] at hok
    cases hok
  obtain ⟨s, d, e1, e2, e3, e4, e5, e6⟩ := spec.run hbig
  have hw := writeRemapped_plain env (s := remapStart q img buf log) hl (by rw [e6]; exact hok)
  rw [e6] at hw
  obtain ⟨e, r, hr, hout, hquant⟩ := hw
  have hPlen : P.1.length = q.palette.length := by simp [P, PalF.initIntPalette]
  have hP0 : 0 < P.1.length := by rw [hPlen]; exact hq.pos
  have hP1 : P.1.length ≤ 256 := by rw [hPlen]; exact hq.le
  obtain ⟨n, hn⟩ := Nearest.new_of_len hP0 hP1
  have hn' : Nearest.new n.palette = .ok n := by rw [(Nearest.new_ok hn).2.2.1]; exact hn
  have hsame : Rows.Same img.px img.freeHistogramInputs.px := Rows.free_same img.px
  have hnrows : (remapStart q img buf log).out.length = img.height := by
    have := chunksExact_rows (h := img.height) hi.width_pos (buf.take (img.width * img.height))
      (by rw [List.length_take]; omega)
    exact this.1
  obtain ⟨px', bg', sp, sb, heq'⟩ := remapToPalette_eq (px := img.freeHistogramInputs.px) (bg := img.background)
    img.importanceMap (nrows := img.height) (p := P.1) hn (hsame.readable hi.px)
    (fun b hb => by
      obtain ⟨h1, h2, h3⟩ := hi.background b hb
      exact ⟨h1, by rw [hsame.width]; exact h2, by rw [hsame.height]; exact h3⟩)
    (by rw [hsame.height]; exact le_refl _)
  have heq := heq' env
  have hrows : plainRows n img.freeHistogramInputs.px img.background img.importanceMap img.height =
      plainRows n img.px img.background img.importanceMap img.height := by
    unfold plainRows
    apply List.map_congr_left
    intro y hy
    refine plainRow_same n _ _ hsame (BgSame.refl _) ?_ (List.mem_range.mp hy)
    rcases pickBackground_cases n img.background with ⟨b, hb, _, h⟩ | ⟨_, h⟩
    · rw [h]; intro b' hb'; cases hb'; exact hi.background b hb
    · rw [h]; intro b' hb'; cases hb'
  rw [hrows] at heq
  rw [hnrows] at hr
  have hr' : remapToPalette env img.freeHistogramInputs.px img.background img.importanceMap img.height P.1 = (.ok e, r) := hr
  rw [heq] at hr'
  split at hr'
  · cases hr'
  next =>
    simp only [Prod.mk.injEq, Except.ok.injEq] at hr'
    obtain ⟨rfl, rfl⟩ := hr'
    have hquant' : (remapInto env q img buf log).quant = { q with
        remapped := some ⟨P.2, some (env.sum ((plainRows n img.px img.background img.importanceMap img.height).map (·.err)) /₆
          lit64 (img.width * img.height % 2 ^ 32 : ℕ))⟩ } := by
      rw [e1, hquant]
      rw [hsame.width, hsame.height]
      rfl
    refine ⟨n, hn, hquant', by rw [hquant']; rfl, fun y hy x hx px hpx => ?_⟩
    have hspec := (remapPixels_spec hn' (pickBackground n img.background).2 (img.px.pixelsF y)
      (bgRowOf (pickBackground n img.background).1 y) ((img.importanceMap.getD []).drop (y * img.px.width)) 0 (lit64 0)
      (by rw [(Nearest.new_ok hn).2.2.1]; exact hP0))
    obtain ⟨hint, hlt, hbyte⟩ := hspec.2 x px hpx
    rw [(Nearest.new_ok hn).2.2.1] at hlt
    refine ⟨hint, hlt, ?_⟩
    have hout' : s.out = ((plainRows n img.px img.background img.importanceMap img.height).map (·.bytes)).map (·.map some) := by
      rw [hout]; rfl
    have hlen : ∀ r ∈ s.out, r.length = img.width := by
      have := d.out.2
      intro r hr
      rw [this r hr]
      exact d.samePx.width
    have hrow : s.out[y]? = some ((plainRow n (pickBackground n img.background).2 img.px (pickBackground n img.background).1
        img.importanceMap y).bytes.map some) := by
      rw [hout']
      unfold plainRows
      simp [List.getElem?_map, List.getElem?_range hy]
    rw [e5, List.getElem?_append_left, flatten_getElem? hlen hrow hx, List.getElem?_map]
    · unfold plainRow
      rw [hbyte]
      have : (bgRowOf (pickBackground n img.background).1 y)[x]? = bgPixel (pickBackground n img.background).1 y x := by
        unfold bgRowOf bgPixel
        cases (pickBackground n img.background).1 <;> simp
      rw [this]; rfl
    · have hl : s.out.length = img.height := by rw [hout']; simp [plainRows]
      have : s.out.flatten.length = s.out.length * img.width := by
        rw [List.length_flatten, List.map_congr_left (g := fun _ => img.width) hlen]; simp
      rw [this, hl]
      calc y * img.width + x < y * img.width + img.width := by omega
        _ = (y + 1) * img.width := by rw [Nat.add_mul]; omega
        _ ≤ img.height * img.width := Nat.mul_le_mul_right _ hy

end Verif
