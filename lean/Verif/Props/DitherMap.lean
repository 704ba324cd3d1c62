import Verif.Props.Refine
import Verif.Props.ContrastMaps

/-! # C63: the dither map -/

set_option linter.unusedSectionVars false

namespace Verif
open Flt Spec Kmeans

theorem ditherEdge_real {e : ℕ} (he : e ≤ 255) (n : ℕ) : (Image.ditherEdge ℝ (UInt8.ofNat e) n).toNat = dimmed e n := by
  unfold Image.ditherEdge
  rw [byteOf_real, UInt8.toNat_ofNat_of_lt' (by simp only [UInt8.size]; omega)]
  simp only [real_lit32, real_mul32, real_div32, real_sub32]
  push_cast
  have hn : (1 : ℝ) - 20 / (20 + n) = n / (n + 20) := by
    have : (20 + n : ℝ) ≠ 0 := by positivity
    have : (n + 20 : ℝ) ≠ 0 := by positivity
    field_simp
    ring
  rw [hn]
  unfold byteOf dimmed
  refine min_eq_right ?_
  rw [← Nat.lt_succ_iff, Nat.floor_lt (by positivity)]
  have h1 : (n / (n + 20) : ℝ) < 1 := by
    rw [div_lt_one (by positivity)]; linarith
  have h2 : ((e : ℝ) + 128) * (255 / 383) ≤ 255 := by
    have : (e : ℝ) ≤ 255 := by exact_mod_cast he
    linarith
  calc ((e : ℝ) + 128) * (255 / 383) * (n / (n + 20)) ≤ ((e : ℝ) + 128) * (255 / 383) * 1 :=
        mul_le_mul_of_nonneg_left h1.le (by positivity)
    _ < _ := by push_cast; linarith

theorem Spec.DitherMapAt.congr {dim dim' : ℕ → ℕ → ℕ} {w h : ℕ} {index : ℕ → ℕ → ℕ} {ign : ℕ → Prop} {edge : ℕ → ℕ → ℕ} {y x v : ℕ}
    (hd : ∀ n, dim (edge y x) n = dim' (edge y x) n) (h' : DitherMapAt dim w h index ign edge y x v) :
    DitherMapAt dim' w h index ign edge y x v := by
  obtain ⟨s, u, h1, h2, h3⟩ := h'
  refine ⟨s, u, h1, h2, ?_⟩
  rcases h3 with ⟨e, k1, k2, k3⟩ | h3
  · exact .inl ⟨e, k1, k2, by rw [k3, hd]⟩
  · exact .inr h3

theorem ignored_iff (p : PalF ℝ) (ub : Bool) :
    Image.Ignored p ub = fun c => ub = true ∧ ∃ s, (slots p)[c]? = some s ∧ opacity s.color < 1/256 := by
  funext c
  apply propext
  unfold Image.Ignored
  refine and_congr_right fun _ => ?_
  have key : ∀ e : PalEntry ℝ, lt e.color.a minOpaqueA = true ↔ opacity (slotOf e).color < 1/256 := by
    intro e
    show _ ↔ e.color.a / 0.625 < 1/256
    rw [div_lt_iff₀ (by norm_num)]
    simp only [minOpaqueA, weightA, real_lit32, real_lt, real_mul32, real_div32]
    push_cast
    norm_num
  constructor
  · rintro ⟨e, h1, h2⟩
    exact ⟨slotOf e, by rw [slots, List.getElem?_map, h1]; rfl, (key e).mp h2⟩
  · rintro ⟨s, h1, h2⟩
    rw [slots, List.getElem?_map, Option.map_eq_some_iff] at h1
    obtain ⟨e, h1, rfl⟩ := h1
    exact ⟨e, h1, (key e).mpr h2⟩

/-- **C63** (exact arithmetic). When a dither map is made, it comes from the indices and the palette of the pass that C62
describes, and from the edge map: the one that the image has, or else a new one (together with a new importance map, which
replaces the old one). With a background, transparent colours of the palette do not end runs. Images that are too small or
too large for an edge map get no dither map. -/
theorem C63_map (env : RemapEnv ℝ) {q : QuantizationResult ℝ} (hq : UserResult q) {img : Image ℝ} (hi : UserImage img)
    {f : ℕ → ℕ → RGBA} (hf : img.px.Shows f) (buf : List (Option UInt8)) (log : List ℝ) (hl : q.ditherLevel ≠ 0)
    (hd : img.ditherMap = none) (hm : q.useDitherMap = .always ∨ q.useDitherMap ≠ .none ∧ img.width * img.height ≤ 2000 * 2000)
    (hok : (remapInto env q img buf log).res = .ok ()) :
    let img' := (remapInto env q img buf log).image
    let px := fun y x => colorOf img.px.gamma (f y x)
    ∃ (index : ℕ → ℕ → ℕ) (refined : List Slot),
      RefinedOn img.width img.height px (pixelWeight img.width img.importanceMap) (slots q.palette) index refined ∧
      ReportedAll q.gamma q.minPosterizationOutput refined ((remapInto env q img buf log).quant.getPalette.2.map RGBA.bytes) ∧
      let Made := fun (edges m : List UInt8) => img'.ditherMap = some m ∧ img'.edges = none ∧
        ∀ y < img.height, ∀ x < img.width, DitherMapAt dimmed img.width img.height index
          (fun c => img.background ≠ none ∧ ∃ s, refined[c]? = some s ∧ opacity s.color < 1/256)
          (Spec.px edges img.width) y x (Spec.px m img.width y x)
      (∀ edges, img.edges = some edges → img'.importanceMap = img.importanceMap ∧ ∃ m, Made edges m) ∧
      (img.edges = none → 4 ≤ img.width → 4 ≤ img.height → 3 * img.width * img.height ≤ 2 ^ 26 →
        ∃ noise edges m, img'.importanceMap = some noise ∧
          NoiseMap img.width img.height (rawNoise px img.width img.height) (Spec.px noise img.width) ∧
          EdgeMap img.width img.height (rawEdge px img.width img.height) (Spec.px noise img.width) (Spec.px edges img.width) ∧
          Made edges m) ∧
      (img.edges = none → img.width < 4 ∨ img.height < 4 ∨ 2 ^ 26 < 3 * img.width * img.height →
        img'.ditherMap = none ∧ img'.edges = none ∧ img'.importanceMap = img.importanceMap) := by
  intro img' px
  rcases remapInto_mapped env hq.good hi.good buf log (by simp only [real_lit32, Bool.eq_false_iff, ne_eq, real_eq]; exact_mod_cast hl) hok with ⟨hg, -⟩ | ⟨-, err, r, img2, h1, h2, h3, h4⟩
  · rw [generates_of hd hm] at hg; cases hg
  obtain ⟨rows, hrows, hlen, hbytes, k⟩ := refined_before env hq hi hf h1
  rw [hrows, Option.getD_some] at h2
  -- the image after the pass
  obtain ⟨hs1, hpl⟩ : Rows.Same img.px r.px ∧ r.palette.length = q.palette.length := by
    refine ⟨?_, by simpa [slots] using k.length⟩
    have hs0 : Rows.Same img.px img.freeHistogramInputs.px := Rows.free_same img.px
    have := (remapToPalette_spec env (bg := none) img.importanceMap (nrows := img.height) hq.good.pos hq.good.le
      (hs0.readable hi.good.px) (fun b hb => by cases hb) hs0.height.ge).samePx
    rw [h1] at this
    exact hs0.trans this
  generalize hI : ({ img with px := r.px } : Image ℝ) = I at h2
  have hIpx : I.px = r.px := by rw [← hI]
  have hIw : I.width = img.width := by rw [← hI]; exact hs1.width
  have hIh : I.height = img.height := by rw [← hI]; exact hs1.height
  have hIg : I.Good := by rw [← hI]; exact hi.good.change hs1 (BgSame.refl _)
  have hIs : I.px.Shows f := by rw [hIpx]; exact hs1.shows hf
  have hIγ : I.px.gamma = img.px.gamma := by rw [hIpx]; exact hs1.gamma
  have hbytes' : ∀ row ∈ rows, row.length = img.width ∧ ∀ b ∈ row, b.toNat < r.palette.length := by
    rw [hpl]; exact hbytes
  have hub : (img.background.isSome = true) = (img.background ≠ none) := by
    simp [Option.isSome_iff_ne_none]
  have made : ∀ (I1 : Image ℝ) (edges : List UInt8), I1.Good → I1.width = img.width → I1.height = img.height →
      I.withEdges = .ok I1 → I1.edges = some edges → ∃ m, img'.ditherMap = some m ∧ img'.edges = none ∧
        ∀ y < img.height, ∀ x < img.width, DitherMapAt dimmed img.width img.height (Image.indexAt rows)
          (fun c => img.background ≠ none ∧ ∃ s, (slots r.palette)[c]? = some s ∧ opacity s.color < 1/256)
          (Spec.px edges img.width) y x (Spec.px m img.width y x) := by
    intro I1 edges g1 w1 hh1 hwe hed
    obtain ⟨m, m1, m2, m3⟩ := Image.updateDitherMap_at g1 hwe hed (by rw [hh1]; exact hlen) (by rw [w1]; exact hbytes') h2
    refine ⟨m, h3.1.trans m1, h3.2.1.trans m2, fun y hy x hx => ?_⟩
    have := m3 y (by omega) x (by omega)
    rw [w1, hh1, ignored_iff, hub] at this
    exact this.congr fun n => ditherEdge_real (by unfold Spec.px; have := (edges.getD (y * img.width + x) 0).toNat_lt; omega) n
  refine ⟨_, _, k, by rw [h4]; exact initIntPalette_reported _ hq.post_le _, ?_, ?_, ?_⟩
  · intro edges he
    have hIe : I.edges = some edges := by rw [← hI]; exact he
    have hwe : I.withEdges = .ok I := by unfold Image.withEdges; rw [hIe]; rfl
    refine ⟨?_, made I edges hIg hIw hIh hwe hIe⟩
    rw [h3.2.2]
    obtain ⟨i2, e2, -, -, -, -, hc⟩ := Image.updateDitherMap_ok hIg (remapped := rows) (palette := r.palette) img.background.isSome
      (by rw [hIh]; exact hlen) (by rw [hIw]; exact hbytes')
    rw [h2] at e2
    cases e2
    rcases hc with ⟨a, -⟩ | ⟨-, a, -⟩ | ⟨a, -⟩
    · rw [hIe] at a; cases a
    · rw [a, ← hI]
    · rw [hIe] at a; cases a
  · intro he w4 h4' hsz
    have hIe : I.edges = none := by rw [← hI]; exact he
    have hsk : Image.skipsContrastMaps I.width I.height = false := by
      rw [hIw, hIh]; exact (skips_iff _ _).mpr ⟨w4, h4', hsz⟩
    obtain ⟨I1, e1, g1, same, -⟩ := contrastMaps_ok hIg
    have hwe : I.withEdges = .ok I1 := by unfold Image.withEdges; rw [hIe]; exact e1
    obtain ⟨noise, edges, n1, n2, n3, n4⟩ := contrastMaps_at hIg hIs hsk e1
    obtain ⟨m, hmade⟩ := made I1 edges g1 (same.width.trans hIw) (same.height.trans hIh) hwe n2
    rw [hIw, hIh, hIγ] at n3 n4
    refine ⟨noise, edges, m, ?_, n3, n4, hmade⟩
    rw [h3.2.2]
    unfold Image.updateDitherMap at h2
    rw [hwe] at h2
    simp only [bind, Except.bind, n2] at h2
    split at h2
    · cases h2
    · simp only [pure, Except.pure, Except.ok.injEq] at h2
      rw [← h2]; exact n1
  · intro he hsz
    have hIe : I.edges = none := by rw [← hI]; exact he
    have hsk : Image.skipsContrastMaps I.width I.height = true := by
      rw [hIw, hIh, ← Bool.not_eq_false, skips_iff]; omega
    have hIm : I.importanceMap = img.importanceMap ∧ I.ditherMap = none := by rw [← hI]; exact ⟨rfl, hd⟩
    obtain ⟨i2, e2, -, -, -, -, hc⟩ := Image.updateDitherMap_ok hIg (remapped := rows) (palette := r.palette) img.background.isSome
      (by rw [hIh]; exact hlen) (by rw [hIw]; exact hbytes')
    rw [h2] at e2
    cases e2
    rcases hc with ⟨-, -, a, b, c⟩ | ⟨a, -⟩ | ⟨-, a, -⟩
    · exact ⟨by rw [h3.1, c, hIm.2], by rw [h3.2.1, b], by rw [h3.2.2, a, hIm.1]⟩
    · rw [hIe] at a; cases a
    · rw [hsk] at a; cases a

/-- No dither map is made if the settings do not want one or the image has one; then all maps are kept. -/
theorem C63_kept (env : RemapEnv ℝ) {q : QuantizationResult ℝ} (hq : UserResult q) {img : Image ℝ} (hi : UserImage img)
    (buf : List (Option UInt8)) (log : List ℝ) (hl : q.ditherLevel ≠ 0) (hm : q.useDitherMap = .none ∨ img.ditherMap ≠ none)
    (hok : (remapInto env q img buf log).res = .ok ()) :
    let img' := (remapInto env q img buf log).image
    img'.ditherMap = img.ditherMap ∧ img'.edges = img.edges ∧ img'.importanceMap = img.importanceMap := by
  rcases remapInto_mapped env hq.good hi.good buf log (by simp only [real_lit32, Bool.eq_false_iff, ne_eq, real_eq]; exact_mod_cast hl) hok with ⟨-, h⟩ | ⟨hg, -⟩
  · exact h
  · rw [not_generates_of hm] at hg; cases hg

/-! ### The values are determined -/

section
variable {w : ℕ} {row : ℕ → ℕ} {ign : ℕ → Prop}

theorem Spec.RunEnd.unique {s v e e' : ℕ} (h : RunEnd w row ign s v e) (h' : RunEnd w row ign s v e') : e = e' := by
  have key : ∀ {e e' : ℕ}, RunEnd w row ign s v e → RunEnd w row ign s v e' → ¬ e < e' := by
    intro e e' h h' hlt
    rcases h'.first e h.inside.1 h.inside.2.1 hlt with k | k
    · exact h.counts k
    · rcases h.last with l | l
      · exact l k
      · have := h'.inside.2.2; omega
  rcases Nat.lt_trichotomy e e' with h1 | h1 | h1
  · exact absurd h1 (key h h')
  · exact h1
  · exact absurd h1 (key h' h)

/-- of two runs one ends before the other begins, unless they are the same -/
theorem Spec.RunStart.apart {s v s' v' : ℕ} (h : RunStart w row ign s v) (h' : RunStart w row ign s' v') :
    (s = s' ∧ v = v') ∨ (∃ e, RunEnd w row ign s v e ∧ e + 1 ≤ s') ∨ ∃ e, RunEnd w row ign s' v' e ∧ e + 1 ≤ s := by
  induction h generalizing s' v' with
  | first =>
    induction h' with
    | first => exact .inl ⟨rfl, rfl⟩
    | @next s2 v2 e2 h2 e2h ih =>
      right; left
      rcases ih with ⟨rfl, rfl⟩ | ⟨e, he, hl⟩ | ⟨e, he, hl⟩
      · exact ⟨_, e2h, le_rfl⟩
      · exact ⟨e, he, by have := e2h.inside; omega⟩
      · omega
  | @next s1 v1 e1 h1 e1h ih =>
    induction h' with
    | first =>
      rcases ih .first with ⟨rfl, rfl⟩ | ⟨e, he, hl⟩ | ⟨e, he, hl⟩
      · exact .inr (.inr ⟨_, e1h, le_rfl⟩)
      · omega
      · exact .inr (.inr ⟨e, he, by have := e1h.inside; omega⟩)
    | @next s2 v2 e2 h2 e2h ih2 =>
      rcases ih (.next h2 e2h) with ⟨h1', h2'⟩ | ⟨e, he, hl⟩ | ⟨e, he, hl⟩
      · subst h1' h2'
        exact .inr (.inr ⟨_, e1h, le_rfl⟩)
      · have := he.unique e1h
        subst this
        rcases Nat.lt_or_ge e e2 with hlt | hge
        · rcases ih2 with ⟨k1, k2⟩ | ⟨e', k1, k2⟩ | ⟨e', k1, k2⟩
          · rw [← k1, ← k2] at e2h
            exact .inr (.inl ⟨_, e2h, le_rfl⟩)
          · exact .inr (.inl ⟨e', k1, by have := e2h.inside; omega⟩)
          · have := k1.unique e2h
            omega
        · have : e = e2 := by omega
          subst this
          exact .inl ⟨rfl, rfl⟩
      · exact .inr (.inr ⟨e, he, by have := e1h.inside; omega⟩)

end

/-- The values of the dither map are determined by the indices and the edge map. -/
theorem C63_unique {dim : ℕ → ℕ → ℕ} {w h : ℕ} {index : ℕ → ℕ → ℕ} {ign : ℕ → Prop} {edge : ℕ → ℕ → ℕ} {y x v v' : ℕ}
    (h1 : DitherMapAt dim w h index ign edge y x v) (h2 : DitherMapAt dim w h index ign edge y x v') : v = v' := by
  obtain ⟨s, u, a1, a2, a3⟩ := h1
  obtain ⟨s', u', b1, b2, b3⟩ := h2
  rcases a1.apart b1 with ⟨rfl, rfl⟩ | ⟨e, he, hl⟩ | ⟨e, he, hl⟩
  · rcases a3 with ⟨e, k1, k2, k3⟩ | ⟨k1, k2⟩
    · rcases b3 with ⟨e', l1, l2, l3⟩ | ⟨l1, l2⟩
      · rw [k3, l3, k1.unique l1]
      · exact absurd k1 (l1 e)
    · rcases b3 with ⟨e', l1, l2, l3⟩ | ⟨l1, l2⟩
      · exact absurd l1 (k1 e')
      · rw [k2, l2]
  · rcases a3 with ⟨e', k1, k2, k3⟩ | ⟨k1, k2⟩
    · have := k1.unique he; omega
    · exact absurd he (k1 e)
  · rcases b3 with ⟨e', k1, k2, k3⟩ | ⟨k1, k2⟩
    · have := k1.unique he; omega
    · exact absurd he (k1 e)

/-! ### Examples -/

/-- the hypotheses of `C63_map` can be met by an image that gets a new edge map -/
example : ∃ (q : QuantizationResult ℝ) (img : Image ℝ) (f : ℕ → ℕ → RGBA), UserResult q ∧ UserImage img ∧ img.px.Shows f ∧
    q.ditherLevel ≠ 0 ∧ img.ditherMap = none ∧ img.edges = none ∧ q.useDitherMap ≠ .none ∧ img.width = 5 ∧ img.height = 5 ∧
    (remapInto RemapEnv.simple q img (List.replicate 25 none) []).res = .ok () := by
  obtain ⟨q, hq, hcb, hl, hm, -⟩ := example_result (F := ℝ)
  obtain ⟨img, hi, w, h, -, he, hd, -⟩ := example_image (fun _ _ => ⟨1, 2, 3, 255⟩) (w := 5) (h := 5) (by omega) (by omega) (by omega) (by omega)
  obtain ⟨⟨f, hf⟩, -⟩ := hi.shows
  exact ⟨q, img, f, hq, hi, hf, by rw [hl]; simp, hd, he, by rw [hm]; simp, w, h,
    C48_succeeds _ hq hi _ _ (by rw [w, h, List.length_replicate]) hcb (fun x => by simp)⟩

/-- A row of three flat pixels with the indices 7, 7, 8: the run of the index 7 has the weight 20 and dims its pixels and the one
that ends it to a half. -/
example : ∀ x < 3, DitherMapAt dimmed 3 1 (fun _ x => if x = 2 then 8 else 7) (fun _ => False) (fun _ _ => 255) 0 x 127 := by
  intro x hx
  refine ⟨0, 7, .first, by omega, .inl ⟨2, ⟨by omega, fun h => h, .inl (by simp), fun x _ _ h => .inr (if_neg (by omega))⟩, by omega, ?_⟩⟩
  have : runWeight 1 (fun _ x => if x = 2 then 8 else 7) 0 0 7 2 = 20 := by decide
  rw [this]
  unfold dimmed
  symm
  rw [Nat.floor_eq_iff (by positivity)]
  norm_num

end Verif
