import Verif.Lemmas.HistAdd
import Verif.Lemmas.Hist
import Verif.Lemmas.Env

/-! # Properties C19, C20, C43: what a histogram records -/

set_option linter.unusedSectionVars false

namespace Verif
open Flt Spec

variable {F : Type} [Flt F]

/-! ## C19 counting -/

/-- **C19** (any float arithmetic). Start with an empty histogram and make any accepted additions (colour lists, image
rows with or without an importance map). As long as posterization did not change, the weight recorded for a colour is
the sum of the importances of all the pixels that look like it, cut off at the largest `u32`; a colour whose pixels all
have importance 0 (or that does not occur) is not recorded. -/
theorem C19_weights (ho : HashOrder) (h h' : Histogram F) (l : List (Addition F)) (hw : ∀ a ∈ l, a.WellFormed)
    (h0 : h.hashmap = []) (hb : h.posterizeBits ≤ 4) (e : h.applyAll ho l = .ok h')
    (hsame : h'.posterizeBits = h.posterizeBits) (c : RGBA) :
    h'.weight c = (let s := importanceOf h.posterizeBits (l.flatMap Addition.pixels) c
      if s = 0 then none else some (min s u32Max)) := by
  have hm := Histogram.applyAll_hashmap ho h h' l hw e hsame
  have hpx : ∀ x ∈ l.flatMap Addition.pixels, x.2 ≤ u32Max := by
    intro x hx
    obtain ⟨a, ha, hxa⟩ := List.mem_flatMap.1 hx
    have hwa := hw a ha
    cases a with
    | colors es g => exact hwa x hxa
    | image w rows imp bits =>
      cases imp with
      | none =>
        simp only [Addition.pixels, List.mem_map] at hxa
        obtain ⟨c, -, rfl⟩ := hxa
        show 255 ≤ u32Max; decide
      | some m =>
        have := (hwa.2.2 m rfl).2 x.2 (List.of_mem_zip (a := x.1) (b := x.2) hxa).2
        exact this.trans (by decide)
  unfold Histogram.weight
  rw [hm, hsame, Histogram.addAll_get h _ _ hpx (by intro v hv; rw [h0] at hv; simp [ColorMap.get_nil] at hv), h0]
  dsimp only [ColorMap.get_nil]
  have : ((l.flatMap Addition.pixels).filter fun x => decide (colorKey h.posterizeBits x.1 = colorKey h.posterizeBits c)) =
      (l.flatMap Addition.pixels).filter fun p => decide (seen h.posterizeBits p.1 = seen h.posterizeBits c) := by
    apply List.filter_congr
    intro x _
    exact decide_eq_decide.2 (colorKey_eq_iff _ (by omega) _ _)
  rw [this]; rfl

/-- **C19** (any float arithmetic). Order does not matter: two histories with the same multiset of weighted pixels, in
whatever calls and order, record the same weights. -/
theorem C19_order_independent (ho ho' : HashOrder) (h h1 h2 : Histogram F) (l1 l2 : List (Addition F))
    (hw1 : ∀ a ∈ l1, a.WellFormed) (hw2 : ∀ a ∈ l2, a.WellFormed)
    (h0 : h.hashmap = []) (hb : h.posterizeBits ≤ 4)
    (e1 : h.applyAll ho l1 = .ok h1) (e2 : h.applyAll ho' l2 = .ok h2)
    (hs1 : h1.posterizeBits = h.posterizeBits) (hs2 : h2.posterizeBits = h.posterizeBits)
    (hp : (l1.flatMap Addition.pixels).Perm (l2.flatMap Addition.pixels)) (c : RGBA) : h1.weight c = h2.weight c := by
  rw [C19_weights ho h h1 l1 hw1 h0 hb e1 hs1 c, C19_weights ho' h h2 l2 hw2 h0 hb e2 hs2 c]
  have : importanceOf h.posterizeBits (l1.flatMap Addition.pixels) c = importanceOf h.posterizeBits (l2.flatMap Addition.pixels) c :=
    ((hp.filter _).map _).sum_eq
  rw [this]

theorem seen_zero (x y : RGBA) (hx : x.a ≠ 0) : seen 0 x = seen 0 y ↔ x = y := by
  unfold seen
  have hxa : x.a.toNat ≠ 0 := by
    intro e; apply hx; rw [← UInt8.toNat_inj]; exact e
  by_cases hy : y.a = 0
  · rw [if_neg hx, if_pos hy]
    constructor
    · intro e; simp only [pow_zero, Nat.div_one, Prod.mk.injEq] at e; exact absurd e.2.2.2 hxa
    · rintro rfl; contradiction
  · rw [if_neg hx, if_neg hy]
    simp only [pow_zero, Nat.div_one, Prod.mk.injEq, UInt8.toNat_inj]
    cases x; cases y; simp

/-- **C19**: without posterization a visible colour is counted by itself: its weight is the importance of exactly the
pixels equal to it. -/
theorem C19_exact_colours (ho : HashOrder) (h h' : Histogram F) (l : List (Addition F)) (hw : ∀ a ∈ l, a.WellFormed)
    (h0 : h.hashmap = []) (hb : h.posterizeBits = 0) (e : h.applyAll ho l = .ok h') (hsame : h'.posterizeBits = 0)
    (c : RGBA) (hc : c.a ≠ 0) :
    h'.weight c = (let s := (((l.flatMap Addition.pixels).filter fun p => decide (p.1 = c)).map (·.2)).sum
      if s = 0 then none else some (min s u32Max)) := by
  rw [C19_weights ho h h' l hw h0 (by omega) e (by omega) c, hb]
  have : importanceOf 0 (l.flatMap Addition.pixels) c =
      (((l.flatMap Addition.pixels).filter fun p => decide (p.1 = c)).map (·.2)).sum := by
    unfold importanceOf
    congr 2
    apply List.filter_congr
    intro x _
    rw [decide_eq_decide, eq_comm, seen_zero c x.1 hc, eq_comm]
  rw [this]

/-- **C19**: pixels of importance 0 leave no trace at all. -/
theorem C19_zero_leaves_no_trace (h : Histogram F) (px : List (RGBA × ℕ)) :
    px.foldl (fun h x => h.addColor x.1 x.2) h = (px.filter fun x => decide (x.2 ≠ 0)).foldl (fun h x => h.addColor x.1 x.2) h := by
  induction px generalizing h with
  | nil => rfl
  | cons x px ih =>
    by_cases hx : x.2 = 0
    · rw [List.filter_cons_of_neg (by simpa using hx), List.foldl_cons, ih]
      congr 1
      rw [Histogram.addColor, if_pos hx]
    · rw [List.filter_cons_of_pos (by simpa using hx), List.foldl_cons, List.foldl_cons, ih]

/-- the recorded colour: without posterization the one that was added -/
theorem addAll_color (h : Histogram F) (px : List (RGBA × ℕ)) (hb : h.posterizeBits = 0)
    (hm : ∀ k v, ColorMap.get h.hashmap k = some v → colorKey 0 v.2 = k) :
    ∀ k v, ColorMap.get (h.addAll px).hashmap k = some v → colorKey 0 v.2 = k := by
  induction px generalizing h with
  | nil => exact hm
  | cons x px ih =>
    rw [Histogram.addAll_cons]
    apply ih
    · rw [(h.addColor_rest _ _).1, hb]
    · intro k v hv
      rw [Histogram.addColor_get, hb] at hv
      split at hv
      next hc =>
        cases hg : ColorMap.get h.hashmap k with
        | none => rw [hg] at hv; simp at hv; subst hv; exact hc.2
        | some w => rw [hg] at hv; simp at hv; subst hv; exact hm k w hg
      · exact hm k v hv

/-- an empty histogram without posterization -/
def emptyHistogram : Histogram F :=
  { gamma := none, fixedColors := [], hashmap := [], posterizeBits := 0, maxHistogramEntries := 1000 }

/-- The hypotheses of C19 are met: two calls, one with an importance map that hides a pixel. -/
example : ∃ h' : Histogram ℝ, emptyHistogram.applyAll HashOrder.insertion
    [.colors [(⟨1, 2, 3, 255⟩, 7)] 0,
     .image 2 [[⟨1, 2, 3, 255⟩, ⟨9, 9, 9, 255⟩]] (some [100, 0]) 0] = .ok h' ∧ h'.posterizeBits = 0 ∧
    h'.weight ⟨1, 2, 3, 255⟩ = some 107 ∧ h'.weight ⟨9, 9, 9, 255⟩ = none := by
  have hok : ∃ h' : Histogram ℝ, emptyHistogram.applyAll HashOrder.insertion
      [.colors [(⟨1, 2, 3, 255⟩, 7)] 0,
       .image 2 [[⟨1, 2, 3, 255⟩, ⟨9, 9, 9, 255⟩]] (some [100, 0]) 0] = .ok h' ∧ h'.posterizeBits = 0 := by
    have e : (emptyHistogram : Histogram ℝ).addColors [(⟨1, 2, 3, 255⟩, 7)] 0 =
        .ok { (emptyHistogram : Histogram ℝ) with hashmap := [(⟨1, 2, 3, 255⟩, (7, ⟨1, 2, 3, 255⟩))] } := by
      simp [Histogram.addColors, emptyHistogram, Histogram.addColor, ColorMap.upsert, maskColor, RGBA.map, maskChannel]
      decide
    unfold Histogram.applyAll
    rw [List.foldlM_cons]
    simp only [Histogram.apply, e]
    exact ⟨_, rfl, rfl⟩
  obtain ⟨h', e, hb⟩ := hok
  have hw := C19_exact_colours HashOrder.insertion (emptyHistogram : Histogram ℝ) h' _ (by
    intro a ha
    simp only [List.mem_cons, List.not_mem_nil, or_false] at ha
    rcases ha with rfl | rfl
    · intro x hx; simp only [List.mem_cons, List.not_mem_nil, or_false] at hx; subst hx; show 7 ≤ u32Max; decide
    · refine ⟨by decide, by decide, ?_⟩
      rintro m hm; cases hm; decide) rfl rfl e hb
  refine ⟨h', e, hb, ?_, ?_⟩
  · rw [hw _ (by decide)]; decide
  · rw [hw _ (by decide)]; decide

/-! ## C20 posterization -/

/-- re-filing all the entries of a map under coarser keys, as `init_posterize_bits` does -/
def rekey (bits : ℕ) (m : ColorMap) : ColorMap :=
  m.foldl (fun m (k, v) => ColorMap.upsert m (maskColor bits k) (fun _ => v)) []

theorem rekey_total_le (bits : ℕ) (m acc : ColorMap) :
    ColorMap.total (m.foldl (fun m (k, v) => ColorMap.upsert m (maskColor bits k) (fun _ => v)) acc) ≤
      ColorMap.total acc + ColorMap.total m := by
  induction m generalizing acc with
  | nil => simp [ColorMap.total]
  | cons x m ih =>
    obtain ⟨k, v⟩ := x
    rw [List.foldl_cons]
    refine (ih _).trans ?_
    have := ColorMap.total_upsert acc (maskColor bits k) (fun _ => v)
    have h2 : ColorMap.total ((k, v) :: m) = v.1 + ColorMap.total m := by simp [ColorMap.total]
    dsimp only at this ⊢
    omega

theorem rekey_get (bits : ℕ) (m acc : ColorMap) (j : RGBA) :
    ColorMap.get (m.foldl (fun m (k, v) => ColorMap.upsert m (maskColor bits k) (fun _ => v)) acc) j =
      ((m.reverse.find? fun e => decide (maskColor bits e.1 = j)).map (·.2)).or (ColorMap.get acc j) := by
  induction m generalizing acc with
  | nil => simp
  | cons x m ih =>
    obtain ⟨k, v⟩ := x
    rw [List.foldl_cons, ih, List.reverse_cons, List.find?_append, ColorMap.get_upsert]
    cases hf : m.reverse.find? fun e => decide (maskColor bits e.1 = j) with
    | some e => simp
    | none =>
      by_cases hk : maskColor bits k = j <;> simp [hk]

theorem rekey_distinct (bits : ℕ) (m acc : ColorMap) (h : ColorMap.Distinct acc) :
    ColorMap.Distinct (m.foldl (fun m (k, v) => ColorMap.upsert m (maskColor bits k) (fun _ => v)) acc) := by
  induction m generalizing acc with
  | nil => exact h
  | cons x m ih => rw [List.foldl_cons]; exact ih _ (h.upsert _ _)

theorem total_perm {m m' : ColorMap} (h : m.Perm m') : ColorMap.total m = ColorMap.total m' := (h.map _).sum_eq

/-- weights are lost as soon as two entries fall together -/
theorem rekey_total_lt (bits : ℕ) (m acc : ColorMap) (hpos : ∀ e ∈ m, 0 < e.2.1) (hacc : ∀ e ∈ acc, 0 < e.2.1)
    (hcol : (∃ x y, x ∈ m ∧ y ∈ acc ∧ maskColor bits x.1 = y.1) ∨
      ¬ (m.map fun e => maskColor bits e.1).Nodup) :
    ColorMap.total (m.foldl (fun m (k, v) => ColorMap.upsert m (maskColor bits k) (fun _ => v)) acc) <
      ColorMap.total acc + ColorMap.total m := by
  induction m generalizing acc with
  | nil => rcases hcol with ⟨x, y, hx, -⟩ | h <;> simp at *
  | cons x m ih =>
    obtain ⟨k, v⟩ := x
    rw [List.foldl_cons]
    show ColorMap.total (m.foldl (fun m (k, v) => ColorMap.upsert m (maskColor bits k) (fun _ => v))
      (ColorMap.upsert acc (maskColor bits k) fun _ => v)) < _
    have htot := ColorMap.total_upsert acc (maskColor bits k) (fun _ => v)
    have h2 : ColorMap.total ((k, v) :: m) = v.1 + ColorMap.total m := by simp [ColorMap.total]
    have hle := rekey_total_le bits m (ColorMap.upsert acc (maskColor bits k) fun _ => v)
    by_cases hin : maskColor bits k ∈ acc.map (·.1)
    · obtain ⟨w, hw⟩ := Option.isSome_iff_exists.1 (ColorMap.get_isSome.2 hin)
      have := hacc _ (ColorMap.mem_of_get hw)
      rw [hw] at htot
      dsimp only at htot this
      omega
    · have hpos' : ∀ e ∈ m, 0 < e.2.1 := fun e he => hpos e (by simp [he])
      have hv := hpos (k, v) (by simp)
      have hacc' : ∀ e ∈ ColorMap.upsert acc (maskColor bits k) (fun _ => v), 0 < e.2.1 := by
        have : ∀ a : ColorMap, (∀ e ∈ a, 0 < e.2.1) → ∀ e ∈ ColorMap.upsert a (maskColor bits k) (fun _ => v), 0 < e.2.1 := by
          intro a
          induction a with
          | nil => intro _ e he; simp [ColorMap.upsert] at he; subst he; exact hv
          | cons y a iha =>
            obtain ⟨k', v'⟩ := y
            intro ha e he
            simp only [ColorMap.upsert] at he
            split at he
            · rcases List.mem_cons.1 he with rfl | he
              · exact hv
              · exact ha e (by simp [he])
            · rcases List.mem_cons.1 he with rfl | he
              · exact ha _ (by simp)
              · exact iha (fun e he => ha e (by simp [he])) e he
        exact this acc hacc
      have hnone : ColorMap.get acc (maskColor bits k) = none := by
        cases hg : ColorMap.get acc (maskColor bits k) with
        | none => rfl
        | some w => exact absurd (ColorMap.get_isSome.1 (by rw [hg]; rfl)) hin
      rw [hnone] at htot
      dsimp only at htot
      have hkey : maskColor bits k ∈ (ColorMap.upsert acc (maskColor bits k) fun _ => v).map (·.1) := by
        rw [ColorMap.upsert_keys]; rw [if_neg hin]; simp
      have hkeys : ∀ j ∈ acc.map (·.1), j ∈ (ColorMap.upsert acc (maskColor bits k) fun _ => v).map (·.1) := by
        intro j hj; rw [ColorMap.upsert_keys, if_neg hin]; simp only [List.mem_append]; exact Or.inl hj
      have := ih (ColorMap.upsert acc (maskColor bits k) fun _ => v) hpos' hacc' (by
        rcases hcol with ⟨x, y, hx, hy, hxy⟩ | hnd
        · rcases List.mem_cons.1 hx with rfl | hx
          · exact absurd (by rw [hxy]; exact List.mem_map.2 ⟨y, hy, rfl⟩) hin
          · obtain ⟨y', hy', e⟩ := List.mem_map.1 (hkeys y.1 (List.mem_map.2 ⟨y, hy, rfl⟩))
            exact Or.inl ⟨x, y', hx, hy', hxy.trans e.symm⟩
        · rw [List.map_cons, List.nodup_cons] at hnd
          by_cases hk : maskColor bits k ∈ m.map fun e => maskColor bits e.1
          · obtain ⟨x, hx, e⟩ := List.mem_map.1 hk
            obtain ⟨y', hy', e'⟩ := List.mem_map.1 hkey
            exact Or.inl ⟨x, y', hx, hy', e.trans e'.symm⟩
          · exact Or.inr fun h => hnd ⟨hk, h⟩)
      omega

theorem rekey_total_eq (bits : ℕ) (m acc : ColorMap)
    (hnd : (acc.map (·.1) ++ m.map fun e => maskColor bits e.1).Nodup) :
    ColorMap.total (m.foldl (fun m (k, v) => ColorMap.upsert m (maskColor bits k) (fun _ => v)) acc) =
      ColorMap.total acc + ColorMap.total m := by
  induction m generalizing acc with
  | nil => simp [ColorMap.total]
  | cons x m ih =>
    obtain ⟨k, v⟩ := x
    rw [List.foldl_cons]
    show ColorMap.total (m.foldl (fun m (k, v) => ColorMap.upsert m (maskColor bits k) (fun _ => v))
      (ColorMap.upsert acc (maskColor bits k) fun _ => v)) = _
    have htot := ColorMap.total_upsert acc (maskColor bits k) (fun _ => v)
    have h2 : ColorMap.total ((k, v) :: m) = v.1 + ColorMap.total m := by simp [ColorMap.total]
    have hin : maskColor bits k ∉ acc.map (·.1) := by
      intro h
      rw [List.map_cons] at hnd
      exact (List.nodup_append.1 hnd).2.2 _ h _ (by simp) rfl
    have hnone : ColorMap.get acc (maskColor bits k) = none := by
      cases hg : ColorMap.get acc (maskColor bits k) with
      | none => rfl
      | some w => exact absurd (ColorMap.get_isSome.1 (by rw [hg]; rfl)) hin
    rw [hnone] at htot
    rw [ih _ (by rw [ColorMap.upsert_keys, if_neg hin]; simpa using hnd)]
    dsimp only at htot
    omega

/-- **C20 fails.** Posterizing a histogram by more bits loses weight whenever two of its colours fall together: the total
weight afterwards is strictly smaller, for every hash order. -/
theorem C20_posterization_loses_weight (ho : HashOrder) (h : Histogram F) (bits : ℕ) (hb : h.posterizeBits < bits)
    (hpos : ∀ e ∈ h.hashmap, 0 < e.2.1) (x y : RGBA × (ℕ × RGBA)) (hx : x ∈ h.hashmap) (hy : y ∈ h.hashmap)
    (hxy : x.1 ≠ y.1) (hcol : maskColor bits x.1 = maskColor bits y.1) :
    ColorMap.total (h.initPosterizeBits ho bits).hashmap < ColorMap.total h.hashmap := by
  unfold Histogram.initPosterizeBits
  rw [if_neg (by omega)]
  dsimp only
  have hp := ho.map_perm h.hashmap
  rw [← total_perm hp]
  have := rekey_total_lt bits (ho.map h.hashmap) [] (fun e he => hpos e (hp.mem_iff.1 he)) (by simp) (Or.inr (by
    intro hnd
    have hinj := List.inj_on_of_nodup_map hnd
    exact hxy (congrArg Prod.fst (hinj (hp.mem_iff.2 hx) (hp.mem_iff.2 hy) hcol))))
  simpa [ColorMap.total] using this

/-- **C20, witness**: a histogram made without posterization, two neighbouring colours of weights 3 and 5, and an image
added with `set_min_posterization(1)` in force: the weight 8 shrinks to 3 or 5. -/
theorem C20_witness (ho : HashOrder) :
    let h : Histogram F := { gamma := none, fixedColors := [], posterizeBits := 0, maxHistogramEntries := 1000
                             hashmap := [(⟨2, 0, 0, 255⟩, (3, ⟨2, 0, 0, 255⟩)), (⟨3, 0, 0, 255⟩, (5, ⟨3, 0, 0, 255⟩))] }
    ColorMap.total (h.initPosterizeBits ho 1).hashmap < 8 := by
  intro h
  exact C20_posterization_loses_weight ho h 1 (by show 0 < 1; decide) (by simp [h]) (⟨2, 0, 0, 255⟩, (3, ⟨2, 0, 0, 255⟩))
    (⟨3, 0, 0, 255⟩, (5, ⟨3, 0, 0, 255⟩)) (by simp [h]) (by simp [h]) (by decide) (by decide)

/-- **C20, partial** (any float arithmetic). What posterization does keep: the weights never grow, they are preserved
when no two colours fall together, every posterized colour is still present, and its weight is the weight of one of the
colours that fell together. Missing: adding up the weights of colours that fall together. -/
theorem C20_posterization_partial (ho : HashOrder) (h : Histogram F) (bits : ℕ) (hb : h.posterizeBits < bits) :
    ColorMap.total (h.initPosterizeBits ho bits).hashmap ≤ ColorMap.total h.hashmap ∧
    ((h.hashmap.map fun e => maskColor bits e.1).Nodup →
      ColorMap.total (h.initPosterizeBits ho bits).hashmap = ColorMap.total h.hashmap) ∧
    (∀ e ∈ h.hashmap, (ColorMap.get (h.initPosterizeBits ho bits).hashmap (maskColor bits e.1)).isSome = true) ∧
    (∀ k v, ColorMap.get (h.initPosterizeBits ho bits).hashmap k = some v →
      ∃ k', (k', v) ∈ h.hashmap ∧ maskColor bits k' = k) := by
  unfold Histogram.initPosterizeBits
  rw [if_neg (by omega)]
  dsimp only
  have hp := ho.map_perm h.hashmap
  rw [← total_perm hp]
  refine ⟨by simpa [ColorMap.total] using rekey_total_le bits (ho.map h.hashmap) [], ?_, ?_, ?_⟩
  · intro hnd
    have := rekey_total_eq bits (ho.map h.hashmap) [] (by simpa using ((hp.map _).nodup_iff).2 hnd)
    simpa [ColorMap.total] using this
  · intro e he
    rw [rekey_get]
    have : ((ho.map h.hashmap).reverse.find? fun x => decide (maskColor bits x.1 = maskColor bits e.1)).isSome = true := by
      rw [List.find?_isSome]
      exact ⟨e, by simpa using hp.mem_iff.2 he, by simp⟩
    obtain ⟨x, hx⟩ := Option.isSome_iff_exists.1 this
    rw [hx]; rfl
  · intro k v hv
    rw [rekey_get] at hv
    cases hf : (ho.map h.hashmap).reverse.find? fun x => decide (maskColor bits x.1 = k) with
    | none => rw [hf] at hv; simp [ColorMap.get_nil] at hv
    | some x =>
      rw [hf] at hv
      simp at hv
      refine ⟨x.1, ?_, by simpa using List.find?_some hf⟩
      have := List.mem_of_find?_eq_some hf
      rw [← hv]
      exact hp.mem_iff.1 (by simpa using this)

/-! ## C43 validation of `add_colors` -/

/-- **C43** (any float arithmetic). `add_colors` rejects an empty or too long slice and a gamma that is not in [0,1)
(with the comparisons of the float type, so NaN is rejected too) and otherwise counts every entry in order. A rejected
call returns no histogram, i.e. it leaves the old one. -/
theorem C43_add_colors (h : Histogram F) (es : List (RGBA × ℕ)) (g : F) :
    (h.addColors es g = .error (.err .valueOutOfRange) ↔
      es = [] ∨ 2 ^ 24 < es.length ∨ le (lit64 0) g = false ∨ lt g (lit64 1) = false) ∧
    (∀ h', h.addColors es g = .ok h' →
      h'.hashmap = (es.foldl (fun h x => h.addColor x.1 x.2) h).hashmap ∧
      h'.fixedColors = h.fixedColors ∧ h'.posterizeBits = h.posterizeBits ∧
      h'.gamma = if h.gamma.isNone ∧ lt (lit64 0) g = true then some g else h.gamma) ∧
    (h.addColors es g ≠ .error .panic) := by
  by_cases h1 : es.isEmpty ∨ es.length > 2 ^ 24
  · have e : h.addColors es g = .error (.err .valueOutOfRange) := by unfold Histogram.addColors; rw [if_pos h1]
    rw [e]
    refine ⟨⟨fun _ => ?_, fun _ => rfl⟩, fun h' he => (by cases he), by simp⟩
    rw [List.isEmpty_iff] at h1
    tauto
  · by_cases h2 : ¬ (le (lit64 0) g = true ∧ lt g (lit64 1) = true)
    · have e : h.addColors es g = .error (.err .valueOutOfRange) := by
        unfold Histogram.addColors; rw [if_neg h1, if_pos h2]
      rw [e]
      refine ⟨⟨fun _ => ?_, fun _ => rfl⟩, fun h' he => (by cases he), by simp⟩
      rw [Bool.eq_false_iff, Bool.eq_false_iff]
      tauto
    · have e : h.addColors es g = .ok (es.foldl (fun h x => h.addColor x.1 x.2)
          (if h.gamma.isNone ∧ lt (lit64 0) g = true then { h with gamma := some g } else h)) := by
        unfold Histogram.addColors; rw [if_neg h1, if_neg h2]
      rw [e]
      refine ⟨⟨fun he => (by cases he), fun hc => ?_⟩, ?_, by simp⟩
      · exfalso
        rw [List.isEmpty_iff] at h1
        rw [Bool.eq_false_iff, Bool.eq_false_iff] at hc
        push Not at h2
        rcases hc with hc | hc | hc | hc
        · exact h1 (Or.inl hc)
        · exact h1 (Or.inr hc)
        · exact hc h2.1
        · exact hc h2.2
      · intro h' he
        cases he
        obtain ⟨r1, r2, r3, r4⟩ := Histogram.addAll_rest
          (if h.gamma.isNone ∧ lt (lit64 0) g = true then { h with gamma := some g } else h) es
        split
        next hg =>
          rw [if_pos hg] at r1 r2 r3 r4
          exact ⟨Histogram.addAll_congr h (some g) es, r3, r1, r4⟩
        next hg =>
          rw [if_neg hg] at r1 r2 r3 r4
          exact ⟨rfl, r3, r1, r4⟩

/-- **C43** (exact): the gamma of the histogram is the first non-zero gamma given, over any sequence of accepted calls. -/
theorem C43_first_gamma (h h' : Histogram ℝ) (calls : List (List (RGBA × ℕ) × ℝ)) (h0 : h.gamma = none)
    (e : calls.foldlM (fun h (c : List (RGBA × ℕ) × ℝ) => h.addColors c.1 c.2) h = (.ok h' : Res (Histogram ℝ))) :
    h'.gamma = (calls.map (·.2)).find? (fun g => decide (g ≠ 0)) ∧ ∀ c ∈ calls, 0 ≤ c.2 ∧ c.2 < 1 := by
  have key : ∀ (calls : List (List (RGBA × ℕ) × ℝ)) (h : Histogram ℝ),
      calls.foldlM (fun h (c : List (RGBA × ℕ) × ℝ) => h.addColors c.1 c.2) h = (.ok h' : Res (Histogram ℝ)) →
      h'.gamma = h.gamma.or ((calls.map (·.2)).find? (fun g => decide (g ≠ 0))) ∧ ∀ c ∈ calls, 0 ≤ c.2 ∧ c.2 < 1 := by
    intro calls
    induction calls with
    | nil => intro h e; cases e; simp
    | cons c cs ih =>
      intro h e
      rw [List.foldlM_cons] at e
      obtain ⟨c1, c2, -⟩ := C43_add_colors h c.1 c.2
      cases hc : h.addColors c.1 c.2 with
      | error x => rw [hc] at e; cases e
      | ok h1 =>
        rw [hc] at e
        obtain ⟨i1, i2⟩ := ih h1 e
        obtain ⟨-, -, -, hg⟩ := c2 h1 hc
        rw [hc] at c1
        have hr : 0 ≤ c.2 ∧ c.2 < 1 := by
          have : ¬ (c.1 = [] ∨ 2 ^ 24 < c.1.length ∨ le (lit64 0) c.2 = false ∨ lt c.2 (lit64 1) = false) := by
            intro hh; have := c1.2 hh; cases this
          simp only [real_le_false, real_lt_false, real_lit64, Rat.cast_zero, Rat.cast_one] at this
          push Not at this
          exact ⟨this.2.2.1, this.2.2.2⟩
        refine ⟨?_, by
          intro x hx
          rcases List.mem_cons.1 hx with rfl | hx
          · exact hr
          · exact i2 x hx⟩
        rw [i1, hg]
        cases hgam : h.gamma with
        | some g => simp
        | none =>
          by_cases hz : c.2 = 0
          · simp [hz]
          · have : 0 < c.2 := lt_of_le_of_ne hr.1 (Ne.symm hz)
            simp [hz, this]
  have := key calls h e
  rw [h0] at this
  simpa using this

/-- The hypotheses are met: gamma 0, then 0.5, then 0.7 gives 0.5. -/
example : ∃ h' : Histogram ℝ, [([(⟨1, 2, 3, 255⟩, 7)], 0), ([(⟨1, 2, 3, 255⟩, 7)], 1/2), ([(⟨1, 2, 3, 255⟩, 7)], 7/10)].foldlM
    (fun h (c : List (RGBA × ℕ) × ℝ) => h.addColors c.1 c.2) emptyHistogram = (.ok h' : Res (Histogram ℝ)) ∧
    h'.gamma = some (1/2) := by
  have ok : ∀ (h : Histogram ℝ) (g : ℝ), 0 ≤ g → g < 1 → ∃ h', h.addColors [(⟨1, 2, 3, 255⟩, 7)] g = .ok h' := by
    intro h g h0 h1
    obtain ⟨c1, -, c3⟩ := C43_add_colors h [(⟨1, 2, 3, 255⟩, 7)] g
    cases e : h.addColors [(⟨1, 2, 3, 255⟩, 7)] g with
    | ok h' => exact ⟨h', rfl⟩
    | error x =>
      exfalso
      unfold Histogram.addColors at e
      simp [h0, h1] at e
  obtain ⟨h1, e1⟩ := ok emptyHistogram 0 le_rfl (by norm_num)
  obtain ⟨h2, e2⟩ := ok h1 (1/2) (by norm_num) (by norm_num)
  obtain ⟨h3, e3⟩ := ok h2 (7/10) (by norm_num) (by norm_num)
  have e : [([(⟨1, 2, 3, 255⟩, 7)], 0), ([(⟨1, 2, 3, 255⟩, 7)], 1/2), ([(⟨1, 2, 3, 255⟩, 7)], 7/10)].foldlM
      (fun h (c : List (RGBA × ℕ) × ℝ) => h.addColors c.1 c.2) emptyHistogram = (.ok h3 : Res (Histogram ℝ)) := by
    simp only [List.foldlM_cons, e1]
    show (h1.addColors _ _ >>= _) = _
    rw [e2]
    show (h2.addColors _ _ >>= _) = _
    rw [e3]; rfl
  refine ⟨h3, e, ?_⟩
  rw [(C43_first_gamma emptyHistogram h3 _ rfl e).1]
  simp

end Verif
