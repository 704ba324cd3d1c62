import Verif.Lemmas.ColorMap
import Verif.Spec.Histogram

/-! Adding pixels to a histogram. -/

set_option linter.unusedSectionVars false

namespace Verif
open Flt Spec

variable {F : Type} [Flt F]

theorem maskChannel_toNat (b : ℕ) (hb : b ≤ 7) (c : UInt8) : (maskChannel b c).toNat = c.toNat / 2 ^ b * 2 ^ b := by
  have h : ∀ b : Fin 8, ∀ n : Fin 256, (maskChannel b.val (UInt8.ofNat n.val)).toNat = n.val / 2 ^ b.val * 2 ^ b.val := by
    decide +kernel
  have := h ⟨b, by omega⟩ ⟨c.toNat, c.toNat_lt⟩
  simpa using this

theorem maskChannel_eq_iff (b : ℕ) (hb : b ≤ 7) (x y : UInt8) :
    maskChannel b x = maskChannel b y ↔ x.toNat / 2 ^ b = y.toNat / 2 ^ b := by
  rw [← UInt8.toNat_inj, maskChannel_toNat b hb, maskChannel_toNat b hb]
  exact Nat.mul_left_inj (by positivity)

/-- the key under which `add_color` files a colour -/
def colorKey (b : ℕ) (c : RGBA) : RGBA := if c.a ≠ 0 then maskColor b c else ⟨0, 0, 0, 0⟩

theorem maskChannel_zero (b : ℕ) (hb : b ≤ 7) : maskChannel b 0 = 0 := by
  rw [← UInt8.toNat_inj, maskChannel_toNat b hb]; simp

theorem colorKey_eq_iff (b : ℕ) (hb : b ≤ 7) (x y : RGBA) : colorKey b x = colorKey b y ↔ seen b x = seen b y := by
  have h0 : ∀ c : UInt8, maskChannel b c = 0 ↔ c.toNat / 2 ^ b = 0 := by
    intro c
    have := maskChannel_eq_iff b hb c 0
    rw [maskChannel_zero b hb] at this
    rw [this]; simp
  have h0' : ∀ c : UInt8, 0 = maskChannel b c ↔ 0 = c.toNat / 2 ^ b := by
    intro c
    rw [eq_comm, h0 c, eq_comm]
  unfold colorKey seen
  by_cases hx : x.a = 0 <;> by_cases hy : y.a = 0 <;>
    simp only [hx, hy, ne_eq, not_true_eq_false, not_false_eq_true, if_true, if_false, maskColor, RGBA.map,
      RGBA.mk.injEq, Prod.mk.injEq, maskChannel_eq_iff b hb, h0, h0']

namespace Histogram

/-- the weight recorded for a colour -/
def weight (h : Histogram F) (c : RGBA) : Option ℕ := (ColorMap.get h.hashmap (colorKey h.posterizeBits c)).map (·.1)

/-- adding a list of weighted pixels one by one -/
def addAll (h : Histogram F) (px : List (RGBA × ℕ)) : Histogram F := px.foldl (fun h x => h.addColor x.1 x.2) h

theorem addAll_cons (h : Histogram F) (x : RGBA × ℕ) (px : List (RGBA × ℕ)) :
    h.addAll (x :: px) = (h.addColor x.1 x.2).addAll px := rfl

theorem addAll_append (h : Histogram F) (a b : List (RGBA × ℕ)) : h.addAll (a ++ b) = (h.addAll a).addAll b := by
  simp [addAll, List.foldl_append]

theorem addColor_rest (h : Histogram F) (c : RGBA) (n : ℕ) :
    (h.addColor c n).posterizeBits = h.posterizeBits ∧ (h.addColor c n).maxHistogramEntries = h.maxHistogramEntries ∧
    (h.addColor c n).fixedColors = h.fixedColors ∧ (h.addColor c n).gamma = h.gamma := by
  unfold addColor; split <;> exact ⟨rfl, rfl, rfl, rfl⟩

theorem addAll_rest (h : Histogram F) (px : List (RGBA × ℕ)) :
    (h.addAll px).posterizeBits = h.posterizeBits ∧ (h.addAll px).maxHistogramEntries = h.maxHistogramEntries ∧
    (h.addAll px).fixedColors = h.fixedColors ∧ (h.addAll px).gamma = h.gamma := by
  induction px generalizing h with
  | nil => exact ⟨rfl, rfl, rfl, rfl⟩
  | cons x px ih =>
    rw [addAll_cons]
    obtain ⟨h1, h2, h3, h4⟩ := ih (h.addColor x.1 x.2)
    obtain ⟨g1, g2, g3, g4⟩ := h.addColor_rest x.1 x.2
    exact ⟨h1.trans g1, h2.trans g2, h3.trans g3, h4.trans g4⟩

theorem addColor_get (h : Histogram F) (c : RGBA) (n : ℕ) (k : RGBA) :
    ColorMap.get (h.addColor c n).hashmap k =
      if n ≠ 0 ∧ colorKey h.posterizeBits c = k then
        some (match ColorMap.get h.hashmap k with
          | some (w, d) => (satAdd w n, d)
          | none => (n, c))
      else ColorMap.get h.hashmap k := by
  unfold addColor
  by_cases hn : n = 0
  · simp [hn]
  · rw [if_neg hn]
    dsimp only
    rw [show (if c.a ≠ 0 then maskColor h.posterizeBits c else (⟨0, 0, 0, 0⟩ : RGBA)) = colorKey h.posterizeBits c from rfl,
      ColorMap.get_upsert]
    by_cases hk : colorKey h.posterizeBits c = k
    · have hc : n ≠ 0 ∧ colorKey h.posterizeBits c = k := ⟨hn, hk⟩
      rw [if_pos hk, if_pos hc]
      subst hk
      rfl
    · rw [if_neg hk, if_neg (by tauto)]

theorem addColor_distinct {h : Histogram F} (hd : ColorMap.Distinct h.hashmap) (c : RGBA) (n : ℕ) :
    ColorMap.Distinct (h.addColor c n).hashmap := by
  unfold addColor
  split
  · exact hd
  · exact hd.upsert _ _

theorem addAll_distinct {h : Histogram F} (hd : ColorMap.Distinct h.hashmap) (px : List (RGBA × ℕ)) :
    ColorMap.Distinct (h.addAll px).hashmap := by
  induction px generalizing h with
  | nil => exact hd
  | cons x px ih => rw [addAll_cons]; exact ih (addColor_distinct hd _ _)

/-- The weight found under a key: the old one plus the sum, cut off at the largest `u32`. -/
theorem addAll_get (h : Histogram F) (px : List (RGBA × ℕ)) (k : RGBA) (hpx : ∀ x ∈ px, x.2 ≤ u32Max)
    (hm : ∀ v, ColorMap.get h.hashmap k = some v → v.1 ≤ u32Max) :
    (ColorMap.get (h.addAll px).hashmap k).map (·.1) =
      let s := ((px.filter fun x => decide (colorKey h.posterizeBits x.1 = k)).map (·.2)).sum
      match ColorMap.get h.hashmap k with
      | some v => some (min (v.1 + s) u32Max)
      | none => if s = 0 then none else some (min s u32Max) := by
  induction px generalizing h with
  | nil =>
    simp only [addAll, List.foldl_nil, List.filter_nil, List.map_nil, List.sum_nil, Nat.add_zero, if_true]
    cases hg : ColorMap.get h.hashmap k with
    | none => rfl
    | some v => simp only [Option.map_some]; rw [min_eq_left (hm v hg)]
  | cons x px ih =>
    rw [addAll_cons]
    have hx := hpx x (by simp)
    have hget := h.addColor_get x.1 x.2 k
    have hsat : ∀ w, satAdd w x.2 ≤ u32Max := fun w => min_le_right _ _
    have ih' := ih (h.addColor x.1 x.2) (fun y hy => hpx y (by simp [hy])) (by
      intro v hv
      rw [hget] at hv
      split at hv
      · cases hg : ColorMap.get h.hashmap k with
        | none => rw [hg] at hv; simp at hv; subst hv; exact hx
        | some w => rw [hg] at hv; simp at hv; subst hv; exact hsat _
      · exact hm v hv)
    rw [ih', (h.addColor_rest x.1 x.2).1, hget]
    dsimp only
    set s := ((px.filter fun x => decide (colorKey h.posterizeBits x.1 = k)).map (·.2)).sum with hs
    by_cases hk : colorKey h.posterizeBits x.1 = k
    · have hf : ((x :: px).filter fun x => decide (colorKey h.posterizeBits x.1 = k)) =
          x :: (px.filter fun x => decide (colorKey h.posterizeBits x.1 = k)) := by
        rw [List.filter_cons_of_pos (by simpa using hk)]
      rw [hf, List.map_cons, List.sum_cons, ← hs]
      by_cases hn : x.2 = 0
      · rw [if_neg (by tauto), hn, Nat.zero_add]
      · rw [if_pos ⟨hn, hk⟩]
        cases hg : ColorMap.get h.hashmap k with
        | none =>
          dsimp only
          rw [if_neg (by omega)]
        | some w =>
          obtain ⟨w, d⟩ := w
          dsimp only
          congr 1
          unfold satAdd u32Max
          omega
    · have hf : ((x :: px).filter fun x => decide (colorKey h.posterizeBits x.1 = k)) =
          (px.filter fun x => decide (colorKey h.posterizeBits x.1 = k)) := by
        rw [List.filter_cons_of_neg (by simpa using hk)]
      rw [hf, if_neg (by tauto)]

theorem addRow_eq (h : Histogram F) (row : List RGBA) (imp : List ℕ) (hl : row.length = imp.length) :
    h.addRow row imp = h.addAll (row.zip imp) := by
  induction row generalizing h imp with
  | nil => simp [addRow, addAll]
  | cons c cs ih =>
    cases imp with
    | nil => simp at hl
    | cons b bs =>
      rw [addRow, List.zip_cons_cons, addAll_cons]
      exact ih _ bs (by simpa using hl)

theorem addRow_nil (h : Histogram F) (row : List RGBA) : h.addRow row [] = h.addAll (row.map fun c => (c, 255)) := by
  induction row generalizing h with
  | nil => simp [addRow, addAll]
  | cons c cs ih => rw [addRow, List.map_cons, addAll_cons]; exact ih _

theorem addRows_none (h : Histogram F) (w : ℕ) (hw : 0 < w) (rows : List (List RGBA)) :
    h.addRows w rows [] = h.addAll (rows.flatten.map fun c => (c, 255)) := by
  induction rows generalizing h with
  | nil => simp [addRows, addAll]
  | cons r rs ih =>
    rw [addRows, if_pos (by simpa using hw), ih, addRow_nil, List.flatten_cons, List.map_append, addAll_append]

theorem addRows_some (h : Histogram F) (w : ℕ) (rows : List (List RGBA)) (imp : List ℕ)
    (hr : ∀ r ∈ rows, r.length = w) (hl : imp.length = w * rows.length) :
    h.addRows w rows imp = h.addAll (rows.flatten.zip imp) := by
  induction rows generalizing h imp with
  | nil => simp [addRows, addAll]
  | cons r rs ih =>
    rw [List.length_cons, Nat.mul_succ] at hl
    have hrl := hr r (by simp)
    rw [addRows, if_neg (by omega), ih _ _ (fun x hx => hr x (by simp [hx])) (by rw [List.length_drop]; omega),
      addRow_eq _ _ _ (by rw [List.length_take]; omega), ← addAll_append, List.flatten_cons]
    congr 1
    have : imp = imp.take w ++ imp.drop w := (List.take_append_drop _ _).symm
    conv_rhs => rw [this]
    rw [List.zip_append]
    rw [List.length_take]; omega

/-- one addition, as the library does it -/
def apply (ho : HashOrder) (h : Histogram F) : Addition F → Res (Histogram F)
  | .colors es g => h.addColors es g
  | .image w rows imp bits => .ok (h.addPixelRows ho w rows imp bits)

/-- several additions; all of them must be accepted -/
def applyAll (ho : HashOrder) (h : Histogram F) (l : List (Addition F)) : Res (Histogram F) := l.foldlM (apply ho) h

theorem initPosterizeBits_bits (ho : HashOrder) (h : Histogram F) (b : ℕ) :
    (h.initPosterizeBits ho b).posterizeBits = max h.posterizeBits b := by
  unfold initPosterizeBits
  split
  · omega
  · dsimp only; omega

theorem initPosterizeBits_same (ho : HashOrder) (h : Histogram F) (b : ℕ)
    (e : (h.initPosterizeBits ho b).posterizeBits = h.posterizeBits) : h.initPosterizeBits ho b = h := by
  unfold initPosterizeBits at e ⊢
  split
  · rfl
  next hn => rw [if_neg hn] at e; dsimp only at e; omega

theorem finishRows_same (ho : HashOrder) (h : Histogram F) (b : ℕ)
    (e : (h.finishRows ho b).posterizeBits = h.posterizeBits) : h.finishRows ho b = h := by
  unfold finishRows at e ⊢
  have h1 := h.initPosterizeBits_bits ho b
  have h3 := (h.initPosterizeBits ho b).initPosterizeBits_bits ho ((h.initPosterizeBits ho b).posterizeBits + 1)
  dsimp only at e ⊢
  split
  next hc =>
    rw [if_pos hc] at e
    omega
  next hc =>
    rw [if_neg hc] at e
    exact initPosterizeBits_same ho h b e

theorem finishRows_bits_le (ho : HashOrder) (h : Histogram F) (b : ℕ) : h.posterizeBits ≤ (h.finishRows ho b).posterizeBits := by
  unfold finishRows
  have h1 := h.initPosterizeBits_bits ho b
  have h3 := (h.initPosterizeBits ho b).initPosterizeBits_bits ho ((h.initPosterizeBits ho b).posterizeBits + 1)
  dsimp only
  split <;> omega

theorem addRows_eq (h : Histogram F) (w : ℕ) (rows : List (List RGBA)) (imp : Option (List ℕ)) (bits : ℕ)
    (hw : (Addition.image w rows imp bits : Addition F).WellFormed) :
    h.addRows w rows (imp.getD []) = h.addAll (Addition.image w rows imp bits : Addition F).pixels := by
  obtain ⟨h1, h2, h3⟩ := hw
  cases imp with
  | none => exact h.addRows_none w h1 rows
  | some m => exact h.addRows_some w rows m h2 (h3 m rfl).1

theorem addColors_eq (h h' : Histogram F) (es : List (RGBA × ℕ)) (g : F) (e : h.addColors es g = .ok h') :
    ∃ g', h' = { h with gamma := g' }.addAll es := by
  unfold addColors at e
  split at e
  · cases e
  · split at e
    · cases e
    · dsimp only at e
      split at e
      · exact ⟨some g, (Except.ok.inj e).symm⟩
      · exact ⟨h.gamma, (Except.ok.inj e).symm⟩

theorem addAll_congr (h : Histogram F) (g : Option F) (px : List (RGBA × ℕ)) :
    ({ h with gamma := g }.addAll px).hashmap = (h.addAll px).hashmap := by
  have : ∀ (h k : Histogram F), h.hashmap = k.hashmap → h.posterizeBits = k.posterizeBits →
      (h.addAll px).hashmap = (k.addAll px).hashmap := by
    induction px with
    | nil => intro h k e _; exact e
    | cons x px ih =>
      intro h k e1 e2
      rw [addAll_cons, addAll_cons]
      apply ih
      · unfold addColor; split
        · exact e1
        · dsimp only; rw [e1, e2]
      · rw [(h.addColor_rest _ _).1, (k.addColor_rest _ _).1, e2]
  exact this _ _ rfl rfl

/-- Without a change of posterization, a history of additions is the addition of all the pixels. -/
theorem applyAll_hashmap (ho : HashOrder) (h h' : Histogram F) (l : List (Addition F)) (hw : ∀ a ∈ l, a.WellFormed)
    (e : h.applyAll ho l = .ok h') (hb : h'.posterizeBits = h.posterizeBits) :
    h'.hashmap = (h.addAll (l.flatMap Addition.pixels)).hashmap := by
  have mono : ∀ (l : List (Addition F)) (h h' : Histogram F), h.applyAll ho l = .ok h' → h.posterizeBits ≤ h'.posterizeBits := by
    intro l
    induction l with
    | nil => intro h h' e; cases e; exact le_rfl
    | cons a l ih =>
      intro h h' e
      unfold applyAll at e
      rw [List.foldlM_cons] at e
      cases ha : apply ho h a with
      | error x => rw [ha] at e; cases e
      | ok h1 =>
        rw [ha] at e
        have h2 := ih h1 h' e
        refine le_trans ?_ h2
        cases a with
        | colors es g =>
          obtain ⟨g', rfl⟩ := addColors_eq h h1 es g ha
          rw [(addAll_rest _ _).1]
        | image w rows imp bits =>
          cases ha
          refine le_trans ?_ (finishRows_bits_le ho _ bits)
          have hr : ∀ (rows : List (List RGBA)) (h : Histogram F) (imp : List ℕ), (h.addRows w rows imp).posterizeBits = h.posterizeBits := by
            have hrow : ∀ (r : List RGBA) (h : Histogram F) (imp : List ℕ), (h.addRow r imp).posterizeBits = h.posterizeBits := by
              intro r
              induction r with
              | nil => intro h imp; rw [addRow]
              | cons c cs ih =>
                intro h imp
                cases imp with
                | nil => rw [addRow, ih, (h.addColor_rest _ _).1]
                | cons b bs => rw [addRow, ih, (h.addColor_rest _ _).1]
            intro rows
            induction rows with
            | nil => intro h imp; rw [addRows]
            | cons r rs ih => intro h imp; rw [addRows]; split <;> rw [ih, hrow]
          rw [hr]
  induction l generalizing h with
  | nil => cases e; rfl
  | cons a l ih =>
    unfold applyAll at e
    rw [List.foldlM_cons] at e
    cases ha : apply ho h a with
    | error x => rw [ha] at e; cases e
    | ok h1 =>
      rw [ha] at e
      have hm := mono l h1 h' e
      have hw' : ∀ a ∈ l, a.WellFormed := fun x hx => hw x (by simp [hx])
      cases a with
      | colors es g =>
        obtain ⟨g', rfl⟩ := addColors_eq h h1 es g ha
        rw [ih _ hw' e (by rw [(addAll_rest _ _).1]; exact hb), List.flatMap_cons, ← addAll_append]
        exact addAll_congr h g' _
      | image w rows imp bits =>
        have hwa := hw _ (List.mem_cons_self ..)
        cases ha
        have e1 := h.addRows_eq w rows imp bits hwa
        have hm1 := finishRows_bits_le ho (h.addRows w rows (imp.getD [])) bits
        have hb1 : (h.addRows w rows (imp.getD [])).posterizeBits = h.posterizeBits := by rw [e1, (addAll_rest _ _).1]
        unfold addPixelRows at e hm
        have hsame := finishRows_same ho (h.addRows w rows (imp.getD [])) bits (by omega)
        rw [hsame] at e
        rw [ih _ hw' e (by omega), e1, ← addAll_append, List.flatMap_cons]

end Histogram
end Verif
