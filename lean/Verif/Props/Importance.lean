import Verif.Lemmas.Contrast
import Verif.Props.Histogram

/-! # Property C27: every pixel is counted unless the user's importance map says otherwise -/

set_option linter.unusedSectionVars false

namespace Verif
open Flt Spec

variable {F : Type} [Flt F]

namespace Spec

/-- upper bits of the channels; all fully transparent colours are the same -/
def upper (b : ℕ) (c : RGBA) : ℕ × ℕ × ℕ × ℕ :=
  let c := if c.a = 0 then ⟨0, 0, 0, 0⟩ else c
  (c.r.toNat / 2 ^ b, c.g.toNat / 2 ^ b, c.b.toNat / 2 ^ b, c.a.toNat / 2 ^ b)

/-- channels of a key, all of which are relevant -/
def keyBits (b : ℕ) (k : RGBA) : ℕ × ℕ × ℕ × ℕ :=
  (k.r.toNat / 2 ^ b, k.g.toNat / 2 ^ b, k.b.toNat / 2 ^ b, k.a.toNat / 2 ^ b)

/-- the histogram has an entry of positive weight filed under the upper bits of the colour -/
def Recorded (h : Histogram F) (c : RGBA) : Prop :=
  ∃ e ∈ h.hashmap, 0 < e.2.1 ∧ keyBits h.posterizeBits e.1 = upper h.posterizeBits c

end Spec

theorem maskChannel_mask {b b' : ℕ} (hb : b ≤ b') (hb' : b' ≤ 7) (c : UInt8) :
    maskChannel b' (maskChannel b c) = maskChannel b' c := by
  have h : ∀ b' : Fin 8, ∀ b : Fin 8, b ≤ b' → ∀ n : Fin 256,
      maskChannel b'.val (maskChannel b.val (UInt8.ofNat n.val)) = maskChannel b'.val (UInt8.ofNat n.val) := by
    decide +kernel
  have := h ⟨b', by omega⟩ ⟨b, by omega⟩ hb ⟨c.toNat, c.toNat_lt⟩
  simpa using this

theorem maskColor_key {b b' : ℕ} (hb : b ≤ b') (hb' : b' ≤ 7) (c : RGBA) :
    maskColor b' (colorKey b c) = colorKey b' c := by
  unfold colorKey
  split
  · simp [maskColor, RGBA.map, maskChannel_mask hb hb']
  · simp [maskColor, RGBA.map, maskChannel_zero b' hb']

theorem keyBits_colorKey {b : ℕ} (hb : b ≤ 7) (c : RGBA) : keyBits b (colorKey b c) = upper b c := by
  have hd : ∀ n : ℕ, n / 2 ^ b * 2 ^ b / 2 ^ b = n / 2 ^ b := fun n => Nat.mul_div_cancel _ (by positivity)
  unfold keyBits upper colorKey
  by_cases h : c.a = 0
  · simp [h]
  · simp [h, maskColor, RGBA.map, maskChannel_toNat b hb, hd]

namespace Histogram

/-- every entry has a positive weight (true of a new histogram and kept by every addition) -/
def Positive (h : Histogram F) : Prop := ∀ e ∈ h.hashmap, 0 < e.2.1

theorem upsert_mem {m : ColorMap} {k : RGBA} {f : Option (ℕ × RGBA) → ℕ × RGBA} {e : RGBA × (ℕ × RGBA)}
    (h : e ∈ ColorMap.upsert m k f) : e ∈ m ∨ ∃ o, (∀ v, o = some v → (k, v) ∈ m) ∧ e = (k, f o) := by
  induction m with
  | nil =>
    rw [ColorMap.upsert] at h
    exact .inr ⟨none, fun v hv => (by cases hv), by simpa using h⟩
  | cons x m ih =>
    obtain ⟨k', v'⟩ := x
    rw [ColorMap.upsert] at h
    split at h
    next hk =>
      rcases List.mem_cons.mp h with h | h
      · refine .inr ⟨some v', fun v hv => ?_, by rw [h, hk]⟩
        cases hv; simp [hk]
      · exact .inl (by simp [h])
    next hk =>
      rcases List.mem_cons.mp h with h | h
      · exact .inl (by simp [h])
      · rcases ih h with h | ⟨o, h1, h2⟩
        · exact .inl (by simp [h])
        · exact .inr ⟨o, fun v hv => List.mem_cons_of_mem _ (h1 v hv), h2⟩

theorem addColor_positive {h : Histogram F} (hp : h.Positive) (c : RGBA) (n : ℕ) : (h.addColor c n).Positive := by
  unfold addColor
  split
  · exact hp
  next hn =>
    intro e he
    rcases upsert_mem he with he | ⟨o, ho, rfl⟩
    · exact hp e he
    · cases o with
      | none => show 0 < n; omega
      | some v => show 0 < satAdd v.1 n; unfold satAdd; omega

theorem addAll_positive {h : Histogram F} (hp : h.Positive) (px : List (RGBA × ℕ)) : (h.addAll px).Positive := by
  induction px generalizing h with
  | nil => exact hp
  | cons x px ih => rw [addAll_cons]; exact ih (addColor_positive hp _ _)

/-- an added pixel is found under its key -/
theorem addAll_key {h : Histogram F} (px : List (RGBA × ℕ)) {c : RGBA} {n : ℕ} (hc : (c, n) ∈ px) (hn : n ≠ 0) :
    (ColorMap.get (h.addAll px).hashmap (colorKey h.posterizeBits c)).isSome = true := by
  have keep : ∀ (px : List (RGBA × ℕ)) (h : Histogram F) (k : RGBA), (ColorMap.get h.hashmap k).isSome = true →
      (ColorMap.get (h.addAll px).hashmap k).isSome = true := by
    intro px
    induction px with
    | nil => intro h k hk; exact hk
    | cons x px ih =>
      intro h k hk
      rw [addAll_cons]
      apply ih
      rw [addColor_get]
      split
      · rfl
      · exact hk
  induction px generalizing h with
  | nil => simp at hc
  | cons x px ih =>
    rw [addAll_cons]
    rcases List.mem_cons.mp hc with rfl | hc
    · apply keep
      rw [addColor_get, if_pos ⟨hn, rfl⟩]; rfl
    · have := ih (h := h.addColor x.1 x.2) hc
      rwa [(h.addColor_rest _ _).1] at this

/-- positive weights and filed colours survive posterization -/
theorem initPosterizeBits_keeps (ho : HashOrder) {h : Histogram F} (hp : h.Positive) {b : ℕ} (hb : b ≤ 7)
    (hh : h.posterizeBits ≤ 7) {c : RGBA}
    (hc : (ColorMap.get h.hashmap (colorKey h.posterizeBits c)).isSome = true) :
    (h.initPosterizeBits ho b).Positive ∧ (h.initPosterizeBits ho b).posterizeBits ≤ 7 ∧
    (ColorMap.get (h.initPosterizeBits ho b).hashmap (colorKey (h.initPosterizeBits ho b).posterizeBits c)).isSome = true := by
  have hbits := h.initPosterizeBits_bits ho b
  by_cases hlt : h.posterizeBits < b
  · obtain ⟨_, _, h3, h4⟩ := C20_posterization_partial ho h b hlt
    have hd : ColorMap.Distinct (h.initPosterizeBits ho b).hashmap := by
      unfold initPosterizeBits
      rw [if_neg (by omega)]
      exact rekey_distinct b _ _ (by simp [ColorMap.Distinct])
    refine ⟨fun e he => ?_, by omega, ?_⟩
    · obtain ⟨k, v⟩ := e
      obtain ⟨k', hk', _⟩ := h4 k v (ColorMap.get_of_mem hd he)
      exact hp (k', v) hk'
    · obtain ⟨v, hv⟩ := Option.isSome_iff_exists.mp hc
      have := h3 _ (ColorMap.mem_of_get hv)
      rw [hbits, show max h.posterizeBits b = b by omega]
      rwa [maskColor_key (by omega) hb] at this
  · have : h.initPosterizeBits ho b = h := initPosterizeBits_same ho h b (by rw [hbits]; omega)
    rw [this]
    exact ⟨hp, hh, hc⟩

theorem finishRows_keeps (ho : HashOrder) {h : Histogram F} (hp : h.Positive) {b : ℕ} (hb : b ≤ 7)
    (hh : h.posterizeBits ≤ 7) {c : RGBA}
    (hc : (ColorMap.get h.hashmap (colorKey h.posterizeBits c)).isSome = true) :
    (h.finishRows ho b).Positive ∧ (h.finishRows ho b).posterizeBits ≤ 7 ∧
    (ColorMap.get (h.finishRows ho b).hashmap (colorKey (h.finishRows ho b).posterizeBits c)).isSome = true := by
  obtain ⟨h1, h2, h3⟩ := initPosterizeBits_keeps ho hp hb hh hc
  unfold finishRows
  dsimp only
  split
  next hcond => exact initPosterizeBits_keeps ho h1 (by omega) h2 h3
  next => exact ⟨h1, h2, h3⟩

end Histogram

/-! ## What `add_image` does with the pixels -/

theorem rowRgba_length {r : Rows F} {y : ℕ} {row : List RGBA} (h : r.rowRgba y = .ok row) : row.length = r.width := by
  unfold Rows.rowRgba at h
  cases hs : r.source with
  | pixels rows =>
    simp only [hs] at h
    cases hr : rows[y]? with
    | none => rw [hr] at h; cases h
    | some l =>
      rw [hr] at h
      simp only at h
      split at h
      · cases h
      next hl => cases h; rw [List.length_take]; omega
  | callback f => simp only [hs] at h; cases h; simp

theorem rgbaRows_ok {r : Rows F} {rows : List (List RGBA)} (h : r.rgbaRows = .ok rows) :
    rows.length = r.height ∧ (∀ row ∈ rows, row.length = r.width) ∧
    ∀ y < r.height, ∃ row, rows[y]? = some row ∧ r.rowRgba y = .ok row := by
  have hm : (List.range r.height).mapM r.rowRgba = .ok rows := by
    unfold Rows.rgbaRows at h
    split at h
    · cases h
    · exact h
  obtain ⟨h1, h2⟩ := mapM_range_get hm
  refine ⟨h1, fun row hrow => ?_, h2⟩
  obtain ⟨y, hy, rfl⟩ := List.mem_iff_getElem.mp hrow
  obtain ⟨row', hr', e⟩ := h2 y (by omega)
  rw [List.getElem?_eq_getElem hy] at hr'
  cases hr'
  exact rowRgba_length e

/-- A successful `add_image` adds the weighted pixels of the image, with the importance map in force. -/
theorem addImage_ok {ho : HashOrder} {h h' : Histogram F} {attr : Attr F} {img img' : Image F} {log log' : List F}
    (hg : img.Good) (e : h.addImage ho attr img log = ((.ok (), h', img'), log')) :
    (if img.importanceMap.isNone && attr.useContrastMaps then img.contrastMaps else .ok img) = .ok img' ∧
    img'.Good ∧
    ∃ rows, img'.px.rgbaRows = .ok rows ∧
    ∃ h0 : Histogram F, h0.hashmap = h.hashmap ∧ h0.posterizeBits = h.posterizeBits ∧
      (h0.gamma = img'.gamma ∧ h0.maxHistogramEntries = h.maxHistogramEntries ∧
        (img'.fixedColors = [] → h0.fixedColors = h.fixedColors)) ∧
      h' = (h0.addAll (Addition.image img'.width rows (img'.importanceMap.map (·.map UInt8.toNat)) attr.posterizeBits : Addition F).pixels).finishRows ho attr.posterizeBits := by
  unfold Histogram.addImage at e
  have hgood : ∀ i, (if img.importanceMap.isNone && attr.useContrastMaps then img.contrastMaps else .ok img) = .ok i → i.Good := by
    intro i hi
    split at hi
    · obtain ⟨i', e', g', _⟩ := contrastMaps_ok hg
      rw [e'] at hi; cases hi; exact g'
    · cases hi; exact hg
  cases hc : (if img.importanceMap.isNone && attr.useContrastMaps then img.contrastMaps else .ok img) with
  | error x => rw [hc] at e; cases e
  | ok i =>
    rw [hc] at e
    simp only at e
    split at e
    · cases e
    · cases e
    next hpr =>
      split at e
      · cases e
      next rows hrows =>
        obtain ⟨h1, h2⟩ := Prod.mk.inj e
        obtain ⟨_, h3⟩ := Prod.mk.inj h1
        obtain ⟨h4, h5⟩ := Prod.mk.inj h3
        subst h5
        have hgi := hgood i hc
        refine ⟨rfl, hgi, rows, hrows, if i.fixedColors.isEmpty then { h with gamma := i.gamma }
          else ({ h with gamma := i.gamma } : Histogram F).extendFixed i.fixedColors, ?_, ?_, ⟨?_, ?_, ?_⟩, ?_⟩
        · split <;> rfl
        · split <;> rfl
        · split <;> rfl
        · split <;> rfl
        · intro hf; rw [hf]; rfl
        · rw [← h4]
          unfold Histogram.addPixelRows
          rw [Histogram.addRows_eq]
          obtain ⟨r1, r2, _⟩ := rgbaRows_ok hrows
          refine ⟨hgi.width_pos, r2, fun m hm => ?_⟩
          cases him : i.importanceMap with
          | none => rw [him] at hm; cases hm
          | some m' =>
            rw [him] at hm
            cases hm
            refine ⟨by rw [List.length_map, r1]; exact hgi.importance m' him, fun x hx => ?_⟩
            obtain ⟨u, _, rfl⟩ := List.mem_map.mp hx
            have := u.toNat_lt
            omega

/-! ## C27 -/

/-- **C27** (exact arithmetic). The automatic map: `contrast_maps` succeeds on every image and, unless the image is too
small or too large for it (then nothing changes), gives every pixel an importance of at least 80. -/
theorem C27_auto_map (img : Image ℝ) (hg : img.Good) :
    ∃ img', img.contrastMaps = .ok img' ∧ (img' = img ∨
      ∃ m, img'.importanceMap = some m ∧ m.length = img.width * img.height ∧ ∀ v ∈ m, 80 ≤ v.toNat) := by
  obtain ⟨img', e, g, same, _, _, _, _, h⟩ := contrastMaps_ok hg
  refine ⟨img', e, ?_⟩
  rcases h with ⟨_, rfl⟩ | ⟨_, m, _, hm, _, hlo⟩
  · exact .inl rfl
  · refine .inr ⟨m, hm, ?_, hlo 80 noise_ge⟩
    rw [g.importance m hm]
    show img'.px.width * img'.px.height = img.px.width * img.px.height
    rw [same.width, same.height]

/-- if the automatic map has no zeros, every pixel of an added image is counted -/
theorem addImage_counted (ho : HashOrder) (h h' : Histogram F) (attr : Attr F) (img img' : Image F)
    (log log' : List F) (hg : img.Good) (hmap : img.MapPositive) (hnone : img.importanceMap = none) (hp : h.Positive)
    (hb : h.posterizeBits ≤ 7) (hab : attr.posterizeBits ≤ 7)
    (e : h.addImage ho attr img log = ((.ok (), h', img'), log')) :
    ∀ y < img.height, ∃ row, img'.px.rowRgba y = .ok row ∧ row.length = img.width ∧ ∀ c ∈ row, Recorded h' c := by
  obtain ⟨hc, hg', rows, hrows, h0, hm0, hb0, _, rfl⟩ := addImage_ok hg e
  obtain ⟨r1, r2, r3⟩ := rgbaRows_ok hrows
  -- the importance of every pixel is positive
  have hdim : img'.width = img.width ∧ img'.height = img.height := by
    split at hc
    · obtain ⟨i, ei, _, same, _⟩ := contrastMaps_ok hg
      rw [ei] at hc; cases hc
      exact ⟨same.width, same.height⟩
    · cases hc; exact ⟨rfl, rfl⟩
  have hpos : ∀ m, img'.importanceMap = some m → ∀ v ∈ m, v.toNat ≠ 0 := by
    intro m hm v hv
    split at hc
    · obtain ⟨i, ei, _, _, _, _, _, _, h1⟩ := contrastMaps_ok hg
      rw [ei] at hc
      cases hc
      rcases h1 with ⟨_, rfl⟩ | ⟨hs, _⟩
      · rw [hnone] at hm; cases hm
      · exact hmap hs img' ei m hm v hv
    · cases hc; rw [hnone] at hm; cases hm
  intro y hy
  obtain ⟨row, hrow, erow⟩ := r3 y (by have := hdim.2; unfold Image.height at this hy; omega)
  refine ⟨row, erow, (rowRgba_length erow).trans hdim.1, fun c hcr => ?_⟩
  have hmem : c ∈ rows.flatten := List.mem_flatten.mpr ⟨row, List.mem_of_getElem? hrow, hcr⟩
  obtain ⟨n, hn, hcn⟩ : ∃ n, n ≠ 0 ∧ (c, n) ∈ (Addition.image img'.width rows
      (img'.importanceMap.map (·.map UInt8.toNat)) attr.posterizeBits : Addition F).pixels := by
    cases him : img'.importanceMap with
    | none => exact ⟨255, by omega, List.mem_map.mpr ⟨c, hmem, rfl⟩⟩
    | some m =>
      have hl : rows.flatten.length = m.length := by
        rw [hg'.importance m him, List.length_flatten]
        have : rows.map List.length = rows.map (fun _ => img'.width) := List.map_congr_left r2
        rw [this, List.map_const', List.sum_replicate, r1, smul_eq_mul, Nat.mul_comm]
        rfl
      obtain ⟨i, hi, rfl⟩ := List.mem_iff_getElem.mp hmem
      have hi' : i < (m.map UInt8.toNat).length := by rw [List.length_map]; omega
      refine ⟨(m.map UInt8.toNat)[i], ?_, ?_⟩
      · rw [List.getElem_map]; exact hpos m him _ (List.getElem_mem _)
      · show _ ∈ rows.flatten.zip (m.map UInt8.toNat)
        rw [List.mem_iff_getElem]
        exact ⟨i, by rw [List.length_zip]; omega, by rw [List.getElem_zip]⟩
  have hp0 : h0.Positive := by intro x hx; rw [hm0] at hx; exact hp x hx
  obtain ⟨k1, k2, k3⟩ := Histogram.finishRows_keeps ho (Histogram.addAll_positive hp0 (Addition.image img'.width rows
      (img'.importanceMap.map (·.map UInt8.toNat)) attr.posterizeBits : Addition F).pixels) hab
    (by rw [(h0.addAll_rest _).1, hb0]; exact hb) (c := c)
    (by rw [(h0.addAll_rest _).1]; exact Histogram.addAll_key _ hcn hn)
  obtain ⟨v, hv⟩ := Option.isSome_iff_exists.mp k3
  have hmv := ColorMap.mem_of_get hv
  exact ⟨_, hmv, k1 _ hmv, keyBits_colorKey k2 c⟩

/-- **C27** (exact arithmetic). If no importance map was set, every pixel of an added image is counted. -/
theorem C27_every_pixel_counted (ho : HashOrder) (h h' : Histogram ℝ) (attr : Attr ℝ) (img img' : Image ℝ)
    (log log' : List ℝ) (hg : img.Good) (hnone : img.importanceMap = none) (hp : h.Positive)
    (hb : h.posterizeBits ≤ 7) (hab : attr.posterizeBits ≤ 7)
    (e : h.addImage ho attr img log = ((.ok (), h', img'), log')) :
    ∀ y < img.height, ∃ row, img'.px.rowRgba y = .ok row ∧ row.length = img.width ∧ ∀ c ∈ row, Recorded h' c :=
  addImage_counted ho h h' attr img img' log log' hg hg.mapPositive hnone hp hb hab e

/-- without a callback `add_image` succeeds on every good image whose pixels have not been freed -/
theorem addImage_succeeds (ho : HashOrder) (h : Histogram F) (attr : Attr F) (img : Image F) (log : List F)
    (hg : img.Good) (hcb : attr.progressCallback = none) (hr : ∃ rows, img.px.rgbaRows = .ok rows) :
    ∃ h' img' log', h.addImage ho attr img log = ((.ok (), h', img'), log') := by
  obtain ⟨i, hi, hri⟩ : ∃ i, (if img.importanceMap.isNone && attr.useContrastMaps then img.contrastMaps else .ok img) = .ok i ∧
      ∃ rows, i.px.rgbaRows = .ok rows := by
    split
    · obtain ⟨i, ei, _, same, _, _, _, hsrc, _⟩ := contrastMaps_ok hg
      refine ⟨i, ei, ?_⟩
      obtain ⟨rows, hrows⟩ := hr
      refine ⟨rows, ?_⟩
      rw [← hrows]
      have hw := same.width
      have hh := same.height
      unfold Rows.rgbaRows Rows.rowRgba
      rw [hsrc, hw, hh]
    · exact ⟨img, rfl, hr⟩
  obtain ⟨rows, hrows⟩ := hri
  unfold Histogram.addImage
  rw [hi]
  simp only [hcb, progress, hrows]
  exact ⟨_, _, _, rfl⟩

/-- the hypotheses hold for a new histogram and any image made from a function -/
example (ho : HashOrder) (f : ℕ → ℕ → RGBA) : ∃ (img img' : Image ℝ) (h' : Histogram ℝ) (log' : List ℝ),
    img.Good ∧ img.importanceMap = none ∧ img.width = 9 ∧ img.height = 8 ∧ (Histogram.new (Attr.new (F := ℝ))).Positive ∧
    (Histogram.new (Attr.new (F := ℝ))).addImage ho Attr.new img [] = ((.ok (), h', img'), log') := by
  obtain ⟨img, hi⟩ : ∃ a, Image.newFn (F := ℝ) f 9 8 0 = .ok a := by
    unfold Image.newFn Image.newInternal Image.toU32
    simp [Image.checkImageSize, bind, Except.bind]
    norm_num
  obtain ⟨hg, hw, hh, hr⟩ := newFn_good hi
  have hsrc : img.px.source = .callback f ∧ img.importanceMap = none := by
    unfold Image.newFn at hi
    simp only [Image.toU32, bind, Except.bind] at hi
    norm_num at hi
    obtain ⟨_, _, rfl⟩ := newInternal_ok hi
    exact ⟨rfl, rfl⟩
  obtain ⟨h', img', log', e⟩ := addImage_succeeds ho (Histogram.new (Attr.new (F := ℝ))) Attr.new img [] hg rfl (by
    refine ⟨(List.range img.px.height).map fun y => (List.range img.width).map (f y), ?_⟩
    unfold Rows.rgbaRows
    rw [hsrc.1]
    exact mapM_ok _ _ _ fun y _ => by rw [hr y, hw])
  exact ⟨img, img', h', log', hg, hsrc.2, hw, hh, fun _ he => (by cases he), e⟩

/-- **C27** (any float arithmetic). With a user map the pixels with entry 0 leave no trace: the histogram is the one made
from the other pixels alone. -/
theorem C27_zero_ignored (ho : HashOrder) (h h' : Histogram F) (attr : Attr F) (img img' : Image F) (m : List UInt8)
    (log log' : List F) (hg : img.Good) (hm : img.importanceMap = some m)
    (e : h.addImage ho attr img log = ((.ok (), h', img'), log')) :
    img' = img ∧ m.length = img.width * img.height ∧
    ∃ rows, img.px.rgbaRows = .ok rows ∧ ∃ h0 : Histogram F, h0.hashmap = h.hashmap ∧ h0.posterizeBits = h.posterizeBits ∧
      h' = (((rows.flatten.zip (m.map UInt8.toNat)).filter fun p => decide (p.2 ≠ 0)).foldl
        (fun h p => h.addColor p.1 p.2) h0).finishRows ho attr.posterizeBits := by
  obtain ⟨hc, _, rows, hrows, h0, hm0, hb0, _, rfl⟩ := addImage_ok hg e
  rw [hm] at hc
  simp only [Option.isNone_some, Bool.false_and, Bool.false_eq_true, if_false] at hc
  cases hc
  refine ⟨rfl, hg.importance m hm, rows, hrows, h0, hm0, hb0, ?_⟩
  rw [hm]
  simp only [Option.map_some, Addition.pixels]
  rw [← C19_zero_leaves_no_trace]
  rfl

end Verif
