import Verif.Lemmas.QuantFew
import Verif.Lemmas.Shows
import Verif.Lemmas.Quality

/-! # Histograms of images with few colours -/

set_option linter.unusedSectionVars false

namespace Verif
open Flt Spec

variable {F : Type} [Flt F]

/-- A new image of `w` times `h` pixels, the one in row `y` and column `x` being `f y x`. -/
def Made (f : ℕ → ℕ → RGBA) (w h : ℕ) (gamma : F) (img : Image F) : Prop :=
  Image.newFn f w h gamma = .ok img ∨ ∃ buf stride, Image.newStride buf w h stride gamma = .ok img ∧
    ∀ y < h, ∀ x < w, buf[y * stride + x]? = some (f y x)

structure MadeFacts (f : ℕ → ℕ → RGBA) (w h : ℕ) (img : Image F) : Prop where
  user : UserImage img
  shows_ : img.px.Shows f
  rows : img.px.rgbaRows = .ok ((List.range h).map fun y => (List.range w).map (f y))
  width_ : img.width = w
  height_ : img.height = h
  width_pos : 0 < w
  height_pos : 0 < h
  importance : img.importanceMap = none
  background : img.background = none
  fixed : img.fixedColors = []

theorem mapM_ok_map {α β : Type} (l : List α) (g : α → Res β) (k : α → β) (h : ∀ x ∈ l, g x = .ok (k x)) :
    l.mapM g = .ok (l.map k) := by
  induction l with
  | nil => rfl
  | cons x l ih =>
    rw [List.mapM_cons, h x (by simp), ih (fun y hy => h y (by simp [hy]))]
    rfl

theorem Made.facts {f : ℕ → ℕ → RGBA} {w h : ℕ} {gamma : F} {img : Image F} (hm : Made f w h gamma img) :
    MadeFacts f w h img := by
  have hsrc : img.width = w ∧ img.height = h ∧ 0 < w ∧ 0 < h ∧ img.importanceMap = none ∧ img.background = none ∧
      img.fixedColors = [] := by
    have key : ∀ {src : Source}, Image.newInternal src w h gamma = .ok img → img.width = w ∧ img.height = h ∧ 0 < w ∧ 0 < h ∧
        img.importanceMap = none ∧ img.background = none ∧ img.fixedColors = [] := by
      intro src e
      obtain ⟨h1, h2, rfl⟩ := newInternal_ok e
      exact ⟨rfl, rfl, h1, h2, rfl, rfl, rfl⟩
    rcases hm with e | ⟨buf, stride, e, _⟩
    · unfold Image.newFn at e
      rw [toU32_eq, toU32_eq] at e
      split at e
      · split at e
        · simp only [bind, Except.bind] at e
          exact key e
        · cases e
      · cases e
    · rw [newStride_eq] at e
      split at e
      · split at e
        · exact key e
        · cases e
      · cases e
  obtain ⟨hw, hh, hwp, hhp, h1, h2, h3⟩ := hsrc
  have hrow : ∀ y < h, img.px.rowRgba y = .ok ((List.range w).map (f y)) := by
    intro y hy
    rcases hm with e | ⟨buf, stride, e, hb⟩
    · have := (newFn_good e).2.2.2 y
      rw [this]
    · obtain ⟨_, _, hr⟩ := C16_rows buf w h stride gamma img e
      obtain ⟨_, row, er, hl, hv⟩ := hr y hy
      rw [er]
      congr 1
      apply List.ext_getElem?
      intro x
      by_cases hx : x < w
      · rw [hv x hx, hb y hy x hx, List.getElem?_map, List.getElem?_range hx]; rfl
      · rw [List.getElem?_eq_none (by omega), List.getElem?_eq_none (by simp; omega)]
  have hne : img.px.source ≠ .pixels [] := by
    intro hs
    have := hrow 0 hhp
    unfold Rows.rowRgba at this
    rw [hs] at this
    simp at this
  refine ⟨?_, ?_, ?_, hw, hh, hwp, hhp, h1, h2, h3⟩
  · rcases hm with e | ⟨buf, stride, e, _⟩
    · exact .fromCallback e
    · exact .fromPixels e
  · rcases hm with e | ⟨buf, stride, e, hb⟩
    · exact (newFn_shows e).1
    · have := (newStride_shows e).1
      intro y hy
      rw [this y hy]
      congr 1
      apply List.map_congr_left
      intro x hx
      have hx' : x < w := by rw [← hw]; exact List.mem_range.mp hx
      have hy' : y < h := by rw [← hh]; exact hy
      dsimp only
      rw [List.getD_eq_getElem?_getD, hb y hy' x hx']; rfl
  · unfold Rows.rgbaRows
    have hheight : img.px.height = h := hh
    rw [hheight]
    have := mapM_ok_map (List.range h) img.px.rowRgba (fun y => (List.range w).map (f y)) (fun y hy => hrow y (List.mem_range.mp hy))
    split
    next hs => exact absurd hs hne
    · exact this

namespace Histogram

/-- every entry of a histogram that was empty belongs to a pixel -/
theorem addAll_from (px : List (RGBA × ℕ)) (h : Histogram F) (P : RGBA × (ℕ × RGBA) → Prop)
    (h0 : ∀ e ∈ h.hashmap, P e) (hstep : ∀ x ∈ px, ∀ n, P (colorKey h.posterizeBits x.1, n, x.1))
    (hgrow : ∀ k n m c, P (k, n, c) → P (k, m, c)) : ∀ e ∈ (h.addAll px).hashmap, P e := by
  induction px generalizing h with
  | nil => exact h0
  | cons x px ih =>
    rw [addAll_cons]
    refine ih (h.addColor x.1 x.2) ?_ (fun y hy n => by rw [(h.addColor_rest _ _).1]; exact hstep y (by simp [hy]) n)
    intro e he
    unfold addColor at he
    split at he
    · exact h0 e he
    next hn =>
      rcases upsert_mem he with he | ⟨o, ho, rfl⟩
      · exact h0 e he
      · cases o with
        | none => exact hstep x (by simp) _
        | some v =>
          obtain ⟨n, c⟩ := v
          exact hgrow _ n _ c (h0 _ (ho _ rfl))

end Histogram

/-- pixels with few colours: few keys -/
theorem nodup_length_le {l m : List RGBA} (h : l.Nodup) (hs : ∀ x ∈ l, x ∈ m) : l.length ≤ m.length := by
  calc l.length = l.toFinset.card := (List.toFinset_card_of_nodup h).symm
    _ ≤ m.toFinset.card := Finset.card_le_card (by intro x hx; simp only [List.mem_toFinset] at *; exact hs x hx)
    _ ≤ m.length := List.toFinset_card_le m

theorem maskChannel_bits_zero (c : UInt8) : maskChannel 0 c = c := by
  have h : ∀ i : Fin 256, maskChannel 0 (UInt8.ofNat i) = UInt8.ofNat i := by decide +kernel
  have := h ⟨c.toNat, c.toNat_lt⟩
  simpa using this

/-- the settings remember the last accepted quality -/
theorem after_quality_settings (cs : List Call) :
    (Settings.default.after cs).quality = (lastQuality cs).getD (0, 100) := by
  unfold Settings.after lastQuality
  have h0 : Settings.default.quality = (none : Option (ℕ × ℕ)).getD (0, 100) := rfl
  generalize Settings.default = s at h0 ⊢
  generalize (none : Option (ℕ × ℕ)) = q at h0 ⊢
  induction cs generalizing s q with
  | nil => exact h0
  | cons c cs ih =>
    simp only [List.foldl_cons]
    apply ih
    cases c <;> simp only [Settings.call] <;> first | (split <;> simp [h0]) | simp [h0]

/-- The histogram of a new image with few colours: one entry for each colour. -/
theorem few_histogram (ho : HashOrder) {attr : Attr F} (hcb : attr.progressCallback = none) (hpb : attr.posterizeBits = 0)
    (hent : 256 ≤ attr.maxHistogramEntries) {f : ℕ → ℕ → RGBA} {w h : ℕ} {img : Image F}
    (hm : MadeFacts f w h img) {colors : List RGBA} (hlen : colors.length ≤ 256)
    (hcol : ∀ y < h, ∀ x < w, ∃ c ∈ colors, f y x = c ∨ ((f y x).a = 0 ∧ c.a = 0)) (hnoise : img.MapPositive) (log : List F) :
    ∃ h' img' log', (Histogram.new attr).addImage ho attr img log = ((.ok (), h', img'), log') ∧
      h'.gamma = img'.gamma ∧ h'.fixedColors = [] ∧ h'.hashmap.length ≤ colors.length ∧ h'.hashmap ≠ [] ∧
      (∀ e ∈ h'.hashmap, ∃ y < h, ∃ x < w, e.2.2 = f y x) ∧
      ∀ y < h, ∀ x < w, ∃ e ∈ h'.hashmap, e.2.2 = f y x ∨ (e.2.2.a = 0 ∧ (f y x).a = 0) := by
  have hgood := hm.user.good
  obtain ⟨h', img', log', e⟩ := addImage_succeeds ho (Histogram.new attr) attr img log hgood hcb ⟨_, hm.rows⟩
  refine ⟨h', img', log', e, ?_⟩
  obtain ⟨hc, hg', rows, hrows, h0, hm0, hb0, ⟨hγ0, hent0, hfix0⟩, rfl⟩ := addImage_ok hgood e
  have hi' : img'.width = img.width ∧ img'.height = img.height ∧ img'.fixedColors = [] ∧ img'.px.source = img.px.source ∧
      (∀ m, img'.importanceMap = some m → ∀ v ∈ m, v.toNat ≠ 0) := by
    split at hc
    · obtain ⟨i, ei, _, same, _, _, hfx, hsrc, hmap⟩ := contrastMaps_ok hgood
      rw [ei] at hc; cases hc
      refine ⟨same.width, same.height, hfx.trans hm.fixed, hsrc, fun m hm' v hv => ?_⟩
      rcases hmap with ⟨_, h1⟩ | ⟨h0, _⟩
      · rw [h1, hm.importance] at hm'; cases hm'
      · exact hnoise h0 _ ei m hm' v hv
    · cases hc
      exact ⟨rfl, rfl, hm.fixed, rfl, fun m hm' => by rw [hm.importance] at hm'; cases hm'⟩
  obtain ⟨hw', hh', hfx', hsrc', hpos⟩ := hi'
  have hrows' : rows = (List.range h).map fun y => (List.range w).map (f y) := by
    have h1 : img'.px.rgbaRows = img.px.rgbaRows := by
      unfold Rows.rgbaRows
      have hy : ∀ y, img'.px.rowRgba y = img.px.rowRgba y := by
        intro y
        unfold Rows.rowRgba
        rw [hsrc', show img'.px.width = img.px.width from hw']
      rw [hsrc', show img'.px.height = img.px.height from hh', show img'.px.rowRgba = img.px.rowRgba from funext hy]
    rw [h1, hm.rows] at hrows
    cases hrows; rfl
  obtain ⟨r1, r2, r3⟩ := rgbaRows_ok hrows
  generalize hpx : (Addition.image img'.width rows (img'.importanceMap.map (·.map UInt8.toNat)) attr.posterizeBits : Addition F).pixels = px
  -- the pixels that were added, with positive weights
  have hmem : ∀ y < h, ∀ x < w, ∃ n, n ≠ 0 ∧ (f y x, n) ∈ px := by
    intro y hy x hx
    have hin : f y x ∈ rows.flatten := by
      rw [hrows']
      refine List.mem_flatten.mpr ⟨(List.range w).map (f y), List.mem_map.mpr ⟨y, List.mem_range.mpr hy, rfl⟩, ?_⟩
      exact List.mem_map.mpr ⟨x, List.mem_range.mpr hx, rfl⟩
    rw [← hpx]
    cases him : img'.importanceMap with
    | none => exact ⟨255, by omega, List.mem_map.mpr ⟨_, hin, rfl⟩⟩
    | some m =>
      have hl : rows.flatten.length = m.length := by
        rw [hg'.importance m him, List.length_flatten]
        have : rows.map List.length = rows.map (fun _ => img'.width) := List.map_congr_left r2
        rw [this, List.map_const', List.sum_replicate, r1, smul_eq_mul, Nat.mul_comm]
        rfl
      obtain ⟨i, hi, hfi⟩ := List.mem_iff_getElem.mp hin
      have hi2 : i < (m.map UInt8.toNat).length := by rw [List.length_map]; omega
      refine ⟨(m.map UInt8.toNat)[i], ?_, ?_⟩
      · rw [List.getElem_map]; exact hpos m him _ (List.getElem_mem _)
      · show _ ∈ rows.flatten.zip (m.map UInt8.toNat)
        rw [List.mem_iff_getElem]
        exact ⟨i, by rw [List.length_zip]; omega, by rw [List.getElem_zip, hfi]⟩
  have hback : ∀ p ∈ px, ∃ y < h, ∃ x < w, p.1 = f y x := by
    intro p hp
    have hin : p.1 ∈ rows.flatten := by
      rw [← hpx] at hp
      cases him : img'.importanceMap with
      | none =>
        rw [him] at hp
        obtain ⟨c, hc, rfl⟩ := List.mem_map.mp (show p ∈ rows.flatten.map fun c => (c, 255) from hp)
        exact hc
      | some m =>
        rw [him] at hp
        exact (List.of_mem_zip (show (p.1, p.2) ∈ rows.flatten.zip (m.map UInt8.toNat) from hp)).1
    rw [hrows'] at hin
    obtain ⟨row, hrow, hpr⟩ := List.mem_flatten.mp hin
    obtain ⟨y, hy, rfl⟩ := List.mem_map.mp hrow
    obtain ⟨x, hx, hpx'⟩ := List.mem_map.mp hpr
    exact ⟨y, List.mem_range.mp hy, x, List.mem_range.mp hx, hpx'.symm⟩
  have hbits0 : h0.posterizeBits = 0 := by rw [hb0]; exact hpb
  have hmap0 : h0.hashmap = [] := hm0
  have hrest := h0.addAll_rest px
  have hkeyeq : ∀ {c d : RGBA}, (c = d ∨ (c.a = 0 ∧ d.a = 0)) → colorKey 0 c = colorKey 0 d := by
    rintro c d (rfl | ⟨h1, h2⟩)
    · rfl
    · unfold colorKey; rw [if_neg (by simpa using h1), if_neg (by simpa using h2)]
  -- few entries
  have hfrom : ∀ e ∈ (h0.addAll px).hashmap, e.1 = colorKey 0 e.2.2 ∧ ∃ y < h, ∃ x < w, e.2.2 = f y x := by
    refine Histogram.addAll_from px h0 (fun e => e.1 = colorKey 0 e.2.2 ∧ ∃ y < h, ∃ x < w, e.2.2 = f y x)
      (by rw [hmap0]; simp) (fun p hp n => ⟨by rw [hbits0], hback p hp⟩) (fun k n m c hP => hP)
  have hdist : ColorMap.Distinct (h0.addAll px).hashmap :=
    Histogram.addAll_distinct (by rw [hmap0]; exact List.nodup_nil) px
  have hlen' : (h0.addAll px).hashmap.length ≤ colors.length := by
    have h1 : ((h0.addAll px).hashmap.map (·.1)).length ≤ (colors.map (colorKey 0)).length := by
      refine nodup_length_le hdist fun k hk => ?_
      obtain ⟨e, he, rfl⟩ := List.mem_map.mp hk
      obtain ⟨h1, y, hy, x, hx, h2⟩ := hfrom e he
      obtain ⟨c, hc, hcf⟩ := hcol y hy x hx
      rw [h1, h2, hkeyeq hcf]
      exact List.mem_map_of_mem hc
    simpa using h1
  -- so no posterization happens
  have hfin : (h0.addAll px).finishRows ho attr.posterizeBits = h0.addAll px := by
    unfold Histogram.finishRows
    have h1 : (h0.addAll px).initPosterizeBits ho attr.posterizeBits = h0.addAll px := by
      unfold Histogram.initPosterizeBits
      rw [if_pos (by omega)]
    rw [h1]
    dsimp only
    rw [if_neg]
    rw [hrest.2.1, hent0]
    show ¬ ((h0.addAll px).hashmap.length > attr.maxHistogramEntries ∧ _)
    omega
  rw [hfin]
  have hev : ∀ y < h, ∀ x < w, ∃ e ∈ (h0.addAll px).hashmap, e.2.2 = f y x ∨ (e.2.2.a = 0 ∧ (f y x).a = 0) := by
    intro y hy x hx
    obtain ⟨n, hn, hin⟩ := hmem y hy x hx
    obtain ⟨v, hv⟩ := Option.isSome_iff_exists.mp (Histogram.addAll_key (h := h0) px hin hn)
    refine ⟨_, ColorMap.mem_of_get hv, ?_⟩
    have h1 := (hfrom _ (ColorMap.mem_of_get hv)).1
    rw [hbits0] at h1
    dsimp only at h1 ⊢
    have hid : ∀ c : RGBA, maskColor 0 c = c := by
      intro c
      cases c
      simp [maskColor, RGBA.map, maskChannel_bits_zero]
    unfold colorKey at h1
    simp only [hid] at h1
    by_cases ha : (f y x).a = 0 <;> by_cases hb : v.2.a = 0
    · exact .inr ⟨hb, ha⟩
    · rw [if_neg (by simpa using ha), if_pos hb] at h1
      rw [← h1] at hb
      exact absurd rfl hb
    · rw [if_pos ha, if_neg (by simpa using hb)] at h1
      rw [h1] at ha
      exact absurd rfl ha
    · rw [if_pos ha, if_pos hb] at h1
      exact .inl h1.symm
  refine ⟨by rw [hrest.2.2.2, hγ0], by rw [hrest.2.2.1, hfix0 hfx']; rfl, hlen', ?_, fun e he => (hfrom e he).2, hev⟩
  obtain ⟨e, he, _⟩ := hev 0 hm.height_pos 0 hm.width_pos
  intro hnil
  rw [hnil] at he
  cases he

end Verif
