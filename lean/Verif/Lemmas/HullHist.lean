import Verif.Lemmas.Hull
import Verif.Lemmas.UserHist
import Verif.Props.FixedRemap

/-! What a histogram stores comes from what it was given. -/

set_option linter.unusedSectionVars false

namespace Verif
open Flt Spec

section AnyFloat
variable {F : Type} [Flt F]

/-- Histograms that were only given colours with the property `Q`: pixels of images, colours with counts, fixed
colours. A failed addition counts too. -/
inductive Spec.OnlyGiven (Q : RGBA → Prop) : Histogram F → Prop
  | new (attr : Attr F) : OnlyGiven Q (Histogram.new attr)
  | image {h : Histogram F} {img : Image F} (ho : HashOrder) (attr : Attr F) (log : List F) :
      OnlyGiven Q h → (∀ rows, img.px.rgbaRows = .ok rows → ∀ row ∈ rows, ∀ c ∈ row, Q c) → (∀ c ∈ img.fixedColors, Q c) →
      OnlyGiven Q (h.addImage ho attr img log).1.2.1
  | colors {h h' : Histogram F} {entries : List (RGBA × ℕ)} {gamma : F} :
      OnlyGiven Q h → (∀ e ∈ entries, Q e.1) → h.addColors entries gamma = .ok h' → OnlyGiven Q h'
  | fixed {h h' : Histogram F} {c : RGBA} {gamma : F} :
      OnlyGiven Q h → Q c → h.addFixedColor c gamma = .ok h' → OnlyGiven Q h'

/-- what is in the histogram has the property, and every stored colour has been seen -/
structure Holds (Q : RGBA → Prop) (h : Histogram F) : Prop where
  map : ∀ x ∈ h.hashmap, Q x.2.2 ∧ 0 < x.2.1
  fixed : ∀ f ∈ h.fixedColors, Q f.1

theorem upsert_all {R : ℕ × RGBA → Prop} {m : ColorMap} {k : RGBA} {f : Option (ℕ × RGBA) → ℕ × RGBA}
    (hm : ∀ x ∈ m, R x.2) (hs : ∀ v, R v → R (f (some v))) (hn : R (f none)) : ∀ x ∈ ColorMap.upsert m k f, R x.2 := by
  induction m with
  | nil => intro x hx; simp only [ColorMap.upsert, List.mem_singleton] at hx; rw [hx]; exact hn
  | cons y m ih =>
    obtain ⟨k', v⟩ := y
    intro x hx
    simp only [ColorMap.upsert] at hx
    split at hx
    · rcases List.mem_cons.1 hx with rfl | hx
      · exact hs v (hm (k', v) (by simp))
      · exact hm x (by simp [hx])
    · rcases List.mem_cons.1 hx with rfl | hx
      · exact hm (k', v) (by simp)
      · exact ih (fun z hz => hm z (by simp [hz])) x hx

variable {Q : RGBA → Prop} {h : Histogram F}

theorem Holds.addColor (hh : Holds Q h) {c : RGBA} (hc : Q c) (n : ℕ) : Holds Q (h.addColor c n) := by
  unfold Histogram.addColor
  split
  · exact hh
  next hn =>
    refine ⟨?_, hh.fixed⟩
    apply upsert_all (R := fun v => Q v.2 ∧ 0 < v.1) hh.map
    · rintro ⟨m, d⟩ ⟨h1, h2⟩
      refine ⟨h1, ?_⟩
      show 0 < Histogram.satAdd m n
      unfold Histogram.satAdd
      have : m + n > 0 := by omega
      omega
    · exact ⟨hc, by show 0 < n; omega⟩

theorem Holds.colors (hh : Holds Q h) {es : List (RGBA × ℕ)} (hc : ∀ e ∈ es, Q e.1) :
    Holds Q (es.foldl (fun h (c, n) => h.addColor c n) h) := by
  induction es generalizing h with
  | nil => exact hh
  | cons e es ih =>
    rw [List.foldl_cons]
    exact ih (hh.addColor (hc e (by simp)) _) (fun d hd => hc d (by simp [hd]))

theorem Holds.row (hh : Holds Q h) {row : List RGBA} (hc : ∀ c ∈ row, Q c) (imp : List ℕ) : Holds Q (h.addRow row imp) := by
  induction row generalizing h imp with
  | nil => exact hh
  | cons c cs ih =>
    have hcs := fun d hd => hc d (List.mem_cons_of_mem _ hd)
    cases imp with
    | nil => exact ih (hh.addColor (hc c (by simp)) _) hcs _
    | cons b bs => exact ih (hh.addColor (hc c (by simp)) _) hcs _

theorem Holds.rows (hh : Holds Q h) {rows : List (List RGBA)} (hc : ∀ row ∈ rows, ∀ c ∈ row, Q c) (w : ℕ) (imp : List ℕ) :
    Holds Q (h.addRows w rows imp) := by
  induction rows generalizing h imp with
  | nil => exact hh
  | cons r rs ih =>
    have hcs := fun d hd => hc d (List.mem_cons_of_mem _ hd)
    simp only [Histogram.addRows]
    split <;> exact ih (hh.row (hc r (by simp)) _) hcs _

theorem Holds.posterize (hh : Holds Q h) (ho : HashOrder) (b : ℕ) : Holds Q (h.initPosterizeBits ho b) := by
  unfold Histogram.initPosterizeBits
  split
  · exact hh
  · refine ⟨?_, hh.fixed⟩
    have key : ∀ (l m : ColorMap), (∀ x ∈ l, Q x.2.2 ∧ 0 < x.2.1) → (∀ x ∈ m, Q x.2.2 ∧ 0 < x.2.1) →
        ∀ x ∈ l.foldl (fun m (k, v) => ColorMap.upsert m (maskColor b k) (fun _ => v)) m, Q x.2.2 ∧ 0 < x.2.1 := by
      intro l
      induction l with
      | nil => intro m _ hm; exact hm
      | cons y l ih =>
        intro m hl hm
        rw [List.foldl_cons]
        apply ih _ (fun z hz => hl z (by simp [hz]))
        exact upsert_all (R := fun v => Q v.2 ∧ 0 < v.1) hm (fun _ _ => hl y (by simp)) (hl y (by simp))
    exact key _ _ (fun x hx => hh.map x ((ho.map_perm _).mem_iff.1 hx)) (by simp)

theorem insertFixed_mem {s : List HashColor} {c x : HashColor} (hx : x ∈ Histogram.insertFixed s c) : x ∈ s ∨ x = c := by
  unfold Histogram.insertFixed at hx
  split at hx
  · exact .inl hx
  · rcases List.mem_append.1 hx with hx | hx
    · exact .inl hx
    · exact .inr (List.mem_singleton.1 hx)

theorem Holds.extendFixed (hh : Holds Q h) {cs : List RGBA} (hc : ∀ c ∈ cs, Q c) : Holds Q (h.extendFixed cs) := by
  refine ⟨hh.map, ?_⟩
  have key : ∀ (l : List (RGBA × ℕ)) (s : List HashColor), (∀ x ∈ l, Q x.1) → (∀ f ∈ s, Q f.1) →
      ∀ f ∈ l.foldl (fun s (c, i) => Histogram.insertFixed s (c, i % 256)) s, Q f.1 := by
    intro l
    induction l with
    | nil => intro s _ hs; exact hs
    | cons y l ih =>
      intro s hl hs
      rw [List.foldl_cons]
      apply ih _ (fun z hz => hl z (by simp [hz]))
      intro f hf
      rcases insertFixed_mem hf with hf | rfl
      · exact hs f hf
      · exact hl y (by simp)
  apply key _ _ _ hh.fixed
  intro x hx
  have := List.mem_zipIdx_iff_getElem?.1 hx
  exact hc _ (List.mem_of_getElem? this)

theorem contrastMaps_rgbaRows {img img' : Image F} (e : img.contrastMaps = .ok img') : img'.px.rgbaRows = img.px.rgbaRows := by
  unfold Image.contrastMaps at e
  split at e
  · cases e; rfl
  · cases hp : img.px.allRowsF with
    | error f => rw [hp] at e; cases e
    | ok r =>
      obtain ⟨px, rows⟩ := r
      rw [hp] at e
      simp only [bind, Except.bind] at e
      split at e
      · cases e
      split at e
      · cases e
      · cases e
        dsimp only
        unfold Rows.allRowsF at hp
        cases hq : img.px.prepare false with
        | error f => rw [hq] at hp; cases hp
        | ok q =>
          rw [hq] at hp
          simp only [bind, Except.bind] at hp
          have hpx : px = q := by
            split at hp
            · cases hp; rfl
            · cases hp
          subst hpx
          unfold Rows.prepare at hq
          split at hq
          · cases hq; rfl
          · cases hm : (List.range img.px.height).mapM (fun y => (img.px.rowRgba y).map (Rows.convertRow img.px.gamma)) with
            | error f => rw [hm] at hq; cases hq
            | ok rs =>
              rw [hm] at hq
              cases hq
              rfl

theorem Spec.OnlyGiven.holds (hg : OnlyGiven Q h) : Holds Q h := by
  induction hg with
  | new attr => exact ⟨by simp [Histogram.new], by simp [Histogram.new]⟩
  | @image h img ho attr log _ hpx hf ih =>
    unfold Histogram.addImage
    split
    · exact ih
    next img' heq =>
      have himg : img'.px.rgbaRows = img.px.rgbaRows ∧ img'.fixedColors = img.fixedColors := by
        split at heq
        · exact ⟨contrastMaps_rgbaRows heq, contrastMaps_fixed heq⟩
        · cases heq; exact ⟨rfl, rfl⟩
      have h1 : ∀ g : Option F, Holds Q (if img'.fixedColors.isEmpty then { h with gamma := g }
          else ({ h with gamma := g } : Histogram F).extendFixed img'.fixedColors) := by
        intro g
        split
        · exact ⟨ih.map, ih.fixed⟩
        · exact Holds.extendFixed (Q := Q) (h := { h with gamma := g }) (cs := img'.fixedColors) ⟨ih.map, ih.fixed⟩
            (fun c hc => hf c (himg.2 ▸ hc))
      dsimp only
      generalize hw : (if img'.fixedColors.isEmpty then ({ h with gamma := img'.gamma } : Histogram F)
          else ({ h with gamma := img'.gamma } : Histogram F).extendFixed img'.fixedColors) = w
      have h2 : Holds Q w := hw ▸ h1 _
      split
      · exact h2
      · exact h2
      · split
        · exact h2
        next rows hrows =>
          dsimp only
          unfold Histogram.addPixelRows Histogram.finishRows
          have h3 := (h2.rows (hpx rows (by rw [← himg.1]; exact hrows)) img'.width
            ((img'.importanceMap.map (·.map UInt8.toNat)).getD [])).posterize ho attr.posterizeBits
          dsimp only
          split
          · exact h3.posterize ho _
          · exact h3
  | @colors h h' entries gamma _ hc e ih =>
    unfold Histogram.addColors at e
    split at e
    · cases e
    · split at e
      · cases e
      · cases e
        apply Holds.colors _ hc
        split
        · exact ⟨ih.map, ih.fixed⟩
        · exact ih
  | @fixed h h' c gamma _ hc e ih =>
    unfold Histogram.addFixedColor at e
    split at e
    · cases e
    · cases e
      have h1 : Holds Q (if h.gamma.isNone = true ∧ lt (lit64 0) gamma = true then { h with gamma := some gamma } else h) := by
        split
        · exact ⟨ih.map, ih.fixed⟩
        · exact ih
      refine ⟨h1.map, ?_⟩
      intro f hf
      rcases insertFixed_mem hf with hf | rfl
      · exact h1.fixed f hf
      · exact hc

/-- A histogram's gamma is positive if it is known. -/
theorem Spec.OnlyGiven.gamma_pos {Q : RGBA → Prop} {h : Histogram F} (hu : OnlyGiven Q h) : ∀ g, h.gamma = some g → lt (lit64 0) g = true := by
  have hset : ∀ (h : Histogram F) (gamma : F), (∀ g, h.gamma = some g → lt (lit64 0) g = true) →
      ∀ g, (if h.gamma.isNone = true ∧ lt (lit64 0) gamma = true then { h with gamma := some gamma } else h).gamma = some g →
        lt (lit64 0) g = true := by
    intro h gamma hh g hg
    split at hg
    next hc => cases hg; exact hc.2
    · exact hh g hg
  induction hu with
  | new attr => intro g hg; cases hg
  | @image h img ho attr log _ _ _ ih =>
    have himg : ∀ (i : Image F) g, i.gamma = some g → lt (lit64 0) g = true := by
      intro i g hg
      unfold Image.gamma at hg
      split at hg
      next hc => cases hg; exact hc
      · cases hg
    intro g hg
    unfold Histogram.addImage at hg
    split at hg
    · exact ih g hg
    next i _ =>
      dsimp only at hg
      have hx : ∀ (h' : Histogram F), (if i.fixedColors.isEmpty then { h with gamma := i.gamma }
          else Histogram.extendFixed { h with gamma := i.gamma } i.fixedColors) = h' → h'.gamma = some g → lt (lit64 0) g = true := by
        intro h' e hg
        subst e
        refine himg i g ?_
        split at hg <;> exact hg
      split at hg
      · exact hx _ rfl hg
      · exact hx _ rfl hg
      · split at hg
        · exact hx _ rfl hg
        · dsimp only at hg
          unfold Histogram.addPixelRows at hg
          rw [Histogram.finishRows_gamma, Histogram.addRows_gamma] at hg
          exact hx _ rfl hg
  | @colors h h' entries gamma _ _ e ih =>
    intro g hg
    unfold Histogram.addColors at e
    split at e
    · cases e
    · split at e
      · cases e
      · dsimp only at e
        cases e
        rw [show ∀ h : Histogram F, (entries.foldl (fun h (x : RGBA × ℕ) => h.addColor x.1 x.2) h).gamma = h.gamma from
          fun h => (h.addAll_rest entries).2.2.2] at hg
        exact hset h gamma ih g hg
  | @fixed h h' c gamma _ _ e ih =>
    intro g hg
    unfold Histogram.addFixedColor at e
    split at e
    · cases e
    · dsimp only at e
      cases e
      exact hset h gamma ih g hg

/-! ### the finished histogram -/

/-- number of entries with count 0 -/
def zeros (m : ColorMap) : ℕ := (m.filter fun x => decide (x.2.1 = 0)).length

theorem zeros_upsert (m : ColorMap) (k : RGBA) (v : ℕ × RGBA) : zeros (ColorMap.upsert m k fun _ => v) ≤ zeros m + 1 := by
  unfold zeros
  induction m with
  | nil => simp only [ColorMap.upsert, List.filter_nil, List.length_nil]; exact (List.length_filter_le _ _).trans (by simp)
  | cons y m ih =>
    obtain ⟨k', w⟩ := y
    simp only [ColorMap.upsert]
    split
    · simp only [List.filter_cons]
      split <;> split <;> (try simp only [List.length_cons]) <;> omega
    · simp only [List.filter_cons]
      split
      · simp only [List.length_cons]; omega
      · exact ih

theorem insertFixedColors_holds (hh : Holds Q h) (ho : HashOrder) :
    (∀ x ∈ h.insertFixedColors ho, Q x.2.2) ∧ zeros (h.insertFixedColors ho) ≤ h.fixedColors.length := by
  unfold Histogram.insertFixedColors
  have key : ∀ (l : List HashColor) (m : ColorMap), (∀ x ∈ l, Q x.1) → (∀ x ∈ m, Q x.2.2) →
      (∀ x ∈ l.foldl (fun m (rgba, _) =>
        let key : RGBA := if rgba.a ≠ 0 then rgba else ⟨0, 0, 0, 0⟩
        ColorMap.upsert m key (fun _ => (0, rgba))) m, Q x.2.2) ∧
      zeros (l.foldl (fun m (rgba, _) =>
        let key : RGBA := if rgba.a ≠ 0 then rgba else ⟨0, 0, 0, 0⟩
        ColorMap.upsert m key (fun _ => (0, rgba))) m) ≤ zeros m + l.length := by
    intro l
    induction l with
    | nil => intro m _ hm; exact ⟨hm, le_rfl⟩
    | cons y l ih =>
      intro m hl hm
      rw [List.foldl_cons]
      obtain ⟨h1, h2⟩ := ih (ColorMap.upsert m (if y.1.a ≠ 0 then y.1 else ⟨0, 0, 0, 0⟩) (fun _ => (0, y.1)))
        (fun z hz => hl z (by simp [hz]))
        (upsert_all (R := fun v => Q v.2) hm (fun _ _ => hl y (by simp)) (hl y (by simp)))
      refine ⟨h1, h2.trans ?_⟩
      have := zeros_upsert m (if y.1.a ≠ 0 then y.1 else ⟨0, 0, 0, 0⟩) (0, y.1)
      rw [List.length_cons]; omega
  obtain ⟨h1, h2⟩ := key (ho.set h.fixedColors) h.hashmap (fun x hx => hh.fixed x ((ho.set_perm _).mem_iff.1 hx))
    (fun x hx => (hh.map x hx).1)
  refine ⟨h1, h2.trans ?_⟩
  have : zeros h.hashmap = 0 := by
    unfold zeros
    rw [List.length_eq_zero_iff, List.filter_eq_nil_iff]
    intro x hx
    have := (hh.map x hx).2
    simp; omega
  rw [this, (ho.set_perm _).length_eq]; omega

end AnyFloat

/-! ### Exact arithmetic -/

theorem finalize_mix {Q : RGBA → Prop} {P : FPixel ℝ → Prop} {h : Histogram ℝ} (hh : Holds Q h) (ho : HashOrder) {gamma : ℝ}
    (hPQ : ∀ c, Q c → P (FPixel.fromRgba (gammaLut gamma) c)) (hne : h.hashmap ≠ [] ∨ h.fixedColors ≠ [])
    {r : HistogramInternal ℝ} (e : h.finalizeBuilder ho gamma = .ok r) : MixHist P r := by
  obtain ⟨r', e1, ht, hl⟩ := Histogram.finalize_ok ho h gamma
  rw [e] at e1; cases e1
  obtain ⟨r', e1, e2, -, -, e5⟩ := Histogram.finalize_spec ho h gamma
  rw [e] at e1; cases e1
  obtain ⟨hQ, hz⟩ := insertFixedColors_holds hh ho
  set m := h.insertFixedColors ho with hm
  set temp : List (Histogram.TempHistItem ℝ) := Histogram.tempItems ho m with htemp
  set maxW := Histogram.maxPerceptualWeight temp with hmaxW
  have hperm : r.items.Perm (temp.map (Histogram.mkItem (gammaLut gamma) maxW)) := by
    rw [e2]; exact Histogram.placed_perm _ _ _ (Histogram.tempItems_cluster ho _)
  have htm : ∀ t ∈ temp, ∃ x ∈ m, t.color = x.2.2 ∧ t.weight = (x.2.1 : ℝ) := by
    intro t ht
    obtain ⟨x, hx, rfl⟩ := List.mem_map.1 ht
    exact ⟨x, (ho.map_perm _).mem_iff.1 hx, rfl, by simp⟩
  have hw0 : ∀ t ∈ temp, 0 ≤ t.weight := by
    intro t ht
    obtain ⟨x, -, -, h2⟩ := htm t ht
    rw [h2]; positivity
  have hfold : ∀ (l : List (Histogram.TempHistItem ℝ)) (s : ℝ), l.foldl (fun s t => s +₆ t.weight) s = s + (l.map (·.weight)).sum := by
    intro l
    induction l with
    | nil => simp
    | cons t l ih => intro s; rw [List.foldl_cons, ih]; simp [add_assoc]
  have hmw : maxW = (1/10) * ((temp.map (·.weight)).sum / 256) := by
    rw [hmaxW]; unfold Histogram.maxPerceptualWeight
    rw [hfold]; simp
  have hsum : 0 ≤ (temp.map (·.weight)).sum := by
    apply List.sum_nonneg
    intro y hy
    obtain ⟨t, ht, rfl⟩ := List.mem_map.1 hy
    exact hw0 t ht
  have hmw0 : 0 ≤ maxW := by rw [hmw]; positivity
  have hitem : ∀ x ∈ r.items, ∃ t ∈ temp, x = Histogram.mkItem (gammaLut gamma) maxW t := by
    intro x hx
    obtain ⟨t, ht, rfl⟩ := List.mem_map.1 (hperm.mem_iff.1 hx)
    exact ⟨t, ht, rfl⟩
  have hiw : ∀ t ∈ temp, 0 ≤ Histogram.itemWeight maxW t ∧ (0 < maxW → 0 < Histogram.itemWeight maxW t) := by
    intro t ht
    unfold Histogram.itemWeight
    split
    next hpos =>
      simp only [real_lt, real_lit32, Rat.cast_zero] at hpos
      simp only [real_min, real_mul32, real_div32, real_lit32]
      push_cast
      constructor
      · exact le_min (by positivity) hmw0
      · intro h0; exact lt_min (by positivity) h0
    · simp only [real_mul32, real_lit32]
      push_cast
      exact ⟨by positivity, fun h0 => by positivity⟩
  refine ⟨ht, ?_, ?_, ?_, ?_, ?_⟩
  · apply List.ne_nil_of_length_pos
    rw [hl]; exact List.length_pos_iff.2 (Histogram.insertFixedColors_ne_nil ho h hne)
  · intro x hx
    obtain ⟨t, ht, rfl⟩ := hitem x hx
    obtain ⟨y, hy, h1, -⟩ := htm t ht
    show P (FPixel.fromRgba (gammaLut gamma) t.color)
    rw [h1]; exact hPQ _ (hQ y hy)
  · intro c hc
    rw [e5] at hc
    obtain ⟨f, hf, rfl⟩ := List.mem_map.1 hc
    have := (ho.set_perm _).mem_iff.1 ((List.mergeSort_perm _ _).mem_iff.1 hf)
    exact hPQ _ (hh.fixed f this)
  · intro x hx
    obtain ⟨t, ht, rfl⟩ := hitem x hx
    exact ⟨(hiw t ht).1, (hiw t ht).1⟩
  · rcases hmw0.lt_or_eq with hpos | hzero
    · left
      intro x hx
      obtain ⟨t, ht, rfl⟩ := hitem x hx
      exact (hiw t ht).2 hpos
    · right
      have hs0 : (temp.map (·.weight)).sum = 0 := by
        rw [hmw] at hzero; linarith
      have hall : ∀ x ∈ m, x.2.1 = 0 := by
        intro x hx
        have hx' : x ∈ ho.map m := (ho.map_perm _).mem_iff.2 hx
        have hmem : ((x.2.1 : ℕ) : ℝ) ∈ temp.map (·.weight) := by
          rw [htemp]; unfold Histogram.tempItems
          rw [List.map_map]
          exact List.mem_map.2 ⟨x, hx', by simp⟩
        have hle : ((x.2.1 : ℕ) : ℝ) ≤ (temp.map (·.weight)).sum := by
          apply List.single_le_sum _ _ hmem
          intro y hy
          obtain ⟨t, ht, rfl⟩ := List.mem_map.1 hy
          exact hw0 t ht
        rw [hs0] at hle
        exact_mod_cast le_antisymm hle (by positivity)
      have hzl : zeros m = m.length := by
        unfold zeros
        rw [List.filter_eq_self.2 (fun x hx => by simp [hall x hx])]
      rw [hl, e5, List.length_map, (List.mergeSort_perm _ _).length_eq, (ho.set_perm _).length_eq, ← hzl]
      exact hz

/-- Every palette entry of a successful quantization has a property that the given colours have and that mixing
keeps. -/
theorem quantize_mixes {P : FPixel ℝ → Prop} (hP : Mixes P) {Q : RGBA → Prop} {h : Histogram ℝ} (hh : Holds Q h)
    {env : Env ℝ} {cs : List Call} {cb : Option (List ℝ → Bool)} {freeze : Bool} {log log' : List ℝ}
    {r : QuantizationResult ℝ} (hPQ : ∀ c, Q c → P (FPixel.fromRgba (gammaLut (h.gamma.getD (45455/100000))) c))
    (e : h.quantizeInternal env (userAttr cs cb) freeze log = (.ok r, log')) : ∀ x ∈ r.palette, P x.color := by
  unfold Histogram.quantizeInternal at e
  split at e
  · cases e
  next hne =>
    rw [PM.bind_ok (progress_eq _ _ _)] at e
    split at e
    · cases e
    · rw [PM.bind_ok (progress_eq _ _ _)] at e
      split at e
      · cases e
      · dsimp only at e
        obtain ⟨hist, l1, e1, e2⟩ := PM.bind_ok_inv e
        obtain ⟨e1', -⟩ := PM.lift_ok_inv e1
        have hne' : h.hashmap ≠ [] ∨ h.fixedColors ≠ [] := by
          by_contra hc
          push Not at hc
          exact hne (by simp [hc.1, hc.2])
        have hg : h.gamma.getD (lit64 (45455/100000)) = h.gamma.getD (45455/100000 : ℝ) := by
          congr 1; simp
        rw [hg] at e1'
        have hmix := finalize_mix hh env.ho hPQ hne' e1'
        have hmax := userAttr_range (F := ℝ) cs cb
        obtain ⟨p, hp, hr⟩ := new_kept (mixHist_kept hP env hmax.2) hmax.1 hmix (by
          intro p err hpe
          unfold paletteFromHistogram at hpe
          cases hf : hist.items.foldlM (fun p item => PalF.push p item.color (PalPop.new item.perceptualWeight)) ([] : PalF ℝ) with
          | error f => rw [hf] at hpe; cases hpe
          | ok q =>
            rw [hf] at hpe
            simp only [bind, Except.bind] at hpe
            split at hpe
            · cases hpe
            next p' hp' =>
              cases hpe
              refine withFixedColors_mem hmix.fixed ?_ hp'
              have key : ∀ (l : List (HistItem ℝ)) (s q : PalF ℝ), (∀ x ∈ l, P x.color) → (∀ x ∈ s, P x.color) →
                  l.foldlM (fun p item => PalF.push p item.color (PalPop.new item.perceptualWeight)) s = .ok q →
                  ∀ x ∈ q, P x.color := by
                intro l
                induction l with
                | nil => intro s q _ hs hq; cases hq; exact hs
                | cons y l ih =>
                  intro s q hl hs hq
                  rw [List.foldlM_cons] at hq
                  unfold PalF.push at hq
                  split at hq
                  · refine ih _ q (fun z hz => hl z (by simp [hz])) ?_ hq
                    intro x hx
                    rcases List.mem_append.1 hx with hx | hx
                    · exact hs x hx
                    · rw [List.mem_singleton.1 hx]; exact hl y (by simp)
                  · cases hq
              exact key _ _ _ hmix.items (by simp) hf) e2
        intro x hx
        rw [hr] at hx
        have hx' := (sortPalette_perm _ _).mem_iff.1 hx
        split at hx'
        · obtain ⟨y, hy, rfl⟩ := List.mem_map.1 hx'
          exact hp y hy
        · exact hp x hx'

end Verif
