import Verif.Props.Frozen
import Verif.Props.Fixed

/-! # C08, second half: remapping keeps fixed colours; fixed colours that come with an image -/

set_option linter.unusedSectionVars false

namespace Verif
open Flt Spec

section
variable {F : Type} [Flt F]

/-- a remap keeps the fixed entries of the palette it works on -/
theorem remapInto_fixed (env : RemapEnv F) {q : QuantizationResult F} {img : Image F} (hq : q.Good) (hi : img.Good)
    (buf : List (Option UInt8)) (log : List F) :
    ((remapInto env q img buf log).res ≠ .ok () ∧ (remapInto env q img buf log).quant = q) ∨
    ∃ p err, KeepsFixed q.palette p ∧ (remapInto env q img buf log).quant =
      { q with remapped := some ⟨p.conv q.gamma q.minPosterizationOutput, err⟩ } := by
  by_cases hok : (remapInto env q img buf log).res = .ok ()
  · right
    cases hl : eq q.ditherLevel (lit32 0) with
    | true =>
      obtain ⟨n, _, h, _⟩ := remapInto_plain env hq hi buf log hl hok
      exact ⟨_, _, KeepsFixed.refl _, h⟩
    | false =>
      obtain ⟨p, mapErr, _, _, _, _, _, hp, _, _, h, _⟩ := remapInto_dithered env hq hi buf log hl hok
      have : KeepsFixed q.palette p := by
        rcases hp with ⟨_, _, h⟩ | ⟨_, px, e, r, _, hr, _, h⟩
        · rw [h]; exact KeepsFixed.refl _
        · rw [h]
          have := remapToPalette_keepsFixed env px none img.importanceMap img.height q.palette
          rw [hr] at this
          exact this
      exact ⟨p, _, this, h⟩
  · refine .inl ⟨hok, ?_⟩
    have spec := remapInto_spec env buf log hq hi
    by_cases hb : buf.length < img.width * img.height
    · rw [spec.small hb]
    · obtain ⟨s, d, e1, _⟩ := spec.run (by omega)
      rw [e1]
      exact d.failed hok

/-- the states of a result, as far as its fixed palette entry number `i` is concerned -/
structure FixedState (i : ℕ) (e : PalEntry F) (γ : F) (b : ℕ) (seen : Bool) (q : QuantizationResult F) : Prop where
  gamma_ : q.gamma = γ
  post_ : q.minPosterizationOutput = b
  palette_ : q.palette[i]? = some (if seen then (PalF.roundEntry γ (UInt8.ofNat b) e).1 else e)
  unseen_ : seen = false → q.intPalette = []
  seen_ : seen = true → q.intPalette[i]? = some (PalF.roundEntry γ (UInt8.ofNat b) e).2
  remapped_ : ∀ re, q.remapped = some re → re.intPalette[i]? = some (PalF.roundEntry γ (UInt8.ofNat b) e).2 ∨
    (seen = true ∧ re.intPalette[i]? = some (PalF.roundEntry γ (UInt8.ofNat b) (PalF.roundEntry γ (UInt8.ofNat b) e).1).2)

variable {i : ℕ} {e : PalEntry F} {γ : F} {b : ℕ} {seen : Bool} {q : QuantizationResult F}

theorem FixedState.remap (h : FixedState i e γ b seen q) (hf : e.pop.isFixed = true) (env : RemapEnv F) {img : Image F} (hq : q.Good)
    (hi : img.Good) (buf : List (Option UInt8)) (log : List F) : FixedState i e γ b seen (remapInto env q img buf log).quant := by
  rcases remapInto_fixed env hq hi buf log with ⟨_, e1⟩ | ⟨p, err, hk, e1⟩ <;> rw [e1]
  · exact h
  · refine ⟨h.gamma_, h.post_, h.palette_, h.unseen_, h.seen_, fun re hre => ?_⟩
    simp only [Option.some.injEq] at hre
    rw [← hre]
    dsimp only
    have hpi := hk.2 i _ h.palette_ (by cases seen <;> exact hf)
    rw [h.gamma_, h.post_]
    simp only [PalF.conv, PalF.initIntPalette, List.getElem?_map, hpi]
    cases seen
    · exact .inl rfl
    · exact .inr ⟨rfl, rfl⟩

theorem FixedState.level (h : FixedState i e γ b seen q) {v : F} {q' : QuantizationResult F} (he : q.setDitheringLevel v = .ok q') :
    FixedState i e γ b seen q' := by
  unfold QuantizationResult.setDitheringLevel at he
  split at he
  · cases he
    exact ⟨h.gamma_, h.post_, h.palette_, h.unseen_, h.seen_, fun re hre => by cases hre⟩
  · cases he

theorem FixedState.report (h : FixedState i e γ b seen q) :
    (q.getPalette.2[i]? = some (PalF.roundEntry γ (UInt8.ofNat b) e).2 ∨
      (seen = true ∧ q.getPalette.2[i]? = some (PalF.roundEntry γ (UInt8.ofNat b) (PalF.roundEntry γ (UInt8.ofNat b) e).1).2)) ∧
    ∃ seen', FixedState i e γ b seen' q.getPalette.1 := by
  unfold QuantizationResult.getPalette
  cases hre : q.remapped with
  | some re => exact ⟨h.remapped_ re hre, seen, h⟩
  | none =>
    dsimp only
    cases hs : seen with
    | true =>
      have hc := h.seen_ hs
      rw [if_neg]
      · exact ⟨.inl hc, true, hs ▸ h⟩
      · intro h0
        rw [List.isEmpty_iff.mp h0] at hc
        cases hc
    | false =>
      have hc := h.unseen_ hs
      have hpal := h.palette_
      rw [hs] at hpal
      simp only [Bool.false_eq_true, if_false] at hpal
      rw [if_pos (by rw [hc]; rfl), h.gamma_, h.post_]
      have h1 : (q.palette.initIntPalette γ (UInt8.ofNat b)).2[i]? = some (PalF.roundEntry γ (UInt8.ofNat b) e).2 := by
        simp [PalF.initIntPalette, hpal]
      have h2 : (q.palette.initIntPalette γ (UInt8.ofNat b)).1[i]? = some (PalF.roundEntry γ (UInt8.ofNat b) e).1 := by
        simp [PalF.initIntPalette, hpal]
      refine ⟨.inl h1, true, ⟨rfl, rfl, h2, (fun h => by cases h), fun _ => h1, (fun re' h' => by cases h')⟩⟩

/-- a new result -/
theorem FixedState.new [FltSign F] {env : Env F} {cs : List Call} {cb : Option (List F → Bool)} {h : Histogram F} {freeze : Bool}
    {log log' : List F} (he : h.quantizeInternal env (userAttr cs cb) freeze log = (.ok q, log')) (hi : q.palette[i]? = some e) :
    FixedState i e q.gamma (Settings.default.after cs).minPosterization false q ∧ UserResult q := by
  have hu : UserResult q := .quantized env cs cb h freeze log log' he
  have hobs := C13_settings_registers_any_float (F := F) cs
  simp only [Attr.observeInt, Attr.getMaxColors, Attr.getSpeed, Attr.getMinPosterization, Prod.mk.injEq] at hobs
  rcases user_outcome env cs cb h freeze log with ⟨-, -, h1⟩ | ⟨-, h1⟩
  · rw [he] at h1; cases h1
  · rw [he] at h1
    cases h1 with
    | ok r log' _ _ hok =>
      have hrest := hok.rest
      refine ⟨⟨rfl, ?_, by simpa using hi, fun _ => ?_, (fun h => by cases h), fun re hre => ?_⟩, hu⟩
      · rw [hrest]; exact hobs.2.2
      · rw [hrest]
      · rw [hrest] at hre; cases hre

/-- **C08** (any float arithmetic). Palette entries that are fixed stay as they are: however often a new result is used for
remapping, with any images, schedules and outcomes, each fixed entry is reported as it would have been at the beginning
(and at the same index). -/
theorem C08_remap_keeps_fixed [FltSign F] {env : Env F} {cs : List Call} {cb : Option (List F → Bool)} {h : Histogram F}
    {freeze : Bool} {log log' : List F} {q' : QuantizationResult F}
    (he : h.quantizeInternal env (userAttr cs cb) freeze log = (.ok q, log')) (hi : q.palette[i]? = some e)
    (hf : e.pop.isFixed = true) (hu : UsesUnseen q q') :
    q'.palette[i]? = some e ∧ q'.getPalette.2[i]? = q.getPalette.2[i]? := by
  obtain ⟨h0, huq⟩ := FixedState.new he hi
  have h1 : FixedState i e q.gamma (Settings.default.after cs).minPosterization false q' := by
    induction hu with
    | refl => exact h0
    | remap env buf log hu hi ih => exact ih.remap hf env (huq.uses hu.uses).good hi.good buf log
    | level _ e ih => exact ih.level e
    | callback cb _ ih => exact ⟨ih.1, ih.2, ih.3, ih.4, ih.5, ih.6⟩
    | clone _ ih => exact ⟨ih.1, ih.2, ih.3, ih.4, ih.5, ih.6⟩
  refine ⟨by simpa using h1.palette_, ?_⟩
  rcases h0.report.1 with a | ⟨a, _⟩ <;> rcases h1.report.1 with b | ⟨b, _⟩
  · rw [a, b]
  all_goals first | cases a | cases b

/-- With looks at the palette on the way a fixed entry is reported as at the beginning, or as its rounded form. -/
theorem fixed_reports [FltSign F] {env : Env F} {cs : List Call} {cb : Option (List F → Bool)} {h : Histogram F}
    {freeze : Bool} {log log' : List F} {q' : QuantizationResult F}
    (he : h.quantizeInternal env (userAttr cs cb) freeze log = (.ok q, log')) (hi : q.palette[i]? = some e)
    (hf : e.pop.isFixed = true) (hu : Uses q q') :
    let γ := q.gamma
    let b := UInt8.ofNat (Settings.default.after cs).minPosterization
    q.getPalette.2[i]? = some (PalF.roundEntry γ b e).2 ∧
    (q'.getPalette.2[i]? = some (PalF.roundEntry γ b e).2 ∨
      q'.getPalette.2[i]? = some (PalF.roundEntry γ b (PalF.roundEntry γ b e).1).2) := by
  obtain ⟨h0, huq⟩ := FixedState.new he hi
  have h1 : ∃ seen, FixedState i e q.gamma (Settings.default.after cs).minPosterization seen q' := by
    induction hu with
    | refl => exact ⟨_, h0⟩
    | remap env buf log hu hi ih =>
      obtain ⟨s, ih⟩ := ih
      exact ⟨s, ih.remap hf env (huq.uses hu).good hi.good buf log⟩
    | level _ e ih => obtain ⟨s, ih⟩ := ih; exact ⟨s, ih.level e⟩
    | callback cb _ ih => obtain ⟨s, ih⟩ := ih; exact ⟨s, ih.1, ih.2, ih.3, ih.4, ih.5, ih.6⟩
    | clone _ ih => obtain ⟨s, ih⟩ := ih; exact ⟨s, ih.1, ih.2, ih.3, ih.4, ih.5, ih.6⟩
    | palette _ ih => obtain ⟨s, ih⟩ := ih; exact ih.report.2
  obtain ⟨s, h1⟩ := h1
  refine ⟨h0.report.1.resolve_right (fun h => by cases h.1), ?_⟩
  rcases h1.report.1 with b | ⟨_, b⟩
  · exact .inl b
  · exact .inr b

end

/-- **C08** (exact arithmetic). Without posterization every fixed entry of a new result is reported with the same bytes and at the
same index after any number of remaps of any images, looks at the palette, level changes, clones and callbacks. -/
theorem C08_remap_reports_fixed {env : Env ℝ} {cs : List Call} {cb : Option (List ℝ → Bool)} {h : Histogram ℝ}
    {freeze : Bool} {log log' : List ℝ} {q q' : QuantizationResult ℝ} {i : ℕ} {e : PalEntry ℝ}
    (he : h.quantizeInternal env (userAttr cs cb) freeze log = (.ok q, log')) (hγ : 0 < q.gamma)
    (hpost : (Settings.default.after cs).minPosterization = 0) (hi : q.palette[i]? = some e)
    (hf : e.pop.isFixed = true) (hu : Uses q q') :
    q'.getPalette.2[i]? = q.getPalette.2[i]? := by
  obtain ⟨a, b⟩ := fixed_reports he hi hf hu
  rw [a]
  rcases b with b | b
  · exact b
  · rw [b, hpost, (roundEntry_again hγ (by norm_num) e hf).2 rfl]

/-- With posterization the reported colour of a fixed entry can change at most in the RGB of a fully transparent entry. -/
theorem C08_remap_looks_partial {env : Env ℝ} {cs : List Call} {cb : Option (List ℝ → Bool)} {h : Histogram ℝ}
    {freeze : Bool} {log log' : List ℝ} {q q' : QuantizationResult ℝ} {i : ℕ} {e : PalEntry ℝ}
    (he : h.quantizeInternal env (userAttr cs cb) freeze log = (.ok q, log')) (hγ : 0 < q.gamma)
    (hi : q.palette[i]? = some e) (hf : e.pop.isFixed = true) (hu : Uses q q') :
    ∃ c d, q'.getPalette.2[i]? = some c ∧ q.getPalette.2[i]? = some d ∧ (c = d ∨ (c.a = 0 ∧ d.a = 0)) := by
  obtain ⟨a, b⟩ := fixed_reports he hi hf hu
  rcases b with b | b
  · exact ⟨_, _, b, a, .inl rfl⟩
  · exact ⟨_, _, b, a, (roundEntry_again hγ (userAttr_post_le cs) e hf).1⟩

/-- entries that satisfy `P` are reported by `f`: the reports of these are in the list -/
theorem sublist_of_reports {α β : Type} (P : α → Bool) (f : α → β) (p : List α) (l : List β)
    (h : ∀ (i : ℕ) (e : α), p[i]? = some e → P e = true → l[i]? = some (f e)) : ((p.filter P).map f).Sublist l := by
  induction p generalizing l with
  | nil => simp
  | cons a p ih =>
    cases l with
    | nil =>
      have : (a :: p).filter P = [] := by
        rw [List.filter_eq_nil_iff]
        intro x hx
        obtain ⟨i, hi⟩ := List.mem_iff_getElem?.mp hx
        intro hp
        have := h i x hi hp
        simp at this
      rw [this]; simp
    | cons b l =>
      have ht := ih l fun i e hi hp => by simpa using h (i + 1) e (by simpa using hi) hp
      rw [List.filter_cons]
      split
      next hp =>
        have := h 0 a rfl hp
        simp only [List.getElem?_cons_zero, Option.some.injEq] at this
        rw [List.map_cons, this]
        exact ht.cons_cons _
      next => exact ht.cons _

section
variable {F : Type} [Flt F] [FltSign F]

/-- **C08** for any histogram, in terms of its list of fixed colours (any float arithmetic) -/
theorem fixed_in_palette_list (env : Env F) (ss : List Call) (cb : Option (List F → Bool)) (h : Histogram F)
    (freeze : Bool) (log log' : List F) (r : QuantizationResult F)
    (hq : h.quantizeInternal env (userAttr ss cb) freeze log = (.ok r, log')) :
    ∃ es : List (PalEntry F), es.Subperm r.palette ∧ (∀ e ∈ es, e.pop.isFixed = true) ∧
      es.map (·.color) = (h.fixedList env.ho r.gamma).take (Settings.default.after ss).maxColors := by
  rcases user_outcome env ss cb h freeze log with ⟨-, -, e⟩ | ⟨-, e⟩
  · rw [hq] at e; cases e
  · rw [hq] at e
    cases e with
    | ok _ _ _ _ hr =>
      obtain ⟨p, hp, hperm⟩ := hr.pal
      have hg : r.gamma = h.gamma.getD (lit64 (45455/100000)) := by rw [hr.rest]
      have hfix := hp.fixed
      rw [← hg, userAttr_maxColors] at hfix
      obtain ⟨h1, h2⟩ := hfix.take_eq
      set n := (List.take (Settings.default.after ss).maxColors (h.fixedList env.ho r.gamma)).length
      cases freeze with
      | false =>
        refine ⟨p.take n, ?_, h2, h1⟩
        exact (List.take_sublist n p).subperm.trans (by simpa using hperm.symm.subperm)
      | true =>
        refine ⟨(p.take n).map fun e => { e with pop := e.pop.toFixed }, ?_, ?_, ?_⟩
        · refine List.Subperm.trans ?_ hperm.symm.subperm
          simp only [if_true]
          exact ((List.take_sublist n p).map _).subperm
        · intro e he
          obtain ⟨y, -, rfl⟩ := List.mem_map.1 he
          exact PalPop.toFixed_isFixed _
        · rw [List.map_map]; exact h1

/-- **C08** for any histogram whose stored fixed colours are `cs` in order (any float arithmetic) -/
theorem fixed_in_palette_of (env : Env F) (ss : List Call) (cb : Option (List F → Bool)) (h : Histogram F) (cs : List RGBA)
    (hf : h.fixedColors = cs.zipIdx) (freeze : Bool) (log log' : List F) (r : QuantizationResult F)
    (hq : h.quantizeInternal env (userAttr ss cb) freeze log = (.ok r, log')) :
    ∃ es : List (PalEntry F), es.Subperm r.palette ∧ (∀ e ∈ es, e.pop.isFixed = true) ∧
      es.map (·.color) = (cs.take (Settings.default.after ss).maxColors).map (FPixel.fromRgba (gammaLut r.gamma)) := by
  obtain ⟨es, h1, h2, h3⟩ := fixed_in_palette_list env ss cb h freeze log log' r hq
  rw [fixedList_zipIdx env.ho _ _ _ hf, ← List.map_take] at h3
  exact ⟨es, h1, h2, h3⟩
end

/-- reported bytes of fixed colours: as given, a fully transparent one as transparent black -/
def shownFixed (c : RGBA) : RGBA := if c.a = 0 then ⟨0, 0, 0, 0⟩ else c

/-- the same for the reported palette, after any use of the result -/
theorem fixed_reported_list (env : Env ℝ) (ss : List Call) (cb : Option (List ℝ → Bool)) (h : Histogram ℝ) (cs : List RGBA)
    (freeze : Bool) (log log' : List ℝ) (r r' : QuantizationResult ℝ)
    (hq : h.quantizeInternal env (userAttr ss cb) freeze log = (.ok r, log'))
    (hf : (h.fixedList env.ho r.gamma).take (Settings.default.after ss).maxColors = cs.map (FPixel.fromRgba (gammaLut r.gamma)))
    (hpost : (Settings.default.after ss).minPosterization = 0) (hgam : 0 < r.gamma) (hu : Uses r r') :
    (cs.map shownFixed).Subperm r'.getPalette.2 := by
  obtain ⟨es, h1, h2, h3⟩ := fixed_in_palette_list env ss cb h freeze log log' r hq
  have hround : ∀ e : PalEntry ℝ, e.pop.isFixed = true → (PalF.roundEntry r.gamma (UInt8.ofNat 0) e).2 = e.color.toRgb r.gamma := by
    intro e he
    unfold PalF.roundEntry
    have hid : ∀ c, PalF.posterizeChannel c 0 = c := fun c => by simp [PalF.posterizeChannel]
    dsimp only
    rw [if_neg (by rintro ⟨-, h⟩; exact h he)]
    show (e.color.toRgb r.gamma).map (fun v => PalF.posterizeChannel v 0) = _
    simp only [RGBA.map, hid]
  have hsub : ((r.palette.filter (·.pop.isFixed)).map fun e => e.color.toRgb r.gamma).Sublist r'.getPalette.2 := by
    refine sublist_of_reports (fun e : PalEntry ℝ => e.pop.isFixed) _ _ _ fun i e hi he => ?_
    rw [C08_remap_reports_fixed hq hgam hpost hi he hu, (fixed_reports hq hi he (.refl r)).1, hpost, hround e he]
  refine List.Subperm.trans ?_ hsub.subperm
  have hes : cs.map shownFixed = es.map fun e => e.color.toRgb r.gamma := by
    have : es.map (fun e => e.color.toRgb r.gamma) = (es.map (·.color)).map (fun c => c.toRgb r.gamma) := by
      rw [List.map_map]; rfl
    rw [this, h3, hf, List.map_map]
    exact List.map_congr_left fun c _ => (C07_roundtrip hgam c).symm
  rw [hes]
  have hfil : es.Subperm (r.palette.filter (·.pop.isFixed)) := by
    have := h1.filter (fun e => e.pop.isFixed)
    rwa [List.filter_eq_self.mpr h2] at this
  obtain ⟨l, hl1, hl2⟩ := hfil
  exact ⟨l.map _, hl1.map _, hl2.map _⟩

theorem fixed_reported_of (env : Env ℝ) (ss : List Call) (cb : Option (List ℝ → Bool)) (h : Histogram ℝ) (cs : List RGBA)
    (hf : h.fixedColors = cs.zipIdx) (freeze : Bool) (log log' : List ℝ) (r r' : QuantizationResult ℝ)
    (hq : h.quantizeInternal env (userAttr ss cb) freeze log = (.ok r, log'))
    (hpost : (Settings.default.after ss).minPosterization = 0) (hgam : 0 < r.gamma) (hu : Uses r r') :
    ((cs.take (Settings.default.after ss).maxColors).map shownFixed).Subperm r'.getPalette.2 :=
  fixed_reported_list env ss cb h _ freeze log log' r r' hq (by rw [fixedList_zipIdx env.ho _ _ _ hf, List.map_take]) hpost hgam hu

/-- **C08** (exact arithmetic; histogram). Any calls on a new histogram, any settings without posterization: after a successful
quantization and any number of remaps of any images, looks at the palette, level changes, clones and callbacks, the reported
palette contains the first `max_colors` fixed colours exactly as they were given (fully transparent ones as transparent black). -/
theorem C08_after_remaps (env : Env ℝ) (ss : List Call) (cb : Option (List ℝ → Bool)) (h0 : Histogram ℝ)
    (hnew : h0.fixedColors = []) (calls : List (HistCall ℝ)) (freeze : Bool) (log log' : List ℝ) (r r' : QuantizationResult ℝ)
    (hq : (h0.afterCalls env.ho calls).quantizeInternal env (userAttr ss cb) freeze log = (.ok r, log'))
    (hpost : (Settings.default.after ss).minPosterization = 0) (hgam : 0 < r.gamma) (hu : Uses r r') :
    ((((fixedCalls calls).take 256).take (Settings.default.after ss).maxColors).map
      fun c => if c.a = 0 then (⟨0, 0, 0, 0⟩ : RGBA) else c).Subperm r'.getPalette.2 :=
  fixed_reported_of env ss cb _ _ (afterCalls_fixed env.ho h0 calls hnew) freeze log log' r r' hq hpost hgam hu

/-! ### Fixed colours of an image -/

section
variable {F : Type} [Flt F]

theorem contrastMaps_fixed {img img' : Image F} (h : img.contrastMaps = .ok img') : img'.fixedColors = img.fixedColors := by
  unfold Image.contrastMaps at h
  split at h
  · cases h; rfl
  · simp only [bind, Except.bind] at h
    split at h
    · cases h
    · split at h
      · cases h
      · split at h
        · cases h
        · cases h; rfl

theorem withEdges_fixed {img img' : Image F} (h : img.withEdges = .ok img') : img'.fixedColors = img.fixedColors := by
  unfold Image.withEdges at h
  split at h
  · exact contrastMaps_fixed h
  · cases h; rfl

theorem updateDitherMap_fixed {img img' : Image F} {rows : List (List UInt8)} {p : PalF F} {b : Bool}
    (h : img.updateDitherMap rows p b = .ok img') : img'.fixedColors = img.fixedColors := by
  unfold Image.updateDitherMap at h
  simp only [bind, Except.bind] at h
  split at h
  · cases h
  · rename_i i hi
    rw [← withEdges_fixed hi]
    split at h
    · cases h; rfl
    · split at h
      · cases h
      · cases h; rfl

theorem addImage_fixed (ho : HashOrder) (h : Histogram F) (attr : Attr F) (img : Image F) (log : List F) :
    (h.addImage ho attr img log).1.2.2.fixedColors = img.fixedColors := by
  unfold Histogram.addImage
  split
  · rfl
  · rename_i i hi
    have key : i.fixedColors = img.fixedColors := by
      split at hi
      · exact contrastMaps_fixed hi
      · cases hi; rfl
    dsimp only
    repeat' split
    all_goals exact key

theorem remapPlain_fixed (env : RemapEnv F) (s : RemapState F) : (remapPlain env s).2.image.fixedColors = s.image.fixedColors := by
  unfold remapPlain
  dsimp only
  repeat' split
  all_goals rfl

theorem generateDitherMap_fixed (env : RemapEnv F) (s : RemapState F) (b : Bool) (p : PalF F) :
    (generateDitherMap env s b p).2.image.fixedColors = s.image.fixedColors := by
  unfold generateDitherMap
  split
  · rfl
  · split
    · rfl
    · dsimp only
      split
      · rfl
      · rename_i h
        have := updateDitherMap_fixed h
        exact this

theorem remapFloyd_fixed (env : RemapEnv F) (s : RemapState F) (p : PalF F) (m : F) (b : Bool) :
    (remapFloyd env s p m b).2.image.fixedColors = s.image.fixedColors := by
  unfold remapFloyd
  dsimp only
  repeat' split
  all_goals rfl

theorem remapDithered_fixed (env : RemapEnv F) (s : RemapState F) : (remapDithered env s).2.image.fixedColors = s.image.fixedColors := by
  unfold remapDithered
  have h1 := generateDitherMap_fixed env s s.image.background.isSome s.quant.palette
  split
  · rename_i h; rw [h] at h1; exact h1
  · rename_i h
    rw [h] at h1
    dsimp only at h1 ⊢
    split
    · exact h1
    · exact h1
    · split
      all_goals
        rename_i h2
        have := congrArg (fun x : Res Unit × RemapState F => x.2.image.fixedColors) h2
        dsimp only at this
        rw [remapFloyd_fixed] at this
        exact this.symm.trans h1

theorem remapInto_imageFixed (env : RemapEnv F) (q : QuantizationResult F) (img : Image F) (buf : List (Option UInt8)) (log : List F) :
    (remapInto env q img buf log).image.fixedColors = img.fixedColors := by
  unfold remapInto
  dsimp only
  split
  · rfl
  · dsimp only
    unfold writeRemapped
    split
    · rfl
    · rfl
    · dsimp only
      split
      all_goals
        rename_i h
        have := congrArg (fun x : Res (Remapped F) × RemapState F => x.2.image.fixedColors) h
        dsimp only at this
        rw [apply_ite (fun x : Res (Remapped F) × RemapState F => x.2.image.fixedColors), remapPlain_fixed, remapDithered_fixed, ite_self] at this
        exact this.symm

theorem newInternal_fixed {src : Source} {w h : ℕ} {g : F} {img : Image F} (e : Image.newInternal src w h g = .ok img) :
    img.fixedColors = [] := by
  unfold Image.newInternal at e
  repeat' (split at e <;> first | cases e | skip)
  all_goals rfl

/-- no image a caller can make has more than 256 fixed colours -/
theorem UserImage.fixed_le {img : Image F} (h : UserImage img) : img.fixedColors.length ≤ 256 := by
  induction h with
  | fromPixels e =>
    unfold Image.newStride at e
    simp only [bind, Except.bind] at e
    repeat' (split at e <;> first | cases e | skip)
    exact newInternal_fixed e ▸ Nat.zero_le _
  | fromCallback e =>
    unfold Image.newFn at e
    simp only [bind, Except.bind] at e
    repeat' (split at e <;> first | cases e | skip)
    exact newInternal_fixed e ▸ Nat.zero_le _
  | importance _ e ih =>
    unfold Image.setImportanceMap at e
    split at e <;> cases e
    exact ih
  | background _ _ e ih _ =>
    unfold Image.setBackground at e
    repeat' (split at e <;> first | cases e | skip)
    exact ih
  | fixed _ e ih =>
    unfold Image.addFixedColor at e
    split at e
    · cases e
    · cases e
      rename_i h
      have : ¬ 256 ≤ _ := h
      simp only [List.length_append, List.length_singleton]
      omega
  | histogram ho h attr log _ ih => rw [addImage_fixed]; exact ih
  | remap env q buf log _ _ ih => rw [remapInto_imageFixed]; exact ih

theorem extendFixed_new (h : Histogram F) (cs : List RGBA) (h0 : h.fixedColors = []) (hl : cs.length ≤ 256) :
    (h.extendFixed cs).fixedColors = cs.zipIdx := by
  have key : ∀ (l : List (RGBA × ℕ)) (done : List HashColor), (∀ x ∈ l, x.2 < 256) → (done ++ l).Nodup →
      l.foldl (fun s (x : RGBA × ℕ) => Histogram.insertFixed s (x.1, x.2 % 256)) done = done ++ l := by
    intro l
    induction l with
    | nil => intro done _ _; simp
    | cons x l ih =>
      intro done hx hn
      rw [List.foldl_cons, Nat.mod_eq_of_lt (hx x (by simp))]
      have hnot : x ∉ done := by
        intro hm
        rw [List.nodup_append] at hn
        exact hn.2.2 x hm x (by simp) rfl
      have hstep : Histogram.insertFixed done (x.1, x.2) = done ++ [x] := by
        unfold Histogram.insertFixed
        rw [if_neg hnot]
      rw [hstep, ih _ (fun y hy => hx y (by simp [hy])) (by simpa using hn)]
      simp
  show cs.zipIdx.foldl (fun s (x : RGBA × ℕ) => Histogram.insertFixed s (x.1, x.2 % 256)) h.fixedColors = _
  rw [h0, key]
  · rfl
  · intro x hx
    have := List.snd_lt_of_mem_zipIdx hx
    omega
  · simp only [List.nil_append]
    exact (zipIdx_increasing cs 0).imp fun {a b} (hab : a.2 < b.2) he => by rw [he] at hab; exact lt_irrefl _ hab

/-- the histogram of an image stores the fixed colours of the image in order -/
theorem addImage_histFixed {ho : HashOrder} {h h' : Histogram F} {attr : Attr F} {img img' : Image F} {log log' : List F}
    (h0 : h.fixedColors = []) (hl : img.fixedColors.length ≤ 256)
    (e : h.addImage ho attr img log = ((.ok (), h', img'), log')) :
    h'.fixedColors = img.fixedColors.zipIdx ∧ h'.gamma = img'.gamma := by
  unfold Histogram.addImage at e
  split at e
  · cases e
  · rename_i i hi
    have key : i.fixedColors = img.fixedColors := by
      split at hi
      · exact contrastMaps_fixed hi
      · cases hi; rfl
    dsimp only at e
    split at e
    · cases e
    · cases e
    · split at e
      · cases e
      · simp only [Prod.mk.injEq] at e
        obtain ⟨⟨-, rfl, rfl⟩, -⟩ := e
        unfold Histogram.addPixelRows
        rw [finishRows_fixed, addRows_fixed]
        refine ⟨?_, ?_⟩
        · rw [← key]
          split
          next he => rw [List.isEmpty_iff.mp he]; exact h0
          · exact extendFixed_new _ _ h0 (key ▸ hl)
        · rw [Histogram.finishRows_gamma, Histogram.addRows_gamma]
          split <;> rfl
end

theorem quantizeInternal_gamma {F : Type} [Flt F] [FltSign F] {env : Env F} {ss : List Call} {cb : Option (List F → Bool)} {h : Histogram F}
    {freeze : Bool} {log log' : List F} {r : QuantizationResult F}
    (hq : h.quantizeInternal env (userAttr ss cb) freeze log = (.ok r, log')) : r.gamma = h.gamma.getD (lit64 (45455/100000)) := by
  rcases user_outcome env ss cb h freeze log with ⟨-, -, e⟩ | ⟨-, e⟩
  · rw [hq] at e; cases e
  · rw [hq] at e
    cases e with
    | ok _ _ _ _ hr => rw [hr.rest]

theorem image_gamma_pos (img : Image ℝ) : 0 < img.gamma.getD (lit64 (45455/100000)) := by
  unfold Image.gamma
  split
  next h => simpa using h
  · simp

theorem Histogram.new_fixed {F : Type} [Flt F] (attr : Attr F) : (Histogram.new attr).fixedColors = [] := rfl

/-- **C08** (exact arithmetic; image). Any image a caller can make, any settings without posterization: after a successful
quantization of the image, and any use of the result, the reported palette contains the first `max_colors` fixed colours of
the image exactly as they were given (fully transparent ones as transparent black). -/
theorem C08_image (env : Env ℝ) (ss : List Call) (cb : Option (List ℝ → Bool)) {img img' : Image ℝ} (hi : UserImage img)
    (log log' : List ℝ) (r r' : QuantizationResult ℝ)
    (hq : quantizeImage env (userAttr ss cb) img log = ((.ok r, img'), log'))
    (hpost : (Settings.default.after ss).minPosterization = 0) (hu : Uses r r') :
    ((img.fixedColors.take (Settings.default.after ss).maxColors).map
      fun c => if c.a = 0 then (⟨0, 0, 0, 0⟩ : RGBA) else c).Subperm r'.getPalette.2 := by
  unfold quantizeImage at hq
  split at hq
  · cases hq
  · rename_i h i log1 ha
    dsimp only at hq
    simp only [Prod.mk.injEq] at hq
    obtain ⟨⟨e1, -⟩, e2⟩ := hq
    have hq : h.quantizeInternal env (userAttr ss cb) false log1 = (.ok r, log') := Prod.ext e1 e2
    obtain ⟨hf, hg⟩ := addImage_histFixed (Histogram.new_fixed _) hi.fixed_le ha
    refine fixed_reported_of env ss cb h _ hf false log1 log' r r' hq hpost ?_ hu
    rw [quantizeInternal_gamma hq, hg]
    exact image_gamma_pos i

/-! ### Fixed colours of two images -/

/-- adding an image with one fixed colour to a histogram with two -/
theorem addImage_histFixed_two {F : Type} [Flt F] {ho : HashOrder} {h h' : Histogram F} {attr : Attr F} {img img' : Image F} {log log' : List F}
    {a b c : RGBA} (h0 : h.fixedColors = [(a, 0), (b, 1)]) (hc : img.fixedColors = [c]) (hne : c ≠ a)
    (e : h.addImage ho attr img log = ((.ok (), h', img'), log')) :
    h'.fixedColors = [(a, 0), (b, 1), (c, 0)] ∧ h'.gamma = img'.gamma := by
  unfold Histogram.addImage at e
  split at e
  · cases e
  · rename_i i hi
    have key : i.fixedColors = [c] := by
      rw [← hc]
      split at hi
      · exact contrastMaps_fixed hi
      · cases hi; rfl
    dsimp only at e
    split at e
    · cases e
    · cases e
    · split at e
      · cases e
      · simp only [Prod.mk.injEq] at e
        obtain ⟨⟨-, rfl, rfl⟩, -⟩ := e
        unfold Histogram.addPixelRows
        rw [finishRows_fixed, addRows_fixed, Histogram.finishRows_gamma, Histogram.addRows_gamma, key]
        refine ⟨?_, by split <;> rfl⟩
        rw [if_neg (by simp)]
        simp [Histogram.extendFixed, h0, Histogram.insertFixed, hne]

/-- A list of three fixed colours, two of them with index 0, sorted by index -/
theorem take_two_sorted {a b c : RGBA} {l : List HashColor} (hp : l.Perm [(a, 0), (b, 1), (c, 0)]) :
    ∃ cs : List RGBA, cs.Perm [a, c] ∧ ((l.mergeSort fun x y => decide (x.2 ≤ y.2)).take 2).map (·.1) = cs := by
  obtain ⟨m, hm⟩ : ∃ m, m = l.mergeSort fun x y => decide (x.2 ≤ y.2) := ⟨_, rfl⟩
  have hmp : m.Perm [(a, 0), (b, 1), (c, 0)] := by rw [hm]; exact (List.mergeSort_perm _ _).trans hp
  have hs : m.Pairwise fun x y => x.2 ≤ y.2 := by
    have := List.pairwise_mergeSort (le := fun x y : HashColor => decide (x.2 ≤ y.2))
      (fun x y z h k => by simp only [decide_eq_true_eq] at *; omega) (fun x y => by simp only [Bool.or_eq_true, decide_eq_true_eq]; omega) l
    rw [hm]
    exact this.imp fun h => by simpa using h
  rw [← hm]
  have hl : m.length = 3 := by rw [hmp.length_eq]; rfl
  obtain ⟨x, y, z, rfl⟩ := List.length_eq_three.mp hl
  · simp only [List.pairwise_cons, List.mem_cons, List.not_mem_nil, or_false, forall_eq_or_imp, forall_eq] at hs
    have hz : z = (b, 1) := by
      have hb : (b, 1) ∈ [x, y, z] := hmp.symm.subset (by simp)
      simp only [List.mem_cons, List.not_mem_nil, or_false] at hb
      have hsnd : [x.2, y.2, z.2].Perm [0, 1, 0] := hmp.map (fun u : HashColor => u.2)
      have hsum : x.2 + y.2 + z.2 = 1 := by have := hsnd.sum_eq; simpa [add_assoc] using this
      rcases hb with rfl | rfl | hb
      · have : (1 : ℕ) ≤ y.2 := hs.1.1
        have h1 : (1 : ℕ) + y.2 + z.2 = 1 := hsum
        omega
      · have : (1 : ℕ) ≤ z.2 := hs.2.1
        have h1 : x.2 + (1 : ℕ) + z.2 = 1 := hsum
        omega
      · exact hb.symm
    subst hz
    have h2 : [x, y].Perm [(a, 0), (c, 0)] := by
      have h1 : [(b, 1), x, y].Perm [(b, 1), (a, 0), (c, 0)] := by
        refine List.Perm.trans ?_ (hmp.trans ?_)
        · exact (List.perm_append_comm (l₁ := [(b, 1)]) (l₂ := [x, y]))
        · exact List.Perm.swap _ _ _
      exact h1.cons_inv
    exact ⟨[x.1, y.1], h2.map (fun u : HashColor => u.1), rfl⟩

/-- **C08 fails for two images** (exact arithmetic). Fixed colours are numbered per image, and this number decides. If one image has
the fixed colours `a` and `b`, another one `c`, and both are added to a histogram, then with `max_colors = 2` the palette is `a`
and `c`, although `b` was added before `c`. -/
theorem C08_two_images (env : Env ℝ) (ss : List Call) (cb : Option (List ℝ → Bool)) {h0 h1 h2 : Histogram ℝ} {attr1 attr2 : Attr ℝ}
    {img1 img2 img1' img2' : Image ℝ} {a b c : RGBA} (hnew : h0.fixedColors = []) (hf1 : img1.fixedColors = [a, b])
    (hf2 : img2.fixedColors = [c]) (hca : c ≠ a) (hopaque : a.a ≠ 0 ∧ c.a ≠ 0)
    {log0 log1 log2 log3 log4 : List ℝ} (e1 : h0.addImage env.ho attr1 img1 log0 = ((.ok (), h1, img1'), log1))
    (e2 : h1.addImage env.ho attr2 img2 log1 = ((.ok (), h2, img2'), log2)) (freeze : Bool) (r : QuantizationResult ℝ)
    (hq : h2.quantizeInternal env (userAttr ss cb) freeze log3 = (.ok r, log4))
    (hmax : (Settings.default.after ss).maxColors = 2) (hpost : (Settings.default.after ss).minPosterization = 0) :
    r.getPalette.2.Perm [a, c] := by
  have hh1 := (addImage_histFixed hnew (by rw [hf1]; simp) e1).1
  rw [hf1] at hh1
  obtain ⟨hh2, hg⟩ := addImage_histFixed_two (a := a) (b := b) hh1 hf2 hca e2
  obtain ⟨cs, hcs, hsort⟩ := take_two_sorted (l := env.ho.set h2.fixedColors) (by rw [← hh2]; exact env.ho.set_perm _)
  have hgam : 0 < r.gamma := by rw [quantizeInternal_gamma hq, hg]; exact image_gamma_pos _
  have hsub := fixed_reported_list env ss cb h2 cs freeze log3 log4 r r hq (by
    unfold Histogram.fixedList
    rw [hmax, ← List.map_take, ← hsort, List.map_map]
    rfl) hpost hgam (.refl r)
  obtain ⟨-, hl, -, hl2⟩ := C01_palette_size env ss cb h2 freeze log3 log4 r hq
  have hlen : cs.length = 2 := by rw [hcs.length_eq]; rfl
  have hperm : (cs.map shownFixed).Perm r.getPalette.2 := hsub.perm_of_length_le (by rw [List.length_map, hlen]; omega)
  refine hperm.symm.trans ((hcs.map _).trans ?_)
  simp [shownFixed, hopaque.1, hopaque.2]

/-- Two images and a histogram like this exist: the property does not hold for fixed colours of several images. -/
theorem C08_does_not_hold : ∃ (img1 img2 : Image ℝ) (h1 h2 : Histogram ℝ) (r : QuantizationResult ℝ) (i1 i2 : Image ℝ) (l1 l2 l3 : List ℝ),
    UserImage img1 ∧ UserImage img2 ∧ img1.fixedColors = [⟨1, 0, 0, 255⟩, ⟨2, 0, 0, 255⟩] ∧ img2.fixedColors = [⟨3, 0, 0, 255⟩] ∧
    (Histogram.new (userAttr [.maxColors 2] none)).addImage (Env.simple : Env ℝ).ho (userAttr [.maxColors 2] none) img1 [] = ((.ok (), h1, i1), l1) ∧
    h1.addImage (Env.simple : Env ℝ).ho (userAttr [.maxColors 2] none) img2 l1 = ((.ok (), h2, i2), l2) ∧
    h2.quantizeInternal Env.simple (userAttr [.maxColors 2] none) true l2 = (.ok r, l3) ∧
    ⟨2, 0, 0, 255⟩ ∉ r.getPalette.2 ∧ ⟨3, 0, 0, 255⟩ ∈ r.getPalette.2 := by
  obtain ⟨img, e⟩ : ∃ img : Image ℝ, Image.newFn (fun _ _ => ⟨9, 9, 9, 255⟩) 1 1 0 = .ok img := by
    unfold Image.newFn Image.newInternal Image.toU32
    simp [Image.checkImageSize, Bind.bind, Except.bind]
    norm_num
  have hm := (Made.facts (.inl e) : MadeFacts _ 1 1 img)
  have hfix := hm.fixed
  have hadd : ∀ (i : Image ℝ) (c : RGBA), i.fixedColors.length < 3 → i.addFixedColor c = .ok { i with fixedColors := i.fixedColors ++ [c] } := by
    intro i c hl
    unfold Image.addFixedColor
    rw [if_neg (by show ¬ 256 ≤ _; omega)]
  have hu1 : UserImage { img with fixedColors := [⟨1, 0, 0, 255⟩] } := .fixed hm.user (by rw [hadd _ ⟨1, 0, 0, 255⟩ (by rw [hfix]; simp), hfix]; rfl)
  have hu2 : UserImage { img with fixedColors := [⟨1, 0, 0, 255⟩, ⟨2, 0, 0, 255⟩] } := .fixed hu1 (by rw [hadd _ ⟨2, 0, 0, 255⟩ (by simp)]; rfl)
  have hu3 : UserImage { img with fixedColors := [⟨3, 0, 0, 255⟩] } := .fixed hm.user (by rw [hadd _ ⟨3, 0, 0, 255⟩ (by rw [hfix]; simp), hfix]; rfl)
  obtain ⟨h1, i1, l1, e1⟩ := addImage_succeeds (Env.simple : Env ℝ).ho (Histogram.new (userAttr [.maxColors 2] none)) (userAttr [.maxColors 2] none)
    { img with fixedColors := [⟨1, 0, 0, 255⟩, ⟨2, 0, 0, 255⟩] } [] hu2.good rfl ⟨_, hm.rows⟩
  obtain ⟨h2, i2, l2, e2⟩ := addImage_succeeds (Env.simple : Env ℝ).ho h1 (userAttr [.maxColors 2] none)
    { img with fixedColors := [⟨3, 0, 0, 255⟩] } l1 hu3.good rfl ⟨_, hm.rows⟩
  have hh1 := (addImage_histFixed (Histogram.new_fixed _) (by simp) e1).1
  have hh2 := (addImage_histFixed_two (a := ⟨1, 0, 0, 255⟩) (b := ⟨2, 0, 0, 255⟩) hh1 rfl (by decide) e2).1
  obtain ⟨r, l3, e3⟩ := C42_succeeds (Env.simple : Env ℝ) [.maxColors 2] h2 true l2 rfl (.inr (by rw [hh2]; simp))
  have hp := C08_two_images Env.simple [.maxColors 2] none (Histogram.new_fixed _) rfl rfl (by decide) (by decide) e1 e2 true r e3 rfl rfl
  refine ⟨_, _, h1, h2, r, i1, i2, l1, l2, l3, hu2, hu3, rfl, rfl, e1, e2, e3, ?_, ?_⟩
  · rw [hp.mem_iff]; decide
  · rw [hp.mem_iff]; decide

/-- The hypotheses of `C08_image` are met: a fixed colour that does not occur in the image, another one that is transparent; the result is
remapped with. -/
example : ∃ (img img' : Image ℝ) (r : QuantizationResult ℝ) (log' : List ℝ), UserImage img ∧
    img.fixedColors = [⟨1, 0, 0, 255⟩, ⟨2, 0, 0, 0⟩] ∧
    quantizeImage Env.simple (userAttr [.maxColors 7] none) img [] = ((.ok r, img'), log') ∧
    (Settings.default.after [.maxColors 7]).minPosterization = 0 ∧
    Uses r (remapInto RemapEnv.simple r.getPalette.1 img (List.replicate 1 none) []).quant := by
  obtain ⟨img, e⟩ : ∃ img : Image ℝ, Image.newFn (fun _ _ => ⟨9, 9, 9, 255⟩) 1 1 0 = .ok img := by
    unfold Image.newFn Image.newInternal Image.toU32
    simp [Image.checkImageSize, Bind.bind, Except.bind]
    norm_num
  have hm := (Made.facts (.inl e) : MadeFacts _ 1 1 img)
  have hfix := hm.fixed
  have hadd : ∀ (i : Image ℝ) (c : RGBA), i.fixedColors.length < 3 → i.addFixedColor c = .ok { i with fixedColors := i.fixedColors ++ [c] } := by
    intro i c hl
    unfold Image.addFixedColor
    rw [if_neg (by show ¬ 256 ≤ _; omega)]
  have hu1 : UserImage { img with fixedColors := [⟨1, 0, 0, 255⟩] } := .fixed hm.user (by rw [hadd _ ⟨1, 0, 0, 255⟩ (by rw [hfix]; simp), hfix]; rfl)
  have hu2 : UserImage { img with fixedColors := [⟨1, 0, 0, 255⟩, ⟨2, 0, 0, 0⟩] } := .fixed hu1 (by rw [hadd _ ⟨2, 0, 0, 0⟩ (by simp)]; rfl)
  obtain ⟨h1, i1, l1, e1⟩ := addImage_succeeds (Env.simple : Env ℝ).ho (Histogram.new (userAttr [.maxColors 7] none)) (userAttr [.maxColors 7] none)
    { img with fixedColors := [⟨1, 0, 0, 255⟩, ⟨2, 0, 0, 0⟩] } [] hu2.good rfl ⟨_, hm.rows⟩
  have hh1 := (addImage_histFixed (Histogram.new_fixed _) (by simp) e1).1
  obtain ⟨r, l3, e3⟩ := C42_succeeds (Env.simple : Env ℝ) [.maxColors 7] h1 false l1 rfl (.inr (by rw [hh1]; simp))
  refine ⟨_, i1, r, l3, hu2, rfl, ?_, rfl, .remap _ _ _ (.palette (.refl r)) hu2⟩
  unfold quantizeImage
  rw [e1]
  dsimp only
  rw [e3]

end Verif
