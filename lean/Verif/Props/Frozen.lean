import Verif.Props.Lossless
import Verif.Lemmas.UserHist

/-! # C09: palettes made from a histogram stay as they are -/

set_option linter.unusedSectionVars false

namespace Verif
open Flt Spec

section
variable {F : Type} [Flt F]

/-- a palette of fixed colours only -/
def PalF.Frozen (p : PalF F) : Prop := ∀ e ∈ p, e.pop.isFixed = true

/-- everything a caller can do with a result, except changing the gamma -/
inductive Uses : QuantizationResult F → QuantizationResult F → Prop
  | refl (q : QuantizationResult F) : Uses q q
  | remap {q q' : QuantizationResult F} {img : Image F} (env : RemapEnv F) (buf : List (Option UInt8)) (log : List F) :
      Uses q q' → UserImage img → Uses q (remapInto env q' img buf log).quant
  | level {q q' q'' : QuantizationResult F} {v : F} : Uses q q' → q'.setDitheringLevel v = .ok q'' → Uses q q''
  | callback {q q' : QuantizationResult F} (cb : Option (List F → Bool)) :
      Uses q q' → Uses q { q' with progressCallback := cb }
  | clone {q q' : QuantizationResult F} : Uses q q' → Uses q q'.clone
  | palette {q q' : QuantizationResult F} : Uses q q' → Uses q q'.getPalette.1

/-- the same without a look at the palette on the way -/
inductive UsesUnseen : QuantizationResult F → QuantizationResult F → Prop
  | refl (q : QuantizationResult F) : UsesUnseen q q
  | remap {q q' : QuantizationResult F} {img : Image F} (env : RemapEnv F) (buf : List (Option UInt8)) (log : List F) :
      UsesUnseen q q' → UserImage img → UsesUnseen q (remapInto env q' img buf log).quant
  | level {q q' q'' : QuantizationResult F} {v : F} : UsesUnseen q q' → q'.setDitheringLevel v = .ok q'' → UsesUnseen q q''
  | callback {q q' : QuantizationResult F} (cb : Option (List F → Bool)) :
      UsesUnseen q q' → UsesUnseen q { q' with progressCallback := cb }
  | clone {q q' : QuantizationResult F} : UsesUnseen q q' → UsesUnseen q q'.clone

theorem UserResult.uses [FltSign F] {q q' : QuantizationResult F} (hq : UserResult q) (h : Uses q q') : UserResult q' := by
  induction h with
  | refl => exact hq
  | remap env buf log _ hi ih => exact .remap env buf log ih hi
  | level _ e ih => exact .level ih e
  | callback cb _ ih => exact .callback cb ih
  | clone _ ih => exact .clone ih
  | palette _ ih => exact .palette ih

theorem UsesUnseen.uses {q q' : QuantizationResult F} (h : UsesUnseen q q') : Uses q q' := by
  induction h with
  | refl => exact .refl _
  | remap env buf log _ hi ih => exact .remap env buf log ih hi
  | level _ e ih => exact .level ih e
  | callback cb _ ih => exact .callback cb ih
  | clone _ ih => exact .clone ih

theorem KeepsFixed.frozen {p p' : PalF F} (h : KeepsFixed p p') (hf : p.Frozen) : p' = p := by
  apply List.ext_getElem?
  intro i
  cases hi : p[i]? with
  | none => exact List.getElem?_eq_none (by rw [h.1]; exact List.getElem?_eq_none_iff.mp hi)
  | some e => exact h.2 i e hi (hf e (List.mem_of_getElem? hi))

theorem remapFinish_keeps (env : RemapEnv F) (outs : List (RowOut F)) (useBg : Bool) (ti : UInt8) (p : PalF F) :
    KeepsFixed p (remapFinish env outs useBg ti p) := by
  unfold remapFinish
  dsimp only
  split
  · exact Kmeans.finalizePalette_keeps _ _
  · exact KeepsFixed.refl _

theorem remapToPalette_keepsFixed (env : RemapEnv F) (px : Rows F) (bg : Option (Rows F)) (imp : Option (List UInt8)) (nrows : ℕ)
    (p : PalF F) : KeepsFixed p (remapToPalette env px bg imp nrows p).2.palette := by
  unfold remapToPalette
  dsimp only
  repeat' split
  all_goals first | exact KeepsFixed.refl _ | exact remapFinish_keeps _ _ _ _ _

/-- what a frozen palette is reported as, and the palette it is rounded to -/
abbrev PalF.conv (p : PalF F) (γ : F) (b : ℕ) : List RGBA := (p.initIntPalette γ (UInt8.ofNat b)).2
abbrev PalF.rounded (p : PalF F) (γ : F) (b : ℕ) : PalF F := (p.initIntPalette γ (UInt8.ofNat b)).1

theorem PalF.Frozen.rounded {p : PalF F} (h : p.Frozen) (γ : F) (b : ℕ) : (p.rounded γ b).Frozen := by
  intro e he
  obtain ⟨e', h1, rfl⟩ := List.mem_map.mp he
  exact h e' h1

/-- A remap of a frozen palette reports the conversion of the palette; nothing else of the result changes. -/
theorem remapInto_frozen (env : RemapEnv F) {q : QuantizationResult F} {img : Image F} (hq : q.Good) (hi : img.Good)
    (hf : q.palette.Frozen) (buf : List (Option UInt8)) (log : List F) :
    ((remapInto env q img buf log).res ≠ .ok () ∧ (remapInto env q img buf log).quant = q) ∨
    ∃ err, (remapInto env q img buf log).quant =
      { q with remapped := some ⟨q.palette.conv q.gamma q.minPosterizationOutput, err⟩ } := by
  by_cases hok : (remapInto env q img buf log).res = .ok ()
  · right
    cases hl : eq q.ditherLevel (lit32 0) with
    | true =>
      obtain ⟨n, _, h, _⟩ := remapInto_plain env hq hi buf log hl hok
      exact ⟨_, h⟩
    | false =>
      obtain ⟨p, mapErr, _, _, _, _, _, hp, _, _, h, _⟩ := remapInto_dithered env hq hi buf log hl hok
      have : p = q.palette := by
        rcases hp with ⟨_, _, h⟩ | ⟨_, px, e, r, _, hr, _, h⟩
        · exact h
        · rw [h]
          have := remapToPalette_keepsFixed env px none img.importanceMap img.height q.palette
          rw [hr] at this
          exact this.frozen hf
      subst this
      exact ⟨_, h⟩
  · refine .inl ⟨hok, ?_⟩
    have spec := remapInto_spec env buf log hq hi
    by_cases hb : buf.length < img.width * img.height
    · rw [spec.small hb]
    · obtain ⟨s, d, e1, _⟩ := spec.run (by omega)
      rw [e1]
      exact d.failed hok

/-- the states of a result with a frozen palette `p`: its palette has not been looked at, or it has -/
structure FrozenState (p : PalF F) (γ : F) (b : ℕ) (seen : Bool) (q : QuantizationResult F) : Prop where
  gamma_ : q.gamma = γ
  post_ : q.minPosterizationOutput = b
  palette_ : q.palette = if seen then p.rounded γ b else p
  cached_ : q.intPalette = if seen then p.conv γ b else []
  remapped_ : ∀ re, q.remapped = some re → re.intPalette = p.conv γ b ∨ (seen = true ∧ re.intPalette = (p.rounded γ b).conv γ b)

theorem FrozenState.frozen {p : PalF F} {γ : F} {b : ℕ} {seen : Bool} {q : QuantizationResult F} (h : FrozenState p γ b seen q)
    (hp : p.Frozen) : q.palette.Frozen := by
  rw [h.palette_]
  cases seen
  · exact hp
  · exact hp.rounded γ b

theorem FrozenState.remap {p : PalF F} {γ : F} {b : ℕ} {seen : Bool} {q : QuantizationResult F} (h : FrozenState p γ b seen q)
    (hp : p.Frozen) (env : RemapEnv F) {img : Image F} (hq : q.Good) (hi : img.Good) (buf : List (Option UInt8)) (log : List F) :
    FrozenState p γ b seen (remapInto env q img buf log).quant := by
  rcases remapInto_frozen env hq hi (h.frozen hp) buf log with ⟨_, e⟩ | ⟨err, e⟩ <;> rw [e]
  · exact h
  · refine ⟨h.gamma_, h.post_, h.palette_, h.cached_, fun re hre => ?_⟩
    simp only [Option.some.injEq] at hre
    rw [← hre]
    dsimp only
    rw [h.palette_, h.gamma_, h.post_]
    cases seen
    · exact .inl rfl
    · exact .inr ⟨rfl, rfl⟩

theorem FrozenState.level {p : PalF F} {γ : F} {b : ℕ} {seen : Bool} {q q' : QuantizationResult F} (h : FrozenState p γ b seen q)
    {v : F} (e : q.setDitheringLevel v = .ok q') : FrozenState p γ b seen q' := by
  unfold QuantizationResult.setDitheringLevel at e
  split at e
  · cases e
    exact ⟨h.gamma_, h.post_, h.palette_, h.cached_, fun re hre => by cases hre⟩
  · cases e

/-- what is reported, and what the look leaves behind -/
theorem FrozenState.report {p : PalF F} {γ : F} {b : ℕ} {seen : Bool} {q : QuantizationResult F} (h : FrozenState p γ b seen q)
    (hp : p ≠ []) :
    (q.getPalette.2 = p.conv γ b ∨ (seen = true ∧ q.getPalette.2 = (p.rounded γ b).conv γ b)) ∧
    ∃ seen', FrozenState p γ b seen' q.getPalette.1 := by
  unfold QuantizationResult.getPalette
  cases hre : q.remapped with
  | some re => exact ⟨h.remapped_ re hre, seen, h⟩
  | none =>
    dsimp only
    have hc := h.cached_
    cases hs : seen with
    | true =>
      rw [hs] at hc
      simp only [if_true] at hc
      rw [if_neg]
      · exact ⟨.inl hc, true, hs ▸ h⟩
      · rw [hc]
        simp [PalF.conv, PalF.initIntPalette, hp]
    | false =>
      rw [hs] at hc
      have hpal := h.palette_
      rw [hs] at hpal
      simp only [Bool.false_eq_true, if_false] at hc hpal
      rw [if_pos (by rw [hc]; rfl), h.gamma_, h.post_, hpal]
      exact ⟨.inl rfl, true, ⟨rfl, rfl, rfl, rfl, fun re' h' => by cases h'⟩⟩

/-- a new result of a histogram -/
theorem FrozenState.new [FltSign F] {env : Env F} {cs : List Call} {cb : Option (List F → Bool)} {h : Histogram F} {log log' : List F}
    {q : QuantizationResult F} (e : h.quantize env (userAttr cs cb) log = (.ok q, log')) :
    FrozenState q.palette q.gamma (Settings.default.after cs).minPosterization false q ∧ q.palette.Frozen ∧ q.palette ≠ [] ∧
      UserResult q ∧ q.gamma = h.gamma.getD (lit64 (45455/100000)) := by
  have hu : UserResult q := .quantized env cs cb h true log log' e
  have hobs := C13_settings_registers_any_float (F := F) cs
  simp only [Attr.observeInt, Attr.getMaxColors, Attr.getSpeed, Attr.getMinPosterization, Prod.mk.injEq] at hobs
  have hr := userAttr_range (F := F) cs cb
  rcases quantize_outcome env (userAttr cs cb) hr.1 hr.2 h true log with ⟨_, _, h1⟩ | ⟨_, h1⟩
  · unfold Histogram.quantize at e
    rw [h1] at e
    cases e
  · unfold Histogram.quantize at e
    rw [e] at h1
    cases h1 with
    | ok r log' _ _ hok =>
      have hrest := hok.rest
      refine ⟨⟨rfl, ?_, rfl, ?_, fun re hre => ?_⟩, hok.frozen rfl, List.ne_nil_of_length_pos hu.good.pos, hu, ?_⟩
      · rw [hrest]; exact hobs.2.2
      · rw [hrest]; rfl
      · rw [hrest] at hre; cases hre
      · rw [hrest]

/-- **C09** (any float arithmetic). A result of `Histogram::quantize` whose palette was not looked at before: after any
number of remaps of any images, level changes, clones and callbacks, and whatever came of the remaps, the reported
palette is exactly the one that would have been reported at the beginning. -/
theorem C09_unseen [FltSign F] {env : Env F} {cs : List Call} {cb : Option (List F → Bool)} {h : Histogram F} {log log' : List F}
    {q q' : QuantizationResult F} (e : h.quantize env (userAttr cs cb) log = (.ok q, log')) (hu : UsesUnseen q q') :
    q'.getPalette.2 = q.getPalette.2 := by
  obtain ⟨h0, hf, hne, huq, -⟩ := FrozenState.new e
  have h1 : FrozenState q.palette q.gamma (Settings.default.after cs).minPosterization false q' := by
    induction hu with
    | refl => exact h0
    | remap env buf log hu hi ih => exact ih.remap hf env (huq.uses hu.uses).good hi.good buf log
    | level _ e ih => exact ih.level e
    | callback cb _ ih => exact ⟨ih.1, ih.2, ih.3, ih.4, ih.5⟩
    | clone _ ih => exact ⟨ih.1, ih.2, ih.3, ih.4, ih.5⟩
  rcases (h0.report hne).1 with a | ⟨a, _⟩ <;> rcases (h1.report hne).1 with b | ⟨b, _⟩
  · rw [a, b]
  all_goals first | cases a | cases b

/-- With looks at the palette on the way the palette reported is the first one or that of the rounded colours. -/
theorem frozen_reports [FltSign F] {env : Env F} {cs : List Call} {cb : Option (List F → Bool)} {h : Histogram F} {log log' : List F}
    {q q' : QuantizationResult F} (e : h.quantize env (userAttr cs cb) log = (.ok q, log')) (hu : Uses q q') :
    q'.getPalette.2 = q.getPalette.2 ∨
    q'.getPalette.2 = (q.palette.rounded q.gamma (Settings.default.after cs).minPosterization).conv q.gamma
      (Settings.default.after cs).minPosterization := by
  obtain ⟨h0, hf, hne, huq, -⟩ := FrozenState.new e
  have h1 : ∃ seen, FrozenState q.palette q.gamma (Settings.default.after cs).minPosterization seen q' := by
    induction hu with
    | refl => exact ⟨_, h0⟩
    | remap env buf log hu hi ih =>
      obtain ⟨s, ih⟩ := ih
      exact ⟨s, ih.remap hf env (huq.uses hu).good hi.good buf log⟩
    | level _ e ih => obtain ⟨s, ih⟩ := ih; exact ⟨s, ih.level e⟩
    | callback cb _ ih => obtain ⟨s, ih⟩ := ih; exact ⟨s, ih.1, ih.2, ih.3, ih.4, ih.5⟩
    | clone _ ih => obtain ⟨s, ih⟩ := ih; exact ⟨s, ih.1, ih.2, ih.3, ih.4, ih.5⟩
    | palette _ ih => obtain ⟨s, ih⟩ := ih; exact (ih.report hne).2
  obtain ⟨s, h1⟩ := h1
  have a : q.getPalette.2 = _ := ((h0.report hne).1).resolve_right (fun h => by cases h.1)
  rcases (h1.report hne).1 with b | ⟨_, b⟩
  · exact .inl (by rw [a, b])
  · exact .inr b

end

/-! ### Exact arithmetic -/

/-- rounding a second time shows the same colour -/
theorem roundEntry_again {γ : ℝ} (hγ : 0 < γ) {b : ℕ} (hb : b ≤ 4) (e : PalEntry ℝ) (hf : e.pop.isFixed = true) :
    RGBA.Looks (PalF.roundEntry γ (UInt8.ofNat b) (PalF.roundEntry γ (UInt8.ofNat b) e).1).2 (PalF.roundEntry γ (UInt8.ofNat b) e).2 ∧
    (b = 0 → (PalF.roundEntry γ (UInt8.ofNat b) (PalF.roundEntry γ (UInt8.ofNat b) e).1).2 = (PalF.roundEntry γ (UInt8.ofNat b) e).2) := by
  have hkept : ∀ c : RGBA, (c.map fun v => PalF.posterizeChannel v (UInt8.ofNat b)).Kept (UInt8.ofNat b) := by
    intro c
    have h1 : ∀ v, PalF.posterizeChannel (PalF.posterizeChannel v (UInt8.ofNat b)) (UInt8.ofNat b) =
        PalF.posterizeChannel v (UInt8.ofNat b) := by
      intro v
      rw [← UInt8.toNat_inj]
      exact (C40_posterize_channel _ hb).2.2.2.1 (C40_posterize_channel v hb).1
    simp [RGBA.Kept, RGBA.map, h1]
  have hrep : (PalF.roundEntry γ (UInt8.ofNat b) e).2 =
      (e.color.toRgb γ).map fun v => PalF.posterizeChannel v (UInt8.ofNat b) := by
    unfold PalF.roundEntry
    dsimp only
    rw [if_neg (by simp [hf])]
  have hlook := (roundEntry_keeps hγ (hkept (e.color.toRgb γ)) (PalF.roundEntry γ (UInt8.ofNat b) e).1 rfl).2
  rw [hrep]
  refine ⟨hlook, fun h0 => ?_⟩
  rcases hlook with h | ⟨h1, h2⟩
  · exact h
  · -- both are fixed, transparent and not posterized
    subst h0
    have c1 := C41_transparent_partial [e] γ (b := 0) 0 e (PalF.roundEntry γ (UInt8.ofNat 0) e).2 rfl rfl (by rw [hrep]; exact h2) (.inl rfl)
    have c2 := C41_transparent_partial [(PalF.roundEntry γ (UInt8.ofNat 0) e).1] γ (b := 0) 0 (PalF.roundEntry γ (UInt8.ofNat 0) e).1
      (PalF.roundEntry γ (UInt8.ofNat 0) (PalF.roundEntry γ (UInt8.ofNat 0) e).1).2 rfl rfl h1 (.inl rfl)
    rw [hrep, hf] at c1
    rw [show (PalF.roundEntry γ (UInt8.ofNat 0) e).1.pop.isFixed = true from hf] at c2
    rw [c1, c2]

theorem userAttr_post_le (cs : List Call) : (Settings.default.after cs).minPosterization ≤ 4 := by
  unfold Settings.after
  have h0 : Settings.default.minPosterization ≤ 4 := by decide
  generalize Settings.default = s at h0 ⊢
  induction cs generalizing s with
  | nil => exact h0
  | cons c cs ih =>
    simp only [List.foldl_cons]
    apply ih
    cases c <;> simp only [Settings.call] <;> first | (split <;> simp [h0]; done) | simp [h0] | skip
    split
    next h => simpa using h
    · simpa using h0

/-- **C09** (exact arithmetic), `_partial`: the palette of a result of `Histogram::quantize` looks the same after any number
of remaps of any images, looks at the palette, level changes, clones and callbacks: entry by entry the reported colours are
equal, or both are fully transparent. Missing: the RGB channels of fully transparent entries can change if there is
posterization (`C09_does_not_hold`). -/
theorem C09_looks_partial {env : Env ℝ} {cs : List Call} {cb : Option (List ℝ → Bool)} {h : Histogram ℝ} {log log' : List ℝ}
    {q q' : QuantizationResult ℝ} (hh : UserHistogram h) (e : h.quantize env (userAttr cs cb) log = (.ok q, log')) (hu : Uses q q') :
    List.Forall₂ (fun c d => c = d ∨ (c.a = 0 ∧ d.a = 0)) q'.getPalette.2 q.getPalette.2 := by
  obtain ⟨h0, hf, hne, -, hg⟩ := FrozenState.new e
  have hγ : 0 < q.gamma := by
    rw [hg]
    cases hgm : h.gamma with
    | none => simp
    | some g => simpa using hh.gamma_pos g hgm
  have a : q.getPalette.2 = _ := ((h0.report hne).1).resolve_right (fun h => by cases h.1)
  rcases frozen_reports e hu with b | b
  · rw [b]; exact List.forall₂_same.mpr fun _ _ => .inl rfl
  · rw [a, b]
    simp only [PalF.conv, PalF.rounded, PalF.initIntPalette, List.map_map, List.forall₂_map_left_iff, List.forall₂_map_right_iff]
    exact List.forall₂_same.mpr fun x hx => (roundEntry_again hγ (userAttr_post_le cs) x (hf x hx)).1

/-- **C09** (exact arithmetic). Without posterization the reported palette is exactly the same. -/
theorem C09_frozen {env : Env ℝ} {cs : List Call} {cb : Option (List ℝ → Bool)} {h : Histogram ℝ} {log log' : List ℝ}
    {q q' : QuantizationResult ℝ} (hh : UserHistogram h) (e : h.quantize env (userAttr cs cb) log = (.ok q, log'))
    (hpost : (Settings.default.after cs).minPosterization = 0) (hu : Uses q q') :
    q'.getPalette.2 = q.getPalette.2 := by
  obtain ⟨h0, hf, hne, -, hg⟩ := FrozenState.new e
  have hγ : 0 < q.gamma := by
    rw [hg]
    cases hgm : h.gamma with
    | none => simp
    | some g => simpa using hh.gamma_pos g hgm
  have a : q.getPalette.2 = _ := ((h0.report hne).1).resolve_right (fun h => by cases h.1)
  rcases frozen_reports e hu with b | b
  · exact b
  · rw [a, b, hpost]
    simp only [PalF.conv, PalF.rounded, PalF.initIntPalette, List.map_map]
    exact List.map_congr_left fun x hx => (roundEntry_again hγ (le_refl 0 |>.trans (by omega)) x (hf x hx)).2 rfl

/-- quantization of a histogram of few colours, none of them fixed -/
theorem quantize_few_colors (env : Env ℝ) (cs : List Call) (hqual : (Settings.default.after cs).quality.2 = 100) (h : Histogram ℝ)
    (hne : h.hashmap ≠ []) (hfix : h.fixedColors = []) (hlen : h.hashmap.length ≤ (Settings.default.after cs).maxColors)
    (freeze : Bool) (log : List ℝ) :
    ∃ q, h.quantizeInternal env (userAttr cs none) freeze log = (.ok q, log) ∧
      (q.palette.map (·.color)).Perm (h.hashmap.map fun e => FPixel.fromRgba (gammaLut q.gamma) e.2.2) ∧
      q.gamma = h.gamma.getD (45455/100000) ∧ q.minPosterizationOutput = (Settings.default.after cs).minPosterization ∧
      q.progressCallback = none ∧ q.ditherLevel = 1 ∧ q.remapped = none ∧ q.intPalette = [] := by
  have hobs := C13_settings_registers_any_float (F := ℝ) cs
  simp only [Attr.observeInt, Attr.getMaxColors, Attr.getSpeed, Attr.getMinPosterization, Prod.mk.injEq] at hobs
  have hins : h.insertFixedColors env.ho = h.hashmap := by
    unfold Histogram.insertFixedColors
    rw [hfix]
    have : env.ho.set [] = [] := List.Perm.eq_nil (env.ho.set_perm [])
    rw [this]; rfl
  have hq := userAttr_quality (F := ℝ) cs none
  rw [after_quality_settings cs] at hqual
  have htarget : (userAttr (F := ℝ) cs none).targetMse = 0 := by
    rw [hq.2]
    cases hlq : lastQuality cs with
    | none => simp
    | some p =>
      rw [hlq] at hqual
      dsimp only
      rw [qualityToMse_spec, show p.2 = 100 from hqual]
      simp [qualityLimit]
  obtain ⟨hi, p, f1, f2, f3⟩ := quantize_few env (userAttr (F := ℝ) cs none) (userAttr_range (F := ℝ) cs none).2 rfl h freeze log (.inl hne)
    (by rw [hins, userAttr_maxColors]; exact hlen) (by rw [htarget]; simp) (by
      intro m hm'
      rw [hq.1] at hm'
      obtain ⟨qq, -, rfl⟩ := Option.map_eq_some_iff.mp hm'
      rw [qualityToMse_spec]
      have := qualityLimit_nonneg qq.1
      simp only [real_lit64, real_mul64, real_lt_false]
      push_cast
      positivity)
  obtain ⟨hi', src, g1, g2, g3, -⟩ := C44_clusters env.ho h (h.gamma.getD (lit64 (45455/100000)))
  rw [f1] at g1
  cases g1
  have hfixed : hi.fixedColors = [] := by
    obtain ⟨r, k1, -, -, -, k5⟩ := h.finalize_spec env.ho (h.gamma.getD (lit64 (45455/100000)))
    rw [f1] at k1
    cases k1
    rw [k5, hfix, List.Perm.eq_nil (env.ho.set_perm [])]
    simp
  rw [hfixed] at f2
  have hp : p = hi.items.map fun x => (⟨x.color, PalPop.new x.perceptualWeight⟩ : PalEntry ℝ) := by
    have : PalF.withFixedColors (hi.items.map fun x => (⟨x.color, PalPop.new x.perceptualWeight⟩ : PalEntry ℝ))
      (userAttr (F := ℝ) cs none).maxColors [] = .ok (hi.items.map fun x => (⟨x.color, PalPop.new x.perceptualWeight⟩ : PalEntry ℝ)) := rfl
    rw [this] at f2
    cases f2; rfl
  refine ⟨_, f3, ?_, by simp, hobs.2.2, rfl, by simp, rfl, rfl⟩
  dsimp only
  refine ((sortPalette_perm _ _).map _).trans ?_
  have hcol : (if freeze = true then p.map (fun e => { e with pop := e.pop.toFixed }) else p).map (·.color) = hi.items.map (·.color) := by
    rw [hp]
    split <;> simp [List.map_map, Function.comp_def]
  rw [hcol, g3, ← hins]
  refine (g2.map _).trans ?_
  rw [List.map_map]
  exact List.Perm.refl _

/-- **C09** does not hold with posterization: a palette entry of colour `(204, 204, 204, 1)`, posterized with 4 bits, is
reported as `(204, 204, 204, 0)` first, and as `(0, 0, 0, 0)` after an image was remapped. -/
theorem C09_does_not_hold : ∃ (env : Env ℝ) (cs : List Call) (h : Histogram ℝ) (q q' : QuantizationResult ℝ),
    UserHistogram h ∧ h.quantize env (userAttr cs none) [] = (.ok q, []) ∧ Uses q q' ∧
    q.getPalette.2 = [⟨204, 204, 204, 0⟩] ∧ q'.getPalette.2 = [⟨0, 0, 0, 0⟩] := by
  obtain ⟨h, eh⟩ : ∃ h, (Histogram.new (userAttr (F := ℝ) [.minPosterization 4] none)).addColors [(⟨204, 204, 204, 1⟩, 1)] 0 = .ok h := by
    unfold Histogram.addColors
    simp
  have huh : UserHistogram h := .colors (.new [.minPosterization 4] none) eh
  have hh : h.gamma = none ∧ h.fixedColors = [] ∧ ∃ k, h.hashmap = [(k, 1, ⟨204, 204, 204, 1⟩)] := by
    unfold Histogram.addColors at eh
    rw [if_neg (by simp), if_neg (by simp)] at eh
    dsimp only at eh
    rw [if_neg (by simp)] at eh
    cases eh
    exact ⟨rfl, rfl, _, rfl⟩
  obtain ⟨hg, hfx, k, hmap⟩ := hh
  obtain ⟨q, e, hpal, hγ, hpost, hcb, hl, hrem, hint⟩ := quantize_few_colors Env.simple [.minPosterization 4] (by decide) h
    (by rw [hmap]; simp) hfx (by rw [hmap]; show 1 ≤ _; decide) true []
  obtain ⟨h0, hf, hne, huq, -⟩ := FrozenState.new (show h.quantize Env.simple (userAttr [.minPosterization 4] none) [] = (.ok q, []) from e)
  rw [hmap] at hpal
  simp only [List.map_cons, List.map_nil] at hpal
  have hpal' := List.perm_singleton.mp hpal
  obtain ⟨en, hen⟩ : ∃ en, q.palette = [en] := List.length_eq_one_iff.mp (by simpa using congrArg List.length hpal')
  rw [hen] at hpal'
  simp only [List.map_cons, List.map_nil, List.cons.injEq, and_true] at hpal'
  have hγ0 : 0 < q.gamma := by rw [hγ, hg]; norm_num
  have hfix : en.pop.isFixed = true := hf en (by rw [hen]; simp)
  have hset : (Settings.default.after [.minPosterization 4]).minPosterization = 4 := by decide
  have hr : PalF.roundEntry q.gamma (UInt8.ofNat 4) en =
      (⟨FPixel.fromRgba (gammaLut q.gamma) ⟨204, 204, 204, 0⟩, en.pop⟩, ⟨204, 204, 204, 0⟩) := by
    unfold PalF.roundEntry
    dsimp only
    rw [hpal', toRgb_fromRgba hγ0 _ (by decide), if_neg (by simp [hfix])]
    have : (⟨204, 204, 204, 1⟩ : RGBA).map (fun c => PalF.posterizeChannel c (UInt8.ofNat 4)) = ⟨204, 204, 204, 0⟩ := by decide
    rw [this]
  have hr2 : (PalF.roundEntry q.gamma (UInt8.ofNat 4) (⟨FPixel.fromRgba (gammaLut q.gamma) ⟨204, 204, 204, 0⟩, en.pop⟩ : PalEntry ℝ)).2 =
      ⟨0, 0, 0, 0⟩ := by
    unfold PalF.roundEntry
    dsimp only
    rw [fromRgba_transparent _ _ rfl, toRgb_transparent, if_neg (by simp [hfix])]
    decide
  obtain ⟨img, ei⟩ : ∃ img : Image ℝ, Image.newFn (fun _ _ => ⟨0, 0, 0, 0⟩) 1 1 0 = .ok img := by
    unfold Image.newFn Image.newInternal Image.toU32
    simp [Image.checkImageSize, Bind.bind, Except.bind]
    norm_num
  have hui : UserImage img := .fromCallback ei
  have hm : MadeFacts _ 1 1 img := Made.facts (.inl ei)
  have hgp : q.getPalette = ({ q with palette := q.palette.rounded q.gamma 4, intPalette := q.palette.conv q.gamma 4 },
      q.palette.conv q.gamma 4) := by
    unfold QuantizationResult.getPalette
    rw [hrem, hint, hpost, hset]
    rfl
  have hok := C48_succeeds (RemapEnv.simple : RemapEnv ℝ) huq.palette hui [none] [] (by rw [hm.width_, hm.height_]; simp)
    (by rw [hgp]; exact hcb) (fun x => by simp)
  refine ⟨Env.simple, [.minPosterization 4], h, q, _, huh, e, .remap RemapEnv.simple [none] [] (.palette (.refl q)) hui, ?_, ?_⟩
  · rw [hgp]
    simp only [PalF.conv, PalF.initIntPalette, hen, List.map_cons, List.map_nil, hr]
  · rcases remapInto_frozen RemapEnv.simple huq.palette.good hui.good (by rw [hgp]; exact hf.rounded _ _) [none] [] with ⟨h1, _⟩ | ⟨err, h1⟩
    · exact absurd hok h1
    · rw [h1]
      show (q.getPalette.1.palette.conv q.getPalette.1.gamma q.getPalette.1.minPosterizationOutput) = _
      rw [hgp]
      simp only [PalF.rounded, PalF.conv, PalF.initIntPalette, hen, List.map_cons, List.map_nil, hpost, hset, hr, hr2]

/-- the hypotheses of `C09_frozen` can be met, by a result that is looked at, remapped, and looked at again -/
example : ∃ (h : Histogram ℝ) (q q' : QuantizationResult ℝ), UserHistogram h ∧
    h.quantize Env.simple (userAttr [] none) [] = (.ok q, []) ∧ (Settings.default.after []).minPosterization = 0 ∧
    Uses q q' ∧ q'.remapped.isSome = true := by
  obtain ⟨h, eh⟩ : ∃ h, (Histogram.new (userAttr (F := ℝ) [] none)).addColors [(⟨204, 204, 204, 1⟩, 1), (⟨1, 2, 3, 4⟩, 5)] 0 = .ok h := by
    unfold Histogram.addColors
    simp
  have hh : h.fixedColors = [] ∧ h.hashmap ≠ [] ∧ h.hashmap.length ≤ 256 := by
    unfold Histogram.addColors at eh
    rw [if_neg (by simp), if_neg (by simp)] at eh
    dsimp only at eh
    rw [if_neg (by simp)] at eh
    cases eh
    refine ⟨rfl, ?_, ?_⟩ <;> simp [Histogram.addColor, Histogram.new, ColorMap.upsert] <;> split <;> simp
  obtain ⟨q, e, -, -, -, hcb, -, hrem, hint⟩ := quantize_few_colors Env.simple [] (by decide) h hh.2.1 hh.1 hh.2.2 true []
  have huq : UserResult q := .quantized _ [] none h true _ _ e
  obtain ⟨img, ei⟩ : ∃ img : Image ℝ, Image.newFn (fun _ _ => ⟨0, 0, 0, 0⟩) 1 1 0 = .ok img := by
    unfold Image.newFn Image.newInternal Image.toU32
    simp [Image.checkImageSize, Bind.bind, Except.bind]
    norm_num
  have hui : UserImage img := .fromCallback ei
  have hm : MadeFacts _ 1 1 img := Made.facts (.inl ei)
  obtain ⟨h0, hf, hne, -⟩ := FrozenState.new (show h.quantize Env.simple (userAttr [] none) [] = (.ok q, []) from e)
  have hgp : q.getPalette.1.progressCallback = none ∧ q.getPalette.1.palette.Frozen := by
    obtain ⟨s, hs⟩ := (h0.report hne).2
    refine ⟨?_, hs.frozen hf⟩
    unfold QuantizationResult.getPalette
    rw [hrem, hint]
    exact hcb
  have hok := C48_succeeds (RemapEnv.simple : RemapEnv ℝ) huq.palette hui [none] [] (by rw [hm.width_, hm.height_]; simp)
    hgp.1 (fun x => by simp)
  refine ⟨h, q, _, .colors (.new [] none) eh, e, by decide, .palette (.remap RemapEnv.simple [none] [] (.palette (.refl q)) hui), ?_⟩
  rcases remapInto_frozen RemapEnv.simple huq.palette.good hui.good hgp.2 [none] [] with ⟨h1, _⟩ | ⟨err, h1⟩
  · exact absurd hok h1
  · rw [h1]; rfl

end Verif
