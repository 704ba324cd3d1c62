import Verif.Lemmas.FiniteRemapPalette
import Verif.Props.FiniteRemap
import Verif.Props.OpaqueRounded

/-! # C77 and C78: what was said about palettes stays true when they are used -/

set_option linter.unusedSectionVars false

namespace Verif
open Flt Spec

section rounded
variable {F : Type} [Flt F] [FltMin F] [FltSign F]
open FltRound

/-- What a caller can do with a result when all the images it is applied to have only pixels with `Q`, a usual gamma and fewer
than 2³² pixels, and only usual output gammas are set. -/
inductive Spec.UsedOn (Q : RGBA → Prop) (q0 : QuantizationResult F) : QuantizationResult F → Prop
  | start : UsedOn Q q0 q0
  | remap {q : QuantizationResult F} {img : Image F} {f : ℕ → ℕ → RGBA} (env : RemapEnv F) (buf : List (Option UInt8))
      (log : List F) : UsedOn Q q0 q → UserImage img → UsualImage img → img.px.Shows f →
      (∀ y < img.height, ∀ x < img.width, Q (f y x)) → UsedOn Q q0 (remapInto env q img buf log).quant
  | level {q q' : QuantizationResult F} {v : F} : UsedOn Q q0 q → q.setDitheringLevel v = .ok q' → UsedOn Q q0 q'
  | gamma {q q' : QuantizationResult F} {v : F} : UsedOn Q q0 q → UsualGamma v → q.setOutputGamma v = .ok q' → UsedOn Q q0 q'
  | callback {q : QuantizationResult F} (cb : Option (List F → Bool)) :
      UsedOn Q q0 q → UsedOn Q q0 { q with progressCallback := cb }
  | clone {q : QuantizationResult F} : UsedOn Q q0 q → UsedOn Q q0 q.clone
  | palette {q : QuantizationResult F} : UsedOn Q q0 q → UsedOn Q q0 q.getPalette.1

theorem Spec.UsedOn.user {Q : RGBA → Prop} {q0 q : QuantizationResult F} (hq : UserResult q0) (h : UsedOn Q q0 q) : UserResult q := by
  induction h with
  | start => exact hq
  | remap env buf log _ hi _ _ _ ih => exact .remap env buf log ih hi
  | level _ e ih => exact .level ih e
  | gamma _ _ e ih => exact .gamma ih e
  | callback cb _ ih => exact .callback cb ih
  | clone _ ih => exact .clone ih
  | palette _ ih => exact .palette ih

/-- finite palettes, and opaque ones if `op` -/
structure UsedState (op : Prop) (err : Option F) (q : QuantizationResult F) : Prop where
  gamma : UsualGamma q.gamma
  post : q.minPosterizationOutput ≤ 4
  palette : PalFin op q.palette
  int : op → ∀ c ∈ q.intPalette, c.a = 255
  remapped : ∀ re, q.remapped = some re → op → ∀ c ∈ re.intPalette, c.a = 255
  error : q.paletteError = err
  measured : ∀ re, q.remapped = some re → ∀ e, re.paletteError = some e → NN 100 e ∨ err = some e

theorem initInt_solid {op : Prop} {p : PalF F} (hp : PalFin op p) (γ : F) {b : ℕ} (hb : b ≤ 4) (ho : op) :
    ∀ c ∈ (p.initIntPalette γ (UInt8.ofNat b)).2, c.a = 255 := by
  intro c hc
  obtain ⟨x, hx, rfl⟩ := List.mem_map.1 hc
  obtain ⟨⟨hx1, -⟩, hx2⟩ := hp x hx
  exact roundEntry_solid hx1 (hx2 ho) γ hb

theorem initInt_fin {op : Prop} {p : PalF F} (hp : PalFin op p) {γ : F} (hγ : UsualGamma γ) {b : ℕ} (hb : b ≤ 4) :
    PalFin op (p.initIntPalette γ (UInt8.ofNat b)).1 := by
  intro e he
  have h1 := initIntPalette_unitFin p hγ (UInt8.ofNat b) e he
  obtain ⟨x, hx, rfl⟩ := List.mem_map.1 he
  obtain ⟨⟨hx1, hx2⟩, hx3⟩ := hp x hx
  refine ⟨⟨h1, hx2⟩, fun ho => ?_⟩
  have ha := toRgb_solid hx1 (hx3 ho) γ
  have h255 : ∀ b : Fin 5, PalF.posterizeChannel 255 (UInt8.ofNat b) = 255 := by decide +kernel
  have hc : ((x.color.toRgb γ).map (fun c => PalF.posterizeChannel c (UInt8.ofNat b))).a = 255 := by
    show PalF.posterizeChannel (x.color.toRgb γ).a (UInt8.ofNat b) = 255
    rw [ha]
    exact h255 ⟨b, by omega⟩
  have := fromRgba_solid (gamma := γ) hc
  exact palLo_le.trans this

theorem shows_sound {op : Prop} {Q : RGBA → Prop} (hQ : op → ∀ c, Q c → c.a = 255) {r : Rows F} {f : ℕ → ℕ → RGBA} (h : r.Shows f)
    (hγ : UsualGamma r.gamma) (hf : ∀ y < r.height, ∀ x < r.width, Q (f y x)) : r.Sound op := by
  intro y hy c hc
  unfold Rows.pixelsF at hc
  rw [h y hy] at hc
  simp only [List.mem_map, List.mem_range] at hc
  obtain ⟨x, hx, rfl⟩ := hc
  exact ⟨fromRgba_unitFin hγ _, fun ho => fromRgba_solid (hQ ho _ (hf y hy x hx))⟩

theorem Rows.Sound.same {op : Prop} {r r' : Rows F} (h : r.Sound op) (s : Rows.Same r r') : r'.Sound op := by
  intro y hy c hc
  rw [s.height] at hy
  rw [s.pixelsF hy] at hc
  exact h y hy c hc

theorem Spec.UsedOn.state {op : Prop} {Q : RGBA → Prop} (hQ : op → ∀ c, Q c → c.a = 255) {err : Option F} {q0 q : QuantizationResult F}
    (hq : UserResult q0) (h0 : UsedState op err q0) (h : UsedOn Q q0 q) : UsedState op err q := by
  induction h with
  | start => exact h0
  | @remap q img f env buf log hc hi hu hs hf ih =>
    have huser := hc.user hq
    have good := huser.good
    have hmeasure := C77_remap_error env huser hi hu ih.gamma (.inr fun x hx =>
      let ⟨⟨h, _⟩, _⟩ := ih.palette x hx
      ⟨⟨h.a.fin, h.a.lo, h.a.hi⟩, ⟨h.r.fin, h.r.lo, h.r.hi⟩, ⟨h.g.fin, h.g.lo, h.g.hi⟩, ⟨h.b.fin, h.b.lo, h.b.hi⟩⟩) buf log
    rcases remapInto_quant env good hi.good buf log with ⟨_, e⟩ | ⟨hok, p, err', hp, e⟩
    · rw [e]; exact ih
    · obtain ⟨re0, hre0, hme⟩ := hmeasure hok
      rw [e] at hre0 ⊢
      simp only [Option.some.injEq] at hre0
      refine ⟨ih.gamma, ih.post, ih.palette, ih.int, fun re hre ho => ?_, ih.error, fun re hre x hx => ?_⟩
      · simp only [Option.some.injEq] at hre
        rw [← hre]
        dsimp only
        have hpP : PalFin op p := by
          rcases hp with rfl | ⟨_, px, hsame, rfl⟩
          · exact ih.palette
          · have hsnd : px.Sound op := (shows_sound hQ hs hu.gamma hf).same hsame
            have hw : px.width = img.width := hsame.width
            have hh : px.height = img.height := hsame.height
            have := remapToPalette_pal env (px := px) img.importanceMap good.pos good.le ih.palette (hsame.readable hi.good.px) hsnd
              (by rw [hw]; exact hi.good.width_pos) (by rw [hw, hh]; exact hu.area.le)
            rwa [hh] at this
        exact initInt_solid hpP _ ih.post ho
      · simp only [Option.some.injEq] at hre
        rw [← hre] at hx
        rw [← hre0] at hme
        rcases hme x hx with h | ⟨-, h⟩
        · exact .inl ⟨h.1, h.2.1, h.2.2⟩
        · exact .inr (by rw [← ih.error]; exact h)
  | level _ e ih =>
    unfold QuantizationResult.setDitheringLevel at e
    split at e <;> cases e
    exact ⟨ih.1, ih.2, ih.3, ih.4, (fun re hre => by cases hre), ih.6, (fun re hre => by cases hre)⟩
  | gamma _ hg e ih =>
    unfold QuantizationResult.setOutputGamma at e
    split at e <;> cases e
    exact ⟨hg, ih.2, ih.3, ih.4, (fun re hre => by cases hre), ih.6, (fun re hre => by cases hre)⟩
  | callback cb _ ih => exact ⟨ih.1, ih.2, ih.3, ih.4, ih.5, ih.6, ih.7⟩
  | clone _ ih => exact ⟨ih.1, ih.2, ih.3, ih.4, ih.5, ih.6, ih.7⟩
  | @palette q _ ih =>
    unfold QuantizationResult.getPalette
    cases hre : q.remapped with
    | some re => exact ih
    | none =>
      dsimp only
      split
      · exact ⟨ih.1, ih.2, initInt_fin ih.palette ih.gamma ih.post, initInt_solid ih.palette _ ih.post, (fun re h => by cases h), ih.6,
          (fun re h => by cases h)⟩
      · exact ih

theorem UsedState.report {op : Prop} {err : Option F} {q : QuantizationResult F} (h : UsedState op err q) (ho : op) :
    ∀ c ∈ q.getPalette.2, c.a = 255 := by
  unfold QuantizationResult.getPalette
  cases hre : q.remapped with
  | some re => exact h.remapped re hre ho
  | none =>
    dsimp only
    split
    · exact initInt_solid h.palette _ h.post ho
    · exact h.int ho

theorem quantized_state {op : Prop} {h : Histogram F} (hu : UserHistogram h) (hs : UsualSize h) (env : Env F) (cs : List Call)
    (cb : Option (List F → Bool)) (hspeed : FastEnough h cs) (freeze : Bool)
    {log log' : List F} {r : QuantizationResult F} (e : h.quantizeInternal env (userAttr cs cb) freeze log = (.ok r, log'))
    (hop : op → OnlyGiven (fun c => c.a = 255) h ∧ HasCount h ∧ (coloursOf h).card ≤ 2 ^ 14) : UsedState op r.paletteError r := by
  obtain ⟨hp, -⟩ := quantized_fin (op := op) hu hs env cs cb (rounds_of_speed hspeed cb) freeze e
    fun ho => ⟨(hop ho).2.1, (hop ho).2.2, (insertFixedColors_holds (hop ho).1.holds env.ho).1, (hop ho).1.holds.fixed⟩
  obtain ⟨-, h1, h2⟩ := quantize_good env cs cb h freeze log log' e
  refine ⟨?_, ?_, hp, by simp [h2], (fun re hre => by rw [h1] at hre; cases hre), rfl, (fun re hre => by rw [h1] at hre; cases hre)⟩
  · rw [(quantized_gamma e).1]; exact hs.gamma
  · have : r.minPosterizationOutput = (userAttr (F := F) cs cb).minPosterizationOutput := by
      rcases user_outcome env cs cb h freeze log with ⟨-, -, e'⟩ | ⟨-, e'⟩
      · rw [e] at e'; cases e'
      · rw [e] at e'
        cases e' with
        | ok _ _ _ _ hr => rw [hr.rest]
    rw [this]
    exact userAttr_posterization cs cb

/-- **C78** (arithmetic with rounding). As `C78_opaque_partial`, and also after any number of remaps of opaque images, with or
without dithering, and other uses: every colour that is reported is opaque. The full claim has neither the limit on the colours
nor the one on the speed. -/
theorem C78_used_partial {h : Histogram F} (hg : OnlyGiven (fun c => c.a = 255) h) (hu : UserHistogram h)
    (hs : UsualSize h) (hc : HasCount h) (hn : (coloursOf h).card ≤ 2 ^ 14) (env : Env F) (cs : List Call)
    (cb : Option (List F → Bool)) (hspeed : FastEnough h cs) (freeze : Bool)
    {log log' : List F} {r q : QuantizationResult F} (e : h.quantizeInternal env (userAttr cs cb) freeze log = (.ok r, log'))
    (hq : UsedOn (fun c => c.a = 255) r q) : ∀ c ∈ q.getPalette.2, c.a = 255 :=
  (hq.state (op := True) (fun _ _ h => h) (.quantized env cs cb h freeze log log' e)
    (quantized_state hu hs env cs cb hspeed freeze e fun _ => ⟨hg, hc, hn⟩)).report trivial

/-- **C77** (arithmetic with rounding). Whatever is done with a result that was quantized at speed 5 or above, or at
speed 4, the default (see `FastEnough`), its palette
consists of finite numbers, and the error that is reported for a remap is finite if that of the palette is. The full claim has
no limit on the speed. -/
theorem C77_used_partial {h : Histogram F} (hu : UserHistogram h) (hs : UsualSize h) (env : Env F) (cs : List Call)
    (cb : Option (List F → Bool)) (hspeed : FastEnough h cs) (freeze : Bool)
    {log log' : List F} {r q : QuantizationResult F} (e : h.quantizeInternal env (userAttr cs cb) freeze log = (.ok r, log'))
    (hq : UsedOn (fun _ => True) r q) :
    (∀ x ∈ q.palette, Share x.color.a ∧ Share x.color.r ∧ Share x.color.g ∧ Share x.color.b ∧ fin x.pop.val) ∧
    ∀ re, q.remapped = some re → ∀ x, re.paletteError = some x → (fin x ∧ 0 ≤ val x ∧ val x ≤ 100) ∨ r.paletteError = some x := by
  have s := hq.state (op := False) (fun h => h.elim) (.quantized env cs cb h freeze log log' e)
    (quantized_state hu hs env cs cb hspeed freeze e fun h => h.elim)
  refine ⟨fun x hx => ?_, fun re hre x hx => ?_⟩
  · obtain ⟨⟨h, hpop⟩, -⟩ := s.palette x hx
    exact ⟨⟨h.a.fin, h.a.lo, h.a.hi⟩, ⟨h.r.fin, h.r.lo, h.r.hi⟩, ⟨h.g.fin, h.g.lo, h.g.hi⟩, ⟨h.b.fin, h.b.lo, h.b.hi⟩, hpop⟩
  · rcases s.measured re hre x hx with h | h
    · exact .inl ⟨h.fin, h.lo, h.hi⟩
    · exact .inr h

/-- **C77** (arithmetic with rounding): as above, and if some colour that is not fixed has a count, the error that is reported
for a remap is finite. -/
theorem C77_used_counted_partial {h : Histogram F} (hu : UserHistogram h) (hs : UsualSize h) (hc : HasCount h) (env : Env F)
    (cs : List Call) (cb : Option (List F → Bool)) (hspeed : FastEnough h cs) (freeze : Bool)
    {log log' : List F} {r q : QuantizationResult F} (e : h.quantizeInternal env (userAttr cs cb) freeze log = (.ok r, log'))
    (hq : UsedOn (fun _ => True) r q) : ∀ re, q.remapped = some re → ∀ x, re.paletteError = some x → fin x ∧ 0 ≤ val x := by
  intro re hre x hx
  rcases (C77_used_partial hu hs env cs cb hspeed freeze e hq).2 re hre x hx with h | h
  · exact ⟨h.1, h.2.1⟩
  · exact (C77_finite_fast_partial hu hs env cs cb hspeed freeze e).2 hc x h

/-- **C48** (arithmetic with rounding): what was quantized can be remapped after any use as well. -/
theorem C48_used_rounded {h : Histogram F} (hu : UserHistogram h) (hs : UsualSize h) (env : Env F) (cs : List Call)
    (cb : Option (List F → Bool)) (hspeed : FastEnough h cs) (freeze : Bool)
    {log log' : List F} {r q : QuantizationResult F} (e : h.quantizeInternal env (userAttr cs cb) freeze log = (.ok r, log'))
    (hq : UsedOn (fun _ => True) r q) (hcb : q.progressCallback = none) {img : Image F} (hi : UserImage img) (hui : UsualImage img)
    (renv : RemapEnv F) (buf : List (Option UInt8)) (log2 : List F) (hb : img.width * img.height ≤ buf.length) :
    (remapInto renv q img buf log2).res = .ok () := by
  have hr : UserResult r := .quantized env cs cb h freeze log log' e
  have s := hq.state (op := False) (fun h => h.elim) hr (quantized_state hu hs env cs cb hspeed freeze e fun h => h.elim)
  have hp : UnitColours q.palette := by
    intro x hx
    obtain ⟨a, b, c, d, -⟩ := (C77_used_partial hu hs env cs cb hspeed freeze e hq).1 x hx
    exact ⟨a, b, c, d⟩
  obtain ⟨new, -, h | ⟨-, -, f, hf, -⟩⟩ := C48_outcomes_rounded renv (hq.user hr) hi hui s.gamma (.inr hp) buf log2 hb
  · exact h.1
  · rw [hcb] at hf; cases hf

end rounded

/-- hypotheses of the theorems above, for an arithmetic in which operations round and overflow: a palette of opaque colours that
was used for a dithered remap of an opaque image -/
example : ∃ (h : Histogram Over) (r q : _) (log : _), OnlyGiven (fun c => c.a = 255) h ∧ UserHistogram h ∧ UsualSize h ∧ HasCount h ∧
    (coloursOf h).card ≤ 2 ^ 14 ∧ FastEnough h [.speed 4, .maxColors 2] ∧
    h.quantizeInternal Env.simple (userAttr [.speed 4, .maxColors 2] none) true [] = (.ok r, log) ∧
    UsedOn (fun c => c.a = 255) r q ∧ q.remapped.isSome := by
  obtain ⟨h, hg, hu, hs, hc, h3, key⟩ := opaque_case (F := Over)
  obtain ⟨r, log, e⟩ := key 4
  obtain ⟨img, i1, i2, i3, i4, i5, i6⟩ := usual_image (F := Over) fun _ _ => ⟨10, 20, 30, 255⟩
  have hr : UserResult r := .quantized _ _ _ _ _ _ _ e
  have hok := C48_quantized_rounded hu hs Env.simple _ none (.inr ⟨by decide, hc.counted, hc.counts⟩) true e hr rfl (quantized_gamma e).2
    (by rw [(quantized_gamma e).1]; exact hs.gamma) i1 i2 RemapEnv.simple (List.replicate 6 none) [] (by simp [i3, i4])
  obtain ⟨re, h1, -⟩ := C36_succeeded RemapEnv.simple hr i1 (List.replicate 6 none) [] hok
  exact ⟨h, r, _, log, hg, hu, hs, hc.counted, by rw [h3]; norm_num, .inr ⟨by decide, hc.counted, hc.counts⟩, e,
    .remap RemapEnv.simple (List.replicate 6 none) [] .start i1 i2 i6 (fun _ _ _ _ => rfl), by rw [h1]; rfl⟩

end Verif
