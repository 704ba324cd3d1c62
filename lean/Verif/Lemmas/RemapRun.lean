import Verif.Lemmas.RemapDither
import Verif.Lemmas.DitherMap

/-! # A whole remap, for any float arithmetic: it never panics, what it changes and what it writes -/

set_option linter.unusedSectionVars false

namespace Verif
open Flt

variable {F : Type} [Flt F]

/-- the log grew by values that satisfy `P` -/
def Logged (P : F → Prop) (a b : List F) : Prop := ∃ new, b = a ++ new ∧ ∀ v ∈ new, P v

theorem Logged.refl (P : F → Prop) (a : List F) : Logged P a a := ⟨[], by simp, fun v h => by cases h⟩

theorem Logged.trans {P : F → Prop} {a b c : List F} (h : Logged P a b) (k : Logged P b c) : Logged P a c := by
  obtain ⟨n, rfl, hn⟩ := h
  obtain ⟨m, rfl, hm⟩ := k
  exact ⟨n ++ m, by simp, fun v hv => (List.mem_append.mp hv).elim (hn v) (hm v)⟩

theorem reported_logged {P : F → Prop} (cb : Option (List F → Bool)) (log : List F) {v : F} (h : P v) :
    Logged P log (reported cb log v) := by
  unfold reported
  cases cb with
  | none => exact Logged.refl P log
  | some f => exact ⟨[v], rfl, fun w hw => by rw [List.mem_singleton.mp hw]; exact h⟩

/-- the values a remap may report -/
def RemapReport (mode : DitherMapMode) (height : ℕ) (v : F) : Prop :=
  v = lit32 (remapStage1 mode) *₃ lit32 (1/4) ∨ v = lit32 (remapStage1 mode) *₃ lit32 (1/2) ∨
  ∃ start < height, v = ditherProgress (remapStage1 mode) start height

theorem floydChunks_log {ctx : DitherCtx F} {inp : DitherInput F} (cb : Option (List F → Bool)) (mode : DitherMapMode)
    (chunks : List (List (List (Option UInt8)))) (start : ℕ) (log : List F)
    (hne : ∀ c ∈ chunks, c ≠ []) (hs : start + chunks.flatten.length ≤ inp.px.height) :
    Logged (RemapReport mode inp.px.height) log (floydChunks ctx inp cb (remapStage1 mode) start chunks log).2 := by
  induction chunks generalizing start log with
  | nil => exact Logged.refl _ _
  | cons c cs ih =>
    have hcl : 0 < c.length := List.length_pos_iff.mpr (hne c (by simp))
    simp only [List.flatten_cons, List.length_append] at hs
    unfold floydChunks
    cases warmUp ctx inp start with
    | error e => exact Logged.refl _ _
    | ok du =>
      obtain ⟨d, u⟩ := du
      simp only
      rw [progress_eq]
      have hl : Logged (RemapReport mode inp.px.height) log
          (reported cb log (ditherProgress (remapStage1 mode) start inp.px.height)) :=
        reported_logged cb log (.inr (.inr ⟨start, by omega, rfl⟩))
      cases answered cb (reported cb log (ditherProgress (remapStage1 mode) start inp.px.height)) with
      | true => exact hl
      | false =>
        simp only
        cases ditherRows ctx inp d start c with
        | error e => exact hl
        | ok r => exact hl.trans (ih _ _ (fun x hx => hne x (by simp [hx])) (by omega))

theorem Image.Good.change {img : Image F} (hg : img.Good) {px : Rows F} {bg : Option (Rows F)} (h : Rows.Same img.px px)
    (hb : BgSame img.background bg) : ({ img with px := px, background := bg } : Image F).Good := by
  have hbg : BgGood img.px img.background := fun b hb => hg.background b hb
  refine ⟨h.readable hg.px, ?_, ?_, ?_, ?_, ?_, ?_⟩
  · show 0 < px.width; rw [h.width]; exact hg.width_pos
  · show 0 < px.height; rw [h.height]; exact hg.height_pos
  · intro m hm; show _ = px.width * px.height; rw [h.width, h.height]; exact hg.importance m hm
  · intro m hm; show _ = px.width * px.height; rw [h.width, h.height]; exact hg.edges m hm
  · intro m hm; show _ = px.width * px.height; rw [h.width, h.height]; exact hg.ditherMap m hm
  · exact hb.good h hbg

theorem Image.Good.bg {img : Image F} (hg : img.Good) : BgGood img.px img.background := fun b hb => hg.background b hb

/-- rows of the size of the image -/
def OutGood (img : Image F) (out : List (List (Option UInt8))) : Prop := out.length = img.height ∧ RowsLen img.width out

/-- what any part of a remap leaves alone -/
structure RemapKeeps (s s' : RemapState F) : Prop where
  good : s'.image.Good
  samePx : Rows.Same s.image.px s'.image.px
  sameBg : BgSame s.image.background s'.image.background
  fixed : s'.image.fixedColors = s.image.fixedColors
  quant : s'.quant = s.quant
  out : OutGood s'.image s'.out
  log : Logged (RemapReport s.quant.useDitherMap s.image.height) s.log s'.log

theorem OutGood.same {img img' : Image F} {out : List (List (Option UInt8))} (h : OutGood img out)
    (s : Rows.Same img.px img'.px) : OutGood img' out := by
  refine ⟨?_, ?_⟩
  · show _ = img'.px.height; rw [s.height]; exact h.1
  · show RowsLen img'.px.width out; rw [s.width]; exact h.2

theorem RemapKeeps.refl {s : RemapState F} (hg : s.image.Good) (ho : OutGood s.image s.out) : RemapKeeps s s :=
  ⟨hg, Rows.Same.refl _, BgSame.refl _, rfl, rfl, ho, Logged.refl _ _⟩

theorem RemapKeeps.trans {a b c : RemapState F} (h : RemapKeeps a b) (k : RemapKeeps b c) : RemapKeeps a c := by
  refine ⟨k.good, h.samePx.trans k.samePx, h.sameBg.trans k.sameBg, k.fixed.trans h.fixed, k.quant.trans h.quant, k.out, ?_⟩
  have := k.log
  rw [h.quant, show b.image.height = a.image.height from h.samePx.height] at this
  exact h.log.trans this

/-- every output byte has been written and is smaller than `n` -/
def AllWritten (n : ℕ) (out : List (List (Option UInt8))) : Prop := ∀ row ∈ out, Written n row

/-- the rows an undithered remap writes, as output memory -/
theorem PlainSpec.out {img : Image F} {bg : Option (Rows F)} {p : PalF F} {res : Res F} {r : RemapOut F}
    {out : List (List (Option UInt8))} (h : PlainSpec img.px bg img.height p res r) (hg : img.Good) (hp : 0 < p.length) :
    OutGood img (writeRows r.rows out) ∧ AllWritten p.length (writeRows r.rows out) ∧
    ∃ rows, r.rows = some rows ∧ rows.length = img.height ∧
      ∀ row ∈ rows, row.length = img.width ∧ ∀ b ∈ row, b.toNat < p.length := by
  obtain ⟨n, rows, hn, hr, hl, hy⟩ := h.rows
  have hbytes : ∀ row ∈ rows, row.length = img.width ∧ ∀ b ∈ row, b.toNat < p.length := by
    intro row hrow
    obtain ⟨y, hy', rfl⟩ := List.mem_iff_getElem.mp hrow
    have spec := hy y _ (List.getElem?_eq_getElem hy')
    refine ⟨spec.len, fun b hb => ?_⟩
    obtain ⟨x, hx, rfl⟩ := List.mem_iff_getElem.mp hb
    have hx' : x < (img.px.pixelsF y).length := by
      rw [(hg.px.rowF (show y < img.px.height by rw [hl] at hy'; exact hy')).2, ← spec.len]; exact hx
    obtain ⟨hint, _, hh⟩ := spec.val x _ (List.getElem?_eq_getElem hx')
    rw [List.getElem?_eq_getElem hx] at hh
    simp only [Option.some.injEq] at hh
    rw [hh]
    refine plainByte_lt hn ?_ _ _ _
    rcases pickBackground_cases n bg with ⟨b, _, _, e⟩ | ⟨_, e⟩
    · rw [e]; exact transparentIndex_lt hn
    · rw [e]; exact hp
  refine ⟨⟨?_, ?_⟩, ?_, rows, hr, hl, hbytes⟩
  · rw [hr]; simp [writeRows, hl]
  · rw [hr]
    intro row hrow
    simp only [writeRows, List.mem_map] at hrow
    obtain ⟨r0, h0, rfl⟩ := hrow
    simpa using (hbytes r0 h0).1
  · rw [hr]
    intro row hrow o ho
    simp only [writeRows, List.mem_map] at hrow
    obtain ⟨r0, h0, rfl⟩ := hrow
    obtain ⟨b, hb, rfl⟩ := List.mem_map.mp ho
    exact ⟨b, rfl, (hbytes r0 h0).2 b hb⟩

theorem initIntPalette_length (p : PalF F) (g : F) (b : UInt8) :
    (p.initIntPalette g b).1.length = p.length ∧ (p.initIntPalette g b).2.length = p.length := by
  simp [PalF.initIntPalette]

/-- how a remap can end, depending on the answers of the callback between the two logs -/
def RemapOutcome {α : Type} (cb : Option (List F → Bool)) (log log' : List F) (res : Res α) : Prop :=
  ((∃ a, res = .ok a) ∧ Ends cb log log' false) ∨ (res = .error (.err .aborted) ∧ Ends cb log log' true) ∨
  (res = .error (.err .outOfMemory) ∧ Ends cb log log' false ∧ ∃ x : F, isNan x = true)

theorem RemapOutcome.trans {α β : Type} {cb : Option (List F → Bool)} {a b c : List F} {x : Res α} {y : Res β}
    (h : Ends cb a b false) (k : RemapOutcome cb b c x) (h1 : (∃ a, x = .ok a) → ∃ b, y = .ok b)
    (h2 : ∀ e, x = .error e → y = .error e) : RemapOutcome cb a c y := by
  rcases k with ⟨k1, k2⟩ | ⟨k1, k2⟩ | ⟨k1, k2, k3⟩
  · exact .inl ⟨h1 k1, h.trans k2⟩
  · exact .inr (.inl ⟨h2 _ k1, h.trans k2⟩)
  · exact .inr (.inr ⟨h2 _ k1, h.trans k2, k3⟩)

theorem remapPlain_spec (env : RemapEnv F) {s : RemapState F} (hg : s.image.Good) (ho : OutGood s.image s.out)
    (hp0 : 0 < s.quant.palette.length) (hp : s.quant.palette.length ≤ 256) :
    let r := remapPlain env s
    RemapKeeps s r.2 ∧ RemapOutcome s.quant.progressCallback s.log r.2.log r.1 ∧
    AllWritten s.quant.palette.length r.2.out ∧ r.2.uninit = s.uninit ∧
    r.2.log = s.log ∧
    r.2.image.importanceMap = s.image.importanceMap ∧ r.2.image.edges = s.image.edges ∧
    r.2.image.ditherMap = s.image.ditherMap ∧
    ∀ re, r.1 = .ok re → re.intPalette.length = s.quant.palette.length := by
  intro r
  have hl := initIntPalette_length s.quant.palette s.quant.gamma (UInt8.ofNat s.quant.minPosterizationOutput)
  have spec := remapToPalette_spec env (px := s.image.px) (bg := s.image.background) s.image.importanceMap
    (nrows := s.out.length)
    (p := (s.quant.palette.initIntPalette s.quant.gamma (UInt8.ofNat s.quant.minPosterizationOutput)).1)
    (by rw [hl.1]; exact hp0) (by rw [hl.1]; exact hp) hg.px hg.bg (by rw [ho.1]; exact le_refl _)
  rw [show s.out.length = s.image.height from ho.1] at spec
  have hr : r = remapPlain env s := rfl
  unfold remapPlain at hr
  rw [show s.out.length = s.image.height from ho.1] at hr
  generalize hx : remapToPalette env s.image.px s.image.background s.image.importanceMap s.image.height
    (s.quant.palette.initIntPalette s.quant.gamma (UInt8.ofNat s.quant.minPosterizationOutput)).1 = x at *
  obtain ⟨res, ro⟩ := x
  simp only [hx] at hr
  simp only at spec
  obtain ⟨o1, o2, _⟩ := spec.out (out := s.out) hg (by rw [hl.1]; exact hp0)
  rw [hl.1] at o2
  have keep : RemapKeeps s { s with
      image := { s.image with px := ro.px, background := ro.background }, out := writeRows ro.rows s.out } :=
    ⟨hg.change spec.samePx spec.sameBg, spec.samePx, spec.sameBg, rfl, rfl, o1.same spec.samePx, Logged.refl _ _⟩
  cases hres : res with
  | error e =>
    rw [hres] at hr
    simp only at hr
    rw [hr]
    refine ⟨keep, ?_, o2, rfl, rfl, rfl, rfl, rfl, fun re h => by cases h⟩
    rcases spec.outcome with ⟨e', h⟩ | ⟨h, hnan⟩
    · rw [hres] at h; cases h
    · rw [hres] at h; cases h; exact .inr (.inr ⟨rfl, Ends.refl _ _, hnan⟩)
  | ok err =>
    rw [hres] at hr
    simp only at hr
    rw [hr]
    exact ⟨keep, .inl ⟨⟨_, rfl⟩, Ends.refl _ _⟩, o2, rfl, rfl, rfl, rfl, rfl, fun re h => by cases h; exact hl.2⟩

theorem generateDitherMap_spec (env : RemapEnv F) {s : RemapState F} (ub : Bool) {p : PalF F} (hg : s.image.Good)
    (ho : OutGood s.image s.out) (hp0 : 0 < p.length) (hp : p.length ≤ 256) :
    let r := generateDitherMap env s ub p
    RemapKeeps s r.2 ∧ r.2.image.background = s.image.background ∧ r.2.uninit = s.uninit ∧ r.2.log = s.log ∧
    (r.2.image.importanceMap = s.image.importanceMap ∨ (s.image.edges = none ∧
      generatesDitherMap s.quant.useDitherMap s.image = true ∧
      Image.skipsContrastMaps s.image.width s.image.height = false)) ∧
    (s.image.edges = none → generatesDitherMap s.quant.useDitherMap s.image = true →
      Image.skipsContrastMaps s.image.width s.image.height = false → (∃ x, r.1 = .ok x) →
      ∃ m, r.2.image.importanceMap = some m ∧ Image.Noisy F m) ∧
    ((∃ e p', r.1 = .ok (e, p') ∧ p'.length = p.length ∧
      (e.isSome → AllWritten p.length r.2.out ∧ generatesDitherMap s.quant.useDitherMap s.image = true) ∧
      (generatesDitherMap s.quant.useDitherMap s.image = true → e.isSome) ∧
      (e = none → r.2 = s ∧ p' = p)) ∨
     (r.1 = .error (.err .outOfMemory) ∧ ∃ x : F, isNan x = true)) := by
  intro r
  have hr : r = generateDitherMap env s ub p := rfl
  unfold generateDitherMap at hr
  by_cases hgen : generatesDitherMap s.quant.useDitherMap s.image = true
  · rw [if_neg (by simp [hgen])] at hr
    have spec := remapToPalette_spec env (px := s.image.px) (bg := none) s.image.importanceMap (nrows := s.out.length)
      hp0 hp hg.px (fun b h => by cases h) (by rw [ho.1]; exact le_refl _)
    rw [show s.out.length = s.image.height from ho.1] at spec hr
    generalize hx : remapToPalette env s.image.px none s.image.importanceMap s.image.height p = x at *
    obtain ⟨res, ro⟩ := x
    simp only at spec
    obtain ⟨o1, o2, rows, hrows, hlen, hb⟩ := spec.out (out := s.out) hg hp0
    have keep : RemapKeeps s { s with image := { s.image with px := ro.px }, out := writeRows ro.rows s.out } :=
      ⟨hg.change spec.samePx (BgSame.refl _), spec.samePx, BgSame.refl _, rfl, rfl, o1.same spec.samePx, Logged.refl _ _⟩
    cases hres : res with
    | error e =>
      rw [hres] at hr
      simp only at hr
      rw [hr]
      refine ⟨keep, rfl, rfl, rfl, .inl rfl, (fun _ _ _ ⟨x, h⟩ => by cases h), .inr ?_⟩
      rcases spec.outcome with ⟨e', h⟩ | ⟨h, hnan⟩
      · rw [hres] at h; cases h
      · rw [hres] at h; cases h; exact ⟨rfl, hnan⟩
    | ok err =>
      rw [hres] at hr
      simp only at hr
      have hw : ({ s.image with px := ro.px } : Image F).width = s.image.width := spec.samePx.width
      have hh : ({ s.image with px := ro.px } : Image F).height = s.image.height := spec.samePx.height
      obtain ⟨img', e, g', same, hbg, hfx, maps⟩ := Image.updateDitherMap_ok keep.good (remapped := rows)
        (palette := ro.palette) ub (by rw [hlen]; exact hh.symm)
        (fun row hrow => ⟨by rw [(hb row hrow).1]; exact hw.symm, by rw [spec.palette]; exact (hb row hrow).2⟩)
      rw [hrows] at hr keep o1 o2
      simp only [Option.getD_some] at hr
      rw [e] at hr
      simp only at hr
      rw [hr]
      refine ⟨⟨g', spec.samePx.trans same, ?_, hfx, rfl, (o1.same spec.samePx).same same, Logged.refl _ _⟩, hbg, rfl, rfl, ?_, ?_,
        .inl ⟨_, _, rfl, spec.palette, fun _ => ⟨o2, hgen⟩, fun _ => rfl, fun h => by cases h⟩⟩
      · show BgSame s.image.background img'.background
        rw [hbg]; exact BgSame.refl _
      · rcases maps with ⟨_, _, h, _⟩ | ⟨_, h, _⟩ | ⟨h1, h2, _⟩
        · exact .inl h
        · exact .inl h
        · rw [hw, hh] at h2
          exact .inr ⟨h1, hgen, h2⟩
      · intro he _ hsk _
        rcases maps with ⟨_, h, _⟩ | ⟨h, _⟩ | ⟨_, _, h, _⟩
        · rw [hw, hh, hsk] at h; cases h
        · rw [show ({ s.image with px := ro.px } : Image F).edges = none from he] at h; cases h
        · exact h
  · rw [if_pos (by simp [hgen])] at hr
    rw [hr]
    exact ⟨RemapKeeps.refl hg ho, rfl, rfl, rfl, .inl rfl, (fun _ h => absurd h hgen), .inl ⟨none, p, rfl, rfl, (fun h => by simp at h), fun h => absurd h hgen, fun _ => ⟨rfl, rfl⟩⟩⟩

theorem pickBackgroundFloyd_cases (n : Nearest F) (bg : Option (Rows F)) :
    ((pickBackgroundFloyd n bg).1 = bg ∨ (pickBackgroundFloyd n bg).1 = none) ∧
    ((pickBackgroundFloyd n bg).2 = transparentIndex n ∨ (pickBackgroundFloyd n bg).2 = 0) := by
  unfold pickBackgroundFloyd
  cases bg with
  | none => exact ⟨.inl rfl, .inr rfl⟩
  | some b =>
    dsimp only
    split
    · exact ⟨.inr rfl, .inl rfl⟩
    · exact ⟨.inl rfl, .inl rfl⟩

/-- number of chunks of a dithered remap -/
def RemapState.chunks (env : RemapEnv F) (s : RemapState F) : ℕ :=
  ditherChunks s.quant.singleThreadedDithering s.image.width s.image.height env.cpus

theorem remapFloyd_spec (env : RemapEnv F) {s : RemapState F} {p : PalF F} (maxErr : F) (isRemapped : Bool)
    (hg : s.image.Good) (ho : OutGood s.image s.out) (hp0 : 0 < p.length) (hp : p.length ≤ 256)
    (hrem : isRemapped = true → AllWritten p.length s.out) :
    let r := remapFloyd env s p maxErr isRemapped
    RemapKeeps s r.2 ∧ ((r.1 = .ok () ∧ Ends s.quant.progressCallback s.log r.2.log false) ∨
      (r.1 = .error (.err .aborted) ∧ Ends s.quant.progressCallback s.log r.2.log true)) ∧ (r.1 = .ok () → AllWritten p.length r.2.out) ∧
    r.2.image.importanceMap = s.image.importanceMap ∧ r.2.image.edges = s.image.edges ∧
    r.2.image.ditherMap = s.image.ditherMap ∧
    (r.2.uninit = true → s.uninit = true ∨ (isRemapped = true ∧ s.chunks env ≠ 1)) ∧
    (r.1 = .ok () → isRemapped = true → s.image.background = none → s.chunks env ≠ 1 → r.2.uninit = true) := by
  intro r
  have hr : r = remapFloyd env s p maxErr isRemapped := rfl
  unfold remapFloyd at hr
  obtain ⟨n, hn⟩ := Nearest.new_of_len hp0 hp
  simp only [hn] at hr
  obtain ⟨bg, e1, s1⟩ := prepareOpt_ok hg.bg
  simp only [e1] at hr
  obtain ⟨px, e2, s2, _⟩ := Rows.prepare_same hg.px true
  simp only [e2] at hr
  have hpal := Nearest.new_ok hn
  have hnp : n.palette = p := hpal.2.2.1
  -- the context
  generalize hctx : (⟨n, px.width, baseDitherLevel s.quant.ditherLevel
      (!(ditherMapOf s.image s.quant.useDitherMap).isEmpty), maxErr, (pickBackgroundFloyd n bg).2,
      isRemapped && (pickBackgroundFloyd n bg).1.isNone, env.garbage⟩ : DitherCtx F) = ctx at hr
  have hdg : DitherGood ctx ⟨px, (pickBackgroundFloyd n bg).1, ditherMapOf s.image s.quant.useDitherMap⟩ := by
    subst hctx
    have hti : (pickBackgroundFloyd n bg).2.toNat < p.length := by
      rcases (pickBackgroundFloyd_cases n bg).2 with h | h <;> rw [h]
      · exact transparentIndex_lt hn
      · exact hp0
    refine ⟨⟨by rw [hnp]; exact hn, by rw [hnp]; exact hti⟩, s2.readable hg.px, ?_, rfl, ?_⟩
    · intro b hb
      simp only at hb ⊢
      rcases (pickBackgroundFloyd_cases n bg).1 with h | h
      · rw [h] at hb
        exact s1.good s2 hg.bg b hb
      · rw [h] at hb; cases hb
    · intro h
      simp only [Bool.and_eq_true, Option.isNone_iff_eq_none] at h
      exact h.2
  have hw : ctx.width = s.image.width := by rw [← hctx]; exact s2.width
  have hlen : ctx.n.palette.length = p.length := by rw [← hctx]; simp only; rw [hnp]
  have hguess : ctx.guess = true → isRemapped = true := by
    rw [← hctx]; intro h; simp only [Bool.and_eq_true] at h; exact h.1
  -- the chunks
  generalize hck : ditherChunks s.quant.singleThreadedDithering px.width px.height env.cpus = ck at hr
  have hck' : s.chunks env = ck := by
    rw [← hck, s2.width, s2.height]; rfl
  have hckpos : 0 < ck := by rw [← hck]; exact ditherChunks_pos _ _ _ _ env.cpus_pos
  have hhpos : 0 < px.height := by rw [s2.height]; exact hg.height_pos
  have hsize : 0 < (px.height + ck - 1) / ck := Nat.div_pos (by omega) hckpos
  obtain ⟨hflat, hne⟩ := chunksOf_flatten hsize s.out
  have hfl : (chunksOf ((px.height + ck - 1) / ck) s.out).flatten.length = px.height := by
    rw [hflat, ho.1, s2.height]; rfl
  obtain ⟨f1, f2, f3, f4, f5⟩ := floydChunks_ok hdg s.quant.progressCallback (remapStage1 s.quant.useDitherMap)
    (chunksOf ((px.height + ck - 1) / ck) s.out) 0 s.log hne (by simp only; omega)
    (by rw [hflat, hw]; exact ho.2)
  have flog := floydChunks_log (ctx := ctx)
    (inp := ⟨px, (pickBackgroundFloyd n bg).1, ditherMapOf s.image s.quant.useDitherMap⟩)
    s.quant.progressCallback s.quant.useDitherMap (chunksOf ((px.height + ck - 1) / ck) s.out) 0 s.log hne
    (by simp only; omega)
  simp only at flog
  have funinit : (floydChunks ctx ⟨px, (pickBackgroundFloyd n bg).1, ditherMapOf s.image s.quant.useDitherMap⟩
      s.quant.progressCallback (remapStage1 s.quant.useDitherMap) 0
      (chunksOf ((px.height + ck - 1) / ck) s.out) s.log).1.res = .ok () →
      isRemapped = true → s.image.background = none → ck ≠ 1 →
      (floydChunks ctx ⟨px, (pickBackgroundFloyd n bg).1, ditherMapOf s.image s.quant.useDitherMap⟩
      s.quant.progressCallback (remapStage1 s.quant.useDitherMap) 0
      (chunksOf ((px.height + ck - 1) / ck) s.out) s.log).1.uninit = true := by
    intro hok hir hbn hck1
    have hgt : ctx.guess = true := by
      rw [← hctx]
      have : bg = none := by
        rw [hbn] at s1
        cases hb : bg with
        | none => rfl
        | some b => rw [hb] at s1; simp only [BgSame] at s1
      simp [hir, this, pickBackgroundFloyd]
    obtain ⟨m1, m2, _⟩ := ditherChunks_many env.cpus_pos (by rw [hck]; exact hck1)
    rw [hck] at m1 m2
    obtain ⟨c, c', cs, hcs, hc3⟩ := chunksOf_two m1 (show _ < s.out.length by rw [ho.1]; rw [s2.height] at m2 ⊢; exact m2)
    exact floydChunks_uninit hdg (by rw [hw]; exact hg.width_pos) hgt _ _ _ 0 _ hne (by simp only; omega)
      (by rw [hflat, hw]; exact ho.2) (.inr ⟨c, c', cs, hcs, by omega⟩) hok
  generalize floydChunks ctx ⟨px, (pickBackgroundFloyd n bg).1, ditherMapOf s.image s.quant.useDitherMap⟩
    s.quant.progressCallback (remapStage1 s.quant.useDitherMap) 0
    (chunksOf ((px.height + ck - 1) / ck) s.out) s.log = fl at *
  obtain ⟨fo, log'⟩ := fl
  simp only at hr f1 f2 f3 f4 f5 flog
  rw [hr]
  refine ⟨⟨hg.change s2 s1, s2, s1, rfl, rfl, ⟨?_, ?_⟩, ?_⟩, f3, ?_, rfl, rfl, rfl, ?_, ?_⟩
  · show fo.rows.length = px.height; rw [f1, hfl]
  · show RowsLen px.width fo.rows; rw [s2.width]; rw [hw] at f2; exact f2
  · show Logged (RemapReport s.quant.useDitherMap s.image.px.height) s.log log'
    rw [← s2.height]; exact flog
  · intro h row hrow
    rw [← hlen]; exact f4 h row hrow
  · intro hu
    rcases Bool.or_eq_true_iff.mp hu with h | h
    · exact .inl h
    · obtain ⟨a, b⟩ := f5 h
      refine .inr ⟨hguess a, ?_⟩
      rw [hck']
      rcases b with ⟨row, hrow, hnone⟩ | ⟨c, hc, h2⟩
      · rw [hflat] at hrow
        exact absurd hnone (hrem (hguess a) row hrow).no_none
      · rintro rfl
        rcases h2 with h2 | h2
        · omega
        · apply h2
          have hone : chunksOf ((px.height + 1 - 1) / 1) s.out = [s.out] := by
            have hol : s.out.length = px.height := by rw [ho.1, s2.height]; rfl
            unfold chunksOf
            have : (s.out.length + (px.height + 1 - 1) / 1 - 1) / ((px.height + 1 - 1) / 1) = 1 := by
              rw [hol]; simp only [Nat.add_sub_cancel, Nat.div_one]
              rw [show px.height + px.height - 1 = px.height + (px.height - 1) by omega,
                Nat.add_div_left _ hhpos, Nat.div_eq_of_lt (by omega)]
            rw [this]
            simp [← hol]
          rw [hone] at hc ⊢
          simp only [List.head?_cons, Option.some.injEq] at hc
          rw [hc]
  · intro h1 h2 h3 h4
    rw [hck'] at h4
    simp only at funinit
    show (s.uninit || fo.uninit) = true
    rw [funinit h1 h2 h3 h4]; simp

theorem remapDithered_spec (env : RemapEnv F) {s : RemapState F} (hg : s.image.Good) (ho : OutGood s.image s.out)
    (hp0 : 0 < s.quant.palette.length) (hp : s.quant.palette.length ≤ 256) :
    let r := remapDithered env s
    RemapKeeps s r.2 ∧ RemapOutcome s.quant.progressCallback s.log r.2.log r.1 ∧
    (r.2.image.importanceMap = s.image.importanceMap ∨ (s.image.edges = none ∧
      generatesDitherMap s.quant.useDitherMap s.image = true ∧
      Image.skipsContrastMaps s.image.width s.image.height = false)) ∧
    (s.image.edges = none → generatesDitherMap s.quant.useDitherMap s.image = true →
      Image.skipsContrastMaps s.image.width s.image.height = false → (∃ x, r.1 = .ok x) →
      ∃ m, r.2.image.importanceMap = some m ∧ Image.Noisy F m) ∧
    (r.2.uninit = true → s.uninit = true ∨
      (generatesDitherMap s.quant.useDitherMap s.image = true ∧ s.chunks env ≠ 1)) ∧
    ((∃ re, r.1 = .ok re) → generatesDitherMap s.quant.useDitherMap s.image = true → s.image.background = none →
      s.chunks env ≠ 1 → r.2.uninit = true) ∧
    ∀ re, r.1 = .ok re → re.intPalette.length = s.quant.palette.length ∧ AllWritten s.quant.palette.length r.2.out := by
  intro r
  have hr : r = remapDithered env s := rfl
  unfold remapDithered at hr
  obtain ⟨g1, g2, g3, g4, g5, g7, g6⟩ := generateDitherMap_spec env (s := s) s.image.background.isSome hg ho hp0 hp
  generalize generateDitherMap env s s.image.background.isSome s.quant.palette = x at *
  obtain ⟨res, s1⟩ := x
  simp only at g1 g2 g3 g4 g5 g6 g7 hr
  rcases g6 with ⟨e, p', rfl, hpl, hall, hsome, hnone⟩ | ⟨rfl, hnan⟩
  · simp only at hr
    rw [progress_eq] at hr
    have hlog : Logged (RemapReport s.quant.useDitherMap s.image.height) s.log
        (reported s1.quant.progressCallback s1.log (lit32 ↑(remapStage1 s1.quant.useDitherMap) *₃ lit32 (1/2))) := by
      rw [g4, g1.quant]
      exact reported_logged _ _ (.inr (.inl rfl))
    have hends := Ends.report s1.quant.progressCallback s1.log (lit32 ↑(remapStage1 s1.quant.useDitherMap) *₃ lit32 (1/2))
    have keep : RemapKeeps s { s1 with log :=
        (reported s1.quant.progressCallback s1.log (lit32 ↑(remapStage1 s1.quant.useDitherMap) *₃ lit32 (1/2))) } :=
      ⟨g1.good, g1.samePx, g1.sameBg, g1.fixed, g1.quant, g1.out, hlog⟩
    generalize hlg : reported s1.quant.progressCallback s1.log (lit32 ↑(remapStage1 s1.quant.useDitherMap) *₃ lit32 (1/2))
      = log' at *
    cases hans : answered s1.quant.progressCallback log' with
    | true =>
      rw [hans] at hr hends
      rw [g4, g1.quant] at hends
      simp only at hr
      rw [hr]
      exact ⟨keep, .inr (.inl ⟨rfl, hends⟩), g5, (fun _ _ _ ⟨x, h⟩ => by cases h), fun h => .inl (by rw [← g3]; exact h), (fun ⟨re, h⟩ => by cases h),
        fun re h => by cases h⟩
    | false =>
      rw [hans] at hr hends
      rw [g4, g1.quant] at hends
      simp only at hr
      have hl := initIntPalette_length p' s1.quant.gamma (UInt8.ofNat s1.quant.minPosterizationOutput)
      obtain ⟨f1, f2, f3, f4, _, _, f7, f8⟩ := remapFloyd_spec env (s := { s1 with log := log' })
        (p := (p'.initIntPalette s1.quant.gamma (UInt8.ofNat s1.quant.minPosterizationOutput)).1)
        (maxDitherError (e.or s1.quant.paletteError)) e.isSome keep.good keep.out
        (by rw [hl.1, hpl]; exact hp0) (by rw [hl.1, hpl]; exact hp) (fun h => by rw [hl.1, hpl]; exact (hall h).1)
      simp only at f1 f2 f3 f4 f7 f8
      generalize remapFloyd env { s1 with log := log' }
        (p'.initIntPalette s1.quant.gamma (UInt8.ofNat s1.quant.minPosterizationOutput)).1
        (maxDitherError (e.or s1.quant.paletteError)) e.isSome = y at *
      obtain ⟨res2, s2⟩ := y
      simp only at f1 f2 f3 f4 f7 f8 hr
      have hchunks : ({ s1 with log := log' } : RemapState F).chunks env = s.chunks env := by
        unfold RemapState.chunks
        simp only
        rw [g1.quant, show s1.image.width = s.image.width from g1.samePx.width,
          show s1.image.height = s.image.height from g1.samePx.height]
      have huninit : s2.uninit = true → s.uninit = true ∨
          (generatesDitherMap s.quant.useDitherMap s.image = true ∧ s.chunks env ≠ 1) := by
        intro h
        rcases f7 h with h | ⟨h1, h2⟩
        · exact .inl (by rw [← g3]; exact h)
        · refine .inr ⟨(hall h1).2, ?_⟩
          rw [hchunks] at h2
          exact h2
      have hmap : s2.image.importanceMap = s.image.importanceMap ∨ (s.image.edges = none ∧
          generatesDitherMap s.quant.useDitherMap s.image = true ∧
          Image.skipsContrastMaps s.image.width s.image.height = false) := by
        rw [f4]; exact g5
      rw [g1.quant] at f2
      rcases f2 with ⟨rfl, he2⟩ | ⟨rfl, he2⟩
      · simp only at hr
        rw [hr]
        refine ⟨keep.trans f1, .inl ⟨⟨_, rfl⟩, hends.trans he2⟩, hmap,
          (fun a b c _ => by simp only; rw [f4]; exact g7 a b c ⟨_, rfl⟩), huninit,
          fun _ a b c => f8 rfl (hsome a) (by rw [g2]; exact b) (by rw [hchunks]; exact c), fun re h => ?_⟩
        cases h
        refine ⟨by simp only; rw [hl.2, hpl], ?_⟩
        have := f3 rfl
        rw [hl.1, hpl] at this
        exact this
      · simp only at hr
        rw [hr]
        exact ⟨keep.trans f1, .inr (.inl ⟨rfl, hends.trans he2⟩), hmap, (fun _ _ _ ⟨x, h⟩ => by cases h), huninit, (fun ⟨re, h⟩ => by cases h), fun re h => by cases h⟩
  · simp only at hr
    rw [hr]
    exact ⟨g1, .inr (.inr ⟨rfl, by simp only; rw [g4]; exact Ends.refl _ _, hnan⟩), g5, (fun _ _ _ ⟨x, h⟩ => by cases h), fun h => .inl (by rw [← g3]; exact h),
      (fun ⟨re, h⟩ => by cases h), fun re h => by cases h⟩

/-- What a remap does for every kind of float arithmetic. -/
structure RemapDone (env : RemapEnv F) (s : RemapState F) (res : Res Unit) (s' : RemapState F) : Prop where
  good : s'.image.Good
  samePx : Rows.Same s.image.px s'.image.px
  sameBg : BgSame s.image.background s'.image.background
  fixed : s'.image.fixedColors = s.image.fixedColors
  out : OutGood s'.image s'.out
  log : Logged (RemapReport s.quant.useDitherMap s.image.height) s.log s'.log
  outcome : RemapOutcome s.quant.progressCallback s.log s'.log res
  failed : res ≠ .ok () → s'.quant = s.quant
  done : res = .ok () → ∃ re : Remapped F, s'.quant = { s.quant with remapped := some re } ∧
    re.intPalette.length = s.quant.palette.length ∧ AllWritten s.quant.palette.length s'.out
  importance : s'.image.importanceMap = s.image.importanceMap ∨
    (eq s.quant.ditherLevel (lit32 0) = false ∧ s.image.edges = none ∧
      generatesDitherMap s.quant.useDitherMap s.image = true ∧
      Image.skipsContrastMaps s.image.width s.image.height = false)
  overwritten : res = .ok () → eq s.quant.ditherLevel (lit32 0) = false → s.image.edges = none →
    generatesDitherMap s.quant.useDitherMap s.image = true →
    Image.skipsContrastMaps s.image.width s.image.height = false →
    ∃ m, s'.image.importanceMap = some m ∧ Image.Noisy F m
  uninit : s'.uninit = true → s.uninit = true ∨ (eq s.quant.ditherLevel (lit32 0) = false ∧
    generatesDitherMap s.quant.useDitherMap s.image = true ∧ s.chunks env ≠ 1)
  reads : res = .ok () → eq s.quant.ditherLevel (lit32 0) = false →
    generatesDitherMap s.quant.useDitherMap s.image = true → s.image.background = none → s.chunks env ≠ 1 →
    s'.uninit = true

theorem Image.Good.free {img : Image F} (hg : img.Good) : img.freeHistogramInputs.Good :=
  hg.change (Rows.free_same img.px) (BgSame.refl img.background)

theorem writeRemapped_spec (env : RemapEnv F) {s : RemapState F} (hg : s.image.Good) (ho : OutGood s.image s.out)
    (hp0 : 0 < s.quant.palette.length) (hp : s.quant.palette.length ≤ 256) :
    RemapDone env s (writeRemapped env s).1 (writeRemapped env s).2 := by
  unfold writeRemapped
  rw [progress_eq]
  have hlog : Logged (RemapReport s.quant.useDitherMap s.image.height) s.log
      (reported s.quant.progressCallback s.log (lit32 ↑(remapStage1 s.quant.useDitherMap) *₃ lit32 (1/4))) :=
    reported_logged _ _ (.inl rfl)
  have hends := Ends.report s.quant.progressCallback s.log (lit32 ↑(remapStage1 s.quant.useDitherMap) *₃ lit32 (1/4))
  generalize hlg : reported s.quant.progressCallback s.log (lit32 ↑(remapStage1 s.quant.useDitherMap) *₃ lit32 (1/4))
    = log' at *
  cases hans : answered s.quant.progressCallback log' with
  | true =>
    rw [hans] at hends
    exact ⟨hg, Rows.Same.refl _, BgSame.refl _, rfl, ho, hlog, .inr (.inl ⟨rfl, hends⟩), fun _ => rfl, fun h => by simp at h,
      .inl rfl, (fun h => by simp at h), fun h => .inl h, (fun h => by simp at h)⟩
  | false =>
    simp only
    rw [hans] at hends
    have hs : RemapKeeps s { s with log := log', image := s.image.freeHistogramInputs } :=
      ⟨hg.free, Rows.free_same _, BgSame.refl _, rfl, rfl, ho.same (Rows.free_same _), hlog⟩
    have hch : ({ s with log := log', image := s.image.freeHistogramInputs } : RemapState F).chunks env = s.chunks env := by
      unfold RemapState.chunks
      show ditherChunks _ (s.image.px.freeHistogramInputs.width) (s.image.px.freeHistogramInputs.height) _ = _
      rw [(Rows.free_same s.image.px).width, (Rows.free_same s.image.px).height]; rfl
    have hgen : generatesDitherMap s.quant.useDitherMap s.image.freeHistogramInputs =
        generatesDitherMap s.quant.useDitherMap s.image := by
      unfold generatesDitherMap
      show (let huge := decide (s.image.px.freeHistogramInputs.width * s.image.px.freeHistogramInputs.height % 2 ^ 32 > 2000 * 2000)
        (_ || (!huge && _)) && _) = _
      rw [(Rows.free_same s.image.px).width, (Rows.free_same s.image.px).height]; rfl
    have hskip : Image.skipsContrastMaps s.image.freeHistogramInputs.width s.image.freeHistogramInputs.height =
        Image.skipsContrastMaps s.image.width s.image.height := by
      show Image.skipsContrastMaps s.image.px.freeHistogramInputs.width s.image.px.freeHistogramInputs.height = _
      rw [(Rows.free_same s.image.px).width, (Rows.free_same s.image.px).height]; rfl
    by_cases hd : eq s.quant.ditherLevel (lit32 0) = true
    · rw [if_pos hd]
      obtain ⟨k1, k2, k3, k4, k5, k6, _, _, k7⟩ := remapPlain_spec env
        (s := { s with log := log', image := s.image.freeHistogramInputs }) hs.good hs.out hp0 hp
      have keep := hs.trans k1
      generalize remapPlain env { s with log := log', image := s.image.freeHistogramInputs } = x at *
      obtain ⟨res, s1⟩ := x
      simp only at k2 k3 k4 k5 k6 k7 keep
      rcases k2 with ⟨⟨re, rfl⟩, ke⟩ | ⟨rfl, ke⟩ | ⟨rfl, ke, kn⟩
      · simp only
        refine ⟨keep.good, keep.samePx, keep.sameBg, keep.fixed, keep.out, keep.log, .inl ⟨⟨_, rfl⟩, hends.trans ke⟩, fun h => absurd rfl h,
          fun _ => ⟨re, by rw [keep.quant], k7 re rfl, k3⟩, .inl k6, (fun _ h => by rw [hd] at h; cases h), fun h => .inl (by rw [← k4]; exact h),
          (fun _ h => by rw [hd] at h; cases h)⟩
      · exact ⟨keep.good, keep.samePx, keep.sameBg, keep.fixed, keep.out, keep.log, .inr (.inl ⟨rfl, hends.trans ke⟩), fun h => keep.quant,
          fun h => by simp at h, .inl k6, (fun _ h => by rw [hd] at h; cases h), fun h => .inl (by rw [← k4]; exact h),
          (fun _ h => by rw [hd] at h; cases h)⟩
      · exact ⟨keep.good, keep.samePx, keep.sameBg, keep.fixed, keep.out, keep.log, .inr (.inr ⟨rfl, hends.trans ke, kn⟩), fun h => keep.quant,
          fun h => by simp at h, .inl k6, (fun _ h => by rw [hd] at h; cases h), fun h => .inl (by rw [← k4]; exact h),
          (fun _ h => by rw [hd] at h; cases h)⟩
    · rw [if_neg hd]
      have hd' : eq s.quant.ditherLevel (lit32 0) = false := by simpa using hd
      obtain ⟨k1, k2, k3, k9, k4, k8, k5⟩ := remapDithered_spec env
        (s := { s with log := log', image := s.image.freeHistogramInputs }) hs.good hs.out hp0 hp
      have keep := hs.trans k1
      rw [hch, hgen] at k4 k8
      rw [hgen, hskip] at k3 k9
      generalize remapDithered env { s with log := log', image := s.image.freeHistogramInputs } = x at *
      obtain ⟨res, s1⟩ := x
      simp only at k2 k3 k4 k5 k8 k9 keep
      have ki : s1.image.importanceMap = s.image.importanceMap ∨
        (eq s.quant.ditherLevel (lit32 0) = false ∧ s.image.edges = none ∧
          generatesDitherMap s.quant.useDitherMap s.image = true ∧
          Image.skipsContrastMaps s.image.width s.image.height = false) := by
        rcases k3 with h | ⟨a, b, c⟩
        · exact .inl h
        · exact .inr ⟨hd', a, b, c⟩
      have ku : s1.uninit = true → s.uninit = true ∨ (eq s.quant.ditherLevel (lit32 0) = false ∧
          generatesDitherMap s.quant.useDitherMap s.image = true ∧ s.chunks env ≠ 1) := by
        intro h
        rcases k4 h with h | ⟨a, b⟩
        · exact .inl h
        · exact .inr ⟨hd', a, b⟩
      rcases k2 with ⟨⟨re, rfl⟩, ke⟩ | ⟨rfl, ke⟩ | ⟨rfl, ke, kn⟩
      · simp only
        refine ⟨keep.good, keep.samePx, keep.sameBg, keep.fixed, keep.out, keep.log, .inl ⟨⟨_, rfl⟩, hends.trans ke⟩, fun h => absurd rfl h,
          fun _ => ⟨re, by rw [keep.quant], (k5 re rfl).1, (k5 re rfl).2⟩, ki, fun _ _ a b c => k9 a b c ⟨re, rfl⟩, ku,
          fun _ _ => k8 ⟨re, rfl⟩⟩
      · exact ⟨keep.good, keep.samePx, keep.sameBg, keep.fixed, keep.out, keep.log, .inr (.inl ⟨rfl, hends.trans ke⟩), fun h => keep.quant,
          fun h => by simp at h, ki, (fun h => by simp at h), ku, (fun h => by simp at h)⟩
      · exact ⟨keep.good, keep.samePx, keep.sameBg, keep.fixed, keep.out, keep.log, .inr (.inr ⟨rfl, hends.trans ke, kn⟩), fun h => keep.quant,
          fun h => by simp at h, ki, (fun h => by simp at h), ku, (fun h => by simp at h)⟩

end Verif
