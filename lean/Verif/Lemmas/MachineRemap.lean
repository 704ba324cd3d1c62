import Verif.Lemmas.MachineImage
import Verif.Lemmas.RemapRun

/-! Remapping in machine integers is remapping in unbounded integers. -/

set_option linter.unusedSectionVars false

namespace Verif
open Flt Mach Spec

variable {F : Type} [Flt F]

/-! ### `pal.rs` -/

private def okIs (r : Res UInt8) (x : UInt8) : Bool := match r with
  | .ok y => y == x
  | .error _ => false

private theorem okIs_eq {r : Res UInt8} {x : UInt8} (h : okIs r x = true) : r = .ok x := by
  cases r with
  | error e => cases h
  | ok y => simp only [okIs, beq_iff_eq] at h; rw [h]

private theorem posterizeTable : ∀ b : Fin 8, ∀ c : Fin 256,
    okIs (PalF.posterizeChannelM (UInt8.ofNat c.val) b.val) (PalF.posterizeChannel (UInt8.ofNat c.val) (UInt8.ofNat b.val)) = true := by
  decide +kernel

theorem posterizeChannelM_eq (c : UInt8) {b : ℕ} (hb : b ≤ 7) :
    PalF.posterizeChannelM c b = .ok (PalF.posterizeChannel c (UInt8.ofNat b)) := by
  have := okIs_eq (posterizeTable ⟨b, by omega⟩ ⟨c.toNat, c.toNat_lt⟩)
  simpa using this

theorem roundEntryM_eq (gamma : F) {b : ℕ} (hb : b ≤ 7) (e : PalEntry F) :
    PalF.roundEntryM gamma b e = .ok (PalF.roundEntry gamma (UInt8.ofNat b) e) := by
  unfold PalF.roundEntryM PalF.roundEntry
  simp only [posterizeChannelM_eq _ hb, Res.ok_bind]
  rfl

theorem initIntPaletteM_eq (p : PalF F) (gamma : F) {b : ℕ} (hb : b ≤ 7) :
    p.initIntPaletteM gamma b = .ok (p.initIntPalette gamma (UInt8.ofNat b)) := by
  have key : ∀ p : PalF F, p.mapM (PalF.roundEntryM gamma b) = .ok (p.map (PalF.roundEntry gamma (UInt8.ofNat b))) := by
    intro p
    induction p with
    | nil => rfl
    | cons e p ih => rw [List.mapM_cons, roundEntryM_eq gamma hb, Res.ok_bind, ih, Res.ok_bind]; rfl
  unfold PalF.initIntPaletteM PalF.initIntPalette
  rw [key, Res.ok_bind]
  simp only [List.map_map]
  rfl

/-! ### `remap.rs` -/

theorem remapToPaletteM_eq (env : RemapEnv F) {px : Rows F} (hg : px.Readable) (hpx : px.width * px.height < 2 ^ 32)
    (bg : Option (Rows F)) (imp : Option (List UInt8)) (nrows : ℕ) (p : PalF F) :
    remapToPaletteM env px bg imp nrows p = remapToPalette env px bg imp nrows p := by
  obtain ⟨px', e2, s2, _⟩ := Rows.prepare_same hg true
  unfold remapToPaletteM remapToPalette
  rw [e2]
  cases Nearest.new p with
  | error e => rfl
  | ok n =>
    dsimp only
    cases prepareOpt (pickBackground n bg).1 with
    | error e => rfl
    | ok ub =>
      dsimp only
      cases remapLoop (env.sched nrows).order n (pickBackground n bg).2 px' ub imp nrows with
      | error e => rfl
      | ok outs =>
        dsimp only
        rw [mul_lt (by rw [s2.width, s2.height]; exact hpx), Nat.mod_eq_of_lt (by rw [s2.width, s2.height]; exact hpx)]

theorem ditherChooseM_eq (ctx : DitherCtx F) (bg : Option (FPixel F)) (inputPx spx : FPixel F) (guess last : UInt8)
    (ditherDiff : F) (bgUsed : ℕ) :
    ditherChooseM ctx bg inputPx spx guess last ditherDiff bgUsed = ditherChoose ctx bg inputPx spx guess last ditherDiff bgUsed := by
  unfold ditherChooseM ditherChoose
  cases index ctx.n.palette last.toNat with
  | error e => rfl
  | ok o =>
    rw [Res.ok_bind, Res.ok_bind]
    cases bg with
    | none => rfl
    | some b =>
      dsimp only
      split
      · rfl
      · split
        · rfl
        next hb =>
          split
          · cases index ctx.n.palette guess.toNat with
            | error e => rfl
            | ok g =>
              rw [Res.ok_bind, Res.ok_bind]
              split
              · rw [add_lt (by norm_num; omega), Res.ok_bind]
              · rfl
          · rfl

theorem ditherStepM_eq (ctx : DitherCtx F) (row bg : List (FPixel F)) (dmap : List UInt8) (even : Bool) (st : DitherState F)
    {x : ℕ} (hx : x < ctx.width) : ditherStepM ctx row bg dmap even st x = ditherStep ctx row bg dmap even st x := by
  unfold ditherStepM ditherStep
  simp only [ditherChooseM_eq]
  cases even
  · simp only [Bool.false_eq_true, if_false]
    rw [sub_le (by omega), Res.ok_bind, sub_le (by omega), Res.ok_bind]
    rfl
  · simp only [if_true, Res.ok_bind]
    rfl

theorem ditherRowM_eq (ctx : DitherCtx F) (row bg : List (FPixel F)) (dmap : List UInt8) (d : Diffusion F) (even : Bool)
    (out : List (Option UInt8)) : ditherRowM ctx row bg dmap d even out = ditherRow ctx row bg dmap d even out := by
  have key : ∀ (l : List ℕ), (∀ x ∈ l, x < ctx.width) → ∀ st : DitherState F,
      l.foldlM (ditherStepM ctx row bg dmap even) st = l.foldlM (ditherStep ctx row bg dmap even) st := by
    intro l
    induction l with
    | nil => intro _ st; rfl
    | cons x l ih =>
      intro h st
      rw [List.foldlM_cons, List.foldlM_cons, ditherStepM_eq ctx row bg dmap even st (h x (by simp))]
      congr 1
      funext st'
      exact ih (fun y hy => h y (by simp [hy])) st'
  unfold ditherRowM ditherRow
  dsimp only
  rw [key _ (fun x hx => List.mem_range.mp hx)]

theorem ditherImageRowM_eq {bits : ℕ} (ctx : DitherCtx F) {inp : DitherInput F} (r : Room bits inp.px.width inp.px.height)
    (d : Diffusion F) {y : ℕ} (hy : y < inp.px.height) (out : List (Option UInt8)) :
    ditherImageRowM bits ctx inp d y out = ditherImageRow ctx inp d y out := by
  obtain ⟨n, h1, h2, h3, h4, h5⟩ := r.wide
  have hr : y * inp.px.width + inp.px.width ≤ inp.px.width * inp.px.height := by
    calc y * inp.px.width + inp.px.width = inp.px.width * (y + 1) := by ring
      _ ≤ _ := Nat.mul_le_mul_left _ hy
  unfold ditherImageRowM ditherImageRow DitherInput.dmapRow
  have hm : mul bits y inp.px.width = .ok (y * inp.px.width) := mul_lt (by omega)
  have ha : add bits (y * inp.px.width) inp.px.width = .ok (y * inp.px.width + inp.px.width) := add_lt (by omega)
  cases inp.px.rowF y with
  | error e => rfl
  | ok row =>
    cases inp.bg with
    | none => simp only [Res.ok_bind, pure_bind, hm, ha, ditherRowM_eq]
    | some b =>
      cases hb : b.rowF y with
      | error e => simp only [Res.ok_bind, hb]; rfl
      | ok bg => simp only [Res.ok_bind, hb, hm, ha, ditherRowM_eq]

theorem ditherRowsM_eq {bits : ℕ} (ctx : DitherCtx F) {inp : DitherInput F} (r : Room bits inp.px.width inp.px.height)
    (start : ℕ) (outs : List (List (Option UInt8))) (d : Diffusion F) (i : ℕ) (h : start + i + outs.length ≤ inp.px.height) :
    ditherRowsM bits ctx inp start d i outs = ditherRows ctx inp d (start + i) outs := by
  obtain ⟨n, h1, h2, h3, h4, h5⟩ := r.wide
  induction outs generalizing d i with
  | nil => rfl
  | cons o outs ih =>
    rw [List.length_cons] at h
    unfold ditherRowsM ditherRows
    rw [add_lt (by omega), Res.ok_bind, ditherImageRowM_eq ctx r d (by omega)]
    cases ditherImageRow ctx inp d (start + i) o with
    | error e => rfl
    | ok x => rw [Res.ok_bind, Res.ok_bind, ih _ _ (by omega), Nat.add_assoc]

theorem warmUpM_eq {bits : ℕ} {ctx : DitherCtx F} {inp : DitherInput F} (r : Room bits inp.px.width inp.px.height)
    (hw : ctx.width = inp.px.width) {start : ℕ} (h : start < inp.px.height) : warmUpM bits ctx inp start = warmUp ctx inp start := by
  obtain ⟨n, h1, h2, h3, h4, h5⟩ := r.wide
  unfold warmUpM warmUp
  rw [add_lt (by omega), Res.ok_bind, mul_lt (by omega), Res.ok_bind]
  split
  · rw [sub_le (by omega), Res.ok_bind, ditherImageRowM_eq ctx r _ (by omega), show start - 2 + 1 = start - 1 by omega]
    cases ditherImageRow ctx inp (Diffusion.zero ctx.width) (start - 2) (List.replicate ctx.width none) with
    | error e => rfl
    | ok x => rw [Res.ok_bind, Res.ok_bind, ditherImageRowM_eq ctx r _ (by omega)]
  · rfl

theorem floydChunksM_eq {bits : ℕ} {ctx : DitherCtx F} {inp : DitherInput F} (r : Room bits inp.px.width inp.px.height)
    (hw : ctx.width = inp.px.width) (cb : Option (List F → Bool)) (stage1 : ℕ) (chunks : List (List (List (Option UInt8))))
    (hne : ∀ c ∈ chunks, c ≠ []) (start : ℕ) (log : List F) (h : start + chunks.flatten.length ≤ inp.px.height) :
    floydChunksM bits ctx inp cb stage1 start chunks log = floydChunks ctx inp cb stage1 start chunks log := by
  obtain ⟨n, h1, h2, h3, h4, h5⟩ := r.wide
  induction chunks generalizing start log with
  | nil => rfl
  | cons c cs ih =>
    have hcl : 0 < c.length := List.length_pos_iff.mpr (hne c (by simp))
    rw [List.flatten_cons, List.length_append] at h
    unfold floydChunksM floydChunks
    rw [warmUpM_eq r hw (by omega)]
    cases warmUp ctx inp start with
    | error e => rfl
    | ok du =>
      obtain ⟨d, u⟩ := du
      dsimp only
      rw [progress_eq]
      cases answered cb (reported cb log (ditherProgress stage1 start inp.px.height)) with
      | true => rfl
      | false =>
        dsimp only
        rw [ditherRowsM_eq ctx r start c d 0 (by omega), Nat.add_zero]
        cases ditherRows ctx inp d start c with
        | error e => rfl
        | ok x =>
          dsimp only
          rw [add_lt (by omega)]
          dsimp only
          rw [ih (fun y hy => hne y (by simp [hy])) _ _ (by omega)]

theorem ditherChunksM_eq {bits w h : ℕ} (r : Room bits w h) (single : Bool) (cpus : ℕ) :
    ditherChunksM bits single w h cpus = .ok (ditherChunks single w h cpus) := by
  obtain ⟨n, h1, h2, h3, h4, h5⟩ := r.wide
  unfold ditherChunksM ditherChunks
  split
  · rfl
  · rw [mul_lt (by omega), Res.ok_bind]; rfl

theorem ditherChunks_le (single : Bool) (w h cpus : ℕ) (hh : 0 < h) : ditherChunks single w h cpus ≤ h := by
  unfold ditherChunks
  split
  · omega
  · refine le_trans (min_le_left _ _) (max_le (le_trans (min_le_right _ _) (Nat.div_le_self _ _)) ?_)
    split <;> omega

theorem chunkHeightM_eq {bits w h chunks : ℕ} (r : Room bits w h) (h0 : 0 < chunks) (hc : chunks ≤ h) :
    chunkHeightM bits h chunks = .ok ((h + chunks - 1) / chunks) := by
  obtain ⟨n, h1, h2, h3, h4, h5⟩ := r.wide
  unfold chunkHeightM
  rw [add_lt (by omega), Res.ok_bind, sub_le (by omega), Res.ok_bind, Mach.div_pos h0]

theorem remapFloydM_eq {bits : ℕ} (env : RemapEnv F) {s : RemapState F} (p : PalF F) (maxErr : F) (isRemapped : Bool)
    (hg : s.image.Good) (ho : OutGood s.image s.out) (r : Room bits s.image.width s.image.height) :
    remapFloydM bits env s p maxErr isRemapped = remapFloyd env s p maxErr isRemapped := by
  unfold remapFloydM remapFloyd
  obtain ⟨px, e2, s2, _⟩ := Rows.prepare_same hg.px true
  have r' : Room bits px.width px.height := by rw [s2.width, s2.height]; exact r
  dsimp only
  rw [e2]
  cases Nearest.new p with
  | error e => rfl
  | ok n =>
    dsimp only
    cases prepareOpt s.image.background with
    | error e => rfl
    | ok bg =>
      dsimp only
      have hc0 := ditherChunks_pos s.quant.singleThreadedDithering px.width px.height env.cpus env.cpus_pos
      rw [ditherChunksM_eq r']
      dsimp only
      rw [chunkHeightM_eq r' hc0 (ditherChunks_le _ _ _ _ r'.h_pos)]
      dsimp only
      have hsize : 0 < (px.height + ditherChunks s.quant.singleThreadedDithering px.width px.height env.cpus - 1) /
          ditherChunks s.quant.singleThreadedDithering px.width px.height env.cpus :=
        Nat.div_pos (by have := r'.h_pos; omega) hc0
      obtain ⟨hflat, hne⟩ := chunksOf_flatten hsize s.out
      rw [floydChunksM_eq (inp := ⟨px, _, _⟩) r' rfl _ _ _ hne 0 _ (by
        rw [hflat, ho.1]
        show 0 + s.image.px.height ≤ px.height
        rw [s2.height]; omega)]

/-! ### `quant.rs` -/

theorem generatesDitherMapM_eq (mode : DitherMapMode) {img : Image F} (h : img.width * img.height < 2 ^ 32) :
    generatesDitherMapM mode img = .ok (generatesDitherMap mode img) := by
  unfold generatesDitherMapM generatesDitherMap
  have h' : img.px.width * img.px.height < 2 ^ 32 := h
  rw [mul_lt h', Res.ok_bind, mul_lt (by norm_num), Res.ok_bind, Nat.mod_eq_of_lt h']
  rfl

theorem generateDitherMapM_eq {bits : ℕ} (env : RemapEnv F) {s : RemapState F} (ub : Bool) {p : PalF F} (hg : s.image.Good)
    (ho : OutGood s.image s.out) (hp0 : 0 < p.length) (hp : p.length ≤ 256) (r : Room bits s.image.width s.image.height)
    (h32 : s.image.width * s.image.height < 2 ^ 32) :
    generateDitherMapM bits env s ub p = generateDitherMap env s ub p := by
  unfold generateDitherMapM generateDitherMap
  rw [generatesDitherMapM_eq _ h32]
  cases generatesDitherMap s.quant.useDitherMap s.image with
  | false => rfl
  | true =>
    dsimp only
    rw [if_neg (by simp), remapToPaletteM_eq env hg.px h32]
    have spec := remapToPalette_spec env (px := s.image.px) (bg := none) s.image.importanceMap (nrows := s.out.length)
      hp0 hp hg.px (fun b h => by cases h) (by rw [ho.1]; exact le_refl _)
    rw [show s.out.length = s.image.height from ho.1] at spec ⊢
    generalize hx : remapToPalette env s.image.px none s.image.importanceMap s.image.height p = x at *
    obtain ⟨res, ro⟩ := x
    simp only at spec
    obtain ⟨o1, o2, rows, hrows, hlen, hb⟩ := spec.out (out := s.out) hg hp0
    cases res with
    | error e => rfl
    | ok err =>
      dsimp only
      have hw : ({ s.image with px := ro.px } : Image F).width = s.image.width := spec.samePx.width
      have hh : ({ s.image with px := ro.px } : Image F).height = s.image.height := spec.samePx.height
      rw [Image.updateDitherMapM_eq (by rw [hw, hh]; exact r) (hg.change spec.samePx (BgSame.refl _)) _ _
        (by rw [hrows, hh]; exact hlen) (by rw [hrows, hw]; exact fun row hrow => (hb row hrow).1)]
      rfl

theorem remapPlainM_eq (env : RemapEnv F) {s : RemapState F} (hg : s.image.Good) (hb : s.quant.minPosterizationOutput ≤ 7)
    (h32 : s.image.width * s.image.height < 2 ^ 32) : remapPlainM env s = remapPlain env s := by
  unfold remapPlainM remapPlain
  rw [initIntPaletteM_eq _ _ hb]
  dsimp only
  rw [remapToPaletteM_eq env hg.px h32]
  rfl

theorem remapDitheredM_eq {bits : ℕ} (env : RemapEnv F) {s : RemapState F} (hg : s.image.Good) (ho : OutGood s.image s.out)
    (hp0 : 0 < s.quant.palette.length) (hp : s.quant.palette.length ≤ 256) (hb : s.quant.minPosterizationOutput ≤ 7)
    (r : Room bits s.image.width s.image.height) (h32 : s.image.width * s.image.height < 2 ^ 32) :
    remapDitheredM bits env s = remapDithered env s := by
  unfold remapDitheredM remapDithered
  have spec := (generateDitherMap_spec env (s := s) s.image.background.isSome hg ho hp0 hp).1
  rw [generateDitherMapM_eq env _ hg ho hp0 hp r h32]
  generalize generateDitherMap env s s.image.background.isSome s.quant.palette = x at *
  obtain ⟨res, s1⟩ := x
  cases res with
  | error e => rfl
  | ok y =>
    obtain ⟨mapErr, pal⟩ := y
    dsimp only at spec ⊢
    rw [progress_eq]
    cases answered s1.quant.progressCallback (reported s1.quant.progressCallback s1.log
        (lit32 (remapStage1 s1.quant.useDitherMap) *₃ lit32 (1/2))) with
    | true => rfl
    | false =>
      dsimp only
      rw [initIntPaletteM_eq _ _ (by rw [spec.quant]; exact hb)]
      dsimp only
      generalize reported s1.quant.progressCallback s1.log _ = lg
      rw [remapFloydM_eq (s := { s1 with log := lg }) env _ _ _ spec.good spec.out (by
        show Room bits s1.image.px.width s1.image.px.height
        rw [spec.samePx.width, spec.samePx.height]; exact r)]
      rfl

theorem writeRemappedM_eq {bits : ℕ} (env : RemapEnv F) {s : RemapState F} (hg : s.image.Good) (ho : OutGood s.image s.out)
    (hp0 : 0 < s.quant.palette.length) (hp : s.quant.palette.length ≤ 256) (hb : s.quant.minPosterizationOutput ≤ 7)
    (r : Room bits s.image.width s.image.height) (h32 : s.image.width * s.image.height < 2 ^ 32) :
    writeRemappedM bits env s = writeRemapped env s := by
  unfold writeRemappedM writeRemapped
  rw [progress_eq]
  cases answered s.quant.progressCallback (reported s.quant.progressCallback s.log
      (lit32 (remapStage1 s.quant.useDitherMap) *₃ lit32 (1/4))) with
  | true => rfl
  | false =>
    dsimp only
    generalize reported s.quant.progressCallback s.log _ = lg
    have same := Rows.free_same s.image.px
    have hw : s.image.freeHistogramInputs.width = s.image.width := same.width
    have hh : s.image.freeHistogramInputs.height = s.image.height := same.height
    have ho' : OutGood s.image.freeHistogramInputs s.out := ho.same same
    by_cases hd : eq s.quant.ditherLevel (lit32 0) = true
    · rw [if_pos hd, if_pos hd,
        remapPlainM_eq (s := { s with log := lg, image := s.image.freeHistogramInputs }) env hg.free hb (by
          show s.image.freeHistogramInputs.width * s.image.freeHistogramInputs.height < _
          rw [hw, hh]; exact h32)]
      rfl
    · rw [if_neg hd, if_neg hd,
        remapDitheredM_eq (s := { s with log := lg, image := s.image.freeHistogramInputs }) env hg.free ho' hp0 hp hb
          (by show Room bits s.image.freeHistogramInputs.width s.image.freeHistogramInputs.height; rw [hw, hh]; exact r)
          (by show s.image.freeHistogramInputs.width * s.image.freeHistogramInputs.height < _; rw [hw, hh]; exact h32)]
      rfl

theorem remapIntoM_eq {bits : ℕ} (env : RemapEnv F) {q : QuantizationResult F} {img : Image F} (hg : img.Good)
    (hp0 : 0 < q.palette.length) (hp : q.palette.length ≤ 256) (hb : q.minPosterizationOutput ≤ 7)
    (r : Room bits img.width img.height) (h32 : img.width * img.height < 2 ^ 32) (buf : List (Option UInt8)) (log : List F) :
    remapIntoM bits env q img buf log = remapInto env q img buf log := by
  obtain ⟨n, h1, h2, h3, h4, h5⟩ := r.wide
  unfold remapIntoM remapInto
  rw [mul_lt (by omega)]
  dsimp only
  split
  · rfl
  next hlen =>
    rw [writeRemappedM_eq env hg ?_ hp0 hp hb r h32]
    have hl : (buf.take (img.width * img.height)).length = img.width * img.height := by
      rw [List.length_take]; omega
    obtain ⟨a, b, _⟩ := chunksExact_rows hg.width_pos _ hl
    exact ⟨a, b⟩

end Verif
