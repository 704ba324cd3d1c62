import Verif.Lemmas.RemapSum

/-! # What a remap does not depend on: schedule, sums (exact arithmetic), and with one chunk CPUs and memory contents -/

set_option linter.unusedSectionVars false

namespace Verif
open Flt Spec

section any
variable {F : Type} [Flt F]

theorem plainRows_index {p : PalF F} {n : Nearest F} (hn : Nearest.new p = .ok n) (px : Rows F) (bg : Option (Rows F))
    (imp : Option (List UInt8)) (nrows : ℕ) : ∀ r ∈ plainRows n px bg imp nrows, ∀ u ∈ r.updates, u.2.2 < p.length := by
  intro r hr u hu
  have hn' : Nearest.new n.palette = .ok n := by rw [(Nearest.new_ok hn).2.2.1]; exact hn
  obtain ⟨y, _, rfl⟩ := List.mem_map.mp hr
  obtain ⟨_, ⟨hint, h⟩, _⟩ := remapPixels_updates hn' _ _ _ _ _ _ u hu
  rw [h]
  exact Nearest.search_lt hn _ _

theorem pickBackground_lt {p : PalF F} {n : Nearest F} (hn : Nearest.new p = .ok n) (bg : Option (Rows F)) :
    (pickBackground n bg).2.toNat < p.length := by
  rcases pickBackground_cases n bg with ⟨b, _, _, h⟩ | ⟨_, h⟩
  · rw [h]; exact transparentIndex_lt hn
  · rw [h]; exact (Nearest.new_ok hn).1

/-- rows and inputs are left in the same state by every environment -/
theorem remapToPalette_rows_env (env env' : RemapEnv F) {px : Rows F} {bg : Option (Rows F)} (imp : Option (List UInt8))
    {nrows : ℕ} (p : PalF F) (hpx : px.Readable) (hbg : BgGood px bg) (hn : nrows ≤ px.height) :
    (remapToPalette env px bg imp nrows p).2.rows = (remapToPalette env' px bg imp nrows p).2.rows ∧
    (remapToPalette env px bg imp nrows p).2.px = (remapToPalette env' px bg imp nrows p).2.px ∧
    (remapToPalette env px bg imp nrows p).2.background = (remapToPalette env' px bg imp nrows p).2.background := by
  cases hnew : Nearest.new p with
  | error e => unfold remapToPalette; rw [hnew]; exact ⟨rfl, rfl, rfl⟩
  | ok n =>
    obtain ⟨px', bg', _, _, h⟩ := remapToPalette_eq imp hnew hpx hbg hn
    rw [h env, h env']
    split <;> split <;> exact ⟨rfl, rfl, rfl⟩

/-! ### The contents of uninitialised memory -/

theorem foldlM_congr_inv {σ α : Type} (P : σ → Prop) {f g : σ → α → Res σ} (l : List α) (s : σ) (hs : P s)
    (h : ∀ a ∈ l, ∀ s, P s → f s a = g s a ∧ ∀ s', f s a = .ok s' → P s') : l.foldlM f s = l.foldlM g s := by
  induction l generalizing s with
  | nil => rfl
  | cons a l ih =>
    obtain ⟨h1, h2⟩ := h a (by simp) s hs
    rw [List.foldlM_cons, List.foldlM_cons, ← h1]
    cases hf : f s a with
    | error e => rfl
    | ok s' => exact ih s' (h2 s' hf) fun b hb => h b (by simp [hb])

/-- all bytes have been written, in case they are going to be read -/
def GuessOk (guess : Bool) (out : List (Option UInt8)) : Prop := guess = true → none ∉ out

theorem ditherStep_garbage (ctx : DitherCtx F) (g : ℕ → UInt8) (row bg : List (FPixel F)) (dmap : List UInt8) (even : Bool)
    (st : DitherState F) (x : ℕ) (hx : x < ctx.width) (hlen : st.out.length = ctx.width) (h : GuessOk ctx.guess st.out) :
    ditherStep ctx row bg dmap even st x = ditherStep { ctx with garbage := g } row bg dmap even st x ∧
    ∀ st', ditherStep ctx row bg dmap even st x = .ok st' → st'.out.length = ctx.width ∧ GuessOk ctx.guess st'.out := by
  have hcol := ditherCol_lt (w := ctx.width) even hx
  constructor
  · have hgs : ditherGuess ctx st (ditherCol ctx.width even x) =
        ditherGuess { ctx with garbage := g } st (ditherCol ctx.width even x) := by
      unfold ditherGuess
      by_cases hg : ctx.guess = true
      · simp only [hg, if_true]
        have : st.out.getD (ditherCol ctx.width even x) none ≠ none := by
          rw [List.getD_eq_getElem?_getD, List.getElem?_eq_getElem (by rw [hlen]; exact hcol)]
          intro he
          exact h hg (by rw [← he]; simp)
        cases he : st.out.getD (ditherCol ctx.width even x) none with
        | none => exact absurd he this
        | some b => rfl
      · simp only [hg]; rfl
    unfold ditherStep
    have hcoleq : (if even = true then x else ctx.width - 1 - x) = ditherCol ctx.width even x := rfl
    simp only [hcoleq]
    rw [hgs]
    rfl
  · intro st' he
    unfold ditherStep at he
    have hcoleq : (if even = true then x else ctx.width - 1 - x) = ditherCol ctx.width even x := rfl
    simp only [hcoleq, bind, Except.bind] at he
    split at he
    · cases he
    · split at he
      · cases he
      · simp only [pure, Except.pure, Except.ok.injEq] at he
        subst he
        refine ⟨by simp [hlen], fun hg hmem => ?_⟩
        rcases List.mem_or_eq_of_mem_set hmem with h' | h'
        · exact h hg h'
        · cases h'

theorem ditherRow_garbage (ctx : DitherCtx F) (g : ℕ → UInt8) (row bg : List (FPixel F)) (dmap : List UInt8)
    (d : Diffusion F) (even : Bool) (out : List (Option UInt8)) (h : GuessOk ctx.guess out) :
    ditherRow ctx row bg dmap d even out = ditherRow { ctx with garbage := g } row bg dmap d even out := by
  unfold ditherRow
  by_cases hl : row.length ≠ ctx.width ∨ out.length ≠ ctx.width
  · rw [if_pos hl, if_pos hl]
  · rw [if_neg hl, if_neg hl]
    simp only
    rw [foldlM_congr_inv (fun st : DitherState F => st.out.length = ctx.width ∧ GuessOk ctx.guess st.out)
      (f := ditherStep ctx row bg dmap even) (g := ditherStep { ctx with garbage := g } row bg dmap even)
      (List.range ctx.width) _ ⟨by dsimp only; omega, h⟩
      (fun x hx st hst => ditherStep_garbage ctx g row bg dmap even st x (List.mem_range.mp hx) hst.1 hst.2)]

theorem ditherImageRow_garbage (ctx : DitherCtx F) (inp : DitherInput F) (g : ℕ → UInt8) (d : Diffusion F) (y : ℕ)
    (out : List (Option UInt8)) (h : GuessOk ctx.guess out) :
    ditherImageRow ctx inp d y out = ditherImageRow { ctx with garbage := g } inp d y out := by
  unfold ditherImageRow
  have key : ∀ row bgRow, ditherRow ctx row bgRow (inp.dmapRow y) d (y % 2 == 0) out =
      ditherRow { ctx with garbage := g } row bgRow (inp.dmapRow y) d (y % 2 == 0) out :=
    fun row bgRow => ditherRow_garbage ctx g _ _ _ _ _ _ h
  simp only [key]

theorem ditherRows_garbage (ctx : DitherCtx F) (inp : DitherInput F) (g : ℕ → UInt8) (outs : List (List (Option UInt8)))
    (d : Diffusion F) (y : ℕ) (h : ∀ out ∈ outs, GuessOk ctx.guess out) :
    ditherRows ctx inp d y outs = ditherRows { ctx with garbage := g } inp d y outs := by
  induction outs generalizing d y with
  | nil => rfl
  | cons o os ih =>
    unfold ditherRows
    rw [ditherImageRow_garbage ctx inp g d y o (h o (by simp))]
    congr 1
    funext r
    rw [ih _ _ fun x hx => h x (by simp [hx])]

theorem floydChunks_garbage (ctx : DitherCtx F) (inp : DitherInput F) (g : ℕ → UInt8) (cb : Option (List F → Bool))
    (stage1 : ℕ) (rows : List (List (Option UInt8))) (log : List F) (h : ∀ out ∈ rows, GuessOk ctx.guess out) :
    floydChunks ctx inp cb stage1 0 [rows] log = floydChunks { ctx with garbage := g } inp cb stage1 0 [rows] log := by
  unfold floydChunks
  have hw : ∀ c : DitherCtx F, warmUp c inp 0 = .ok (Diffusion.zero c.width, false) := fun c => rfl
  rw [hw, hw]
  simp only
  rw [ditherRows_garbage ctx inp g rows _ _ h]
  rfl

theorem chunksOf_one {α : Type} {l : List α} (h : l ≠ []) : chunksOf ((l.length + 1 - 1) / 1) l = [l] := by
  have : 0 < l.length := List.length_pos_iff.mpr h
  unfold chunksOf
  simp only [Nat.add_sub_cancel, Nat.div_one]
  have hd : (l.length + l.length - 1) / l.length = 1 :=
    Nat.div_eq_of_lt_le (by omega) (by omega)
  rw [hd]
  simp

theorem remapFloyd_env (env env' : RemapEnv F) {s : RemapState F} (p : PalF F) (maxErr : F) (isRemapped : Bool)
    (hg : s.image.Good) (ho : OutGood s.image s.out)
    (hrem : isRemapped = true → ∀ row ∈ s.out, none ∉ row) (hc : s.chunks env = 1) (hc' : s.chunks env' = 1) :
    remapFloyd env s p maxErr isRemapped = remapFloyd env' s p maxErr isRemapped := by
  unfold remapFloyd
  simp only
  cases Nearest.new p with
  | error e => rfl
  | ok n =>
    simp only
    cases prepareOpt s.image.background with
    | error e => rfl
    | ok bg =>
      simp only
      obtain ⟨px', e1, s1, _⟩ := Rows.prepare_same hg.px true
      rw [e1]
      simp only
      have h1 : ditherChunks s.quant.singleThreadedDithering px'.width px'.height env.cpus = 1 := by
        rw [s1.width, s1.height]; exact hc
      have h2 : ditherChunks s.quant.singleThreadedDithering px'.width px'.height env'.cpus = 1 := by
        rw [s1.width, s1.height]; exact hc'
      rw [h1, h2]
      have hne : s.out ≠ [] := by
        intro h
        have := ho.1
        rw [h] at this
        have := hg.height_pos
        simp at *
        omega
      have hlen : s.out.length = px'.height := by rw [s1.height]; exact ho.1
      rw [← hlen, chunksOf_one hne]
      rw [floydChunks_garbage _ _ env'.garbage _ _ _ _ (fun out hout hgt =>
        hrem (by simp only [Bool.and_eq_true] at hgt; exact hgt.1) out hout)]

/-- two environments under which undithered remaps have the same outcome -/
def SamePlain (env env' : RemapEnv F) : Prop :=
  ∀ (px : Rows F) (bg : Option (Rows F)) (imp : Option (List UInt8)) (nrows : ℕ) (p : PalF F), px.Readable →
    BgGood px bg → nrows ≤ px.height → remapToPalette env px bg imp nrows p = remapToPalette env' px bg imp nrows p

theorem SamePlain.of_eq {env env' : RemapEnv F} (h1 : env.sched = env'.sched) (h2 : env.sum = env'.sum) :
    SamePlain env env' := by
  intro px bg imp nrows p _ _ _
  unfold remapToPalette remapFinish
  rw [h1, h2]

theorem remapPlain_env (env env' : RemapEnv F) (hsp : SamePlain env env') {s : RemapState F} (hg : s.image.Good) (ho : OutGood s.image s.out) :
    remapPlain env s = remapPlain env' s := by
  unfold remapPlain
  simp only
  rw [hsp _ _ _ _ _ hg.px (fun b hb => hg.background b hb) (le_of_eq ho.1)]

theorem generateDitherMap_env (env env' : RemapEnv F) (hsp : SamePlain env env') {s : RemapState F} (hg : s.image.Good) (ho : OutGood s.image s.out)
    (ub : Bool) (p : PalF F) : generateDitherMap env s ub p = generateDitherMap env' s ub p := by
  unfold generateDitherMap
  rw [hsp _ _ _ _ _ hg.px (fun b hb => by cases hb) (le_of_eq ho.1)]

/-- the number of CPUs and the contents of fresh memory do not matter to this state -/
def SameDither (env env' : RemapEnv F) (s : RemapState F) : Prop :=
  (env.cpus = env'.cpus ∧ env.garbage = env'.garbage) ∨ (s.chunks env = 1 ∧ s.chunks env' = 1)

theorem remapDithered_env (env env' : RemapEnv F) (hsp : SamePlain env env') {s : RemapState F} (hg : s.image.Good) (ho : OutGood s.image s.out)
    (hp0 : 0 < s.quant.palette.length) (hp : s.quant.palette.length ≤ 256) (hs : SameDither env env' s) :
    remapDithered env s = remapDithered env' s := by
  unfold remapDithered
  rw [generateDitherMap_env env env' hsp hg ho]
  have spec := generateDitherMap_spec env' s.image.background.isSome hg ho hp0 hp
  generalize hx : generateDitherMap env' s s.image.background.isSome s.quant.palette = x at *
  obtain ⟨res, s'⟩ := x
  obtain ⟨keep, _, _, _, _, _, hres⟩ := spec
  cases res with
  | error e => rfl
  | ok x =>
    obtain ⟨mapErr, p'⟩ := x
    simp only
    rcases hres with ⟨e, p2, heq, hlen, hwr, _⟩ | hres
    · simp only [Except.ok.injEq, Prod.mk.injEq] at heq
      obtain ⟨rfl, rfl⟩ := heq
      rw [progress_eq]
      cases answered s'.quant.progressCallback (reported s'.quant.progressCallback s'.log
        (lit32 (remapStage1 s'.quant.useDitherMap) *₃ lit32 (1/2))) with
      | true => rfl
      | false =>
        simp only
        rcases hs with ⟨h1, h2⟩ | ⟨h1, h2⟩
        · have : ∀ t p m b, remapFloyd env t p m b = remapFloyd env' t p m b := by
            intro t p m b
            unfold remapFloyd
            rw [h1, h2]
          rw [this]
        · rw [remapFloyd_env env env']
          · exact keep.good
          · exact keep.out
          · intro h row hrow
            exact ((hwr h).1 row hrow).no_none
          · unfold RemapState.chunks at h1 ⊢
            rw [← h1]
            show ditherChunks s'.quant.singleThreadedDithering s'.image.px.width s'.image.px.height _ = _
            rw [keep.quant, keep.samePx.width, keep.samePx.height]
            rfl
          · unfold RemapState.chunks at h2 ⊢
            rw [← h2]
            show ditherChunks s'.quant.singleThreadedDithering s'.image.px.width s'.image.px.height _ = _
            rw [keep.quant, keep.samePx.width, keep.samePx.height]
            rfl
    · obtain ⟨h, _⟩ := hres
      simp at h

theorem writeRemapped_env (env env' : RemapEnv F) (hsp : SamePlain env env') {s : RemapState F} (hg : s.image.Good) (ho : OutGood s.image s.out)
    (hp0 : 0 < s.quant.palette.length) (hp : s.quant.palette.length ≤ 256)
    (hs : eq s.quant.ditherLevel (lit32 0) = true ∨ SameDither env env' s) : writeRemapped env s = writeRemapped env' s := by
  unfold writeRemapped
  rw [progress_eq]
  cases answered s.quant.progressCallback (reported s.quant.progressCallback s.log
        (lit32 (remapStage1 s.quant.useDitherMap) *₃ lit32 (1/4))) with
  | true => rfl
  | false =>
    simp only
    have hg' : s.image.freeHistogramInputs.Good := hg.free
    have ho' : OutGood s.image.freeHistogramInputs s.out := ho.same (Rows.free_same s.image.px)
    by_cases hl : eq s.quant.ditherLevel (lit32 0) = true
    · simp only [hl, if_true]
      rw [remapPlain_env env env' hsp hg' ho']
    · simp only [hl]
      rcases hs with h | h
      · exact absurd h hl
      · rw [if_neg (by simp), if_neg (by simp), remapDithered_env env env' hsp (s := { quant := s.quant, image := s.image.freeHistogramInputs, out := s.out, log := _, uninit := s.uninit }) hg' ho' hp0 hp]
        rcases h with h | ⟨h1, h2⟩
        · exact .inl h
        · refine .inr ⟨?_, ?_⟩
          · rw [← h1]; unfold RemapState.chunks Image.width Image.height
            simp only [Image.freeHistogramInputs]
            rw [(Rows.free_same s.image.px).width, (Rows.free_same s.image.px).height]
          · rw [← h2]; unfold RemapState.chunks Image.width Image.height
            simp only [Image.freeHistogramInputs]
            rw [(Rows.free_same s.image.px).width, (Rows.free_same s.image.px).height]

theorem remapInto_env (env env' : RemapEnv F) (hsp : SamePlain env env') {q : QuantizationResult F} {img : Image F}
    (hq : q.Good) (hi : img.Good) (buf : List (Option UInt8)) (log : List F)
    (hs : eq q.ditherLevel (lit32 0) = true ∨ SameDither env env' ⟨q, img, [], [], false⟩) :
    remapInto env q img buf log = remapInto env' q img buf log := by
  unfold remapInto
  simp only
  split
  · rfl
  next hlt =>
    rw [writeRemapped_env env env' hsp (s := ⟨q, img, chunksExact img.width (buf.take (img.width * img.height)), log, false⟩)
      hi ?_ hq.pos hq.le hs]
    obtain ⟨h1, h2⟩ := chunksExact_rows (h := img.height) hi.width_pos (buf.take (img.width * img.height))
      (by rw [List.length_take]; omega)
    exact ⟨h1, h2.1⟩

theorem remapPlain_out_env (env env' : RemapEnv F) {s : RemapState F} (hg : s.image.Good) (ho : OutGood s.image s.out) :
    (remapPlain env s).2 = (remapPlain env' s).2 := by
  unfold remapPlain
  simp only
  obtain ⟨h1, h2, h3⟩ := remapToPalette_rows_env env env' (px := s.image.px) (bg := s.image.background) s.image.importanceMap
    (s.quant.palette.initIntPalette s.quant.gamma (UInt8.ofNat s.quant.minPosterizationOutput)).1
    hg.px (fun b hb => hg.background b hb) (le_of_eq ho.1)
  generalize remapToPalette env s.image.px s.image.background s.image.importanceMap s.out.length
    (s.quant.palette.initIntPalette s.quant.gamma (UInt8.ofNat s.quant.minPosterizationOutput)).1 = x at *
  generalize remapToPalette env' s.image.px s.image.background s.image.importanceMap s.out.length
    (s.quant.palette.initIntPalette s.quant.gamma (UInt8.ofNat s.quant.minPosterizationOutput)).1 = y at *
  obtain ⟨rx, x⟩ := x
  obtain ⟨ry, y⟩ := y
  simp only at *
  rw [h1, h2, h3]
  cases rx <;> cases ry <;> rfl

/-- undithered: the bytes do not depend on the environment -/
theorem remapInto_buf_env (env env' : RemapEnv F) {q : QuantizationResult F} {img : Image F}
    (hi : img.Good) (buf : List (Option UInt8)) (log : List F) (hl : eq q.ditherLevel (lit32 0) = true) :
    (remapInto env q img buf log).buf = (remapInto env' q img buf log).buf := by
  unfold remapInto
  simp only
  split
  · rfl
  next hlt =>
    simp only
    congr 2
    obtain ⟨h1, h2⟩ := chunksExact_rows (h := img.height) hi.width_pos (buf.take (img.width * img.height))
      (by rw [List.length_take]; omega)
    unfold writeRemapped
    rw [progress_eq]
    cases answered q.progressCallback (reported q.progressCallback log (lit32 (remapStage1 q.useDitherMap) *₃ lit32 (1/4))) with
    | true => rfl
    | false =>
      simp only [hl, if_true]
      have key := remapPlain_out_env env env' (s := ⟨q, img.freeHistogramInputs,
        chunksExact img.width (buf.take (img.width * img.height)),
        reported q.progressCallback log (lit32 (remapStage1 q.useDitherMap) *₃ lit32 (1/4)), false⟩)
        hi.free ((show OutGood img _ from ⟨h1, h2.1⟩).same (Rows.free_same img.px))
      generalize remapPlain env _ = x at *
      generalize remapPlain env' _ = y at *
      obtain ⟨rx, x⟩ := x
      obtain ⟨ry, y⟩ := y
      simp only at key
      subst key
      cases rx <;> cases ry <;> rfl

/-! ### The rows of a dithered remap -/

/-- consecutive rows: each is dithered into its place, with the errors of the row before -/
theorem ditherRows_trace {ctx : DitherCtx F} {inp : DitherInput F} (outs : List (List (Option UInt8))) (d : Diffusion F)
    (y : ℕ) {r : DitherOut F (List (List (Option UInt8)))} (h : ditherRows ctx inp d y outs = .ok r) :
    ∃ D : ℕ → Diffusion F, D 0 = d ∧ ∀ i out, outs[i]? = some out → ∃ ri, ditherImageRow ctx inp (D i) (y + i) out = .ok ri ∧
      r.out[i]? = some ri.out ∧ D (i + 1) = ri.diffusion := by
  induction outs generalizing d y r with
  | nil => exact ⟨fun _ => d, rfl, fun i out h => by simp at h⟩
  | cons o os ih =>
    unfold ditherRows at h
    simp only [bind, Except.bind] at h
    split at h
    · cases h
    next r0 h0 =>
      split at h
      · cases h
      next rs hrs =>
        simp only [pure, Except.pure, Except.ok.injEq] at h
        subst h
        obtain ⟨D, hD0, hD⟩ := ih _ _ hrs
        refine ⟨fun i => match i with
          | 0 => d
          | i + 1 => D i, rfl, fun i out hi => ?_⟩
        cases i with
        | zero =>
          simp only [List.getElem?_cons_zero, Option.some.injEq] at hi
          subst hi
          exact ⟨r0, h0, rfl, hD0⟩
        | succ i =>
          rw [List.getElem?_cons_succ] at hi
          obtain ⟨ri, e1, e2, e3⟩ := hD i out hi
          exact ⟨ri, by rw [← e1, show y + (i + 1) = y + 1 + i by omega], e2, e3⟩

theorem ditherRows_length {ctx : DitherCtx F} {inp : DitherInput F} (outs : List (List (Option UInt8))) (d : Diffusion F)
    (y : ℕ) {r : DitherOut F (List (List (Option UInt8)))} (h : ditherRows ctx inp d y outs = .ok r) :
    r.out.length = outs.length := by
  induction outs generalizing d y r with
  | nil => unfold ditherRows at h; simp only [Except.ok.injEq] at h; subst h; rfl
  | cons o os ih =>
    unfold ditherRows at h
    simp only [bind, Except.bind] at h
    split at h
    · cases h
    next r0 h0 =>
      split at h
      · cases h
      next rs hrs =>
        simp only [pure, Except.pure, Except.ok.injEq] at h
        subst h
        simp [ih _ _ hrs]

/-- all chunks together -/
theorem floydChunks_trace {ctx : DitherCtx F} {inp : DitherInput F} (cb : Option (List F → Bool)) (stage1 : ℕ)
    (chunks : List (List (List (Option UInt8)))) (start : ℕ) (log : List F)
    (hok : (floydChunks ctx inp cb stage1 start chunks log).1.res = .ok ()) :
    ∃ D : ℕ → Diffusion F, ∀ i out, chunks.flatten[i]? = some out → ∃ ri,
      ditherImageRow ctx inp (D i) (start + i) out = .ok ri ∧
      (floydChunks ctx inp cb stage1 start chunks log).1.rows[i]? = some ri.out ∧
      (D (i + 1) = ri.diffusion ∨ (∃ k, k ≤ chunks.length ∧ i + 1 = (chunks.take k).flatten.length)) := by
  induction chunks generalizing start log with
  | nil => exact ⟨fun _ => Diffusion.zero 0, fun i out h => by simp at h⟩
  | cons c cs ih =>
    unfold floydChunks at hok ⊢
    cases hw : warmUp ctx inp start with
    | error e => rw [hw] at hok; simp at hok
    | ok x =>
      obtain ⟨d, u⟩ := x
      rw [hw] at hok
      simp only at hok ⊢
      rw [progress_eq] at hok ⊢
      cases hans : answered cb (reported cb log (ditherProgress stage1 start inp.px.height)) with
      | true => rw [hans] at hok; simp at hok
      | false =>
        rw [hans] at hok
        simp only at hok ⊢
        cases hr : ditherRows ctx inp d start c with
        | error e => rw [hr] at hok; simp at hok
        | ok r =>
          rw [hr] at hok
          simp only at hok ⊢
          obtain ⟨D1, _, h1⟩ := ditherRows_trace c d start hr
          obtain ⟨D2, h2⟩ := ih (start + c.length) _ hok
          have hlen := ditherRows_length c d start hr
          refine ⟨fun i => if i < c.length then D1 i else D2 (i - c.length), fun i out hi => ?_⟩
          dsimp only
          rw [List.flatten_cons] at hi
          by_cases hic : i < c.length
          · rw [List.getElem?_append_left hic] at hi
            obtain ⟨ri, e1, e2, e3⟩ := h1 i out hi
            refine ⟨ri, by rw [if_pos hic]; exact e1, by rw [List.getElem?_append_left (by omega)]; exact e2, ?_⟩
            by_cases hic' : i + 1 < c.length
            · exact .inl (by rw [if_pos hic']; exact e3)
            · exact .inr ⟨1, by simp, by simp; omega⟩
          · rw [List.getElem?_append_right (by omega)] at hi
            obtain ⟨ri, e1, e2, e3⟩ := h2 (i - c.length) out hi
            refine ⟨ri, by rw [if_neg hic, show start + i = start + c.length + (i - c.length) by omega]; exact e1,
              by rw [List.getElem?_append_right (by omega), hlen]; exact e2, ?_⟩
            rcases e3 with e3 | ⟨k, hk, e3⟩
            · exact .inl (by rw [if_neg (by omega), ← e3]; congr 1; omega)
            · exact .inr ⟨k + 1, by simp; omega, by simp only [List.take_succ_cons, List.flatten_cons, List.length_append]; omega⟩

/-- the chunk boundaries are the multiples of the chunk size, and the end -/
theorem chunksOf_take {α : Type} {size : ℕ} (l : List α) (k : ℕ) (hk : k ≤ (chunksOf size l).length) :
    ((chunksOf size l).take k).flatten = l.take (k * size) := by
  induction k with
  | zero => simp
  | succ k ih =>
    have hk' : k < (chunksOf size l).length := by omega
    rw [List.take_succ_eq_append_getElem hk', List.flatten_append, ih (by omega)]
    have : (chunksOf size l)[k] = (l.drop (k * size)).take size := by simp [chunksOf]
    rw [this]
    simp only [List.flatten_cons, List.flatten_nil, List.append_nil]
    rw [Nat.add_mul, Nat.one_mul, List.take_add]

end any

/-! ### Exact arithmetic -/


theorem remapToPalette_env (env env' : RemapEnv ℝ) {px : Rows ℝ} {bg : Option (Rows ℝ)} (imp : Option (List UInt8))
    {nrows : ℕ} (p : PalF ℝ) (hpx : px.Readable) (hbg : BgGood px bg) (hn : nrows ≤ px.height) :
    remapToPalette env px bg imp nrows p = remapToPalette env' px bg imp nrows p := by
  cases hnew : Nearest.new p with
  | error e => unfold remapToPalette; rw [hnew]
  | ok n =>
    obtain ⟨px', bg', _, _, h⟩ := remapToPalette_eq imp hnew hpx hbg hn
    rw [h env, h env', env.sum_real, env'.sum_real,
      remapFinish_eq env _ _ _ _ (pickBackground_lt hnew bg) (plainRows_index hnew px bg imp nrows),
      remapFinish_eq env' _ _ _ _ (pickBackground_lt hnew bg) (plainRows_index hnew px bg imp nrows)]

theorem SamePlain.real (env env' : RemapEnv ℝ) : SamePlain env env' := by
  intro px bg imp nrows p h1 h2 h3
  exact remapToPalette_env env env' imp p h1 h2 h3

end Verif
