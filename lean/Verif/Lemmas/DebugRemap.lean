import Verif.Model.DebugRemap
import Verif.Lemmas.Debug
import Verif.Lemmas.RemapRun

/-! When the checks of a debug build pass in images, remapping and palettes, function by function. -/

set_option linter.unusedSectionVars false

namespace Verif
open Flt

variable {F : Type} [Flt F] {num : Bool}

/-! ### Palettes -/

theorem gammaLutD_eq {g : F} (h : num = true → lt (lit64 0) g = true) : gammaLutD num g = .ok (gammaLut g) := by
  unfold gammaLutD; rw [dbgNum_ok h]; rfl

/-- what the checks of an output gamma need -/
structure GammaFine (num : Bool) (g : F) : Prop where
  pos : num = true → lt (lit64 0) g = true
  fin : num = true → isFinite (to32 (g /₆ internalGamma)) = true

theorem toRgbD_eq {g : F} (s : GammaFine num g) (c : FPixel F) : c.toRgbD num g = .ok (c.toRgb g) := by
  unfold FPixel.toRgbD
  split
  next h => rw [FPixel.toRgb, if_pos h]
  · rw [dbgNum_ok s.fin]; rfl

theorem roundEntryD_eq {g : F} (s : GammaFine num g) (b : UInt8) (e : PalEntry F) :
    PalF.roundEntryD num (gammaLut g) g b e = .ok (PalF.roundEntry g b e) := by
  unfold PalF.roundEntryD; rw [toRgbD_eq s]; rfl

theorem initIntPaletteD_eq (p : PalF F) {g : F} (s : GammaFine num g) (b : UInt8) :
    p.initIntPaletteD num g b = .ok (p.initIntPalette g b) := by
  unfold PalF.initIntPaletteD
  rw [gammaLutD_eq s.pos, Res.ok_bind, mapM_ok _ (PalF.roundEntry g b) p fun e _ => roundEntryD_eq s b e, Res.ok_bind]
  simp only [List.map_map]
  rfl

/-! ### Rows -/

namespace Rows

/-- what the checks of gamma need -/
def GammaOK (num : Bool) (r : Rows F) : Prop := num = true → lt (lit64 0) r.gamma = true

theorem rowRgba_length {r : Rows F} {y : ℕ} {row : List RGBA} (h : r.rowRgba y = .ok row) : row.length = r.width := by
  unfold rowRgba at h
  split at h
  · split at h
    · cases h
    · split at h
      · cases h
      next hl => cases h; rw [List.length_take]; omega
  · cases h; simp

theorem convertD_eq {r : Rows F} {t : ℕ} (ht : t = r.width) (y : ℕ) :
    (do let row ← r.rowRgba y; convertRowD t (gammaLut r.gamma) row) = (r.rowRgba y).map (convertRow r.gamma) := by
  cases h : r.rowRgba y with
  | error e => rfl
  | ok row =>
    rw [Res.ok_bind, convertRowD, dbg_true (by rw [ht, rowRgba_length h]; simp)]
    rfl

theorem prepareD_eq {r : Rows F} {t : ℕ} (ht : t = r.width) (hg : GammaOK num r) (b : Bool) :
    r.prepareD num t b = r.prepare b := by
  unfold prepareD prepare
  rw [dbg_true (by simp [ht]), Res.ok_bind]
  split
  · rfl
  · rw [gammaLutD_eq hg, Res.ok_bind]
    have e : (fun y => do let row ← r.rowRgba y; convertRowD r.width (gammaLut r.gamma) row) =
        (fun y => (r.rowRgba y).map (convertRow r.gamma)) := funext fun y => convertD_eq rfl y
    rw [e]

theorem rowFSharedD_eq {r : Rows F} {t : ℕ} (ht : t = r.width) (hg : GammaOK num r) (y : ℕ) :
    r.rowFSharedD num t y = r.rowF y := by
  unfold rowFSharedD rowF
  cases r.fPixels with
  | some rows => rfl
  | none =>
    dsimp only
    rw [gammaLutD_eq hg, Res.ok_bind, convertD_eq ht]

theorem rowFD_eq {r : Rows F} {t : ℕ} (ht : t = r.width) (hg : GammaOK num r) (y : ℕ) : r.rowFD num t y = r.rowF y := by
  unfold rowFD
  rw [dbg_true (by simp [ht]), Res.ok_bind]
  exact rowFSharedD_eq rfl hg y

theorem allRowsFD_eq {r : Rows F} (hg : GammaOK num r) : r.allRowsFD num = r.allRowsF := by
  unfold allRowsFD allRowsF
  rw [prepareD_eq rfl hg]
  cases r.prepare false with
  | error e => rfl
  | ok r' => rw [Res.ok_bind, Res.ok_bind]; cases r'.fPixels <;> rfl

theorem Same.gammaOK {r r' : Rows F} (h : Same r r') (hg : GammaOK num r) : GammaOK num r' := by
  unfold GammaOK; rw [h.gamma]; exact hg

end Rows

/-! ### Images -/

namespace Image

theorem contrastMapsD_eq {img : Image F} (hg : img.px.GammaOK num) : img.contrastMapsD num = img.contrastMaps := by
  unfold contrastMapsD contrastMaps
  rw [Rows.allRowsFD_eq hg]

theorem withEdgesD_eq {img : Image F} (hg : img.px.GammaOK num) : img.withEdgesD num = img.withEdges := by
  unfold withEdgesD withEdges
  rw [contrastMapsD_eq hg]

theorem updateDitherMapD_eq {img : Image F} (hg : img.px.GammaOK num) (rows : List (List UInt8)) (p : PalF F) (ub : Bool) :
    img.updateDitherMapD num rows p ub = img.updateDitherMap rows p ub := by
  unfold updateDitherMapD updateDitherMap
  rw [withEdgesD_eq hg]
  cases img.withEdges with
  | error e => rfl
  | ok img' => rw [Res.ok_bind, Res.ok_bind]; cases img'.edges <;> rfl

theorem importanceFits_good {img : Image F} (h : img.Good) : img.importanceFits = true := by
  unfold importanceFits
  split
  next m hm => exact decide_eq_true (h.importance m hm)
  · rfl

end Image

theorem addImageD_eq (ho : HashOrder) (h : Histogram F) (attr : Attr F) {img : Image F} (hi : img.Good)
    (hg : img.px.GammaOK num) (log : List F) : h.addImageD num ho attr img log = h.addImage ho attr img log := by
  unfold Histogram.addImageD Histogram.addImage
  rw [Image.contrastMapsD_eq hg]
  obtain ⟨img', e, g, -⟩ : ∃ img', (if img.importanceMap.isNone && attr.useContrastMaps then img.contrastMaps else .ok img) = .ok img' ∧
      img'.Good ∧ True := by
    split
    · obtain ⟨i, e, g, -⟩ := contrastMaps_ok hi
      exact ⟨i, e, g, trivial⟩
    · exact ⟨img, rfl, hi, trivial⟩
  simp only [e]
  rw [progress_eq]
  cases answered attr.progressCallback (reported attr.progressCallback log (lit32 attr.progressStage1 *₃ lit32 (4/10))) with
  | true => rfl
  | false =>
    simp only [dbg_true (Image.importanceFits_good g)]
    cases img'.px.rgbaRows <;> rfl

/-! ### Undithered remapping -/

theorem remapRowD_eq (n : Nearest F) (ti : UInt8) {px : Rows F} {bg : Option (Rows F)} (imp : Option (List UInt8))
    (hp : px.GammaOK num) (hb : ∀ b, bg = some b → b.GammaOK num ∧ b.width = px.width) (y : ℕ) :
    remapRowD num n ti px bg imp y = remapRow n ti px bg imp y := by
  unfold remapRowD remapRow
  rw [Rows.rowFSharedD_eq rfl hp]
  cases px.rowF y with
  | error e => rfl
  | ok row =>
    rw [Res.ok_bind, Res.ok_bind]
    cases bg with
    | none => rfl
    | some b =>
      obtain ⟨h1, h2⟩ := hb b rfl
      dsimp only
      rw [Rows.rowFSharedD_eq h2.symm h1]

theorem remapLoopD_eq (order : List ℕ) (n : Nearest F) (ti : UInt8) {px : Rows F} {bg : Option (Rows F)} (imp : Option (List UInt8))
    (hp : px.GammaOK num) (hb : ∀ b, bg = some b → b.GammaOK num ∧ b.width = px.width) (nrows : ℕ) :
    remapLoopD num order n ti px bg imp nrows = remapLoop order n ti px bg imp nrows := by
  unfold remapLoopD remapLoop
  have e : (fun (slots : List (Option (RowOut F))) y => do
      let r ← remapRowD num n ti px bg imp y
      store slots y (some r)) = (fun slots y => do
      let r ← remapRow n ti px bg imp y
      store slots y (some r)) := by
    funext slots y; rw [remapRowD_eq n ti imp hp hb]
  rw [e]
  congr 1

/-- What the check of popularities in a remap relies on: sums of counts are not negative. -/
def CountsOK (F : Type) [Flt F] (num : Bool) : Prop :=
  num = true → ∃ N : F → Prop, N (lit64 0) ∧ (∀ n : ℕ, N (lit32 n)) ∧ (∀ a b, N a → N b → N (a +₆ b)) ∧
    ∀ a, N a → le (lit32 0) (to32 a) = true

theorem CountsOK.off : CountsOK F false := by intro h; cases h

/-- all the weights of a row are integers -/
def Counted (r : RowOut F) : Prop := ∀ u ∈ r.updates, ∃ n : ℕ, u.2.1 = lit32 n

theorem remapPixels_counted (n : Nearest F) (ti : UInt8) (pxs bgs : List (FPixel F)) (imps : List UInt8) (last : UInt8) (err : F) :
    Counted (remapPixels n ti pxs bgs imps last err) := by
  induction pxs generalizing bgs imps last err with
  | nil => intro u hu; cases hu
  | cons px pxs ih =>
    intro u hu
    unfold remapPixels at hu
    dsimp only at hu
    split at hu
    · exact ih _ _ _ _ u hu
    · rcases List.mem_cons.1 hu with rfl | hu
      · exact ⟨_, rfl⟩
      · exact ih _ _ _ _ u hu

theorem remapRow_counted {n : Nearest F} {ti : UInt8} {px : Rows F} {bg : Option (Rows F)} {imp : Option (List UInt8)} {y : ℕ}
    {r : RowOut F} (h : remapRow n ti px bg imp y = .ok r) : Counted r := by
  unfold remapRow at h
  cases e : px.rowF y with
  | error e' => rw [e] at h; cases h
  | ok row =>
    rw [e, Res.ok_bind] at h
    cases bg with
    | none => cases h; exact remapPixels_counted _ _ _ _ _ _ _
    | some b =>
      dsimp only at h
      cases e2 : b.rowF y with
      | error e' => rw [e2] at h; cases h
      | ok row' => rw [e2] at h; cases h; exact remapPixels_counted _ _ _ _ _ _ _

theorem remapLoop_all {P : RowOut F → Prop} {order : List ℕ} {n : Nearest F} {ti : UInt8} {px : Rows F} {bg : Option (Rows F)}
    {imp : Option (List UInt8)} {nrows : ℕ} {outs : List (RowOut F)} (hP : ∀ y ∈ order, ∀ r, remapRow n ti px bg imp y = .ok r → P r)
    (h : remapLoop order n ti px bg imp nrows = .ok outs) : ∀ r ∈ outs, P r := by
  unfold remapLoop at h
  have key : ∀ (order : List ℕ) (slots slots' : List (Option (RowOut F))), (∀ y ∈ order, ∀ r, remapRow n ti px bg imp y = .ok r → P r) →
      (∀ r, some r ∈ slots → P r) → order.foldlM (fun slots y => do
        let r ← remapRow n ti px bg imp y
        store slots y (some r)) slots = .ok slots' → ∀ r, some r ∈ slots' → P r := by
    intro order
    induction order with
    | nil => intro slots slots' _ hs e; cases e; exact hs
    | cons y ys ih =>
      intro slots slots' hP hs e
      rw [List.foldlM_cons] at e
      cases er : remapRow n ti px bg imp y with
      | error e' => rw [er] at e; cases e
      | ok r0 =>
        rw [er] at e
        simp only [Res.ok_bind] at e
        unfold store at e
        split at e
        · refine ih _ _ (fun y hy => hP y (by simp [hy])) (fun r hr => ?_) e
          rcases List.mem_or_eq_of_mem_set hr with h | h
          · exact hs r h
          · cases h; exact hP y (by simp) _ er
        · cases e
  cases hf : order.foldlM (fun slots y => do
        let r ← remapRow n ti px bg imp y
        store slots y (some r)) (List.replicate nrows none) with
  | error e => rw [hf] at h; cases h
  | ok slots =>
    rw [hf, Res.ok_bind] at h
    have hs := key _ _ _ hP (by intro r hr; rw [List.mem_replicate] at hr; cases hr.2) hf
    intro r hr
    obtain ⟨hl, hm⟩ := mapM_get h
    obtain ⟨i, hi, rfl⟩ := List.mem_iff_getElem.1 hr
    have hi' : i < slots.length := by omega
    obtain ⟨y, hy1, hy2⟩ := hm i _ (List.getElem?_eq_getElem hi')
    rw [List.getElem?_eq_getElem hi] at hy1
    cases hy1
    cases ho : slots[i] with
    | none => rw [ho] at hy2; cases hy2
    | some r' =>
      rw [ho] at hy2
      cases hy2
      exact hs _ (by rw [← ho]; exact List.getElem_mem hi')

section totals
variable {N : F → Prop}

def Kmeans.Totals (N : F → Prop) (k : Kmeans F) : Prop := ∀ a ∈ k.averages, N a.total

theorem totals_new (h0 : N (lit64 0)) (len : ℕ) : (Kmeans.new len : Kmeans F).Totals N := by
  intro a ha
  rw [Kmeans.new, List.mem_replicate] at ha
  rw [ha.2]; exact h0

theorem totals_update (ha : ∀ a b, N a → N b → N (a +₆ b)) {k : Kmeans F} (h : k.Totals N) (px : FPixel F) {w : F} (hw : N w)
    (i : ℕ) : (k.updateColor px w i).Totals N := by
  intro a hm
  obtain ⟨j, hj, rfl⟩ := List.mem_iff_getElem.1 hm
  simp only [Kmeans.updateColor, List.getElem_modify]
  have hj' : j < k.averages.length := by simpa [Kmeans.updateColor] using hj
  have := h _ (List.getElem_mem hj')
  split
  · exact ha _ _ this hw
  · exact this

theorem totals_merge (ha : ∀ a b, N a → N b → N (a +₆ b)) {k k' : Kmeans F} (h : k.Totals N) (h' : k'.Totals N) :
    (k.merge k').Totals N := by
  intro a hm
  simp only [Kmeans.merge] at hm
  obtain ⟨j, hj, rfl⟩ := List.mem_iff_getElem.1 hm
  simp only [List.length_zipWith] at hj
  rw [List.getElem_zipWith]
  exact ha _ _ (h _ (List.getElem_mem _)) (h' _ (List.getElem_mem _))

theorem totals_worker (ha : ∀ a b, N a → N b → N (a +₆ b)) (hn : ∀ n : ℕ, N (lit32 n)) {outs : List (RowOut F)}
    (ho : ∀ r ∈ outs, Counted r) {start : Kmeans F} (hs : start.Totals N) (rows : List ℕ) :
    (remapWorker outs start rows).Totals N := by
  unfold remapWorker
  induction rows generalizing start with
  | nil => exact hs
  | cons y ys ih =>
    rw [List.foldl_cons]
    apply ih
    split
    next r hr =>
      have hc := ho r (List.mem_of_getElem? hr)
      unfold Counted at hc
      generalize r.updates = us at hc
      clear hr
      induction us generalizing start with
      | nil => exact hs
      | cons u us ih =>
        rw [List.foldl_cons]
        obtain ⟨n, hu⟩ := hc u (by simp)
        exact ih (totals_update ha hs _ (by rw [hu]; exact hn n) _) (fun v hv => hc v (by simp [hv]))
    · exact hs

theorem totals_reduce (ha : ∀ a b, N a → N b → N (a +₆ b)) {ks : List (Kmeans F)} (h : ∀ k ∈ ks, k.Totals N) {k : Kmeans F}
    (e : Kmeans.reduceWorkers ks = some k) : k.Totals N := by
  cases ks with
  | nil => cases e
  | cons k0 ks =>
    simp only [Kmeans.reduceWorkers, Option.some.injEq] at e
    subst e
    have h0 := h k0 (by simp)
    have hs : ∀ k ∈ ks, k.Totals N := fun k hk => h k (by simp [hk])
    clear h
    induction ks generalizing k0 with
    | nil => exact h0
    | cons k1 ks ih => exact ih _ (totals_merge ha h0 (hs k1 (by simp))) (fun k hk => hs k (by simp [hk]))

end totals

/-- what a check of popularities needs -/
def FinishOK (num : Bool) (env : RemapEnv F) (outs : List (RowOut F)) (useBg : Bool) (ti : UInt8) (p : PalF F) : Prop :=
  num = true → ∀ k, Kmeans.reduceWorkers ((env.sched outs.length).before.map (remapWorker outs (Kmeans.new p.length)) ++
    remapWorker outs (remapMainStart p.length useBg ti) (env.sched outs.length).main ::
      (env.sched outs.length).after.map (remapWorker outs (Kmeans.new p.length))) = some k → Kmeans.finalizeChecks k.averages p = true

theorem remapFinishD_of (env : RemapEnv F) {outs : List (RowOut F)} {useBg : Bool} {ti : UInt8} {p : PalF F}
    (h : FinishOK num env outs useBg ti p) : remapFinishD num env outs useBg ti p = .ok (remapFinish env outs useBg ti p) := by
  unfold remapFinishD remapFinish
  dsimp only
  split
  next k hk =>
    rw [dbgNum_ok fun hn => h hn k hk]
    simp only [hk]; rfl
  next hk => simp only [hk]; rfl

theorem finishOK_counts (hc : CountsOK F num) (env : RemapEnv F) {outs : List (RowOut F)} (ho : ∀ r ∈ outs, Counted r)
    (useBg : Bool) (ti : UInt8) (p : PalF F) :
    FinishOK num env outs useBg ti p := by
    intro hnum k hk
    obtain ⟨N, h0, hn, ha, hle⟩ := hc hnum
    have ht : k.Totals N := by
      refine totals_reduce ha ?_ hk
      intro k' hk'
      have hnew := totals_new (F := F) h0 p.length
      rcases List.mem_append.1 hk' with h | h
      · obtain ⟨rows, -, rfl⟩ := List.mem_map.1 h
        exact totals_worker ha hn ho hnew rows
      · rcases List.mem_cons.1 h with rfl | h
        · refine totals_worker ha hn ho ?_ _
          unfold remapMainStart
          split
          · exact totals_update ha hnew _ (by simpa using hn 1) _
          · exact hnew
        · obtain ⟨rows, -, rfl⟩ := List.mem_map.1 h
          exact totals_worker ha hn ho hnew rows
    unfold Kmeans.finalizeChecks
    rw [List.all_eq_true]
    intro x hx
    rw [hle _ (ht _ (List.of_mem_zip hx).1)]
    simp

/-- What the checks of a remap need of palettes: `P` holds of the palette and of those that are made from it. -/
structure Checks (num : Bool) (env : RemapEnv F) (px : Rows F) (imp : Option (List UInt8)) (nrows : ℕ) (g : F) (b : UInt8)
    (P : PalF F → Prop) : Prop where
  ok : ∀ p, P p → PaletteOK num p
  finish : ∀ p, P p → ∀ (px' : Rows F), Rows.Same px px' → ∀ (n : Nearest F) (ti : UInt8) (bg : Option (Rows F))
    (outs : List (RowOut F)), remapLoop (env.sched nrows).order n ti px' bg imp nrows = .ok outs → ∀ (useBg : Bool), FinishOK num env outs useBg ti p
  refine : ∀ p, P p → 0 < p.length → p.length ≤ 256 → ∀ (px' : Rows F), Rows.Same px px' →
    P (remapToPalette env px' none imp nrows p).2.palette
  round : ∀ p, P p → P (p.initIntPalette g b).1

theorem Checks.same {env : RemapEnv F} {px px' : Rows F} {imp : Option (List UInt8)} {nrows : ℕ} {g : F} {b : UInt8} {P : PalF F → Prop}
    (c : Checks num env px imp nrows g b P) (h : Rows.Same px px') : Checks num env px' imp nrows g b P :=
  ⟨c.ok, fun p hp q hq => c.finish p hp q (h.trans hq), fun p hp h0 h1 q hq => c.refine p hp h0 h1 q (h.trans hq), c.round⟩

/-- the two cases in which nothing has to be known about palettes -/
theorem checks_trivial (s : Sound F num) (hc : CountsOK F num) (env : RemapEnv F) (px : Rows F) (imp : Option (List UInt8)) (nrows : ℕ)
    (g : F) (b : UInt8) : Checks num env px imp nrows g b fun _ => True :=
  ⟨fun p _ => s.paletteOK p, fun p _ _ _ _ _ _ _ e useBg => finishOK_counts hc env (remapLoop_all (fun _ _ _ h => remapRow_counted h) e) useBg _ p,
    fun _ _ _ _ _ _ => trivial, fun _ _ => trivial⟩

theorem prepareOptD_eq {t : ℕ} {bg : Option (Rows F)} (hb : ∀ b, bg = some b → b.GammaOK num ∧ b.width = t) :
    prepareOptD num t bg = prepareOpt bg := by
  cases bg with
  | none => rfl
  | some b =>
    obtain ⟨h1, h2⟩ := hb b rfl
    simp only [prepareOptD, prepareOpt, Rows.prepareD_eq h2.symm h1]

theorem BgSame.gammaOK {t : ℕ} {a b : Option (Rows F)} (h : BgSame a b) (hb : ∀ x, a = some x → x.GammaOK num ∧ x.width = t) :
    ∀ x, b = some x → x.GammaOK num ∧ x.width = t := by
  intro x hx
  subst hx
  cases a with
  | none => simp only [BgSame] at h
  | some a =>
    simp only [BgSame] at h
    obtain ⟨h1, h2⟩ := hb a rfl
    exact ⟨h.gammaOK h1, h.width.trans h2⟩

theorem remapToPaletteD_eq (env : RemapEnv F) {px : Rows F} {bg : Option (Rows F)}
    {imp : Option (List UInt8)} {nrows : ℕ} {p : PalF F} {g : F} {b : UInt8} {P : PalF F → Prop} (c : Checks num env px imp nrows g b P)
    (hP : P p) (hpx : px.Readable) (hbg : BgGood px bg) (hp : px.GammaOK num)
    (hb : ∀ b, bg = some b → b.GammaOK num) :
    remapToPaletteD num env px bg imp nrows p = remapToPalette env px bg imp nrows p := by
  unfold remapToPaletteD remapToPalette
  rw [Nearest.newD_eq (c.ok _ hP)]
  cases Nearest.new p with
  | error e => rfl
  | ok n =>
    dsimp only
    rw [Rows.prepareD_eq rfl hp]
    obtain ⟨px', e1, s1, -⟩ := Rows.prepare_same hpx true
    simp only [e1]
    have hused : ∃ used ti, pickBackground n bg = (used, ti) ∧ (used = none ∨ used = bg) := by
      rcases pickBackground_cases n bg with ⟨b, hb, _, h⟩ | ⟨_, h⟩
      · exact ⟨_, _, h, .inr hb.symm⟩
      · exact ⟨_, _, h, .inl rfl⟩
    obtain ⟨used, ti, hpick, hor⟩ := hused
    rw [hpick]
    dsimp only
    have hg : BgGood px used ∧ ∀ b, used = some b → b.GammaOK num ∧ b.width = px.width := by
      rcases hor with rfl | rfl
      · exact ⟨(fun b h => by cases h), (fun b h => by cases h)⟩
      · exact ⟨hbg, fun b h => ⟨hb b h, (hbg b h).2.1⟩⟩
    rw [prepareOptD_eq hg.2]
    obtain ⟨used', e2, s2⟩ := prepareOpt_ok hg.1
    simp only [e2]
    rw [remapLoopD_eq _ n ti imp (s1.gammaOK hp) (by rw [s1.width]; exact s2.gammaOK hg.2)]
    cases e3 : remapLoop (env.sched nrows).order n ti px' used' imp nrows with
    | error e => rfl
    | ok outs =>
      dsimp only
      rw [remapFinishD_of env (c.finish p hP _ s1 _ _ _ _ e3 _)]

/-! ### Dithering -/

theorem ditherImageRowD_eq {ctx : DitherCtx F} {inp : DitherInput F} (hw : ctx.width = inp.px.width) (hp : inp.px.GammaOK num)
    (hb : ∀ b, inp.bg = some b → b.GammaOK num ∧ b.width = ctx.width) (d : Diffusion F) (y : ℕ) (out : List (Option UInt8)) :
    ditherImageRowD num ctx inp d y out = ditherImageRow ctx inp d y out := by
  unfold ditherImageRowD ditherImageRow
  rw [Rows.rowFD_eq hw hp]
  cases inp.px.rowF y with
  | error e => rfl
  | ok row =>
    rw [Res.ok_bind, Res.ok_bind]
    cases hbg : inp.bg with
    | none => rfl
    | some b =>
      obtain ⟨h1, h2⟩ := hb b hbg
      dsimp only
      rw [Rows.rowFD_eq h2.symm h1]

section dither
variable {ctx : DitherCtx F} {inp : DitherInput F} (hw : ctx.width = inp.px.width) (hp : inp.px.GammaOK num)
    (hb : ∀ b, inp.bg = some b → b.GammaOK num ∧ b.width = ctx.width)
include hw hp hb

theorem ditherRowsD_eq (d : Diffusion F) (y : ℕ) (outs : List (List (Option UInt8))) :
    ditherRowsD num ctx inp d y outs = ditherRows ctx inp d y outs := by
  induction outs generalizing d y with
  | nil => rfl
  | cons out outs ih =>
    unfold ditherRowsD ditherRows
    rw [ditherImageRowD_eq hw hp hb]
    cases ditherImageRow ctx inp d y out with
    | error e => rfl
    | ok r => rw [Res.ok_bind, Res.ok_bind, ih]

theorem warmUpD_eq (start : ℕ) : warmUpD num ctx inp start = warmUp ctx inp start := by
  unfold warmUpD warmUp
  split
  · rw [ditherImageRowD_eq hw hp hb]
    cases ditherImageRow ctx inp (Diffusion.zero ctx.width) (start - 2) (List.replicate ctx.width none) with
    | error e => rfl
    | ok r => rw [Res.ok_bind, Res.ok_bind, ditherImageRowD_eq hw hp hb]
  · rfl

theorem floydChunksD_eq (cb : Option (List F → Bool)) (stage1 start : ℕ) (chunks : List (List (List (Option UInt8)))) (log : List F) :
    floydChunksD num ctx inp cb stage1 start chunks log = floydChunks ctx inp cb stage1 start chunks log := by
  induction chunks generalizing start log with
  | nil => rfl
  | cons c cs ih =>
    unfold floydChunksD floydChunks
    rw [warmUpD_eq hw hp hb]
    cases warmUp ctx inp start with
    | error e => rfl
    | ok du =>
      dsimp only
      rw [progress_eq]
      cases answered cb (reported cb log (ditherProgress stage1 start inp.px.height)) with
      | true => rfl
      | false =>
        dsimp only
        rw [ditherRowsD_eq hw hp hb]
        cases ditherRows ctx inp du.1 start c with
        | error e => rfl
        | ok r => dsimp only; rw [ih]

end dither

/-- what the checks need of an image -/
structure DebugImage (num : Bool) (img : Image F) : Prop where
  good : img.Good
  px : img.px.GammaOK num
  bg : ∀ b, img.background = some b → b.GammaOK num

theorem DebugImage.width {img : Image F} (h : DebugImage num img) :
    ∀ b, img.background = some b → b.GammaOK num ∧ b.width = img.width := fun b hb => ⟨h.bg b hb, (h.good.background b hb).2.1⟩

theorem DebugImage.keeps {s s' : RemapState F} (h : DebugImage num s.image) (k : RemapKeeps s s') : DebugImage num s'.image where
  good := k.good
  px := k.samePx.gammaOK h.px
  bg := fun b hb => (k.sameBg.gammaOK h.width b hb).1

theorem remapFloydD_eq (env : RemapEnv F) {s : RemapState F} {p : PalF F} (so : PaletteOK num p) (maxErr : F) (isRemapped : Bool)
    (hi : DebugImage num s.image) :
    remapFloydD num env s p maxErr isRemapped = remapFloyd env s p maxErr isRemapped := by
  unfold remapFloydD remapFloyd
  rw [Nearest.newD_eq so]
  cases Nearest.new p with
  | error e => rfl
  | ok n =>
    dsimp only
    rw [prepareOptD_eq hi.width]
    obtain ⟨bg, e1, s1⟩ := prepareOpt_ok hi.good.bg
    simp only [e1]
    rw [Rows.prepareD_eq (t := s.image.width) (r := s.image.px) rfl hi.px]
    obtain ⟨px, e2, s2, -⟩ := Rows.prepare_same hi.good.px true
    simp only [e2]
    rw [floydChunksD_eq rfl (s2.gammaOK hi.px)]
    intro b hb
    dsimp only at hb ⊢
    rw [s2.width]
    rcases (pickBackgroundFloyd_cases n bg).1 with h | h
    · rw [h] at hb; exact s1.gammaOK hi.width b hb
    · rw [h] at hb; cases hb

/-! ### Results -/

/-- the checks of one remap -/
def StateChecks (num : Bool) (env : RemapEnv F) (s : RemapState F) (P : PalF F → Prop) : Prop :=
  Checks num env s.image.px s.image.importanceMap s.out.length s.quant.gamma (UInt8.ofNat s.quant.minPosterizationOutput) P

theorem generateDitherMapD_eq (env : RemapEnv F) {s : RemapState F} {P : PalF F → Prop} (c : StateChecks num env s P) (ub : Bool) {p : PalF F}
    (hP : P p)
    (hi : DebugImage num s.image) (ho : OutGood s.image s.out) (hp0 : 0 < p.length) (hp : p.length ≤ 256) :
    generateDitherMapD num env s ub p = generateDitherMap env s ub p := by
  unfold generateDitherMapD generateDitherMap
  split
  · rfl
  · rw [remapToPaletteD_eq env c hP hi.good.px (fun b h => by cases h) hi.px (fun b h => by cases h)]
    have spec := remapToPalette_spec env (px := s.image.px) (bg := none) s.image.importanceMap (nrows := s.out.length)
      hp0 hp hi.good.px (fun b h => by cases h) (by rw [ho.1]; exact le_refl _)
    generalize remapToPalette env s.image.px none s.image.importanceMap s.out.length p = x at *
    obtain ⟨res, r⟩ := x
    cases res with
    | error e => rfl
    | ok err =>
      dsimp only
      rw [Image.updateDitherMapD_eq (spec.samePx.gammaOK hi.px)]
      rfl

theorem generateDitherMap_palette (env : RemapEnv F) {s : RemapState F} {P : PalF F → Prop} (c : StateChecks num env s P) (ub : Bool) {p : PalF F}
    (hP : P p) (hp0 : 0 < p.length) (hp : p.length ≤ 256) {err : Option F} {p' : PalF F} {s' : RemapState F}
    (e : generateDitherMap env s ub p = (.ok (err, p'), s')) : P p' := by
  unfold generateDitherMap at e
  split at e
  · cases e; exact hP
  · have := c.refine p hP hp0 hp _ (Rows.Same.refl _)
    generalize remapToPalette env s.image.px none s.image.importanceMap s.out.length p = x at *
    obtain ⟨res, r⟩ := x
    cases res with
    | error _ => cases e
    | ok _ =>
      dsimp only at e
      split at e
      · cases e
      · cases e; exact this

/-- what the checks need of a result -/
structure DebugResult (num : Bool) (P : PalF F → Prop) (q : QuantizationResult F) : Prop where
  pos : 0 < q.palette.length
  le : q.palette.length ≤ 256
  gamma : GammaFine num q.gamma
  palette : P q.palette

theorem remapPlainD_eq (env : RemapEnv F) {s : RemapState F} {P : PalF F → Prop} (c : StateChecks num env s P) (hi : DebugImage num s.image)
    (hq : DebugResult num P s.quant) : remapPlainD num env s = remapPlain env s := by
  unfold remapPlainD remapPlain
  rw [initIntPaletteD_eq _ hq.gamma]
  dsimp only
  rw [remapToPaletteD_eq env c (c.round _ hq.palette) hi.good.px hi.good.bg hi.px hi.bg]
  rfl

theorem remapDitheredD_eq (env : RemapEnv F) {s : RemapState F} {P : PalF F → Prop} (c : StateChecks num env s P) (hi : DebugImage num s.image)
    (ho : OutGood s.image s.out) (hq : DebugResult num P s.quant) : remapDitheredD num env s = remapDithered env s := by
  unfold remapDitheredD remapDithered
  rw [generateDitherMapD_eq env c _ hq.palette hi ho hq.pos hq.le]
  have hpal := @generateDitherMap_palette F _ num env s P c s.image.background.isSome s.quant.palette hq.palette hq.pos hq.le
  have spec := generateDitherMap_spec env s.image.background.isSome hi.good ho hq.pos hq.le
  generalize generateDitherMap env s s.image.background.isSome s.quant.palette = x at *
  obtain ⟨res, s'⟩ := x
  obtain ⟨keep, -⟩ := spec
  dsimp only at keep
  have hi' : DebugImage num s'.image := hi.keeps keep
  cases res with
  | error e => rfl
  | ok ep =>
    obtain ⟨mapErr, palette⟩ := ep
    dsimp only
    rw [progress_eq]
    cases answered s'.quant.progressCallback (reported s'.quant.progressCallback s'.log (lit32 (remapStage1 s'.quant.useDitherMap) *₃ lit32 (1/2))) with
    | true => rfl
    | false =>
      dsimp only
      rw [initIntPaletteD_eq _ (by rw [keep.quant]; exact hq.gamma)]
      dsimp only
      rw [remapFloydD_eq env (c.ok _ (by rw [keep.quant]; exact c.round _ (hpal rfl))) _ _ (by exact hi')]
      rfl

theorem writeRemappedD_eq (env : RemapEnv F) {s : RemapState F} {P : PalF F → Prop} (c : StateChecks num env s P) (hi : DebugImage num s.image)
    (ho : OutGood s.image s.out) (hq : DebugResult num P s.quant) : writeRemappedD num env s = writeRemapped env s := by
  unfold writeRemappedD writeRemapped
  rw [progress_eq]
  cases answered s.quant.progressCallback (reported s.quant.progressCallback s.log (lit32 (remapStage1 s.quant.useDitherMap) *₃ lit32 (1/4))) with
  | true => rfl
  | false =>
    have hs := Rows.free_same s.image.px
    have hi' : DebugImage num s.image.freeHistogramInputs := ⟨hi.good.free, hs.gammaOK hi.px, hi.bg⟩
    have ho' : OutGood s.image.freeHistogramInputs s.out := ho.same hs
    dsimp only
    have e1 := remapPlainD_eq env (P := P) (s := { s with log := reported s.quant.progressCallback s.log (lit32 (remapStage1 s.quant.useDitherMap) *₃ lit32 (1/4)), image := s.image.freeHistogramInputs }) (c.same hs) hi' hq
    have e2 := remapDitheredD_eq env (P := P) (s := { s with log := reported s.quant.progressCallback s.log (lit32 (remapStage1 s.quant.useDitherMap) *₃ lit32 (1/4)), image := s.image.freeHistogramInputs }) (c.same hs) hi' ho' hq
    rw [e1, e2]
    rfl

end Verif
