import Verif.Props.DebugRemap
import Verif.Props.DebugRounded
import Verif.Props.FiniteUse
import Verif.Lemmas.Twin

/-! # C73: debug builds of remapping and `palette()` when arithmetic rounds and overflows -/

set_option linter.unusedSectionVars false

namespace Verif
open Flt Spec FltRound

variable {F : Type} [Flt F] [FltMin F] {op : Prop}

theorem usual_gamma_pos {γ : F} (h : UsualGamma γ) : Flt.lt (Flt.lit64 0) γ = true := by
  have hz := nn_zero64 (F := F)
  rw [FltRound.lt _ _ hz.fin h.fin, le_antisymm hz.hi hz.lo]
  exact lt_of_lt_of_le (by norm_num) h.lo

theorem gammaFine_usual {γ : F} (h : UsualGamma γ) : GammaFine true γ :=
  ⟨fun _ => usual_gamma_pos h, fun _ => isFinite_of (exponents h).2.1.1⟩

theorem cells_sum (ws : List (ℕ × Kmeans F)) (hs : ∀ x ∈ ws, Cells op (2 * x.1) x.2) {n : ℕ} {k : Kmeans F}
    (h : Cells op (3 * n) k) (hm : 3 * (n + (ws.map (·.1)).sum) ≤ 2 ^ 34) :
    Cells op (3 * (n + (ws.map (·.1)).sum)) ((ws.map (·.2)).foldl Kmeans.merge k) := by
  induction ws generalizing n k with
  | nil => simpa using h
  | cons x ws ih =>
    simp only [List.map_cons, List.sum_cons, List.foldl_cons] at hm ⊢
    have hx := hs x (by simp)
    have hnext : Cells op (3 * (n + x.1)) (k.merge x.2) := by
      obtain ⟨m1, m2, -⟩ := h.merge hx (by omega)
      rcases Nat.eq_zero_or_pos x.1 with h0 | h0
      · rw [h0, Nat.add_zero]; exact m2 (by rw [h0])
      · exact fun s hs => ⟨(m1 s hs).1.mono (by omega), (m1 s hs).2⟩
    have := ih (fun y hy => hs y (by simp [hy])) hnext (by rw [Nat.add_assoc]; exact hm)
    rw [Nat.add_assoc] at this
    exact this

/-- the popularities that a remap measures are not negative, with a background, too -/
theorem finishOK_rounded (env : RemapEnv F) {w : ℕ} {outs : List (RowOut F)}
    (ho : ∀ r ∈ outs, r.updates.length ≤ w ∧ ∀ u ∈ r.updates, GoodUpdate False u) (hm : w * outs.length ≤ 2 ^ 32) (useBg : Bool) (ti : UInt8)
    (p : PalF F) : FinishOK true env outs useBg ti p := by
  intro _ k hk
  have hv := (env.sched_valid outs.length).1
  have hlen := hv.length_eq
  simp only [List.length_append, List.length_flatten, List.length_range] at hlen
  generalize env.sched outs.length = s at *
  have hstart : Cells False 2 (remapMainStart p.length useBg ti : Kmeans F) := by
    unfold remapMainStart
    split
    · have := (cells_new (op := False) p.length).update (c := FPixel.default) FPixel.unitFin_default (fun h => h.elim) (byteWeight (F := F) 1) (by norm_num) ti.toNat
      simpa using this
    · exact fun s hs => ⟨(cells_new (op := False) p.length s hs).1.mono (by omega), (cells_new (op := False) p.length s hs).2⟩
  have hworker : ∀ l : List ℕ, l.length ≤ outs.length → Cells False (2 * (w * l.length)) (remapWorker outs (Kmeans.new p.length) l) := by
    intro l hl
    have h1 : w * l.length ≤ w * outs.length := Nat.mul_le_mul_left _ hl
    have := cells_worker ho l (cells_new (op := False) p.length) (by rw [Nat.zero_add, Nat.mul_assoc]; omega)
    rwa [Nat.zero_add, Nat.mul_assoc] at this
  have hmain : Cells False (2 * (w * s.main.length + 1)) (remapWorker outs (remapMainStart p.length useBg ti) s.main) := by
    have h1 : w * s.main.length ≤ w * outs.length := Nat.mul_le_mul_left _ (by omega)
    have := cells_worker ho s.main hstart (by rw [Nat.mul_assoc]; omega)
    rw [Nat.mul_assoc] at this
    rwa [show 2 * (w * s.main.length + 1) = 2 + 2 * (w * s.main.length) by ring]
  let all : List (ℕ × Kmeans F) := s.before.map (fun l => (w * l.length, remapWorker outs (Kmeans.new p.length) l)) ++
    (w * s.main.length + 1, remapWorker outs (remapMainStart p.length useBg ti) s.main) ::
    s.after.map (fun l => (w * l.length, remapWorker outs (Kmeans.new p.length) l))
  have hle : ∀ l ∈ s.before ++ s.after, l.length ≤ outs.length := by
    intro l hl
    have := List.single_le_sum (l := (s.before ++ s.after).map List.length) (by simp) _ (List.mem_map_of_mem hl)
    simp only [List.map_append, List.sum_append] at this
    omega
  have hsum : (all.map (·.1)).sum = w * outs.length + 1 := by
    have hmul : ∀ ls : List (List ℕ), (ls.map fun l => w * l.length).sum = w * (ls.map List.length).sum := fun ls => by
      rw [List.sum_map_mul_left]
    simp only [all, List.map_append, List.map_cons, List.map_map, List.sum_append, List.sum_cons, Function.comp_def, hmul]
    rw [← hlen]; ring
  have hall : ∀ x ∈ all, Cells False (2 * x.1) x.2 := by
    intro x hx
    rcases List.mem_append.1 hx with h | h
    · obtain ⟨l, hl, rfl⟩ := List.mem_map.1 h
      exact hworker l (hle l (by simp [hl]))
    · rcases List.mem_cons.1 h with rfl | h
      · exact hmain
      · obtain ⟨l, hl, rfl⟩ := List.mem_map.1 h
        exact hworker l (hle l (by simp [hl]))
  have hred : Kmeans.reduceWorkers (all.map (·.2)) = some k := by
    rw [← hk]
    simp [all, List.map_map, Function.comp_def]
  have hcells : Cells False (3 * (w * outs.length + 1)) k := by
    cases hcase : all with
    | nil => rw [hcase] at hred; cases hred
    | cons x xs =>
      rw [hcase] at hred hall
      have hsum' : x.1 + (xs.map (·.1)).sum = w * outs.length + 1 := by
        rw [hcase] at hsum
        simpa using hsum
      have hm2 : 3 * (x.1 + (xs.map (·.1)).sum) ≤ 2 ^ 34 := by omega
      simp only [List.map_cons, Kmeans.reduceWorkers, Option.some.injEq] at hred
      have := cells_sum xs (fun y hy => hall y (by simp [hy])) (n := x.1) (fun s hs => ⟨(hall x (by simp) s hs).1.mono (by omega), (hall x (by simp) s hs).2⟩) hm2
      rwa [hred, hsum'] at this
  unfold Kmeans.finalizeChecks
  rw [List.all_eq_true]
  intro x hx
  rw [Bool.or_eq_true]
  refine .inr (nn_to32 (hcells _ (List.of_mem_zip hx).1).1.total ?_).ge_zero
  have h2 : ((3 * (w * outs.length + 1) : ℕ) : ℝ) ≤ 2 ^ 34 := by exact_mod_cast (by omega)
  calc (512 : ℝ) * ((3 * (w * outs.length + 1) : ℕ) : ℝ) ≤ 512 * 2 ^ 34 := by gcongr
    _ ≤ 2 ^ 127 := by norm_num

theorem checks_rounded [FltSign F] (env : RemapEnv F) {px : Rows F} (imp : Option (List UInt8)) (hpx : px.Readable) (hs : px.Sound False)
    (hw : 0 < px.width) (ha : px.width * px.height ≤ 2 ^ 32) {γ : F} (hγ : UsualGamma γ) {b : ℕ} (hb : b ≤ 4) :
    Checks true env px imp px.height γ (UInt8.ofNat b) (PalFin False) := by
  refine ⟨fun p hp => hp.ok, fun p _ px' hsame n ti bg outs e useBg => ?_, fun p hp h0 h1 px' hsame => ?_,
    fun p hp => initInt_fin hp hγ hb⟩
  · refine finishOK_rounded env (fun r hr => ?_) (by rw [remapLoop_length e]; exact ha) useBg ti p
    refine remapLoop_all (P := fun r => r.updates.length ≤ px.width ∧ ∀ u ∈ r.updates, GoodUpdate False u) (fun y hy r hr => ?_) e r hr
    have hy' : y < px.height := by
      have := ((env.sched_valid px.height).2.mem_iff (a := y)).1 hy
      exact List.mem_range.1 this
    have hrow := (hsame.readable hpx).rowF (y := y) (by rw [hsame.height]; exact hy')
    unfold remapRow at hr
    rw [hrow.1, Res.ok_bind] at hr
    have good := fun bgs imps => remapPixels_good (op := False) n ti (px'.pixelsF y) bgs imps 0 (Flt.lit64 0)
      (hs.same hsame y (by rw [hsame.height]; exact hy'))
    rw [hrow.2, hsame.width] at good
    cases bg with
    | none => cases hr; exact good _ _
    | some bb =>
      dsimp only at hr
      cases e2 : bb.rowF y with
      | error e' => rw [e2] at hr; cases hr
      | ok row' => rw [e2] at hr; cases hr; exact good _ _
  · have := remapToPalette_pal env imp h0 h1 hp (hsame.readable hpx) (hs.same hsame) (by rw [hsame.width]; exact hw)
      (by rw [hsame.width, hsame.height]; exact ha)
    rwa [hsame.height] at this

section rounded
variable [FltSign F]

/-- **C73** (arithmetic with rounding and overflow). Making an image, with all the assertions. -/
theorem C73_new_rounded (buf : List RGBA) (f : ℕ → ℕ → RGBA) (w h stride : ℕ) (g : F) :
    Image.newStrideD true buf w h stride g = Image.newStride buf w h stride g ∧
    Image.newFnD true f w h g = Image.newFn f w h g := by
  have h0 : true = true → Flt.lt (Flt.lit64 0) (Flt.lit64 (45455/100000) : F) = true := fun _ => by
    have hz := nn_zero64 (F := F)
    have hl : Approx w64 (Flt.lit64 (45455/100000) : F) (((45455/100000 : ℚ) : ℝ)) := Approx.lit64 (mid_of (by norm_num) (by norm_num))
    rw [FltRound.lt _ _ hz.fin hl.fin, le_antisymm hz.hi hz.lo]
    have := hl.rel.ge (by norm_num)
    refine lt_of_lt_of_le ?_ this
    rw [w64_val]
    norm_num
  exact ⟨newStrideD_eq h0 .., newFnD_eq h0 ..⟩

/-- **C73** (arithmetic with rounding and overflow). Adding an image of usual gamma to a histogram, with all the assertions. -/
theorem C73_add_image_rounded (ho : HashOrder) (h : Histogram F) (attr : Attr F) {img : Image F} (hi : UserImage img)
    (hγ : UsualGamma img.px.gamma) (log : List F) : h.addImageD true ho attr img log = h.addImage ho attr img log :=
  addImageD_eq ho h attr hi.good (fun _ => usual_gamma_pos hγ) log

/-- what a remap of a usual image with a usual result needs -/
theorem UsedState.debug {err : Option F} {q : QuantizationResult F} (h : UsedState False err q) (hq : UserResult q) :
    DebugResult true (PalFin False) q :=
  ⟨hq.good.pos, hq.good.le, gammaFine_usual h.gamma, h.palette⟩

/-- **C73** (arithmetic with rounding and overflow, partial). With all the assertions, remapping and `palette()` of a debug build
do what those of a release build do, for results of quantizing a histogram of usual size at speed 5 or above, or at
speed 4, the default (see `FastEnough`), after any use, and images of usual gamma with fewer than 2³² pixels, with or without a background. The full claim has no limits; it fails for
a gamma that is NaN. -/
theorem C73_same_rounded_partial {h : Histogram F} (hu : UserHistogram h) (hs : UsualSize h) (env : Env F) (cs : List Call)
    (cb : Option (List F → Bool)) (hspeed : FastEnough h cs) (freeze : Bool) {log log' : List F}
    {r q : QuantizationResult F} (e : h.quantizeInternal env (userAttr cs cb) freeze log = (.ok r, log'))
    (hq : UsedOn (fun _ => True) r q) :
    (∀ (renv : RemapEnv F) (img : Image F) (buf : List (Option UInt8)) (rlog : List F), UserImage img → UsualImage img →
      remapIntoD true renv q img buf rlog = remapInto renv q img buf rlog) ∧
    q.getPaletteD true = .ok q.getPalette := by
  have hr : UserResult r := .quantized env cs cb h freeze log log' e
  have s := hq.state (op := False) (fun h => h.elim) hr (quantized_state hu hs env cs cb hspeed freeze e fun h => h.elim)
  have huser := hq.user hr
  refine ⟨fun renv img buf rlog hi hui => ?_, getPaletteD_eq huser.good (gammaFine_usual s.gamma)⟩
  refine remapIntoD_eq renv (checks_rounded renv img.importanceMap hi.good.px ?_ hi.good.width_pos hui.area.le s.gamma s.post)
    ⟨hi.good, fun _ => usual_gamma_pos hui.gamma, fun b hb _ => usual_gamma_pos (hui.background b hb)⟩ (s.debug huser) buf rlog
  exact fun y hy c hc => ⟨(hi.fin hui.gamma hui.background hui.area).px y hy c hc, fun h => h.elim⟩

end rounded

/-- hypotheses of `C73_same_rounded_partial`, for an arithmetic in which operations round and overflow: a result that was used for
a dithered remap, and an image -/
example : ∃ (h : Histogram Over) (r q : _) (log : _) (img : Image Over), UserHistogram h ∧ UsualSize h ∧
    FastEnough h [.speed 4, .maxColors 2] ∧
    h.quantizeInternal Env.simple (userAttr [.speed 4, .maxColors 2] none) true [] = (.ok r, log) ∧
    UsedOn (fun _ => True) r q ∧ q.remapped.isSome ∧ UserImage img ∧ UsualImage img := by
  obtain ⟨h, hg, hu, hs, hc, h3, key⟩ := opaque_case (F := Over)
  obtain ⟨r, log, e⟩ := key 4
  obtain ⟨img, i1, i2, i3, i4, i5, i6⟩ := usual_image (F := Over) fun _ _ => ⟨10, 20, 30, 255⟩
  have hr : UserResult r := .quantized _ _ _ _ _ _ _ e
  have hok := C48_quantized_rounded hu hs Env.simple _ none (.inr ⟨by decide, hc.counted, hc.counts⟩) true e hr rfl (quantized_gamma e).2
    (by rw [(quantized_gamma e).1]; exact hs.gamma) i1 i2 RemapEnv.simple (List.replicate 6 none) [] (by simp [i3, i4])
  obtain ⟨re, h1, -⟩ := C36_succeeded RemapEnv.simple hr i1 (List.replicate 6 none) [] hok
  exact ⟨h, r, _, log, img, hu, hs, .inr ⟨by decide, hc.counted, hc.counts⟩, e,
    .remap RemapEnv.simple (List.replicate 6 none) [] .start i1 i2 i6 (fun _ _ _ _ => trivial), by rw [h1]; rfl, i1, i2⟩

end Verif
