import Verif.Model.Rayoff
import Verif.Lemmas.RemapPlain
import Verif.Lemmas.RemapDither
import Verif.Lemmas.Debug

/-! # Builds without threads: the loops are the parallel ones with one particular schedule -/

set_option linter.unusedSectionVars false

namespace Verif
open Flt

variable {F : Type} [Flt F]

/-- Quantization without threads, for an order of hashing and a sort. -/
def Env.rayoff (ho : HashOrder) (so : SortOracle F) : Env F where
  ho := ho
  so := so
  sched _ n := if n = 0 then [] else [List.range n]
  sched_valid := (Env.simple : Env F).sched_valid

/-- Remapping without threads, with `garbage` in uninitialised memory. -/
def RemapEnv.rayoff (garbage : ℕ → UInt8) : RemapEnv F where
  sched := (RemapEnv.simple : RemapEnv F).sched
  sched_valid := (RemapEnv.simple : RemapEnv F).sched_valid
  sum := RemapEnv.simple.sum
  sum_spec := RemapEnv.simple.sum_spec
  cpus := Rayoff.numCpus
  cpus_pos := Nat.one_pos
  garbage := garbage

namespace Rayoff

theorem items_fold (n : Nearest F) (adjust : Bool) (batch : List (HistItem F)) (st : Kmeans F × List (HistItem F) × F) :
    batch.foldl (itemStep n adjust) st =
      ((batch.map (Kmeans.matchItem n adjust)).foldl (fun k x => k.updateColor x.1.color x.1.adjustedWeight x.1.tmp) st.1,
        st.2.1 ++ batch.map (fun x => (Kmeans.matchItem n adjust x).1),
        ((batch.map (Kmeans.matchItem n adjust)).map fun x => x.2 *₃ x.1.perceptualWeight).foldl (· +₆ ·) st.2.2) := by
  induction batch generalizing st with
  | nil => simp
  | cons x xs ih =>
    rw [List.foldl_cons, ih]
    simp [itemStep]

theorem updateColor_sum (l : List (HistItem F × F)) (k : Kmeans F) :
    (l.foldl (fun k x => k.updateColor x.1.color x.1.adjustedWeight x.1.tmp) k).weighedDiffSum = k.weighedDiffSum := by
  induction l generalizing k with
  | nil => rfl
  | cons x xs ih => rw [List.foldl_cons, ih]; rfl

theorem batch_eq (n : Nearest F) (adjust : Bool) (len : ℕ) (st : ThreadLocal (Kmeans F) × List (HistItem F))
    (batch : List (HistItem F)) : batchStep n adjust len st batch =
      (⟨some (Kmeans.iterateBatch n adjust (st.1.cell.getD (Kmeans.new len)) batch)⟩,
        st.2 ++ batch.map fun x => (Kmeans.matchItem n adjust x).1) := by
  obtain ⟨⟨c⟩, done⟩ := st
  unfold batchStep
  cases c <;> simp [ThreadLocal.getOr, ThreadLocal.put, items_fold, Kmeans.iterateBatch, sum64]

theorem batches_eq (n : Nearest F) (adjust : Bool) (len : ℕ) (cs : List (List (HistItem F))) (k : Kmeans F)
    (done : List (HistItem F)) : cs.foldl (batchStep n adjust len) (⟨some k⟩, done) =
      (⟨some (cs.foldl (fun k c => Kmeans.iterateBatch n adjust k c) k)⟩,
        done ++ cs.flatten.map fun x => (Kmeans.matchItem n adjust x).1) := by
  induction cs generalizing k done with
  | nil => simp
  | cons c cs ih =>
    rw [List.foldl_cons, batch_eq, ih]
    simp

/-- One pass of k-means. -/
theorem iteration_eq (hist : HistogramInternal F) (p : PalF F) (adjust : Bool) :
    iteration hist p adjust =
      Kmeans.iteration (if Kmeans.numChunks hist.items.length = 0 then [] else [List.range (Kmeans.numChunks hist.items.length)])
        hist p adjust := by
  unfold iteration Kmeans.iteration
  by_cases he : hist.items = []
  · simp [he]
  · rw [if_neg (by simpa using he), if_neg (by simpa using he)]
    cases Nearest.new p with
    | error e => rfl
    | ok n =>
      have hlen := List.length_pos_iff.2 he
      have hchunks : parChunksMut hist.items 256 = (List.range (Kmeans.numChunks hist.items.length)).map (Kmeans.chunk hist.items) := rfl
      have hpos : Kmeans.numChunks hist.items.length ≠ 0 := by
        unfold Kmeans.numChunks Kmeans.chunkSize; omega
      have hfl : (parChunksMut hist.items 256).flatten = hist.items := (chunksOf_flatten (by norm_num) hist.items).1
      have key : (parChunksMut hist.items 256).foldl (batchStep n adjust p.length) (ThreadLocal.new, []) =
          (⟨some (Kmeans.worker n adjust p.length hist.items (List.range (Kmeans.numChunks hist.items.length)))⟩,
            hist.items.map fun x => (Kmeans.matchItem n adjust x).1) := by
        have e1 : ∀ cs : List (List (HistItem F)), cs ≠ [] → cs.foldl (batchStep n adjust p.length) (ThreadLocal.new, []) =
            cs.foldl (batchStep n adjust p.length) (⟨some (Kmeans.new p.length)⟩, []) := by
          intro cs hcs
          cases cs with
          | nil => exact absurd rfl hcs
          | cons c cs => rw [List.foldl_cons, List.foldl_cons, batch_eq, batch_eq]; rfl
        rw [e1, batches_eq, hfl, hchunks, List.foldl_map, List.nil_append]
        · rfl
        · rw [hchunks]; simpa using hpos
      simp only [Res.ok_bind, key]
      rw [if_neg hpos]
      rfl

theorem remapPixels_eq (n : Nearest F) (ti : UInt8) (pxs bgs : List (FPixel F)) (imps : List UInt8) (last : UInt8) (err : F)
    (k : Kmeans F) : remapPixels n ti pxs bgs imps last err k =
      ((Verif.remapPixels n ti pxs bgs imps last err).bytes, (Verif.remapPixels n ti pxs bgs imps last err).err,
        (Verif.remapPixels n ti pxs bgs imps last err).updates.foldl (fun k u => k.updateColor u.1 u.2.1 u.2.2) k) := by
  induction pxs generalizing bgs imps last err k with
  | nil => rfl
  | cons px pxs ih =>
    unfold remapPixels Verif.remapPixels
    cases bgs.head? with
    | none => dsimp only; rw [ih]; rfl
    | some bg =>
      by_cases hle : le (bg.diff px) (n.search px last.toNat).2 = true
      · simp only [hle, if_true]; rw [ih]
      · simp only [hle]; rw [ih]; rfl

/-- The loop over the rows. -/
theorem rows_eq {n : Nearest F} (ti : UInt8) (px : Rows F) (bg : Option (Rows F)) (imp : Option (List UInt8))
    (len : ℕ) (g : ℕ → RowOut F) (ys : List ℕ) (hg : ∀ y ∈ ys, remapRow n ti px bg imp y = .ok (g y)) (k : Kmeans F)
    (rows : List (List UInt8)) (total : F) :
    ys.foldlM (rowStep n ti px bg imp len) (⟨some k⟩, rows, total) =
      .ok (⟨some (ys.foldl (fun k y => (g y).updates.foldl (fun k u => k.updateColor u.1 u.2.1 u.2.2) k) k)⟩,
        rows ++ ys.map (fun y => (g y).bytes), (ys.map fun y => (g y).err).foldl (· +₆ ·) total) := by
  induction ys generalizing k rows total with
  | nil => simp; rfl
  | cons y ys ih =>
    have hy := hg y (by simp)
    have e : rowStep n ti px bg imp len (⟨some k⟩, rows, total) y =
        .ok (⟨some ((g y).updates.foldl (fun k u => k.updateColor u.1 u.2.1 u.2.2) k)⟩, rows ++ [(g y).bytes], total +₆ (g y).err) := by
      unfold remapRow at hy
      unfold rowStep
      cases h1 : px.rowF y with
      | error e => rw [h1] at hy; cases hy
      | ok row =>
        rw [h1] at hy
        cases bg with
        | none =>
          have hy' : Verif.remapPixels n ti row [] ((imp.getD []).drop (y * px.width)) 0 (lit64 0) = g y := by
            injection hy
          simp only [ThreadLocal.getOr, Res.ok_bind, remapPixels_eq]
          show Except.ok _ = _
          rw [hy']; rfl
        | some b =>
          dsimp only at hy ⊢
          cases h2 : b.rowF y with
          | error e => rw [h2] at hy; cases hy
          | ok brow =>
            rw [h2] at hy
            have hy' : Verif.remapPixels n ti row brow ((imp.getD []).drop (y * px.width)) 0 (lit64 0) = g y := by
              injection hy
            simp only [ThreadLocal.getOr, Res.ok_bind, remapPixels_eq]
            show Except.ok _ = _
            rw [hy']; rfl
    rw [List.foldlM_cons, e]
    show List.foldlM _ _ ys = _
    rw [ih (fun z hz => hg z (by simp [hz]))]
    simp

theorem remapWorker_eq (g : ℕ → RowOut F) (nrows : ℕ) (k : Kmeans F) (ys : List ℕ) (h : ∀ y ∈ ys, y < nrows) :
    remapWorker ((List.range nrows).map g) k ys =
      ys.foldl (fun k y => (g y).updates.foldl (fun k u => k.updateColor u.1 u.2.1 u.2.2) k) k := by
  unfold remapWorker
  induction ys generalizing k with
  | nil => rfl
  | cons y ys ih =>
    rw [List.foldl_cons, List.foldl_cons, ih _ (fun z hz => h z (by simp [hz]))]
    rw [List.getElem?_map, List.getElem?_range (h y (by simp))]
    rfl

/-- Undithered remapping. -/
theorem remapToPalette_eq (garbage : ℕ → UInt8) {px : Rows F} {bg : Option (Rows F)} (imp : Option (List UInt8))
    {nrows : ℕ} (p : PalF F) (hpx : px.Readable) (hbg : BgGood px bg) (hn : nrows ≤ px.height) :
    remapToPalette px bg imp nrows p = Verif.remapToPalette (RemapEnv.rayoff garbage) px bg imp nrows p := by
  unfold remapToPalette Verif.remapToPalette
  cases hnew : Nearest.new p with
  | error e => rfl
  | ok n =>
    have hn' : Nearest.new n.palette = .ok n := by rw [(Nearest.new_ok hnew).2.2.1]; exact hnew
    obtain ⟨px', e1, s1, _⟩ := Rows.prepare_same hpx true
    simp only [e1]
    have hgood : BgGood px (pickBackground n bg).1 := by
      rcases pickBackground_cases n bg with ⟨b, hb, _, h⟩ | ⟨_, h⟩
      · rw [h, ← hb]; exact hbg
      · rw [h]; intro b hb; cases hb
    obtain ⟨used', e2, s2⟩ := prepareOpt_ok hgood
    rw [e2]
    simp only
    have hgood' : BgGood px' used' := s2.good s1 hgood
    let g : ℕ → RowOut F := fun y => match remapRow n (pickBackground n bg).2 px' used' imp y with
      | .ok r => r
      | .error _ => ⟨[], zero, []⟩
    have hg : ∀ y < nrows, remapRow n (pickBackground n bg).2 px' used' imp y = .ok (g y) := by
      intro y hy
      obtain ⟨r, hr, _⟩ := remapRow_ok hn' (pickBackground n bg).2 imp (s1.readable hpx) hgood' (y := y) (by rw [s1.height]; omega)
      simp only [g, hr]
    rw [remapLoop_ok ((RemapEnv.rayoff garbage : RemapEnv F).sched_valid nrows).2 _ _ px' used' imp g hg]
    have htls : (if used'.isSome = true then
          ((ThreadLocal.new : ThreadLocal (Kmeans F)).getOr fun _ => Kmeans.new p.length).2.put
            (((ThreadLocal.new : ThreadLocal (Kmeans F)).getOr fun _ => Kmeans.new p.length).1.updateColor FPixel.default (lit32 1)
              (pickBackground n bg).2.toNat)
        else ((ThreadLocal.new : ThreadLocal (Kmeans F)).getOr fun _ => Kmeans.new p.length).2) =
        ⟨some (remapMainStart p.length used'.isSome (pickBackground n bg).2)⟩ := by
      cases used' <;> rfl
    simp only [htls]
    rw [rows_eq _ px' used' imp p.length g (List.range nrows) (fun y hy => hg y (List.mem_range.1 hy))]
    have hsum : (RemapEnv.rayoff garbage : RemapEnv F).sum (((List.range nrows).map g).map (·.err)) =
        ((List.range nrows).map fun y => (g y).err).foldl (· +₆ ·) (lit64 0) := by
      rw [List.map_map]; rfl
    have hrows : ((List.range nrows).map g).map (·.bytes) = (List.range nrows).map fun y => (g y).bytes := by
      rw [List.map_map]; rfl
    have hfin : remapFinish (RemapEnv.rayoff garbage : RemapEnv F) ((List.range nrows).map g) used'.isSome (pickBackground n bg).2 p =
        Kmeans.finalizePalette ((List.range nrows).foldl (fun k y => (g y).updates.foldl (fun k u => k.updateColor u.1 u.2.1 u.2.2) k)
          (remapMainStart p.length used'.isSome (pickBackground n bg).2)).averages p := by
      unfold remapFinish
      simp only [RemapEnv.rayoff, RemapEnv.simple, List.map_nil, List.nil_append, Kmeans.reduceWorkers, List.foldl_nil, List.length_map,
        List.length_range]
      rw [remapWorker_eq _ _ _ _ (fun y hy => List.mem_range.1 hy)]
    simp only [hsum, hrows, hfin, List.nil_append]
    rfl

end Rayoff

/-! ### Quantization uses the schedule for nothing but k-means -/

theorem findLoop_env {env env' : Env F} (hso : env.so = env'.so)
    (hk : ∀ t hist p adjust, env.kmeans t hist p adjust = env'.kmeans t hist p adjust) (attr : Attr F) (targetMse : F) (total : ℕ)
    (st : FindState F) (log : List F) : findLoop env attr targetMse total st log = findLoop env' attr targetMse total st log := by
  generalize hn : st.trialsLeft.toNat = n
  induction n using Nat.strong_induction_on generalizing st log with
  | _ n ih =>
    rw [findLoop, findLoop, hso]
    refine PM.bind_congr fun ⟨pal, hist⟩ l e1 => ?_
    dsimp only
    refine PM.bind_congr fun pal2 l2 e2 => ?_
    by_cases ht : st.trialsLeft ≤ 0
    · rw [dif_pos ht, dif_pos ht]
    · rw [dif_neg ht, dif_neg ht, hk]
      refine PM.bind_congr fun ⟨hist', p', err⟩ l3 e3 => ?_
      dsimp only
      refine PM.bind_congr fun ab l4 e4 => ?_
      split
      · rfl
      · have hlt := trialUpdate_lt st targetMse err p'
        refine ih _ ?_ (nextState st targetMse err p' hist') _ rfl
        rw [← hn]
        show (trialUpdate st targetMse err p').trialsLeft.toNat < _
        omega

theorem refineLoop_env {env env' : Env F}
    (hk : ∀ t hist p adjust, env.kmeans t hist p adjust = env'.kmeans t hist p adjust) (attr : Attr F) (maxMse : Option F)
    (iterations : ℕ) (limit : F) (clock i : ℕ) (hist : HistogramInternal F) (p : PalF F) (err : Option F) (log : List F) :
    refineLoop env attr maxMse iterations limit clock i hist p err log =
      refineLoop env' attr maxMse iterations limit clock i hist p err log := by
  generalize hn : iterations - i = n
  induction n using Nat.strong_induction_on generalizing clock i hist p err log with
  | _ n ih =>
    rw [refineLoop, refineLoop]
    by_cases hi : i < iterations
    · rw [dif_pos hi, dif_pos hi]
      refine PM.bind_congr fun ab l e => ?_
      split
      · rfl
      · rw [hk]
        refine PM.bind_congr fun ⟨hist', q, pe⟩ l3 e3 => ?_
        dsimp only
        have key : ∀ b : Bool, (if b = true then (pure (q, some pe) : PM F (PalF F × Option F)) else
            refineLoop env attr maxMse iterations limit (clock + 1)
            (i + if lt (maxMse.getD (lit64 (10 ^ 20)) *₆ lit64 (15/10)) pe then 2 else 1) hist' q (some pe)) l3 =
            (if b = true then (pure (q, some pe) : PM F (PalF F × Option F)) else
            refineLoop env' attr maxMse iterations limit (clock + 1)
            (i + if lt (maxMse.getD (lit64 (10 ^ 20)) *₆ lit64 (15/10)) pe then 2 else 1) hist' q (some pe)) l3 := by
          intro b
          cases b with
          | true => rfl
          | false => exact ih _ (by split <;> omega) _ _ _ _ _ _ rfl
        exact key _
    · rw [dif_neg hi, dif_neg hi]

theorem findBestPalette_env {env env' : Env F} (hso : env.so = env'.so)
    (hk : ∀ t hist p adjust, env.kmeans t hist p adjust = env'.kmeans t hist p adjust) (attr : Attr F) (targetMse : F) (z : Bool)
    (maxMse : Option F) (hist : HistogramInternal F) (log : List F) :
    findBestPalette env attr targetMse z maxMse hist log = findBestPalette env' attr targetMse z maxMse hist log := by
  unfold findBestPalette
  split
  · rfl
  · rw [PM.bind_apply, PM.bind_apply, findLoop_env hso hk]
    split
    · exact refineLoop_env hk _ _ _ _ _ _ _ _ _ _
    · rfl

theorem quantize_env {env env' : Env F} (hho : env.ho = env'.ho) (hso : env.so = env'.so)
    (hk : ∀ t hist p adjust, env.kmeans t hist p adjust = env'.kmeans t hist p adjust) (h : Histogram F) (attr : Attr F)
    (freeze : Bool) (log : List F) : h.quantizeInternal env attr freeze log = h.quantizeInternal env' attr freeze log := by
  unfold Histogram.quantizeInternal
  split
  · rfl
  · refine PM.bind_congr fun a l e => ?_
    split
    · rfl
    · refine PM.bind_congr fun a l e => ?_
      split
      · rfl
      · dsimp only
        rw [hho]
        refine PM.bind_congr fun hist l e => ?_
        unfold QuantizationResult.new
        refine PM.bind_congr fun a l e => ?_
        split
        · rfl
        · dsimp only
          rw [PM.bind_apply, PM.bind_apply, findBestPalette_env hso hk]

end Verif
