import Verif.Lemmas.RemapExact
import Verif.Lemmas.KmeansSum

/-! # Errors and averages of an undithered remap in exact arithmetic, for every schedule -/

set_option linter.unusedSectionVars false

namespace Verif
open Flt Spec

theorem SumsTo.real {l : List ℝ} {x : ℝ} (h : SumsTo l x) : x = l.sum := by
  induction h with
  | nil => simp
  | single x => simp
  | add _ _ h1 h2 => rw [h1, h2]; simp
  | perm hp _ h => rw [h]; exact hp.sum_eq

theorem RemapEnv.sum_real (env : RemapEnv ℝ) (l : List ℝ) : env.sum l = l.sum := (env.sum_spec l).real

/-- the difference counted for a pixel does not depend on the hint -/
theorem plainDiff_hint {p : PalF ℝ} {n : Nearest ℝ} (hn : Nearest.new p = .ok n) (bg : Option (FPixel ℝ)) (px : FPixel ℝ)
    {hint : UInt8} (hh : hint.toNat < p.length) : plainDiff n bg px hint = plainDiff n bg px 0 := by
  have h0 : (0 : UInt8).toNat < p.length := (Nearest.new_ok hn).1
  have key : (n.search px hint.toNat).2 = (n.search px (0 : UInt8).toNat).2 := by
    obtain ⟨a1, a2, a3⟩ := Nearest.search_min hn px hint.toNat (.inl hh)
    obtain ⟨b1, b2, b3⟩ := Nearest.search_min hn px (0 : UInt8).toNat (.inl h0)
    exact le_antisymm (by rw [b2]; exact a3 _ b1) (by rw [a2]; exact b3 _ a1)
  unfold plainDiff
  rw [key]

/-- what the pixels add to the error, from some column on -/
theorem remapPixels_err {n : Nearest ℝ} (hn : Nearest.new n.palette = .ok n) (ti : UInt8) (pxs bgs : List (FPixel ℝ))
    (imps : List UInt8) (last : UInt8) (err : ℝ) (hlast : last.toNat < n.palette.length) :
    (remapPixels n ti pxs bgs imps last err).err =
      err + ((List.range pxs.length).map fun x => plainDiff n bgs[x]? (pxs.getD x FPixel.default) 0).sum := by
  induction pxs generalizing bgs imps last err with
  | nil => simp [remapPixels]
  | cons p ps ih =>
    obtain ⟨_, h2⟩ := remapPixels_cons n ti p ps bgs imps last err
    rw [h2, ih _ _ _ _ (by rw [search_toNat hn]; exact Nearest.search_lt hn _ _), plainDiff_hint hn _ _ hlast,
      List.length_cons, List.range_succ_eq_map, List.map_cons, List.sum_cons, List.map_map]
    simp only [real_add64, List.getD_cons_zero, List.getElem?_tail]
    rw [List.head?_eq_getElem?, add_assoc]
    rfl

/-- the updates of one row: each belongs to a pixel of the row, which was matched to the entry -/
theorem remapPixels_updates {F : Type} [Flt F] {n : Nearest F} (hn : Nearest.new n.palette = .ok n) (ti : UInt8)
    (pxs bgs : List (FPixel F)) (imps : List UInt8) (last : UInt8) (err : F) :
    ∀ u ∈ (remapPixels n ti pxs bgs imps last err).updates, u.1 ∈ pxs ∧
      (∃ hint : UInt8, u.2.2 = (n.search u.1 hint.toNat).1) ∧ ∃ b : UInt8, u.2.1 = lit32 b.toNat := by
  induction pxs generalizing bgs imps last err with
  | nil => simp [remapPixels]
  | cons p ps ih =>
    intro u hu
    rw [remapPixels] at hu
    simp only at hu
    have hrec : ∀ e, u ∈ (remapPixels n ti ps bgs.tail imps.tail (UInt8.ofNat (n.search p last.toNat).1) e).updates →
        u.1 ∈ p :: ps ∧ (∃ hint : UInt8, u.2.2 = (n.search u.1 hint.toNat).1) ∧ ∃ b : UInt8, u.2.1 = lit32 b.toNat := by
      intro e he
      obtain ⟨h1, h2⟩ := ih _ _ _ _ u he
      exact ⟨List.mem_cons_of_mem _ h1, h2⟩
    split at hu
    · exact hrec _ hu
    · rcases List.mem_cons.mp hu with h | h
      · subst h
        exact ⟨by simp, ⟨last, by rw [search_toNat hn]⟩, _, rfl⟩
      · exact hrec _ h

open Kmeans

/-- what updates add up to for entry `j` -/
noncomputable def gain (l : List (FPixel ℝ × ℝ × ℕ)) (j : ℕ) : ColorAvg ℝ :=
  ((l.filter (fun u => u.2.2 = j)).map fun u => unitAvg u.1 u.2.1).sum

theorem gain_cons (u : FPixel ℝ × ℝ × ℕ) (l : List (FPixel ℝ × ℝ × ℕ)) (j : ℕ) :
    gain (u :: l) j = (if u.2.2 = j then unitAvg u.1 u.2.1 else 0) + gain l j := by
  unfold gain
  by_cases h : u.2.2 = j <;> simp [h]

theorem gain_append (l m : List (FPixel ℝ × ℝ × ℕ)) (j : ℕ) : gain (l ++ m) j = gain l j + gain m j := by simp [gain]

theorem gain_perm {l m : List (FPixel ℝ × ℝ × ℕ)} (h : l.Perm m) (j : ℕ) : gain l j = gain m j :=
  ((h.filter _).map _).sum_eq

theorem updates_gain (l : List (FPixel ℝ × ℝ × ℕ)) (k : Kmeans ℝ) (h : ∀ u ∈ l, u.2.2 < k.averages.length) :
    let k' := l.foldl (fun k u => k.updateColor u.1 u.2.1 u.2.2) k
    k'.averages.length = k.averages.length ∧ ∀ j, k'.at' j = k.at' j + gain l j := by
  induction l generalizing k with
  | nil => simp [gain]
  | cons u l ih =>
    obtain ⟨h1, h2⟩ := ih (k.updateColor u.1 u.2.1 u.2.2) (fun v hv => by
      rw [updateColor_len]; exact h v (by simp [hv]))
    refine ⟨h1.trans (updateColor_len ..), fun j => ?_⟩
    rw [List.foldl_cons, h2, updateColor_at _ _ _ _ (h u (by simp)), gain_cons, add_assoc]

/-- the updates of the given rows -/
def rowUpdates {F : Type} (outs : List (RowOut F)) (rows : List ℕ) : List (FPixel F × F × ℕ) :=
  rows.flatMap fun y => match outs[y]? with
    | some r => r.updates
    | none => []

theorem remapWorker_gain (outs : List (RowOut ℝ)) (rows : List ℕ) (k : Kmeans ℝ) (len : ℕ) (hk : k.averages.length = len)
    (h : ∀ r ∈ outs, ∀ u ∈ r.updates, u.2.2 < len) :
    (remapWorker outs k rows).averages.length = len ∧
    ∀ j, (remapWorker outs k rows).at' j = k.at' j + gain (rowUpdates outs rows) j := by
  unfold remapWorker rowUpdates
  induction rows generalizing k with
  | nil => simp [hk, gain]
  | cons y ys ih =>
    rw [List.foldl_cons, List.flatMap_cons]
    cases hy : outs[y]? with
    | none => simpa using ih k hk
    | some r =>
      obtain ⟨h1, h2⟩ := updates_gain r.updates k (fun u hu => by rw [hk]; exact h r (List.mem_of_getElem? hy) u hu)
      obtain ⟨g1, g2⟩ := ih (r.updates.foldl (fun k u => k.updateColor u.1 u.2.1 u.2.2) k) (h1.trans hk)
      refine ⟨g1, fun j => ?_⟩
      rw [g2, h2, gain_append, add_assoc]

theorem new_at (len j : ℕ) : (Kmeans.new len : Kmeans ℝ).at' j = 0 := by
  unfold at' Kmeans.new
  simp only [List.getD_eq_getElem?_getD, List.getElem?_replicate]
  split <;> simp [ColorAvg.zero_def]

/-- all the updates of a remap, in the order of the rows -/
def allUpdates {F : Type} [Flt F] (outs : List (RowOut F)) (useBg : Bool) (ti : UInt8) : List (FPixel F × F × ℕ) :=
  (if useBg then [(FPixel.default, lit32 1, ti.toNat)] else []) ++ rowUpdates outs (List.range outs.length)

/-- **For every schedule** the palette after a remap is computed from the sums over all pixels. -/
theorem remapFinish_eq (env : RemapEnv ℝ) (outs : List (RowOut ℝ)) (useBg : Bool) (ti : UInt8) (p : PalF ℝ)
    (hti : ti.toNat < p.length) (h : ∀ r ∈ outs, ∀ u ∈ r.updates, u.2.2 < p.length) :
    remapFinish env outs useBg ti p =
      finalizePalette ((List.range p.length).map (gain (allUpdates outs useBg ti))) p := by
  unfold remapFinish
  dsimp only
  obtain ⟨hv, _⟩ := env.sched_valid outs.length
  generalize env.sched outs.length = s at *
  have hnew : (Kmeans.new p.length : Kmeans ℝ).averages.length = p.length := by simp [Kmeans.new]
  have hmain : (remapMainStart p.length useBg ti : Kmeans ℝ).averages.length = p.length ∧
      ∀ j, (remapMainStart p.length useBg ti : Kmeans ℝ).at' j =
        gain (if useBg then [(FPixel.default, lit32 1, ti.toNat)] else []) j := by
    unfold remapMainStart
    split
    · refine ⟨by rw [updateColor_len]; exact hnew, fun j => ?_⟩
      rw [updateColor_at _ _ _ _ (by rw [hnew]; exact hti), new_at, gain_cons]
      simp [gain]
    · exact ⟨hnew, fun j => by rw [new_at]; rfl⟩
  have hw : ∀ rows, (remapWorker outs (Kmeans.new p.length) rows).averages.length = p.length ∧
      ∀ j, (remapWorker outs (Kmeans.new p.length) rows).at' j = gain (rowUpdates outs rows) j := by
    intro rows
    obtain ⟨a, b⟩ := remapWorker_gain outs rows _ _ hnew h
    exact ⟨a, fun j => by rw [b, new_at, zero_add]⟩
  have hm := remapWorker_gain outs s.main _ _ hmain.1 h
  -- the sum over a list of workers
  have hsum : ∀ (ws : List (List ℕ)) j, ((ws.map (remapWorker outs (Kmeans.new p.length))).map (·.at' j)).sum =
      gain (rowUpdates outs ws.flatten) j := by
    intro ws j
    induction ws with
    | nil => simp [gain, rowUpdates]
    | cons w ws ih =>
      rw [List.map_cons, List.map_cons, List.sum_cons, ih, (hw w).2, List.flatten_cons]
      unfold rowUpdates
      rw [List.flatMap_append, gain_append]
  -- all workers together
  have hall : ∃ k, reduceWorkers (s.before.map (remapWorker outs (Kmeans.new p.length)) ++
      remapWorker outs (remapMainStart p.length useBg ti) s.main :: s.after.map (remapWorker outs (Kmeans.new p.length))) = some k ∧
      k.averages.length = p.length ∧ ∀ j, k.at' j = gain (allUpdates outs useBg ti) j := by
    have hperm : (rowUpdates outs (s.before.flatten ++ s.main ++ s.after.flatten)).Perm
        (rowUpdates outs (List.range outs.length)) := hv.flatMap_right _
    have hlen : ∀ x ∈ s.before.map (remapWorker outs (Kmeans.new p.length)) ++
        remapWorker outs (remapMainStart p.length useBg ti) s.main :: s.after.map (remapWorker outs (Kmeans.new p.length)),
        x.averages.length = p.length := by
      intro x hx
      rcases List.mem_append.mp hx with hx | hx
      · obtain ⟨w, _, rfl⟩ := List.mem_map.mp hx; exact (hw w).1
      · rcases List.mem_cons.mp hx with rfl | hx
        · exact hm.1
        · obtain ⟨w, _, rfl⟩ := List.mem_map.mp hx; exact (hw w).1
    have htotal : ∀ j, ((s.before.map (remapWorker outs (Kmeans.new p.length)) ++
        remapWorker outs (remapMainStart p.length useBg ti) s.main :: s.after.map (remapWorker outs (Kmeans.new p.length))).map
          (·.at' j)).sum = gain (allUpdates outs useBg ti) j := by
      intro j
      rw [List.map_append, List.sum_append, hsum, List.map_cons, List.sum_cons, hm.2, hsum, hmain.2]
      unfold allUpdates
      rw [gain_append, ← gain_perm hperm]
      unfold rowUpdates
      rw [List.flatMap_append, List.flatMap_append, gain_append, gain_append]
      abel
    have hne : s.before.map (remapWorker outs (Kmeans.new p.length)) ++
        remapWorker outs (remapMainStart p.length useBg ti) s.main ::
          s.after.map (remapWorker outs (Kmeans.new p.length)) ≠ [] := by simp
    generalize s.before.map (remapWorker outs (Kmeans.new p.length)) ++
      remapWorker outs (remapMainStart p.length useBg ti) s.main :: s.after.map (remapWorker outs (Kmeans.new p.length)) = ws at *
    cases ws with
    | nil => exact absurd rfl hne
    | cons w ws =>
      obtain ⟨m1, _, m3⟩ := mergeAll_at ws w p.length (hlen w (by simp)) (fun x hx => hlen x (by simp [hx]))
      refine ⟨_, rfl, m1, fun j => ?_⟩
      rw [m3, ← htotal j, List.map_cons, List.sum_cons]
  obtain ⟨k, hk, hkl, hkj⟩ := hall
  rw [hk]
  simp only
  congr 1
  apply List.ext_getElem
  · simp [hkl]
  · intro i h1 h2
    have := hkj i
    unfold at' at this
    rw [List.getD_eq_getElem?_getD, List.getElem?_eq_getElem h1] at this
    simp only [Option.getD_some] at this
    rw [this]
    simp

end Verif
