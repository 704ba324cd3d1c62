import Verif.Model.Memory
import Verif.Lemmas.Shows
import Verif.Lemmas.QuantRun
import Verif.Lemmas.HullHist
import Verif.Props.Ownership

/-! # Running out of memory: lemmas -/

set_option linter.unusedSectionVars false

namespace Verif
open Flt Spec

variable {F : Type} [Flt F]

/-- all requests from number `n` to before `n'` are granted -/
def Granted (mem : Answers) (n n' : ℕ) : Prop := ∀ i, n ≤ i → i < n' → mem i = true

theorem Granted.empty (mem : Answers) (n : ℕ) : Granted mem n n := fun i h1 h2 => by omega

theorem Granted.split {mem : Answers} {n n1 n2 : ℕ} (h1 : n ≤ n1) (h2 : n1 ≤ n2) :
    Granted mem n n2 ↔ Granted mem n n1 ∧ Granted mem n1 n2 := by
  refine ⟨fun h => ⟨fun i a b => h i a (by omega), fun i a b => h i (by omega) b⟩, fun h i a b => ?_⟩
  by_cases hi : i < n1
  · exact h.1 i a hi
  · exact h.2 i (by omega) b

theorem Granted.one {mem : Answers} {n : ℕ} : Granted mem n (n + 1) ↔ mem n = true := by
  refine ⟨fun h => h n le_rfl (by omega), fun h i a b => ?_⟩
  obtain rfl : i = n := by omega
  exact h

/-- A computation that does what `y` does if its requests are granted, and otherwise reports that memory ran out; until then it
reported progress as `y` does. -/
structure Tracks {α : Type} (x : AM (List F) α) (y : PM F α) : Prop where
  le : ∀ mem n s, n ≤ (x mem (n, s)).2.1
  yes : ∀ mem n s, Granted mem n (x mem (n, s)).2.1 → (x mem (n, s)).1 = (y s).1 ∧ (x mem (n, s)).2.2 = (y s).2
  no : ∀ mem n s, ¬ Granted mem n (x mem (n, s)).2.1 →
    (x mem (n, s)).1 = .error (.err .outOfMemory) ∧ (x mem (n, s)).2.2 <+: (y s).2
  grow : ∀ s, s <+: (y s).2

namespace Tracks
variable {α β : Type}

theorem bind {x : AM (List F) α} {y : PM F α} {f : α → AM (List F) β} {g : α → PM F β} (h : Tracks x y)
    (hf : ∀ a, Tracks (f a) (g a)) : Tracks (x >>= f) (y >>= g) := by
  have ex : ∀ mem s, (x >>= f) mem s = match x mem s with
    | (.ok a, s') => f a mem s'
    | (.error e, s') => (.error e, s') := by
    intro mem s
    show AM.bind x f mem s = _
    unfold AM.bind
    rcases x mem s with ⟨r, n1, s1⟩
    cases r <;> rfl
  have ey : ∀ s, (y >>= g) s = match y s with
    | (.ok a, s') => g a s'
    | (.error e, s') => (.error e, s') := fun _ => rfl
  have hgrow : ∀ s, (y s).2 <+: ((y >>= g) s).2 := by
    intro s
    rw [ey]
    rcases hy : y s with ⟨r, s'⟩
    cases r with
    | error e => exact List.prefix_rfl
    | ok a => exact (hf a).grow s'
  refine ⟨fun mem n s => ?_, fun mem n s hg => ?_, fun mem n s hg => ?_, fun s => (h.grow s).trans (hgrow s)⟩
  · have h1 := h.le mem n s
    rw [ex]
    rcases hx : x mem (n, s) with ⟨r, n1, s1⟩
    rw [hx] at h1
    cases r with
    | error e => exact h1
    | ok a => exact le_trans h1 ((hf a).le mem n1 s1)
  · have h1 := h.le mem n s
    have h2 := h.yes mem n s
    rw [ex] at hg ⊢
    rw [ey]
    rcases hx : x mem (n, s) with ⟨r, n1, s1⟩
    rw [hx] at h1 h2 hg
    rcases hy : y s with ⟨r', s'⟩
    rw [hy] at h2
    cases r with
    | error e =>
      obtain ⟨rfl, rfl⟩ := h2 hg
      exact ⟨rfl, rfl⟩
    | ok a =>
      obtain ⟨g1, g2⟩ := (Granted.split h1 ((hf a).le mem n1 s1)).1 hg
      obtain ⟨rfl, rfl⟩ := h2 g1
      exact (hf a).yes mem n1 _ g2
  · have h1 := h.le mem n s
    have h2 := h.yes mem n s
    have h3 := h.no mem n s
    have h4 := hgrow s
    rw [ex] at hg ⊢
    rcases hx : x mem (n, s) with ⟨r, n1, s1⟩
    rw [hx] at h1 h2 h3 hg
    cases r with
    | error e =>
      obtain ⟨k1, k2⟩ := h3 hg
      exact ⟨by simpa using k1, k2.trans h4⟩
    | ok a =>
      by_cases g1 : Granted mem n n1
      · rw [ey]
        rcases hy : y s with ⟨r', s'⟩
        rw [hy] at h2
        obtain ⟨rfl, rfl⟩ := h2 g1
        exact (hf a).no mem n1 _ fun g2 => hg ((Granted.split h1 ((hf a).le mem n1 _)).2 ⟨g1, g2⟩)
      · exact absurd (h3 g1).1 (by simp)

theorem of_run {m : PM F α} (h : ∀ s, s <+: (m s).2) : Tracks (AM.run m) m :=
  ⟨fun _ _ _ => le_rfl, fun _ _ _ _ => ⟨rfl, rfl⟩, fun mem n _ hg => absurd (Granted.empty mem n) hg, h⟩

theorem lift (r : Res α) : Tracks (AM.lift r) (PM.lift (F := F) r) :=
  ⟨fun _ _ _ => le_rfl, fun _ _ _ _ => ⟨rfl, rfl⟩, fun mem n _ hg => absurd (Granted.empty mem n) hg, fun _ => List.prefix_rfl⟩

theorem ite (c : Prop) [Decidable c] {x x' : AM (List F) α} {y y' : PM F α} (h : Tracks x y) (h' : Tracks x' y') :
    Tracks (if c then x else x') (if c then y else y') := by
  split
  · exact h
  · exact h'

theorem pure (a : α) : Tracks (Pure.pure a) (Pure.pure a : PM F α) := lift (.ok a)

theorem throw (e : Fail) : Tracks (AM.throw e) (PM.throw (F := F) e : PM F α) := lift (.error e)

theorem progress (cb : Option (List F → Bool)) (v : F) : Tracks (AM.run (progress cb v)) (Verif.progress cb v) :=
  of_run fun s => by unfold Verif.progress; cases cb <;> simp

theorem alloc : Tracks (AM.alloc) (Pure.pure () : PM F Unit) := by
  refine ⟨fun _ n _ => Nat.le_succ n, fun mem n s hg => ?_, fun mem n s hg => ?_, fun _ => List.prefix_rfl⟩
  · have : mem n = true := Granted.one.1 hg
    simp [AM.alloc, this, Pure.pure]
  · have : ¬ mem n = true := fun h => hg (Granted.one.2 h)
    simp [AM.alloc, this, Pure.pure]

theorem alloc_then {x : AM (List F) α} {y : PM F α} (h : Tracks x y) : Tracks (do AM.alloc; x) y := by
  have : y = (Pure.pure () : PM F Unit) >>= fun _ => y := rfl
  rw [this]
  exact alloc.bind fun _ => h

end Tracks

/-! ### Quantization -/

namespace Kmeans

theorem tryMerge_fold_error (e : Fail) (l : List (Res (Kmeans F))) : l.foldl tryMerge (.error e) = .error e := by
  induction l with
  | nil => rfl
  | cons x l ih =>
    rw [List.foldl_cons, show tryMerge (.error e) x = .error e by cases x <;> rfl]
    exact ih

theorem tryReduce_granted {mem : Answers} (n : Nearest F) (adjust : Bool) (len : ℕ) (items : List (HistItem F)) (sched : List (List ℕ))
    (i : ℕ) (hg : Granted mem i (i + sched.length)) :
    tryReduce (workersA mem n adjust len items i sched) = .ok (reduceWorkers (sched.map (worker n adjust len items))) := by
  have key : ∀ (sched : List (List ℕ)) (i : ℕ) (k : Kmeans F), Granted mem i (i + sched.length) →
      (workersA mem n adjust len items i sched).foldl tryMerge (.ok k) = .ok ((sched.map (worker n adjust len items)).foldl merge k) := by
    intro sched
    induction sched with
    | nil => intro i k _; rfl
    | cons c cs ih =>
      intro i k hg
      rw [List.length_cons] at hg
      have h1 : mem i = true := hg i le_rfl (by omega)
      simp only [workersA, h1, if_true, List.foldl_cons, List.map_cons, tryMerge]
      exact ih (i + 1) _ fun j a b => hg j (by omega) (by omega)
  cases sched with
  | nil => rfl
  | cons c cs =>
    rw [List.length_cons] at hg
    have h1 : mem i = true := hg i le_rfl (by omega)
    simp only [workersA, h1, if_true, tryReduce, List.map_cons, reduceWorkers]
    rw [key cs (i + 1) _ fun j a b => hg j (by omega) (by omega)]
    rfl

theorem tryReduce_refused {mem : Answers} (n : Nearest F) (adjust : Bool) (len : ℕ) (items : List (HistItem F)) (sched : List (List ℕ))
    (i : ℕ) (hg : ¬ Granted mem i (i + sched.length)) :
    tryReduce (workersA mem n adjust len items i sched) = .error (.err .outOfMemory) := by
  have key : ∀ (sched : List (List ℕ)) (i : ℕ) (k : Kmeans F), ¬ Granted mem i (i + sched.length) →
      (workersA mem n adjust len items i sched).foldl tryMerge (.ok k) = .error (.err .outOfMemory) := by
    intro sched
    induction sched with
    | nil => intro i k h; exact absurd (Granted.empty mem i) h
    | cons c cs ih =>
      intro i k hg
      rw [List.length_cons] at hg
      by_cases h1 : mem i = true
      · simp only [workersA, h1, if_true, List.foldl_cons, tryMerge]
        refine ih (i + 1) _ fun h => hg ?_
        rw [Granted.split (n1 := i + 1) (by omega) (by omega)]
        exact ⟨Granted.one.2 h1, by rw [show i + (cs.length + 1) = i + 1 + cs.length by omega]; exact h⟩
      · simp only [workersA, h1, List.foldl_cons, tryMerge]
        exact tryMerge_fold_error _ _
  cases sched with
  | nil => exact absurd (Granted.empty mem i) hg
  | cons c cs =>
    rw [List.length_cons] at hg
    by_cases h1 : mem i = true
    · simp only [workersA, h1, if_true, tryReduce]
      rw [key cs (i + 1) _ fun h => hg ?_]
      · rfl
      · rw [Granted.split (n1 := i + 1) (by omega) (by omega)]
        exact ⟨Granted.one.2 h1, by rw [show i + (cs.length + 1) = i + 1 + cs.length by omega]; exact h⟩
    · simp only [workersA, h1, tryReduce]
      rw [show (if (false = true) then (Except.ok (worker n adjust len items c) : Res (Kmeans F)) else .error (.err .outOfMemory)) =
        .error (.err .outOfMemory) from rfl, tryMerge_fold_error]
      rfl

theorem iterationA_tracks (sched : List (List ℕ)) (hist : HistogramInternal F) (p : PalF F) (adjust : Bool) :
    Tracks (F := F) (iterationA sched hist p adjust) (PM.lift (iteration sched hist p adjust)) := by
  refine ⟨fun mem n s => ?_, fun mem n s hg => ?_, fun mem n s hg => ?_, fun _ => List.prefix_rfl⟩
  · unfold iterationA
    split
    · exact le_rfl
    · split
      · exact le_rfl
      · exact Nat.le_add_right _ _
  · unfold iterationA at hg ⊢
    unfold PM.lift iteration
    split
    · exact ⟨rfl, rfl⟩
    · rename_i he
      rw [if_neg he] at hg
      split
      next e hn => rw [hn]; exact ⟨rfl, rfl⟩
      next nn hn =>
        rw [hn] at hg
        dsimp only at hg
        rw [tryReduce_granted _ _ _ _ _ _ hg, hn]
        exact ⟨rfl, rfl⟩
  · unfold iterationA at hg ⊢
    split
    · rename_i he
      rw [if_pos he] at hg
      exact absurd (Granted.empty mem n) hg
    · rename_i he
      rw [if_neg he] at hg
      split
      next e hn =>
        rw [hn] at hg
        exact absurd (Granted.empty mem n) hg
      next nn hn =>
        rw [hn] at hg
        dsimp only at hg
        rw [tryReduce_refused _ _ _ _ _ _ hg]
        exact ⟨rfl, List.prefix_rfl⟩

end Kmeans

theorem findLoopA_tracks (env : Env F) (attr : Attr F) (targetMse : F) (totalTrials : ℕ) (st : FindState F) :
    Tracks (findLoopA env attr targetMse totalTrials st) (findLoop env attr targetMse totalTrials st) := by
  induction hk : st.trialsLeft.toNat using Nat.strong_induction_on generalizing st with
  | _ k ih =>
    rw [findLoopA, findLoop]
    refine Tracks.bind (Tracks.alloc_then (Tracks.lift _)) fun a => ?_
    refine Tracks.bind (Tracks.lift _) fun p => ?_
    split
    · exact Tracks.pure _
    · refine Tracks.bind (Kmeans.iterationA_tracks _ _ _ _) fun b => ?_
      refine Tracks.bind (Tracks.progress _ _) fun abort => ?_
      split
      · cases (trialUpdate st targetMse b.2.2 b.2.1).best with
        | some q => exact Tracks.pure _
        | none => exact Tracks.throw _
      · refine ih _ ?_ _ rfl
        have := trialUpdate_lt st targetMse b.2.2 b.2.1
        show (trialUpdate st targetMse b.2.2 b.2.1).trialsLeft.toNat < k
        omega

theorem refineLoopA_tracks (env : Env F) (attr : Attr F) (maxMse : Option F) (iterations : ℕ) (limit : F)
    (clock i : ℕ) (hist : HistogramInternal F) (p : PalF F) (err : Option F) :
    Tracks (refineLoopA env attr maxMse iterations limit clock i hist p err) (refineLoop env attr maxMse iterations limit clock i hist p err) := by
  induction hk : iterations - i using Nat.strong_induction_on generalizing clock i hist p err with
  | _ k ih =>
    rw [refineLoopA, refineLoop]
    split
    · refine Tracks.bind (Tracks.progress _ _) fun abort => ?_
      split
      · exact Tracks.pure _
      · refine Tracks.bind (Kmeans.iterationA_tracks _ _ _ _) fun b => ?_
        obtain ⟨b1, b2, b3⟩ := b
        dsimp only
        have next := ih (iterations - (i + if lt (maxMse.getD (lit64 (10 ^ 20)) *₆ lit64 (15/10)) b3 then 2 else 1)) (by split <;> omega)
          (clock + 1) _ b1 b2 (some b3) rfl
        cases err with
        | none => exact next
        | some prev => exact Tracks.ite _ (Tracks.pure _) next
    · exact Tracks.pure _

theorem findBestPaletteA_tracks (env : Env F) (attr : Attr F) (targetMse : F) (targetMseIsZero : Bool) (maxMse : Option F)
    (hist : HistogramInternal F) :
    Tracks (findBestPaletteA env attr targetMse targetMseIsZero maxMse hist) (findBestPalette env attr targetMse targetMseIsZero maxMse hist) := by
  unfold findBestPaletteA findBestPalette
  split
  · exact Tracks.lift _
  · exact (findLoopA_tracks ..).bind fun _ => refineLoopA_tracks ..

theorem newA_tracks (env : Env F) (attr : Attr F) (hist : HistogramInternal F) (freeze : Bool) (gamma : F) :
    Tracks (QuantizationResult.newA env attr hist freeze gamma) (QuantizationResult.new env attr hist freeze gamma) := by
  unfold QuantizationResult.newA QuantizationResult.new
  refine (Tracks.progress _ _).bind fun _ => ?_
  split
  · exact Tracks.throw _
  · refine (findBestPaletteA_tracks ..).bind fun r => ?_
    refine (Tracks.progress _ _).bind fun abort => ?_
    exact Tracks.ite _ (Tracks.throw _) (Tracks.ite _ (Tracks.throw _) (Tracks.pure _))

/-! ### The fixed colours in the histogram -/

namespace ColorMap

theorem upsert_upsert (m : ColorMap) (k : RGBA) (v w : ℕ × RGBA) : (m.upsert k fun _ => v).upsert k (fun _ => w) = m.upsert k fun _ => w := by
  induction m with
  | nil => simp [upsert]
  | cons x m ih =>
    obtain ⟨k', u⟩ := x
    by_cases h : k' = k
    · simp [upsert, h]
    · simp [upsert, h, ih]

theorem upsert_comm {m : ColorMap} {k j : RGBA} (hkj : k ≠ j) (hj : j ∈ m.map (·.1)) (v w : ℕ × RGBA) :
    (m.upsert k fun _ => v).upsert j (fun _ => w) = (m.upsert j fun _ => w).upsert k fun _ => v := by
  induction m with
  | nil => simp at hj
  | cons x m ih =>
    obtain ⟨i, u⟩ := x
    by_cases h1 : i = k
    · have h2 : i ≠ j := fun h => hkj (h1.symm.trans h)
      subst h1
      simp [upsert, h2]
    · by_cases h2 : i = j
      · subst h2
        simp [upsert, h1]
      · have : j ∈ m.map (·.1) := by
          simp only [List.map_cons, List.mem_cons] at hj
          exact hj.resolve_left fun h => h2 h.symm
        simp [upsert, h1, h2, ih this]

theorem keys_upsert (m : ColorMap) (k : RGBA) (f : Option (ℕ × RGBA) → ℕ × RGBA) :
    k ∈ (m.upsert k f).map (·.1) ∧ ∀ j ∈ m.map (·.1), j ∈ (m.upsert k f).map (·.1) := by
  induction m with
  | nil => simp [upsert]
  | cons x m ih =>
    obtain ⟨i, u⟩ := x
    by_cases h : i = k
    · simp [upsert, h]
    · simp only [upsert, h, if_false, List.map_cons, List.mem_cons]
      exact ⟨.inr ih.1, fun j hj => hj.imp id (ih.2 j)⟩

variable {α : Type} (key : α → RGBA) (v : α → ℕ × RGBA)

/-- inserting entries one after the other -/
def insertAll (m : ColorMap) (l : List α) : ColorMap := l.foldl (fun m c => m.upsert (key c) fun _ => v c) m

theorem keys_insertAll (m : ColorMap) (l : List α) :
    (∀ c ∈ l, key c ∈ (insertAll key v m l).map (·.1)) ∧ ∀ j ∈ m.map (·.1), j ∈ (insertAll key v m l).map (·.1) := by
  induction l generalizing m with
  | nil => exact ⟨by simp, fun _ h => h⟩
  | cons c l ih =>
    have h := ih (m.upsert (key c) fun _ => v c)
    have hk := keys_upsert m (key c) fun _ => v c
    refine ⟨fun d hd => ?_, fun j hj => h.2 j (hk.2 j hj)⟩
    rcases List.mem_cons.1 hd with rfl | hd
    · exact h.2 _ hk.1
    · exact h.1 d hd

theorem upsert_insertAll (c : α) (l : List α) (m : ColorMap) (hl : ∀ d ∈ l, key d ∈ m.map (·.1)) :
    (insertAll key v (m.upsert (key c) fun _ => v c) l).upsert (key c) (fun _ => v c) =
      (insertAll key v m l).upsert (key c) fun _ => v c := by
  induction l generalizing m with
  | nil => exact upsert_upsert m _ _ _
  | cons d l ih =>
    have hd := hl d (by simp)
    show (insertAll key v ((m.upsert (key c) fun _ => v c).upsert (key d) fun _ => v d) l).upsert _ _ =
      (insertAll key v (m.upsert (key d) fun _ => v d) l).upsert _ _
    by_cases h : key c = key d
    · rw [h, upsert_upsert]
    · rw [upsert_comm h hd]
      exact ih _ fun e he => (keys_upsert m _ _).2 _ (hl e (by simp [he]))

theorem insertAll_twice (m : ColorMap) (l : List α) : insertAll key v (insertAll key v m l) l = insertAll key v m l := by
  induction l using List.reverseRecOn with
  | nil => rfl
  | append_singleton l c ih =>
    have e : ∀ m', insertAll key v m' (l ++ [c]) = (insertAll key v m' l).upsert (key c) fun _ => v c := fun m' => by
      simp [insertAll]
    rw [e, e, upsert_insertAll key v c l _ (keys_insertAll key v m l).1, ih]

end ColorMap

theorem insertFixedColors_twice (ho : HashOrder) (h : Histogram F) :
    (h.afterFinalize ho).insertFixedColors ho = h.insertFixedColors ho :=
  ColorMap.insertAll_twice (fun c : HashColor => if c.1.a ≠ 0 then c.1 else ⟨0, 0, 0, 0⟩) (fun c => (0, c.1)) h.hashmap (ho.set h.fixedColors)

theorem finalizeBuilder_twice (ho : HashOrder) (h : Histogram F) (gamma : F) :
    (h.afterFinalize ho).finalizeBuilder ho gamma = h.finalizeBuilder ho gamma := by
  unfold Histogram.finalizeBuilder
  rw [insertFixedColors_twice]
  rfl

/-- the part of `quantizeInternalA` that does not change the histogram -/
def quantizeLogA (env : Env F) (h : Histogram F) (attr : Attr F) (freeze : Bool) : AM (List F) (QuantizationResult F) := do
  if h.hashmap.isEmpty && h.fixedColors.isEmpty then AM.throw (.err .unsupported)
  else if ← AM.run (progress attr.progressCallback (lit32 0)) then AM.throw (.err .aborted)
  else if ← AM.run (progress attr.progressCallback (lit32 attr.progressStage1 *₃ lit32 (89/100))) then AM.throw (.err .aborted)
  else
    AM.alloc
    AM.alloc
    let hist ← AM.lift (h.finalizeBuilder env.ho (h.gamma.getD (lit64 (45455/100000))))
    QuantizationResult.newA env attr hist freeze (h.gamma.getD (lit64 (45455/100000)))

theorem quantizeLogA_tracks (env : Env F) (h : Histogram F) (attr : Attr F) (freeze : Bool) :
    Tracks (quantizeLogA env h attr freeze) (h.quantizeInternal env attr freeze) := by
  unfold quantizeLogA Histogram.quantizeInternal
  refine Tracks.ite _ (Tracks.throw _) ?_
  refine (Tracks.progress _ _).bind fun b => Tracks.ite _ (Tracks.throw _) ?_
  refine (Tracks.progress _ _).bind fun b => Tracks.ite _ (Tracks.throw _) ?_
  exact Tracks.alloc_then (Tracks.alloc_then ((Tracks.lift _).bind fun hist => newA_tracks ..))

section
variable {σ τ α β : Type}

theorem AM.bind_apply (m : AM σ α) (f : α → AM σ β) (mem : Answers) (s : ℕ × σ) : (m >>= f) mem s = match m mem s with
    | (.ok a, s') => f a mem s'
    | (.error e, s') => (.error e, s') := by
  show AM.bind m f mem s = _
  unfold AM.bind
  rcases m mem s with ⟨r, n1, s1⟩
  cases r <;> rfl

theorem AM.pure_apply (a : α) (mem : Answers) (s : ℕ × σ) : (Pure.pure a : AM σ α) mem s = (.ok a, s) := rfl

end

/-- a failure leaves the histogram as it was or with its fixed colours in the map -/
theorem quantizeInternalA_eq (env : Env F) (h : Histogram F) (attr : Attr F) (freeze : Bool) (mem : Answers) (n : ℕ) (log : List F) :
    ∃ h', (h' = h ∨ h' = h.afterFinalize env.ho) ∧ Histogram.quantizeInternalA env attr freeze mem (n, h, log) =
      ((quantizeLogA env h attr freeze mem (n, log)).1, (quantizeLogA env h attr freeze mem (n, log)).2.1, h',
        (quantizeLogA env h attr freeze mem (n, log)).2.2) := by
  unfold Histogram.quantizeInternalA quantizeLogA
  rw [AM.bind_apply]
  dsimp only [AM.get]
  by_cases he : (h.hashmap.isEmpty && h.fixedColors.isEmpty) = true
  · rw [if_pos he, if_pos he]
    exact ⟨h, .inl rfl, rfl⟩
  rw [if_neg he, if_neg he]
  rw [AM.bind_apply, AM.bind_apply]
  obtain ⟨b, l, e⟩ : ∃ b l, progress attr.progressCallback (lit32 0) log = (.ok b, l) := by
    unfold progress; cases attr.progressCallback <;> exact ⟨_, _, rfl⟩
  simp only [Histogram.onLog, AM.on, AM.run, e]
  cases b with
  | true => exact ⟨h, .inl rfl, rfl⟩
  | false =>
    simp only [Bool.false_eq_true, if_false]
    rw [AM.bind_apply, AM.bind_apply]
    obtain ⟨b, l', e⟩ : ∃ b l', progress attr.progressCallback (lit32 attr.progressStage1 *₃ lit32 (89/100)) l = (.ok b, l') := by
      unfold progress; cases attr.progressCallback <;> exact ⟨_, _, rfl⟩
    simp only [AM.on, AM.run, e]
    cases b with
    | true => exact ⟨h, .inl rfl, rfl⟩
    | false =>
      simp only [Bool.false_eq_true, if_false]
      refine ⟨h.afterFinalize env.ho, .inr rfl, ?_⟩
      rw [AM.bind_apply]
      simp only [AM.modify]
      rw [AM.bind_apply, AM.bind_apply]
      simp only [AM.alloc]
      cases mem n with
      | false => rfl
      | true =>
        simp only [if_true]
        rw [AM.bind_apply, AM.bind_apply]
        simp only [AM.alloc]
        cases mem (n + 1) with
        | false => rfl
        | true =>
          simp only [if_true]
          rw [AM.bind_apply, AM.bind_apply]
          simp only [AM.lift]
          cases h.finalizeBuilder env.ho (h.gamma.getD (lit64 (45455/100000))) with
          | error e => rfl
          | ok hist => rfl

end Verif
