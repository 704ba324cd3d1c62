import Verif.Model.MemoryRemap
import Verif.Lemmas.MemoryImage
import Verif.Lemmas.Alike

/-! # Running out of memory while remapping: lemmas -/

set_option linter.unusedSectionVars false

namespace Verif
open Flt Spec

variable {F : Type} [Flt F]

/-! ### Requests of workers and chunks -/

/-- what is known of the answer to several requests -/
structure Asked (mem : Answers) (i : ℕ) (r plenty : Bool × ℕ) : Prop where
  le : i ≤ r.2
  yes : Granted mem i r.2 → r = plenty
  no : r.1 = true ↔ Granted mem i r.2
  all : plenty.1 = true

theorem askAll_spec (mem : Answers) (k i : ℕ) : Asked mem i (askAll mem k i) (askAll Answers.plenty k i) := by
  induction k generalizing i with
  | zero => exact ⟨le_rfl, fun _ => rfl, by simp [askAll, Granted.empty], rfl⟩
  | succ k ih =>
    obtain ⟨h1, h2, h3, h4⟩ := ih (i + 1)
    have hp : askAll Answers.plenty (k + 1) i = askAll Answers.plenty k (i + 1) := rfl
    cases hm : mem i with
    | true =>
      have e : askAll mem (k + 1) i = askAll mem k (i + 1) := by rw [askAll, if_pos hm]
      have hs : Granted mem i (askAll mem k (i + 1)).2 ↔ Granted mem (i + 1) (askAll mem k (i + 1)).2 := by
        rw [Granted.split (Nat.le_succ i) h1, Granted.one]
        simp [hm]
      rw [e, hp]
      exact ⟨by omega, fun g => h2 (hs.1 g), by rw [h3, hs], h4⟩
    | false =>
      have e : askAll mem (k + 1) i = (false, i + 1) := by rw [askAll, if_neg (by simp [hm])]
      have hng : ¬ Granted mem i (i + 1) := by rw [Granted.one]; simp [hm]
      rw [e, hp]
      exact ⟨Nat.le_succ i, fun g => absurd g hng, ⟨fun h => (by cases h), fun g => absurd g hng⟩, h4⟩

theorem askRows_spec (mem : Answers) (w : List ℕ) (i : ℕ) : Asked mem i (askRows mem w i) (askRows Answers.plenty w i) := by
  induction w generalizing i with
  | nil => exact ⟨le_rfl, fun _ => rfl, by simp [askRows, Granted.empty], rfl⟩
  | cons x w ih =>
    obtain ⟨h1, h2, h3, h4⟩ := askAll_spec mem 4 i
    have hp : askRows Answers.plenty (x :: w) i = askAll Answers.plenty 4 i := by rfl
    rw [hp]
    unfold askRows
    rcases ha : askAll mem 4 i with ⟨b, j⟩
    rw [ha] at h1 h2 h3
    cases b with
    | true => exact ⟨h1, h2, h3, h4⟩
    | false =>
      have hle := (ih j).le
      have hng : ¬ Granted mem i (askRows mem w j).2 := by
        rw [Granted.split h1 hle]
        intro g
        exact absurd (h3.2 g.1) (by simp)
      exact ⟨le_trans h1 hle, fun g => absurd g hng, ⟨fun h => (by cases h), fun g => absurd g hng⟩, h4⟩

theorem askWorkers_spec (mem : Answers) (ws : List (List ℕ)) (i : ℕ) : Asked mem i (askWorkers mem ws i) (askWorkers Answers.plenty ws i) := by
  induction ws generalizing i with
  | nil => exact ⟨le_rfl, fun _ => rfl, by simp [askWorkers, Granted.empty], rfl⟩
  | cons w ws ih =>
    have a := askRows_spec mem w i
    have b := ih (askRows mem w i).2
    unfold askWorkers
    dsimp only
    refine ⟨le_trans a.le b.le, fun g => ?_, ?_, ?_⟩
    · obtain ⟨g1, g2⟩ := (Granted.split a.le b.le).1 g
      rw [b.yes g2, a.yes g1]
    · rw [Granted.split a.le b.le, Bool.and_eq_true, a.no, b.no]
    · rw [Bool.and_eq_true]
      exact ⟨(askRows_spec mem w i).all, (ih _).all⟩

theorem Obeys.workers {σ : Type} (ws : List (List ℕ)) : Obeys (AM.workers ws : AM σ Unit) := by
  refine ⟨fun mem n s => (askWorkers_spec mem ws n).le, fun mem n s hg => ?_, fun mem n s hg => ?_⟩
  · unfold AM.workers
    rw [(askWorkers_spec mem ws n).yes hg]
  · have : ¬ (askWorkers mem ws n).1 = true := fun h => hg ((askWorkers_spec mem ws n).no.1 h)
    simp [AM.workers, this]

theorem AM.workers_plenty {σ : Type} (ws : List (List ℕ)) (n : ℕ) (s : σ) :
    AM.workers ws Answers.plenty (n, s) = (.ok (), (askWorkers Answers.plenty ws n).2, s) := by
  simp [AM.workers, (askWorkers_spec Answers.plenty ws n).all]

/-- the loop over the chunks -/
theorem floydChunksA_spec (mem : Answers) (ctx : DitherCtx F) (inp : DitherInput F) (cb : Option (List F → Bool)) (stage1 start : ℕ)
    (chunks : List (List (List (Option UInt8)))) (i : ℕ) (log : List F) :
    let r := floydChunksA mem ctx inp cb stage1 start chunks i log
    i ≤ r.2 ∧ (Granted mem i r.2 → r = floydChunksA Answers.plenty ctx inp cb stage1 start chunks i log) ∧
      (¬ Granted mem i r.2 → r.1.1.res = .error (.err .outOfMemory)) := by
  induction chunks generalizing start i log with
  | nil => exact ⟨le_rfl, fun _ => rfl, fun h => absurd (Granted.empty mem i) h⟩
  | cons chunk chunks ih =>
    intro r
    have a := askAll_spec mem (chunkRequests inp start) i
    have hr : r = floydChunksA mem ctx inp cb stage1 start (chunk :: chunks) i log := rfl
    unfold floydChunksA at hr ⊢
    rcases ha : askAll mem (chunkRequests inp start) i with ⟨b, j⟩
    rw [ha] at a hr
    cases b with
    | false =>
      dsimp only at hr
      rw [hr]
      have hng : ¬ Granted mem i j := fun g => absurd (a.no.2 g) (by simp)
      exact ⟨a.le, fun g => absurd g hng, fun _ => rfl⟩
    | true =>
      have gj : Granted mem i j := a.no.1 rfl
      rw [← a.yes gj]
      dsimp only at hr ⊢
      rw [hr]
      have stop : ∀ (x : FloydOut × List F), i ≤ (x, j).2 ∧ (Granted mem i (x, j).2 → (x, j) = (x, j)) ∧
          (¬ Granted mem i (x, j).2 → x.1.res = .error (.err .outOfMemory)) :=
        fun x => ⟨a.le, fun _ => rfl, fun h => absurd gj h⟩
      cases warmUp ctx inp start with
      | error e => exact stop _
      | ok dun =>
        obtain ⟨d, un⟩ := dun
        dsimp only
        rcases progress cb (ditherProgress stage1 start inp.px.height) log with ⟨res, l⟩
        cases res with
        | error e => exact stop _
        | ok b =>
          cases b with
          | true => exact stop _
          | false =>
            dsimp only
            cases ditherRows ctx inp d start chunk with
            | error e => exact stop _
            | ok rr =>
              dsimp only
              obtain ⟨i1, i2, i3⟩ := ih (start + chunk.length) j l
              refine ⟨le_trans a.le i1, fun g => ?_, fun g => ?_⟩
              · rw [i2 ((Granted.split a.le i1).1 g).2]
              · exact i3 fun g2 => g ((Granted.split a.le i1).2 ⟨gj, g2⟩)

theorem floydChunksA_plenty (ctx : DitherCtx F) (inp : DitherInput F) (cb : Option (List F → Bool)) (stage1 start : ℕ)
    (chunks : List (List (List (Option UInt8)))) (i : ℕ) (log : List F) :
    (floydChunksA Answers.plenty ctx inp cb stage1 start chunks i log).1 = floydChunks ctx inp cb stage1 start chunks log := by
  induction chunks generalizing start i log with
  | nil => rfl
  | cons chunk chunks ih =>
    have a := (askAll_spec Answers.plenty (chunkRequests inp start) i).all
    unfold floydChunksA floydChunks
    rcases ha : askAll Answers.plenty (chunkRequests inp start) i with ⟨b, j⟩
    rw [ha] at a
    obtain rfl : b = true := a
    dsimp only
    cases warmUp ctx inp start with
    | error e => rfl
    | ok dun =>
      obtain ⟨d, un⟩ := dun
      dsimp only
      rcases progress cb (ditherProgress stage1 start inp.px.height) log with ⟨res, l⟩
      cases res with
      | error e => rfl
      | ok b =>
        cases b with
        | true => rfl
        | false =>
          dsimp only
          cases ditherRows ctx inp d start chunk with
          | error e => rfl
          | ok rr =>
            dsimp only
            rw [ih (start + chunk.length) j l]

/-! ### The steps obey -/

theorem prepareA_obeys : Obeys (Rows.prepareA (F := F)) := by
  unfold Rows.prepareA
  exact Obeys.get.bind fun r => (Obeys.allocIf _).bind fun _ => (Obeys.lift _).bind fun _ => Obeys.modify _

theorem rowsIterA_obeys : Obeys (Rows.rowsIterA (F := F)) := by
  unfold Rows.rowsIterA
  exact prepareA_obeys.bind fun _ => Obeys.get.bind fun r => Obeys.allocIf _

theorem onBackground_obeys {used : Bool} {m : AM (Rows F) Unit} (h : Obeys m) : Obeys (RemapState.onBackground used m) := by
  have key : ∀ b, Obeys (AM.on (fun _ : RemapState F => b) (fun b s => { s with image := { s.image with background := some b } }) m) :=
    fun b => h.on
  have cases_ : ∀ s : RemapState F, (∀ mem n, RemapState.onBackground used m mem (n, s) = (.ok (), n, s)) ∨
      ∃ b, ∀ mem n, RemapState.onBackground used m mem (n, s) =
        AM.on (fun _ : RemapState F => b) (fun b s => { s with image := { s.image with background := some b } }) m mem (n, s) := by
    intro s
    unfold RemapState.onBackground
    dsimp only
    cases hb : s.image.background with
    | none => exact .inl fun _ _ => rfl
    | some b =>
      cases used with
      | false => exact .inl fun _ _ => rfl
      | true => exact .inr ⟨b, fun _ _ => rfl⟩
  refine ⟨fun mem n s => ?_, fun mem n s => ?_, fun mem n s => ?_⟩ <;> rcases cases_ s with h0 | ⟨b, h1⟩
  · rw [h0]
  · rw [h1]; exact (key b).le mem n s
  · rw [h0, h0]; exact fun _ => rfl
  · rw [h1, h1]; exact (key b).yes mem n s
  · rw [h0]; exact fun h => absurd (Granted.empty mem n) h
  · rw [h1]; exact (key b).no mem n s

theorem remapToPaletteA_obeys (env : RemapEnv F) (useBg : Bool) (p : PalF F) : Obeys (remapToPaletteA env useBg p) := by
  unfold remapToPaletteA
  refine (Obeys.lift _).bind fun n => Obeys.alloc.bind fun _ => Obeys.alloc.bind fun _ => Obeys.alloc.bind fun _ => Obeys.alloc.bind fun _ => ?_
  refine Obeys.bind rowsIterA_obeys.on fun _ => Obeys.get.bind fun s => (onBackground_obeys rowsIterA_obeys).bind fun _ => Obeys.get.bind fun s => ?_
  exact (Obeys.workers _).bind fun _ => (Obeys.lift _).bind fun outs => (Obeys.modify _).bind fun _ => Obeys.ite _ (Obeys.throw _) (Obeys.pure _)

theorem updateDitherMapA_obeys (rows : List (List UInt8)) (p : PalF F) (ub : Bool) : Obeys (Image.updateDitherMapA rows p ub) := by
  unfold Image.updateDitherMapA Image.withEdgesA
  refine Obeys.bind (Obeys.get.bind fun img => Obeys.ite _ contrastMapsA_obeys (Obeys.pure _)) fun _ => ?_
  exact Obeys.get.bind fun img => (Obeys.lift _).bind fun _ => Obeys.modify _

theorem generateDitherMapA_obeys (env : RemapEnv F) (ub : Bool) (p : PalF F) : Obeys (generateDitherMapA env ub p) := by
  unfold generateDitherMapA
  refine Obeys.get.bind fun s => Obeys.ite _ (Obeys.pure _) ?_
  exact (remapToPaletteA_obeys env false p).bind fun r => (updateDitherMapA_obeys _ _ _).on.bind fun _ => Obeys.pure _

theorem floydLoopA_obeys (env : RemapEnv F) (n : Nearest F) (maxErr : F) (isRemapped : Bool) : Obeys (floydLoopA env n maxErr isRemapped) := by
  refine ⟨fun mem i s => ?_, fun mem i s => ?_, fun mem i s => ?_⟩
  · exact (floydChunksA_spec mem _ _ _ _ _ _ _ _).1
  · intro g
    unfold floydLoopA at g ⊢
    dsimp only at g ⊢
    rw [(floydChunksA_spec mem _ _ _ _ _ _ _ _).2.1 g]
  · exact (floydChunksA_spec mem _ _ _ _ _ _ _ _).2.2

theorem remapFloydA_obeys (env : RemapEnv F) (p : PalF F) (maxErr : F) (isRemapped : Bool) : Obeys (remapFloydA env p maxErr isRemapped) := by
  unfold remapFloydA
  exact Obeys.alloc.bind fun _ => (Obeys.lift _).bind fun n => (onBackground_obeys prepareA_obeys).bind fun _ =>
    Obeys.bind prepareA_obeys.on fun _ => floydLoopA_obeys env n maxErr isRemapped

theorem remapDitheredA_obeys (env : RemapEnv F) : Obeys (remapDitheredA env) := by
  unfold remapDitheredA
  refine Obeys.get.bind fun s => (generateDitherMapA_obeys env _ _).bind fun g => Obeys.bind Obeys.still fun abort => Obeys.ite _ (Obeys.throw _) ?_
  exact (remapFloydA_obeys env _ _ _).bind fun _ => Obeys.pure _

theorem remapPlainA_obeys (env : RemapEnv F) : Obeys (remapPlainA env) := by
  unfold remapPlainA
  exact Obeys.get.bind fun s => (remapToPaletteA_obeys env true _).bind fun _ => Obeys.pure _

theorem writeRemappedA_obeys (env : RemapEnv F) : Obeys (writeRemappedA env) := by
  unfold writeRemappedA
  refine Obeys.get.bind fun s => Obeys.bind Obeys.still fun abort => Obeys.ite _ (Obeys.throw _) ?_
  exact (Obeys.modify _).bind fun _ => Obeys.bind (show Obeys (remapBodyA env s.quant) from Obeys.ite _ (remapPlainA_obeys env) (remapDitheredA_obeys env)) fun _ => Obeys.modify _

/-! ### With plenty of memory -/

theorem prepareA_plenty (r : Rows F) (n : ℕ) : ∃ n', Rows.prepareA Answers.plenty (n, r) = match r.prepare true with
    | .ok r' => (.ok (), n', r')
    | .error e => (.error e, n', r) := by
  refine ⟨n + (!(r.fPixels.isSome || r.lowMemory)).toNat, ?_⟩
  unfold Rows.prepareA
  rw [AM.bind_apply]
  simp only [AM.get]
  rw [AM.bind_apply, AM.allocIf_plenty]
  cases h : r.prepare true <;> simp [AM.bind_apply, AM.lift, AM.modify]

theorem rowsIterA_plenty (r : Rows F) (n : ℕ) : ∃ n', Rows.rowsIterA Answers.plenty (n, r) = match r.prepare true with
    | .ok r' => (.ok (), n', r')
    | .error e => (.error e, n', r) := by
  obtain ⟨n', h⟩ := prepareA_plenty r n
  unfold Rows.rowsIterA
  rw [AM.bind_apply, h]
  cases h : r.prepare true with
  | error e => exact ⟨n', rfl⟩
  | ok r' =>
    refine ⟨n' + r'.fPixels.isNone.toNat, ?_⟩
    dsimp only
    rw [AM.bind_apply]
    simp only [AM.get]
    rw [AM.allocIf_plenty]

theorem onBackground_unused (m : AM (Rows F) Unit) (mem : Answers) (s : ℕ × RemapState F) :
    RemapState.onBackground false m mem s = (.ok (), s) := by
  unfold RemapState.onBackground
  cases s.2.image.background <;> rfl

theorem onBackground_none (used : Bool) (m : AM (Rows F) Unit) (mem : Answers) (n : ℕ) {s : RemapState F} (h : s.image.background = none) :
    RemapState.onBackground used m mem (n, s) = (.ok (), n, s) := by
  unfold RemapState.onBackground
  rw [h]

/-- a computation that prepares rows -/
def Prepares (m : AM (Rows F) Unit) : Prop := ∀ (r : Rows F) (n : ℕ), ∃ n', m Answers.plenty (n, r) = match r.prepare true with
    | .ok r' => (.ok (), n', r')
    | .error e => (.error e, n', r)

theorem onBackground_some {m : AM (Rows F) Unit} (hm : Prepares m) (n : ℕ) {s : RemapState F} {b : Rows F} (h : s.image.background = some b) :
    ∃ n', RemapState.onBackground true m Answers.plenty (n, s) = match b.prepare true with
      | .ok b' => (.ok (), n', { s with image := { s.image with background := some b' } })
      | .error e => (.error e, n', s) := by
  obtain ⟨n', e⟩ := hm b n
  refine ⟨n', ?_⟩
  unfold RemapState.onBackground AM.on
  simp only [h, if_true]
  rw [e]
  cases b.prepare true with
  | ok b' => rfl
  | error e =>
    dsimp only
    rw [← h]

theorem onPx_plenty {m : AM (Rows F) Unit} (hm : Prepares m) (s : RemapState F) (n : ℕ) :
    ∃ n', RemapState.onPx m Answers.plenty (n, s) = match s.image.px.prepare true with
      | .ok r' => (.ok (), n', { s with image := { s.image with px := r' } })
      | .error e => (.error e, n', s) := by
  obtain ⟨n', h⟩ := hm s.image.px n
  refine ⟨n', ?_⟩
  unfold RemapState.onPx AM.on
  dsimp only
  rw [h]
  cases s.image.px.prepare true <;> rfl

/-- what `remap_to_palette` leaves behind -/
def RemapState.left (s : RemapState F) (useBg : Bool) (r : RemapOut F) : RemapState F :=
  { s with image := { s.image with px := r.px, background := if useBg then r.background else s.image.background }, out := writeRows r.rows s.out }

theorem remapToPaletteA_plenty (env : RemapEnv F) (useBg : Bool) (p : PalF F) (s : RemapState F) (n : ℕ) :
    ∃ n', remapToPaletteA env useBg p Answers.plenty (n, s) =
      match remapToPalette env s.image.px (if useBg then s.image.background else none) s.image.importanceMap s.out.length p with
      | (.error e, r) => (.error e, n', s.left useBg r)
      | (.ok err, r) => (.ok (err, r.rows.getD [], r.palette), n', s.left useBg r) := by
  have four : ∀ {α : Type} (m : AM (RemapState F) α) (s : RemapState F) (n : ℕ),
      (AM.alloc >>= fun _ => AM.alloc >>= fun _ => AM.alloc >>= fun _ => AM.alloc >>= fun _ => m) Answers.plenty (n, s) =
        m Answers.plenty (n + 4, s) := by
    intro α m s n
    simp [AM.bind_apply, AM.alloc, Answers.plenty]
  unfold remapToPaletteA remapToPalette
  rw [AM.bind_apply]
  cases hn : Nearest.new p with
  | error e =>
    refine ⟨n, ?_⟩
    cases useBg <;> rfl
  | ok nn =>
    simp only [AM.lift]
    rw [four, AM.bind_apply]
    obtain ⟨n1, e1⟩ := onPx_plenty rowsIterA_plenty s (n + 4)
    rw [e1]
    cases hpx : s.image.px.prepare true with
    | error e => exact ⟨n1, by cases useBg <;> rfl⟩
    | ok px =>
      dsimp only
      rw [AM.bind_apply]
      simp only [AM.get]
      have hpick : pickBackground nn (if useBg = true then s.image.background else none) = (none, 0) ∨
          ∃ b, useBg = true ∧ s.image.background = some b ∧
            pickBackground nn (if useBg = true then s.image.background else none) = (some b, transparentIndex nn) := by
        unfold pickBackground
        cases useBg with
        | false => exact .inl rfl
        | true =>
          simp only [if_true]
          cases hb : s.image.background with
          | none => exact .inl rfl
          | some b =>
            dsimp only
            split
            · exact .inr ⟨b, by simp⟩
            · exact .inl rfl
      have rest : ∀ (bg : Option (Rows F)) (ti : UInt8) (s1 : RemapState F) (n1 : ℕ) (bg1 : Option (Rows F)), s1.out = s.out →
          s1.image.importanceMap = s.image.importanceMap → (if bg.isSome then s1.image.background else none) = bg1 → bg1.isSome = bg.isSome →
          ∃ n', (AM.workers ((env.sched s1.out.length).before ++ (env.sched s1.out.length).after) >>= fun _ =>
            AM.lift (remapLoop (env.sched s1.out.length).order nn ti s1.image.px (if bg.isSome then s1.image.background else none)
              s1.image.importanceMap s1.out.length) >>= fun outs =>
            AM.modify (fun s => { s with out := writeRows (some (outs.map (·.bytes))) s.out }) >>= fun _ =>
            if isNan (env.sum (outs.map (·.err))) then AM.throw (.err .outOfMemory)
            else pure (env.sum (outs.map (·.err)) /₆ lit64 (s1.image.px.width * s1.image.px.height % 2 ^ 32 : ℕ), outs.map (·.bytes),
              remapFinish env outs bg.isSome ti p)) Answers.plenty (n1, s1) =
            match remapLoop (env.sched s.out.length).order nn ti s1.image.px bg1 s.image.importanceMap s.out.length with
            | .error e => (.error e, n', s1)
            | .ok outs => if isNan (env.sum (outs.map (·.err))) then
                (.error (.err .outOfMemory), n', { s1 with out := writeRows (some (outs.map (·.bytes))) s1.out })
              else (.ok (env.sum (outs.map (·.err)) /₆ lit64 (s1.image.px.width * s1.image.px.height % 2 ^ 32 : ℕ), outs.map (·.bytes),
                remapFinish env outs bg1.isSome ti p), n', { s1 with out := writeRows (some (outs.map (·.bytes))) s1.out }) := by
        intro bg ti s1 n1 bg1 h1 h2 h3 h4
        rw [AM.bind_apply, AM.workers_plenty]
        dsimp only
        refine ⟨(askWorkers Answers.plenty ((env.sched s1.out.length).before ++ (env.sched s1.out.length).after) n1).2, ?_⟩
        rw [AM.bind_apply, h3, h2, h1, h4]
        simp only [AM.lift]
        cases remapLoop (env.sched s.out.length).order nn ti s1.image.px bg1 s.image.importanceMap s.out.length with
        | error e => rfl
        | ok outs =>
          dsimp only
          rw [AM.bind_apply]
          simp only [AM.modify]
          rw [h1]
          split
          · rfl
          · rfl
      rcases hpick with hpick | ⟨b, hu, hb, hpick⟩
      · rw [hpick]
        dsimp only [Option.isSome_none]
        rw [AM.bind_apply, onBackground_unused]
        dsimp only
        rw [AM.bind_apply]
        simp only [AM.get, prepareOpt]
        obtain ⟨n2, e2⟩ := rest none 0 { s with image := { s.image with px := px } } n1 none rfl rfl rfl rfl
        refine ⟨n2, ?_⟩
        refine e2.trans ?_
        dsimp only
        cases remapLoop (env.sched s.out.length).order nn 0 px none s.image.importanceMap s.out.length with
        | error e => cases useBg <;> rfl
        | ok outs =>
          dsimp only
          split
          · cases useBg <;> rfl
          · cases useBg <;> rfl
      · rw [hpick]
        subst hu
        dsimp only [Option.isSome_some]
        obtain ⟨n2, e2⟩ := onBackground_some (s := { s with image := { s.image with px := px } }) rowsIterA_plenty n1 hb
        rw [AM.bind_apply, e2]
        simp only [prepareOpt]
        cases hbp : b.prepare true with
        | error e => exact ⟨n2, rfl⟩
        | ok b' =>
          dsimp only [Except.map]
          rw [AM.bind_apply]
          simp only [AM.get]
          obtain ⟨n3, e3⟩ := rest (some b) (transparentIndex nn)
            { s with image := { s.image with px := px, background := some b' } } n2 (some b') rfl rfl rfl rfl
          refine ⟨n3, ?_⟩
          refine e3.trans ?_
          dsimp only
          cases remapLoop (env.sched s.out.length).order nn (transparentIndex nn) px (some b') s.image.importanceMap s.out.length with
          | error e => rfl
          | ok outs =>
            dsimp only
            split
            · rfl
            · rfl

theorem remapFloydA_plenty (env : RemapEnv F) (p : PalF F) (maxErr : F) (isRemapped : Bool) (s : RemapState F) (n : ℕ) :
    ∃ n', remapFloydA env p maxErr isRemapped Answers.plenty (n, s) =
      ((remapFloyd env s p maxErr isRemapped).1, n', (remapFloyd env s p maxErr isRemapped).2) := by
  have loop : ∀ (nn : Nearest F) (s : RemapState F) (px : Rows F) (bg : Option (Rows F)) (n : ℕ), s.image.px = px → s.image.background = bg →
      ∃ n', floydLoopA env nn maxErr isRemapped Answers.plenty (n, s) =
        (let dmap := ditherMapOf s.image s.quant.useDitherMap
         let picked := pickBackgroundFloyd nn bg
         let ctx : DitherCtx F :=
          { n := nn, width := px.width, base := baseDitherLevel s.quant.ditherLevel (!dmap.isEmpty), maxErr := maxErr
            ti := picked.2, guess := isRemapped && picked.1.isNone, garbage := env.garbage }
         let chunks := ditherChunks s.quant.singleThreadedDithering px.width px.height env.cpus
         let r := floydChunks ctx ⟨px, picked.1, dmap⟩ s.quant.progressCallback (remapStage1 s.quant.useDitherMap) 0
          (chunksOf ((px.height + chunks - 1) / chunks) s.out) s.log
         (r.1.res, n', { s with out := r.1.rows, log := r.2, uninit := s.uninit || r.1.uninit })) := by
    intro nn s px bg n h1 h2
    subst h1 h2
    refine ⟨(floydLoopA env nn maxErr isRemapped Answers.plenty (n, s)).2.1, ?_⟩
    unfold floydLoopA
    dsimp only
    rw [← floydChunksA_plenty (i := n)]
  unfold remapFloydA remapFloyd
  rw [AM.bind_apply, AM.alloc_yes s (rfl : Answers.plenty n = true)]
  dsimp only
  rw [AM.bind_apply, show (AM.lift (Nearest.new p) : AM (RemapState F) _) Answers.plenty (n + 1, s) = (Nearest.new p, n + 1, s) from rfl]
  cases hn : Nearest.new p with
  | error e => exact ⟨n + 1, rfl⟩
  | ok nn =>
    dsimp only
    rw [AM.bind_apply]
    have final : ∀ (bg : Option (Rows F)) (n : ℕ) (s' : RemapState F), s' = { s with image := { s.image with background := bg } } →
        ∃ n', (RemapState.onPx Rows.prepareA >>= fun _ => floydLoopA env nn maxErr isRemapped) Answers.plenty (n, s') =
          (let r := (match s.image.px.prepare true with
            | .error e => (.error e, s')
            | .ok px =>
              let s := { s' with image := { s'.image with px := px } }
              let ctx : DitherCtx F :=
                { n := nn, width := px.width,
                  base := baseDitherLevel s.quant.ditherLevel (!(ditherMapOf s.image s.quant.useDitherMap).isEmpty), maxErr := maxErr
                  ti := (pickBackgroundFloyd nn bg).2, guess := isRemapped && (pickBackgroundFloyd nn bg).1.isNone, garbage := env.garbage }
              let chunks := ditherChunks s.quant.singleThreadedDithering px.width px.height env.cpus
              let r := floydChunks ctx ⟨px, (pickBackgroundFloyd nn bg).1, ditherMapOf s.image s.quant.useDitherMap⟩ s.quant.progressCallback
                (remapStage1 s.quant.useDitherMap) 0 (chunksOf ((px.height + chunks - 1) / chunks) s.out) s.log
              (r.1.res, { s with out := r.1.rows, log := r.2, uninit := s.uninit || r.1.uninit }) : Res Unit × RemapState F)
           (r.1, n', r.2)) := by
      intro bg n s' hs'
      obtain ⟨n1, e1⟩ := onPx_plenty prepareA_plenty s' n
      rw [AM.bind_apply, e1, show s'.image.px = s.image.px by rw [hs']]
      cases hpx : s.image.px.prepare true with
      | error e => exact ⟨n1, rfl⟩
      | ok px =>
        dsimp only
        exact loop nn _ px bg n1 rfl (by rw [hs'])
    cases hb : s.image.background with
    | none =>
      rw [onBackground_none _ _ _ _ hb]
      simp only [prepareOpt]
      have hs : s = { s with image := { s.image with background := none } } := by rw [← hb]
      obtain ⟨n1, e1⟩ := final none (n + 1) s hs
      refine ⟨n1, e1.trans ?_⟩
      dsimp only
      rw [← hs]
      cases s.image.px.prepare true with
      | error e => rfl
      | ok px => rw [← hb]; rfl
    | some b =>
      obtain ⟨n1, e1⟩ := onBackground_some prepareA_plenty (n + 1) hb
      rw [e1]
      simp only [prepareOpt]
      cases hbp : b.prepare true with
      | error e => exact ⟨n1, rfl⟩
      | ok b' =>
        dsimp only [Except.map]
        obtain ⟨n2, e2⟩ := final (some b') n1 _ rfl
        refine ⟨n2, e2.trans ?_⟩
        cases s.image.px.prepare true with
        | error e => rfl
        | ok px => rfl

theorem withEdges_twice {img img1 : Image F} (hg : img.Good) (h : img.withEdges = .ok img1) : img1.withEdges = .ok img1 := by
  unfold Image.withEdges at h ⊢
  by_cases he : img.edges.isNone = true
  · rw [if_pos he] at h
    obtain ⟨i, e, g, same, -, -, -, -, hc⟩ := contrastMaps_ok hg
    rw [h] at e
    cases e
    rcases hc with ⟨a, b⟩ | ⟨a, m, e, hm, hee, hno⟩
    · rw [b, if_pos he]
      rw [b] at h
      exact h
    · rw [if_neg (by simp [hee])]
  · rw [if_neg he] at h
    cases h
    rw [if_neg he]

theorem updateDitherMapA_plenty {img img' : Image F} (hg : img.Good) {rows : List (List UInt8)} {p : PalF F} {ub : Bool}
    (h : img.updateDitherMap rows p ub = .ok img') (n : ℕ) :
    ∃ n', Image.updateDitherMapA rows p ub Answers.plenty (n, img) = (.ok (), n', img') := by
  obtain ⟨n1, img1, e1, e2⟩ : ∃ n1 img1, Image.withEdgesA Answers.plenty (n, img) = (.ok (), n1, img1) ∧ img.withEdges = .ok img1 := by
    unfold Image.withEdgesA Image.withEdges
    rw [AM.bind_apply]
    simp only [AM.get]
    by_cases he : img.edges.isNone = true
    · rw [if_pos he, if_pos he]
      obtain ⟨a, b⟩ := contrastMapsA_plenty hg n
      exact ⟨_, _, Prod.ext a rfl, b⟩
    · rw [if_neg he, if_neg he]
      exact ⟨n, img, rfl, rfl⟩
  have h1 : img1.updateDitherMap rows p ub = .ok img' := by
    unfold Image.updateDitherMap at h ⊢
    rw [withEdges_twice hg e2]
    rw [e2] at h
    exact h
  refine ⟨n1, ?_⟩
  unfold Image.updateDitherMapA
  rw [AM.bind_apply, e1]
  simp [AM.bind_apply, AM.get, AM.lift, AM.modify, h1]

theorem generateDitherMapA_plenty (env : RemapEnv F) {s : RemapState F} (ub : Bool) {p : PalF F} (hp0 : 0 < p.length) (hp : p.length ≤ 256)
    (hg : s.image.Good) (ho : OutGood s.image s.out) (n : ℕ) :
    ∃ n', generateDitherMapA env ub p Answers.plenty (n, s) = ((generateDitherMap env s ub p).1, n', (generateDitherMap env s ub p).2) := by
  unfold generateDitherMapA generateDitherMap
  rw [AM.bind_apply]
  simp only [AM.get]
  by_cases hgen : generatesDitherMap s.quant.useDitherMap s.image = true
  · rw [if_neg (by simp [hgen]), if_neg (by simp [hgen]), AM.bind_apply]
    have spec := remapToPalette_spec env (px := s.image.px) (bg := none) s.image.importanceMap (nrows := s.out.length)
      hp0 hp hg.px (fun b h => by cases h) (by rw [ho.1]; exact le_refl _)
    obtain ⟨n1, e1⟩ := remapToPaletteA_plenty env false p s n
    rw [if_neg (by simp)] at e1
    rw [e1]
    rw [show s.out.length = s.image.height from ho.1] at spec ⊢
    generalize hx : remapToPalette env s.image.px none s.image.importanceMap s.image.height p = x at *
    obtain ⟨res, ro⟩ := x
    simp only at spec
    obtain ⟨o1, o2, rows, hrows, hlen, hb⟩ := spec.out (out := s.out) hg hp0
    have hw : ({ s.image with px := ro.px } : Image F).width = s.image.width := spec.samePx.width
    have hh : ({ s.image with px := ro.px } : Image F).height = s.image.height := spec.samePx.height
    have keep : ({ s.image with px := ro.px } : Image F).Good := hg.change spec.samePx (BgSame.refl _)
    cases res with
    | error e => exact ⟨n1, rfl⟩
    | ok err =>
      obtain ⟨img', e, -⟩ := Image.updateDitherMap_ok keep (remapped := rows)
        (palette := ro.palette) ub (by rw [hlen]; exact hh.symm)
        (fun row hrow => ⟨by rw [(hb row hrow).1]; exact hw.symm, by rw [spec.palette]; exact (hb row hrow).2⟩)
      obtain ⟨n2, e2⟩ := updateDitherMapA_plenty keep e n1
      refine ⟨n2, ?_⟩
      dsimp only
      rw [hrows, Option.getD_some, e, AM.bind_apply]
      have : (AM.on (fun s : RemapState F => s.image) (fun img s => { s with image := img }) (Image.updateDitherMapA rows ro.palette ub))
          Answers.plenty (n1, s.left false ro) = (.ok (), n2, { s.left false ro with image := img' }) := by
        have e3 : Image.updateDitherMapA rows ro.palette ub Answers.plenty (n1, (s.left false ro).image) = (.ok (), n2, img') := e2
        unfold AM.on
        dsimp only
        rw [e3]
      rw [this]
      simp only [AM.pure_apply, RemapState.left, hrows]
  · rw [if_pos (by simp [hgen]), if_pos (by simp [hgen])]
    exact ⟨n, rfl⟩

theorem remapPlainA_plenty (env : RemapEnv F) (s : RemapState F) (n : ℕ) :
    ∃ n', remapPlainA env Answers.plenty (n, s) = ((remapPlain env s).1, n', (remapPlain env s).2) := by
  unfold remapPlainA remapPlain
  rw [AM.bind_apply]
  simp only [AM.get]
  rw [AM.bind_apply]
  obtain ⟨n1, e1⟩ := remapToPaletteA_plenty env true (s.quant.palette.initIntPalette s.quant.gamma (UInt8.ofNat s.quant.minPosterizationOutput)).1 s n
  rw [e1, if_pos rfl]
  refine ⟨n1, ?_⟩
  generalize remapToPalette env s.image.px s.image.background s.image.importanceMap s.out.length
    (s.quant.palette.initIntPalette s.quant.gamma (UInt8.ofNat s.quant.minPosterizationOutput)).1 = x
  obtain ⟨res, r⟩ := x
  cases res <;> rfl

theorem remapDitheredA_plenty (env : RemapEnv F) {s : RemapState F} (hp0 : 0 < s.quant.palette.length) (hp : s.quant.palette.length ≤ 256)
    (hg : s.image.Good) (ho : OutGood s.image s.out) (n : ℕ) :
    ∃ n', remapDitheredA env Answers.plenty (n, s) = ((remapDithered env s).1, n', (remapDithered env s).2) := by
  unfold remapDitheredA remapDithered
  rw [AM.bind_apply]
  simp only [AM.get]
  rw [AM.bind_apply]
  obtain ⟨n1, e1⟩ := generateDitherMapA_plenty env s.image.background.isSome hp0 hp hg ho n
  have hq : (generateDitherMap env s s.image.background.isSome s.quant.palette).2.quant = s.quant := by
    unfold generateDitherMap
    split
    · rfl
    · split
      · rfl
      · dsimp only
        split <;> rfl
  rw [e1]
  generalize generateDitherMap env s s.image.background.isSome s.quant.palette = x at hq
  obtain ⟨res, t⟩ := x
  dsimp only at hq
  cases res with
  | error e => exact ⟨n1, rfl⟩
  | ok g =>
    obtain ⟨err, p⟩ := g
    dsimp only
    rw [AM.bind_apply]
    unfold RemapState.progressA AM.run
    dsimp only
    rw [hq]
    rcases progress s.quant.progressCallback (lit32 (remapStage1 s.quant.useDitherMap) *₃ lit32 (1/2)) t.log with ⟨res, log⟩
    cases res with
    | error e => exact ⟨n1, rfl⟩
    | ok b =>
      cases b with
      | true => exact ⟨n1, rfl⟩
      | false =>
        dsimp only [Bool.false_eq_true, if_false]
        rw [if_neg Bool.false_ne_true, AM.bind_apply]
        obtain ⟨n2, e2⟩ := remapFloydA_plenty env (p.initIntPalette s.quant.gamma (UInt8.ofNat s.quant.minPosterizationOutput)).1
          (maxDitherError (err.or s.quant.paletteError)) err.isSome ⟨s.quant, t.image, t.out, log, t.uninit⟩ n1
        rw [e2]
        refine ⟨n2, ?_⟩
        generalize remapFloyd env ⟨s.quant, t.image, t.out, log, t.uninit⟩ (p.initIntPalette s.quant.gamma (UInt8.ofNat s.quant.minPosterizationOutput)).1
          (maxDitherError (err.or s.quant.paletteError)) err.isSome = y
        obtain ⟨res, u⟩ := y
        cases res <;> rfl

theorem writeRemappedA_plenty (env : RemapEnv F) {s : RemapState F} (hp0 : 0 < s.quant.palette.length) (hp : s.quant.palette.length ≤ 256)
    (hg : s.image.freeHistogramInputs.Good) (ho : OutGood s.image.freeHistogramInputs s.out) (n : ℕ) :
    ∃ n', writeRemappedA env Answers.plenty (n, s) = ((writeRemapped env s).1, n', (writeRemapped env s).2) := by
  unfold writeRemappedA writeRemapped
  rw [AM.bind_apply]
  simp only [AM.get]
  rw [AM.bind_apply]
  unfold RemapState.progressA AM.run
  dsimp only
  rcases progress s.quant.progressCallback (lit32 (remapStage1 s.quant.useDitherMap) *₃ lit32 (1/4)) s.log with ⟨res, log⟩
  cases res with
  | error e => exact ⟨n, rfl⟩
  | ok b =>
    cases b with
    | true => exact ⟨n, rfl⟩
    | false =>
      dsimp only [Bool.false_eq_true, if_false]
      rw [if_neg Bool.false_ne_true, AM.bind_apply,
        show AM.modify (fun s : RemapState F => { s with image := s.image.freeHistogramInputs }) Answers.plenty (n, { s with log := log }) =
          (.ok (), n, { s with log := log, image := s.image.freeHistogramInputs }) from rfl]
      dsimp only
      rw [AM.bind_apply]
      obtain ⟨n1, e1⟩ : ∃ n1, remapBodyA env s.quant Answers.plenty (n, { s with log := log, image := s.image.freeHistogramInputs }) =
          (let r := if eq s.quant.ditherLevel (lit32 0) then remapPlain env { s with log := log, image := s.image.freeHistogramInputs }
            else remapDithered env { s with log := log, image := s.image.freeHistogramInputs }
           (r.1, n1, r.2)) := by
        unfold remapBodyA
        by_cases hd : eq s.quant.ditherLevel (lit32 0) = true
        · simp only [hd, if_true]
          exact remapPlainA_plenty env _ n
        · simp only [hd]
          exact remapDitheredA_plenty env (s := { s with log := log, image := s.image.freeHistogramInputs }) hp0 hp hg ho n
      rw [e1]
      refine ⟨n1, ?_⟩
      generalize (if eq s.quant.ditherLevel (lit32 0) then remapPlain env { s with log := log, image := s.image.freeHistogramInputs }
            else remapDithered env { s with log := log, image := s.image.freeHistogramInputs }) = y
      obtain ⟨res, u⟩ := y
      cases res <;> rfl

end Verif
