import Verif.Lemmas.MemoryRemap

/-! # What remapping leaves behind, whether memory runs out or not -/

set_option linter.unusedSectionVars false

namespace Verif
open Flt Spec

variable {F : Type} [Flt F]

/-- the state afterwards is in the relation `R` to the one before, however the allocator answers -/
def Keeps {σ α : Type} (R : σ → σ → Prop) (x : AM σ α) : Prop := ∀ mem n s, R s (x mem (n, s)).2.2

namespace Keeps
variable {σ τ α β : Type} {R : σ → σ → Prop}

theorem bind (ht : ∀ a b c, R a b → R b c → R a c) {x : AM σ α} {f : α → AM σ β} (h : Keeps R x) (hf : ∀ a, Keeps R (f a)) :
    Keeps R (x >>= f) := by
  intro mem n s
  have h1 := h mem n s
  rw [AM.bind_apply]
  generalize x mem (n, s) = z at h1 ⊢
  obtain ⟨res, n1, s1⟩ := z
  cases res with
  | error e => exact h1
  | ok a => exact ht _ _ _ h1 (hf a mem n1 s1)

theorem ite (c : Prop) [Decidable c] {x y : AM σ α} (h : Keeps R x) (h' : Keeps R y) : Keeps R (if c then x else y) := by
  split
  · exact h
  · exact h'

theorem modify {f : σ → σ} (h : ∀ s, R s (f s)) : Keeps R (AM.modify f) := fun _ _ s => h s
theorem run {m : σ → Res α × σ} (h : ∀ s, R s (m s).2) : Keeps R (AM.run m) := fun _ _ s => h s

variable (hr : ∀ s, R s s)
include hr
theorem lift (r : Res α) : Keeps R (AM.lift r : AM σ α) := fun _ _ s => hr s
theorem pure (a : α) : Keeps R (Pure.pure a : AM σ α) := fun _ _ s => hr s
theorem throw (e : Fail) : Keeps R (AM.throw e : AM σ α) := fun _ _ s => hr s
theorem get : Keeps R (AM.get : AM σ σ) := fun _ _ s => hr s
theorem alloc : Keeps R (AM.alloc : AM σ Unit) := fun _ _ s => hr s
theorem allocIf (b : Bool) : Keeps R (AM.allocIf b : AM σ Unit) := ite _ (alloc hr) (pure hr ())
theorem workers (ws : List (List ℕ)) : Keeps R (AM.workers ws : AM σ Unit) := fun _ _ s => hr s
omit hr

theorem on {Q : τ → τ → Prop} {get : σ → τ} {set : τ → σ → σ} {m : AM τ α} (h : Keeps Q m) (hs : ∀ s t, Q (get s) t → R s (set t s)) :
    Keeps R (AM.on get set m) := fun mem n s => hs s _ (h mem n (get s))

end Keeps

/-- rows that read the same, if they can be read -/
def RowsLeft (r r' : Rows F) : Prop := r.Readable → Rows.Same r r'

theorem RowsLeft.trans {a b c : Rows F} (h : RowsLeft a b) (k : RowsLeft b c) : RowsLeft a c :=
  fun hr => (h hr).trans (k ((h hr).readable hr))

theorem prepareA_left : Keeps RowsLeft (Rows.prepareA (F := F)) := by
  intro mem n r hr
  unfold Rows.prepareA
  rw [AM.bind_apply]
  simp only [AM.get]
  rw [AM.bind_apply]
  have hk := Keeps.allocIf (R := fun a b : Rows F => b = a) (fun _ => rfl) (!(r.fPixels.isSome || r.lowMemory)) mem n r
  generalize AM.allocIf (!(r.fPixels.isSome || r.lowMemory)) mem (n, r) = z at hk ⊢
  obtain ⟨res, n1, r1⟩ := z
  dsimp only at hk
  subst hk
  cases res with
  | error e => exact Rows.Same.refl _
  | ok a =>
    obtain ⟨r', e, hs, -⟩ := Rows.prepare_same hr true
    dsimp only
    rw [AM.bind_apply]
    simp only [AM.lift, AM.modify, e]
    exact hs

theorem rowsIterA_left : Keeps RowsLeft (Rows.rowsIterA (F := F)) := by
  have hr : ∀ r : Rows F, RowsLeft r r := fun r _ => Rows.Same.refl r
  have ht : ∀ a b c : Rows F, RowsLeft a b → RowsLeft b c → RowsLeft a c := fun _ _ _ h k => h.trans k
  unfold Rows.rowsIterA
  exact Keeps.bind ht prepareA_left fun _ => Keeps.bind ht (Keeps.get hr) fun _ => Keeps.allocIf hr _

/-- an image whose pixels and background are the same, and possibly its maps -/
structure ImageLeft (maps : Bool) (a b : Image F) : Prop where
  px : RowsLeft a.px b.px
  background : (∀ x, a.background = some x → x.Readable) → BgSame a.background b.background
  maps : maps = true → SameMaps a b

theorem BgSame.readable {a b : Option (Rows F)} (h : BgSame a b) (hr : ∀ x, a = some x → x.Readable) : ∀ x, b = some x → x.Readable := by
  intro x hx
  subst hx
  cases a with
  | none => simp only [BgSame] at h
  | some a => exact Rows.Same.readable h (hr a rfl)

theorem ImageLeft.refl (m : Bool) (a : Image F) : ImageLeft m a a := ⟨fun _ => Rows.Same.refl _, fun _ => BgSame.refl _, fun _ => ⟨rfl, rfl, rfl⟩⟩

theorem ImageLeft.trans {m : Bool} {a b c : Image F} (h : ImageLeft m a b) (k : ImageLeft m b c) : ImageLeft m a c := by
  refine ⟨h.px.trans k.px, fun hr => (h.background hr).trans (k.background ((h.background hr).readable hr)), fun hm => ?_⟩
  obtain ⟨a1, a2, a3⟩ := h.maps hm
  obtain ⟨b1, b2, b3⟩ := k.maps hm
  exact ⟨a1.trans b1, a2.trans b2, a3.trans b3⟩

theorem ImageLeft.weaken {m : Bool} {a b : Image F} (h : ImageLeft m a b) : ImageLeft false a b := ⟨h.px, h.background, fun h => by cases h⟩

theorem ImageLeft.of_px {m : Bool} {a : Image F} {px : Rows F} (h : RowsLeft a.px px) : ImageLeft m a { a with px := px } :=
  ⟨h, fun _ => BgSame.refl _, fun _ => ⟨rfl, rfl, rfl⟩⟩

theorem ImageLeft.of_maps {a : Image F} (i e d : Option (List UInt8)) :
    ImageLeft false a { a with importanceMap := i, edges := e, ditherMap := d } :=
  ⟨fun _ => Rows.Same.refl _, fun _ => BgSame.refl _, fun h => by cases h⟩

theorem allRowsF_left {r r' : Rows F} {rows : List (List (FPixel F))} (h : r.allRowsF = .ok (r', rows)) : RowsLeft r r' := by
  intro hr
  obtain ⟨r1, rows1, e, hs, -⟩ := Rows.allRowsF_ok hr
  rw [h] at e
  cases e
  exact hs

theorem allRowsFA_left : Keeps (ImageLeft false) (Image.allRowsFA (F := F)) := by
  intro mem n img
  unfold Image.allRowsFA
  rw [AM.bind_apply]
  simp only [AM.get]
  rw [AM.bind_apply]
  have hk := fun n => Keeps.allocIf (R := fun a b : Image F => b = a) (fun _ => rfl) img.px.fPixels.isNone mem n img
  have h1 := hk n
  generalize AM.allocIf img.px.fPixels.isNone mem (n, img) = z at h1 ⊢
  obtain ⟨res, n1, r1⟩ := z
  dsimp only at h1
  subst h1
  cases res with
  | error e => exact ImageLeft.refl _ _
  | ok a =>
    dsimp only
    rw [AM.bind_apply]
    have h2 := hk n1
    generalize AM.allocIf r1.px.fPixels.isNone mem (n1, r1) = z at h2 ⊢
    obtain ⟨res, n2, r2⟩ := z
    dsimp only at h2
    subst h2
    cases res with
    | error e => exact ImageLeft.refl _ _
    | ok a =>
      dsimp only
      rw [AM.bind_apply]
      simp only [AM.lift]
      cases e : r2.px.allRowsF with
      | error e => exact ImageLeft.refl _ _
      | ok x =>
        obtain ⟨px, rows⟩ := x
        exact ImageLeft.of_px (allRowsF_left e)

section
variable {m : Bool}
theorem imageLeft_refl (s : Image F) : ImageLeft m s s := ImageLeft.refl m s
theorem imageLeft_trans (a b c : Image F) : ImageLeft m a b → ImageLeft m b c → ImageLeft m a c := fun h k => h.trans k
end

theorem contrastMapsA_left : Keeps (ImageLeft false) (Image.contrastMapsA (F := F)) := by
  unfold Image.contrastMapsA
  refine Keeps.bind imageLeft_trans (Keeps.get imageLeft_refl) fun img => Keeps.ite _ (Keeps.pure imageLeft_refl _) ?_
  refine Keeps.bind imageLeft_trans (Keeps.allocIf imageLeft_refl _) fun _ => ?_
  refine Keeps.bind imageLeft_trans (Keeps.modify fun s => ImageLeft.of_maps _ _ _) fun _ => ?_
  refine Keeps.bind imageLeft_trans (Keeps.allocIf imageLeft_refl _) fun _ => ?_
  refine Keeps.bind imageLeft_trans (Keeps.modify fun s => ImageLeft.of_maps _ _ _) fun _ => ?_
  refine Keeps.bind imageLeft_trans allRowsFA_left fun _ => ?_
  refine Keeps.bind imageLeft_trans (Keeps.lift imageLeft_refl _) fun _ => ?_
  refine Keeps.bind imageLeft_trans (Keeps.modify fun s => ImageLeft.of_maps _ _ _) fun _ => ?_
  refine Keeps.bind imageLeft_trans (Keeps.alloc imageLeft_refl) fun _ => ?_
  refine Keeps.bind imageLeft_trans (Keeps.lift imageLeft_refl _) fun _ => ?_
  exact Keeps.modify fun s => ImageLeft.of_maps _ _ _

theorem withEdgesA_left : Keeps (ImageLeft false) (Image.withEdgesA (F := F)) := by
  unfold Image.withEdgesA
  exact Keeps.bind imageLeft_trans (Keeps.get imageLeft_refl) fun img => Keeps.ite _ contrastMapsA_left (Keeps.pure imageLeft_refl _)

theorem withEdges_left {img img' : Image F} (h : img.withEdges = .ok img') : ImageLeft false img img' := by
  unfold Image.withEdges Image.contrastMaps at h
  split at h
  · split at h
    · cases h
      exact ImageLeft.refl _ _
    · obtain ⟨⟨px, rows⟩, e1, h⟩ := Res.bind_ok h
      obtain ⟨raw, e2, h⟩ := Res.bind_ok h
      obtain ⟨⟨noise, edges⟩, e3, h⟩ := Res.bind_ok h
      cases h
      exact (ImageLeft.of_px (m := false) (allRowsF_left e1)).trans (ImageLeft.of_maps _ _ _)
  · cases h
    exact ImageLeft.refl _ _

theorem updateDitherMap_left {img img' : Image F} {rows : List (List UInt8)} {p : PalF F} {ub : Bool}
    (h : img.updateDitherMap rows p ub = .ok img') : ImageLeft false img img' := by
  unfold Image.updateDitherMap at h
  obtain ⟨img1, e1, h⟩ := Res.bind_ok h
  refine (withEdges_left e1).trans ?_
  cases he : img1.edges with
  | none =>
    rw [he] at h
    cases h
    exact ImageLeft.refl _ _
  | some e =>
    rw [he] at h
    obtain ⟨out, e2, h⟩ := Res.bind_ok h
    cases h
    exact ImageLeft.of_maps _ _ _

theorem updateDitherMapA_left (rows : List (List UInt8)) (p : PalF F) (ub : Bool) : Keeps (ImageLeft false) (Image.updateDitherMapA rows p ub) := by
  unfold Image.updateDitherMapA
  refine Keeps.bind imageLeft_trans withEdgesA_left fun _ => ?_
  intro mem n img
  rw [AM.bind_apply]
  simp only [AM.get]
  rw [AM.bind_apply]
  simp only [AM.lift]
  cases e : img.updateDitherMap rows p ub with
  | error e => exact ImageLeft.refl _ _
  | ok img' => exact updateDitherMap_left e

/-- what a remap keeps until it succeeds -/
structure Left (maps : Bool) (s t : RemapState F) : Prop where
  quant : t.quant = s.quant
  image : ImageLeft maps s.image t.image

section
variable {m : Bool}
theorem left_refl (s : RemapState F) : Left m s s := ⟨rfl, ImageLeft.refl m _⟩
theorem left_trans (a b c : RemapState F) : Left m a b → Left m b c → Left m a c := fun h k => ⟨k.quant.trans h.quant, h.image.trans k.image⟩

theorem onPx_left {x : AM (Rows F) Unit} (h : Keeps RowsLeft x) : Keeps (Left m) (RemapState.onPx x) :=
  Keeps.on h fun _ _ hs => ⟨rfl, ImageLeft.of_px hs⟩

theorem onBackground_left (used : Bool) {x : AM (Rows F) Unit} (h : Keeps RowsLeft x) : Keeps (Left m) (RemapState.onBackground used x) := by
  intro mem n s
  unfold RemapState.onBackground
  dsimp only
  cases hb : s.image.background with
  | none => exact left_refl s
  | some b =>
    cases used with
    | false => exact left_refl s
    | true =>
      refine ⟨rfl, fun _ => Rows.Same.refl _, fun hr => ?_, fun _ => ⟨rfl, rfl, rfl⟩⟩
      rw [hb]
      exact h mem n b (hr b hb)

theorem remapToPaletteA_left (env : RemapEnv F) (useBg : Bool) (p : PalF F) : Keeps (Left m) (remapToPaletteA env useBg p) := by
  unfold remapToPaletteA
  refine Keeps.bind left_trans (Keeps.lift left_refl _) fun n => ?_
  refine Keeps.bind left_trans (Keeps.alloc left_refl) fun _ => ?_
  refine Keeps.bind left_trans (Keeps.alloc left_refl) fun _ => ?_
  refine Keeps.bind left_trans (Keeps.alloc left_refl) fun _ => ?_
  refine Keeps.bind left_trans (Keeps.alloc left_refl) fun _ => ?_
  refine Keeps.bind left_trans (onPx_left rowsIterA_left) fun _ => ?_
  refine Keeps.bind left_trans (Keeps.get left_refl) fun s => ?_
  refine Keeps.bind left_trans (onBackground_left _ rowsIterA_left) fun _ => ?_
  refine Keeps.bind left_trans (Keeps.get left_refl) fun s => ?_
  refine Keeps.bind left_trans (Keeps.workers left_refl _) fun _ => ?_
  refine Keeps.bind left_trans (Keeps.lift left_refl _) fun outs => ?_
  refine Keeps.bind left_trans (Keeps.modify fun s => ⟨rfl, ImageLeft.refl _ _⟩) fun _ => ?_
  exact Keeps.ite _ (Keeps.throw left_refl _) (Keeps.pure left_refl _)

theorem remapPlainA_left (env : RemapEnv F) : Keeps (Left m) (remapPlainA env) := by
  unfold remapPlainA
  exact Keeps.bind left_trans (Keeps.get left_refl) fun _ => Keeps.bind left_trans (remapToPaletteA_left env true _) fun _ => Keeps.pure left_refl _

theorem generateDitherMapA_left (env : RemapEnv F) (ub : Bool) (p : PalF F) : Keeps (Left false) (generateDitherMapA env ub p) := by
  unfold generateDitherMapA
  refine Keeps.bind left_trans (Keeps.get left_refl) fun s => Keeps.ite _ (Keeps.pure left_refl _) ?_
  refine Keeps.bind left_trans (remapToPaletteA_left env false p) fun r => ?_
  exact Keeps.bind left_trans (Keeps.on (updateDitherMapA_left _ _ _) fun s t h => ⟨rfl, h⟩) fun _ => Keeps.pure left_refl _

theorem remapFloydA_left (env : RemapEnv F) (p : PalF F) (maxErr : F) (isRemapped : Bool) : Keeps (Left m) (remapFloydA env p maxErr isRemapped) := by
  unfold remapFloydA
  refine Keeps.bind left_trans (Keeps.alloc left_refl) fun _ => Keeps.bind left_trans (Keeps.lift left_refl _) fun n => ?_
  refine Keeps.bind left_trans (onBackground_left _ prepareA_left) fun _ => Keeps.bind left_trans (onPx_left prepareA_left) fun _ => ?_
  exact fun _ _ _ => ⟨rfl, ImageLeft.refl _ _⟩

theorem progressA_left (x : F) : Keeps (Left m) (RemapState.progressA x) := Keeps.run fun _ => ⟨rfl, ImageLeft.refl _ _⟩

theorem remapDitheredA_left (env : RemapEnv F) (mem : Answers) (n : ℕ) (s : RemapState F)
    (hm : m = true → generatesDitherMap s.quant.useDitherMap s.image = false) : Left m s (remapDitheredA env mem (n, s)).2.2 := by
  unfold remapDitheredA
  rw [AM.bind_apply]
  simp only [AM.get]
  have hgen : Left m s (generateDitherMapA env s.image.background.isSome s.quant.palette mem (n, s)).2.2 := by
    cases m with
    | false => exact generateDitherMapA_left env _ _ mem n s
    | true =>
      unfold generateDitherMapA
      rw [AM.bind_apply]
      simp only [AM.get]
      rw [if_pos (by simp [hm rfl])]
      exact left_refl s
  rw [AM.bind_apply]
  generalize generateDitherMapA env s.image.background.isSome s.quant.palette mem (n, s) = z at hgen ⊢
  obtain ⟨res, n1, t⟩ := z
  cases res with
  | error e => exact hgen
  | ok g =>
    refine left_trans _ _ _ hgen ?_
    refine Keeps.bind left_trans (progressA_left _) (fun abort => ?_) mem n1 t
    refine Keeps.ite _ (Keeps.throw left_refl _) ?_
    exact Keeps.bind left_trans (remapFloydA_left env _ _ _) fun _ => Keeps.pure left_refl _

/-- what is left of the image in any case, and of the result if there is an error -/
theorem writeRemappedA_left (env : RemapEnv F) (mem : Answers) (n : ℕ) (s : RemapState F)
    (hm : m = true → eq s.quant.ditherLevel (lit32 0) = true ∨ generatesDitherMap s.quant.useDitherMap s.image = false) :
    ImageLeft m s.image (writeRemappedA env mem (n, s)).2.2.image ∧
    ((writeRemappedA env mem (n, s)).1 ≠ .ok () → (writeRemappedA env mem (n, s)).2.2.quant = s.quant) := by
  have free : ∀ log, Left m s { s with log := log, image := s.image.freeHistogramInputs } := fun log =>
    ⟨rfl, fun _ => Rows.free_same _, fun _ => BgSame.refl _, fun _ => ⟨rfl, rfl, rfl⟩⟩
  unfold writeRemappedA
  rw [AM.bind_apply]
  simp only [AM.get]
  rw [AM.bind_apply]
  unfold RemapState.progressA AM.run
  dsimp only
  generalize progress s.quant.progressCallback (lit32 (remapStage1 s.quant.useDitherMap) *₃ lit32 (1/4)) s.log = z
  obtain ⟨res, log⟩ := z
  cases res with
  | error e => exact ⟨ImageLeft.refl _ _, fun _ => rfl⟩
  | ok b =>
    cases b with
    | true => exact ⟨ImageLeft.refl _ _, fun _ => rfl⟩
    | false =>
      dsimp only [Bool.false_eq_true, if_false]
      rw [if_neg Bool.false_ne_true, AM.bind_apply,
        show AM.modify (fun s : RemapState F => { s with image := s.image.freeHistogramInputs }) mem (n, { s with log := log }) =
          (.ok (), n, { s with log := log, image := s.image.freeHistogramInputs }) from rfl]
      dsimp only
      rw [AM.bind_apply]
      have hb : Left m s (remapBodyA env s.quant mem (n, { s with log := log, image := s.image.freeHistogramInputs })).2.2 := by
        refine left_trans _ _ _ (free log) ?_
        unfold remapBodyA
        split
        · exact remapPlainA_left env mem n _
        · next hd =>
          refine remapDitheredA_left env mem n _ fun h => ?_
          have := (hm h).resolve_left hd
          have fs := Rows.free_same s.image.px
          unfold generatesDitherMap at this ⊢
          simp only [Image.freeHistogramInputs, fs.width, fs.height]
          exact this
      generalize remapBodyA env s.quant mem (n, { s with log := log, image := s.image.freeHistogramInputs }) = z at hb ⊢
      obtain ⟨res, n1, t⟩ := z
      cases res with
      | error e => exact ⟨hb.image, fun _ => hb.quant⟩
      | ok re => exact ⟨hb.image, fun h => absurd rfl h⟩

end

/-! ### Only the answers to the requests matter -/

/-- the answers to the requests that are made determine what happens -/
structure Asks {σ α : Type} (x : AM σ α) : Prop where
  le : ∀ mem n s, n ≤ (x mem (n, s)).2.1
  same : ∀ mem mem' n s, (∀ i, n ≤ i → i < (x mem' (n, s)).2.1 → mem i = mem' i) → x mem (n, s) = x mem' (n, s)

namespace Asks
variable {σ τ α β : Type}

theorem bind {x : AM σ α} {f : α → AM σ β} (h : Asks x) (hf : ∀ a, Asks (f a)) : Asks (x >>= f) := by
  constructor
  · intro mem n s
    have h1 := h.le mem n s
    rw [AM.bind_apply]
    generalize x mem (n, s) = z at h1 ⊢
    obtain ⟨res, n1, s1⟩ := z
    cases res with
    | error e => exact h1
    | ok a => exact le_trans h1 ((hf a).le mem n1 s1)
  · intro mem mem' n s ha
    have h1 := h.le mem' n s
    have h2 := h.same mem mem' n s
    rw [AM.bind_apply] at ha
    rw [AM.bind_apply, AM.bind_apply]
    generalize x mem' (n, s) = z at h1 h2 ha ⊢
    obtain ⟨res, n1, s1⟩ := z
    cases res with
    | error e => rw [h2 ha]
    | ok a =>
      have h3 := (hf a).le mem' n1 s1
      rw [h2 fun i hi hlt => ha i hi (lt_of_lt_of_le hlt h3)]
      exact (hf a).same mem mem' n1 s1 fun i hi hlt => ha i (le_trans h1 hi) hlt

theorem still {m : σ → Res α × σ} : Asks (AM.run m) := ⟨fun _ _ _ => le_rfl, fun _ _ _ _ _ => rfl⟩
theorem lift (r : Res α) : Asks (AM.lift r : AM σ α) := still (m := fun s => (r, s))
theorem pure (a : α) : Asks (Pure.pure a : AM σ α) := still (m := fun s => (.ok a, s))
theorem throw (e : Fail) : Asks (AM.throw e : AM σ α) := still (m := fun s => (.error e, s))
theorem get : Asks (AM.get : AM σ σ) := still (m := fun s => (.ok s, s))
theorem modify (f : σ → σ) : Asks (AM.modify f) := still (m := fun s => (.ok (), f s))

theorem alloc : Asks (AM.alloc : AM σ Unit) := by
  refine ⟨fun _ n _ => Nat.le_succ n, fun mem mem' n s h => ?_⟩
  unfold AM.alloc
  rw [show mem n = mem' n from h n le_rfl (Nat.lt_succ_self n)]

theorem ite (c : Prop) [Decidable c] {x y : AM σ α} (h : Asks x) (h' : Asks y) : Asks (if c then x else y) := by
  split
  · exact h
  · exact h'

theorem allocIf (b : Bool) : Asks (AM.allocIf b : AM σ Unit) := ite _ alloc (pure ())

theorem on {get : σ → τ} {set : τ → σ → σ} {m : AM τ α} (h : Asks m) : Asks (AM.on get set m) := by
  refine ⟨fun mem n s => h.le mem n _, fun mem mem' n s ha => ?_⟩
  unfold AM.on
  dsimp only
  rw [h.same mem mem' n (get s) ha]

end Asks

theorem askAll_asks (mem mem' : Answers) (k i : ℕ) (h : ∀ j, i ≤ j → j < (askAll mem' k i).2 → mem j = mem' j) : askAll mem k i = askAll mem' k i := by
  induction k generalizing i with
  | zero => rfl
  | succ k ih =>
    have hle := (askAll_spec mem' k (i + 1)).le
    have hi : mem i = mem' i := by
      refine h i le_rfl ?_
      unfold askAll
      split
      · omega
      · exact Nat.lt_succ_self i
    unfold askAll at h ⊢
    rw [hi]
    split
    · next hm =>
      rw [if_pos hm] at h
      exact ih (i + 1) fun j hj hlt => h j (by omega) hlt
    · rfl

theorem askRows_asks (mem mem' : Answers) (w : List ℕ) (i : ℕ) (h : ∀ j, i ≤ j → j < (askRows mem' w i).2 → mem j = mem' j) :
    askRows mem w i = askRows mem' w i := by
  induction w generalizing i with
  | nil => rfl
  | cons x w ih =>
    have h1 := (askAll_spec mem' 4 i).le
    have h2 := askAll_asks mem mem' 4 i
    unfold askRows at h ⊢
    generalize askAll mem' 4 i = z at h h1 h2 ⊢
    obtain ⟨b, j⟩ := z
    cases b with
    | true => rw [h2 h]
    | false =>
      dsimp only at h h1 h2 ⊢
      have h3 := (askRows_spec mem' w j).le
      rw [h2 fun a ha hlt => h a ha (lt_of_lt_of_le hlt h3)]
      dsimp only
      rw [ih j fun a ha hlt => h a (le_trans h1 ha) hlt]

theorem askWorkers_asks (mem mem' : Answers) (ws : List (List ℕ)) (i : ℕ) (h : ∀ j, i ≤ j → j < (askWorkers mem' ws i).2 → mem j = mem' j) :
    askWorkers mem ws i = askWorkers mem' ws i := by
  induction ws generalizing i with
  | nil => rfl
  | cons w ws ih =>
    have h1 := (askRows_spec mem' w i).le
    have h3 := (askWorkers_spec mem' ws (askRows mem' w i).2).le
    unfold askWorkers at h ⊢
    dsimp only at h ⊢
    rw [askRows_asks mem mem' w i fun a ha hlt => h a ha (lt_of_lt_of_le hlt h3), ih _ fun a ha hlt => h a (le_trans h1 ha) hlt]

theorem Asks.workers {σ : Type} (ws : List (List ℕ)) : Asks (AM.workers ws : AM σ Unit) := by
  refine ⟨fun mem n s => (askWorkers_spec mem ws n).le, fun mem mem' n s h => ?_⟩
  unfold AM.workers
  dsimp only
  rw [askWorkers_asks mem mem' ws n h]

theorem prepareA_asks : Asks (Rows.prepareA (F := F)) := by
  unfold Rows.prepareA
  exact Asks.get.bind fun r => (Asks.allocIf _).bind fun _ => (Asks.lift _).bind fun _ => Asks.modify _

theorem rowsIterA_asks : Asks (Rows.rowsIterA (F := F)) := by
  unfold Rows.rowsIterA
  exact prepareA_asks.bind fun _ => Asks.get.bind fun r => Asks.allocIf _

theorem onBackground_asks {used : Bool} {m : AM (Rows F) Unit} (h : Asks m) : Asks (RemapState.onBackground used m) := by
  refine ⟨fun mem n s => ?_, fun mem mem' n s ha => ?_⟩
  · unfold RemapState.onBackground
    dsimp only
    cases s.image.background with
    | none => exact le_rfl
    | some b =>
      cases used with
      | false => exact le_rfl
      | true => exact h.le mem n b
  · unfold RemapState.onBackground at ha ⊢
    dsimp only at ha ⊢
    cases hb : s.image.background with
    | none => rfl
    | some b =>
      rw [hb] at ha
      cases used with
      | false => rfl
      | true =>
        exact (h.on (get := fun _ : RemapState F => b)
          (set := fun b s => { s with image := { s.image with background := some b } })).same mem mem' n s ha

theorem remapToPaletteA_asks (env : RemapEnv F) (useBg : Bool) (p : PalF F) : Asks (remapToPaletteA env useBg p) := by
  unfold remapToPaletteA
  refine (Asks.lift _).bind fun n => Asks.alloc.bind fun _ => Asks.alloc.bind fun _ => Asks.alloc.bind fun _ => Asks.alloc.bind fun _ => ?_
  refine Asks.bind rowsIterA_asks.on fun _ => Asks.get.bind fun s => (onBackground_asks rowsIterA_asks).bind fun _ => Asks.get.bind fun s => ?_
  exact (Asks.workers _).bind fun _ => (Asks.lift _).bind fun outs => (Asks.modify _).bind fun _ => Asks.ite _ (Asks.throw _) (Asks.pure _)

theorem contrastMapsA_asks : Asks (Image.contrastMapsA (F := F)) := by
  unfold Image.contrastMapsA Image.allRowsFA
  refine Asks.get.bind fun img => Asks.ite _ (Asks.pure _) ?_
  refine (Asks.allocIf _).bind fun _ => (Asks.modify _).bind fun _ => (Asks.allocIf _).bind fun _ => (Asks.modify _).bind fun _ => ?_
  refine Asks.bind (Asks.get.bind fun img => (Asks.allocIf _).bind fun _ => (Asks.allocIf _).bind fun _ => (Asks.lift _).bind fun _ =>
    (Asks.modify _).bind fun _ => Asks.pure _) fun rows => ?_
  exact (Asks.lift _).bind fun raw => (Asks.modify _).bind fun _ => Asks.alloc.bind fun _ => (Asks.lift _).bind fun _ => Asks.modify _

theorem updateDitherMapA_asks (rows : List (List UInt8)) (p : PalF F) (ub : Bool) : Asks (Image.updateDitherMapA rows p ub) := by
  unfold Image.updateDitherMapA Image.withEdgesA
  refine Asks.bind (Asks.get.bind fun img => Asks.ite _ contrastMapsA_asks (Asks.pure _)) fun _ => ?_
  exact Asks.get.bind fun img => (Asks.lift _).bind fun _ => Asks.modify _

theorem generateDitherMapA_asks (env : RemapEnv F) (ub : Bool) (p : PalF F) : Asks (generateDitherMapA env ub p) := by
  unfold generateDitherMapA
  refine Asks.get.bind fun s => Asks.ite _ (Asks.pure _) ?_
  exact (remapToPaletteA_asks env false p).bind fun r => (updateDitherMapA_asks _ _ _).on.bind fun _ => Asks.pure _

theorem floydChunksA_asks (mem mem' : Answers) (ctx : DitherCtx F) (inp : DitherInput F) (cb : Option (List F → Bool)) (stage1 start : ℕ)
    (chunks : List (List (List (Option UInt8)))) (i : ℕ) (log : List F)
    (h : ∀ j, i ≤ j → j < (floydChunksA mem' ctx inp cb stage1 start chunks i log).2 → mem j = mem' j) :
    floydChunksA mem ctx inp cb stage1 start chunks i log = floydChunksA mem' ctx inp cb stage1 start chunks i log := by
  induction chunks generalizing start i log with
  | nil => rfl
  | cons c cs ih =>
    have h1 := (askAll_spec mem' (chunkRequests inp start) i).le
    have h2 := askAll_asks mem mem' (chunkRequests inp start) i
    unfold floydChunksA at h ⊢
    generalize askAll mem' (chunkRequests inp start) i = z at h h1 h2 ⊢
    obtain ⟨b, j⟩ := z
    have h3 : askAll mem (chunkRequests inp start) i = (b, j) := by
      refine h2 fun a ha hlt => h a ha (lt_of_lt_of_le hlt ?_)
      cases b with
      | false => exact le_rfl
      | true =>
        dsimp only
        cases warmUp ctx inp start with
        | error e => exact le_rfl
        | ok d =>
          dsimp only
          generalize progress cb (ditherProgress stage1 start inp.px.height) log = y
          obtain ⟨res, log1⟩ := y
          cases res with
          | error e => exact le_rfl
          | ok b =>
            cases b with
            | true => exact le_rfl
            | false =>
              dsimp only
              cases ditherRows ctx inp d.1 start c with
              | error e => exact le_rfl
              | ok r => exact (floydChunksA_spec mem' ctx inp cb stage1 _ cs _ _).1
    rw [h3]
    cases b with
    | false => rfl
    | true =>
      dsimp only at h h1 ⊢
      cases hw : warmUp ctx inp start with
      | error e => rfl
      | ok d =>
        obtain ⟨d, un⟩ := d
        rw [hw] at h
        dsimp only at h ⊢
        generalize progress cb (ditherProgress stage1 start inp.px.height) log = y at h ⊢
        obtain ⟨res, log1⟩ := y
        cases res with
        | error e => rfl
        | ok b =>
          cases b with
          | true => rfl
          | false =>
            dsimp only at h ⊢
            cases hr : ditherRows ctx inp d start c with
            | error e => rfl
            | ok r =>
              rw [hr] at h
              dsimp only at h ⊢
              rw [ih (start + c.length) j log1 fun a ha hlt => h a (le_trans h1 ha) hlt]

theorem floydLoopA_asks (env : RemapEnv F) (n : Nearest F) (maxErr : F) (isRemapped : Bool) : Asks (floydLoopA env n maxErr isRemapped) := by
  refine ⟨fun mem i s => (floydChunksA_spec mem _ _ _ _ _ _ _ _).1, fun mem mem' i s h => ?_⟩
  unfold floydLoopA at h ⊢
  dsimp only at h ⊢
  rw [floydChunksA_asks mem mem' _ _ _ _ _ _ _ _ h]

theorem remapFloydA_asks (env : RemapEnv F) (p : PalF F) (maxErr : F) (isRemapped : Bool) : Asks (remapFloydA env p maxErr isRemapped) := by
  unfold remapFloydA
  exact Asks.alloc.bind fun _ => (Asks.lift _).bind fun n => (onBackground_asks prepareA_asks).bind fun _ =>
    Asks.bind prepareA_asks.on fun _ => floydLoopA_asks env n maxErr isRemapped

theorem remapBodyA_asks (env : RemapEnv F) (q : QuantizationResult F) : Asks (remapBodyA env q) := by
  unfold remapBodyA remapPlainA remapDitheredA
  refine Asks.ite _ (Asks.get.bind fun s => (remapToPaletteA_asks env true _).bind fun _ => Asks.pure _) ?_
  refine Asks.get.bind fun s => (generateDitherMapA_asks env _ _).bind fun g => Asks.bind Asks.still fun abort => Asks.ite _ (Asks.throw _) ?_
  exact (remapFloydA_asks env _ _ _).bind fun _ => Asks.pure _

theorem writeRemappedA_asks (env : RemapEnv F) : Asks (writeRemappedA env) := by
  unfold writeRemappedA
  refine Asks.get.bind fun s => Asks.bind Asks.still fun abort => Asks.ite _ (Asks.throw _) ?_
  exact (Asks.modify _).bind fun _ => (remapBodyA_asks env s.quant).bind fun _ => Asks.modify _

theorem remapIntoA_asks (env : RemapEnv F) (q : QuantizationResult F) (img : Image F) (buf : List (Option UInt8)) (log : List F) (mem mem' : Answers)
    (n : ℕ) (h : ∀ i, n ≤ i → i < (remapIntoA env mem' n q img buf log).2 → mem i = mem' i) :
    remapIntoA env mem n q img buf log = remapIntoA env mem' n q img buf log := by
  unfold remapIntoA at h ⊢
  dsimp only at h ⊢
  split
  · rfl
  · next hb =>
    rw [if_neg hb] at h
    rw [(writeRemappedA_asks env).same mem mem' n _ h]

theorem remapIntoA_le (env : RemapEnv F) (q : QuantizationResult F) (img : Image F) (buf : List (Option UInt8)) (log : List F) (mem : Answers) (n : ℕ) :
    n ≤ (remapIntoA env mem n q img buf log).2 := by
  unfold remapIntoA
  dsimp only
  split
  · exact le_rfl
  · exact (writeRemappedA_obeys env).le mem n _

/-- A dithered remap that would succeed, but gets no memory once the dither map is made: what it leaves of the image. -/
theorem remapDitheredA_refused (env : RemapEnv F) {s t : RemapState F} {re : Remapped F} (hp0 : 0 < s.quant.palette.length)
    (hp : s.quant.palette.length ≤ 256) (hg : s.image.Good) (ho : OutGood s.image s.out) (hok : remapDithered env s = (.ok re, t)) (n : ℕ) :
    ∃ mem n' u, remapDitheredA env mem (n, s) = (.error (.err .outOfMemory), n', u) ∧ n < n' ∧ mem (n' - 1) = false ∧ Left true u t := by
  obtain ⟨n1, e1⟩ := generateDitherMapA_plenty env s.image.background.isSome hp0 hp hg ho n
  have hle : n ≤ n1 := by
    have := (generateDitherMapA_asks env s.image.background.isSome s.quant.palette).le Answers.plenty n s
    rw [e1] at this
    exact this
  have e2 : generateDitherMapA env s.image.background.isSome s.quant.palette (fun i => decide (i ≠ n1)) (n, s) =
      ((generateDitherMap env s s.image.background.isSome s.quant.palette).1, n1,
        (generateDitherMap env s s.image.background.isSome s.quant.palette).2) := by
    rw [← e1]
    refine (generateDitherMapA_asks env _ _).same _ _ n s fun i _ hlt => ?_
    rw [e1] at hlt
    have : i ≠ n1 := Nat.ne_of_lt hlt
    simp [this, Answers.plenty]
  unfold remapDithered at hok
  have hq := generateDitherMapA_left env s.image.background.isSome s.quant.palette Answers.plenty n s
  rw [e1] at hq
  generalize generateDitherMap env s s.image.background.isSome s.quant.palette = z at e2 hok hq
  obtain ⟨res, v⟩ := z
  cases res with
  | error e => cases hok
  | ok g =>
    obtain ⟨err, p⟩ := g
    dsimp only at hok e2 hq
    have hvq : v.quant = s.quant := hq.quant
    rcases hpr : progress v.quant.progressCallback (lit32 (remapStage1 v.quant.useDitherMap) *₃ lit32 (1/2)) v.log with ⟨res, log⟩
    rw [hpr] at hok
    cases res with
    | error e => cases hok
    | ok b =>
      cases b with
      | true => cases hok
      | false =>
        dsimp only at hok
        refine ⟨fun i => decide (i ≠ n1), n1 + 1, { v with log := log }, ?_, by omega, by simp, ?_⟩
        · unfold remapDitheredA
          rw [AM.bind_apply]
          simp only [AM.get]
          rw [AM.bind_apply, e2]
          dsimp only
          rw [AM.bind_apply]
          unfold RemapState.progressA AM.run
          dsimp only
          rw [hvq] at hpr
          rw [hvq, hpr]
          dsimp only
          rw [if_neg Bool.false_ne_true, AM.bind_apply]
          unfold remapFloydA
          rw [AM.bind_apply, AM.alloc_no _ (by simp)]
        · have hf := remapFloydA_left (m := true) env (p.initIntPalette v.quant.gamma (UInt8.ofNat v.quant.minPosterizationOutput)).1
            (maxDitherError (err.or v.quant.paletteError)) err.isSome Answers.plenty 0 { v with log := log }
          obtain ⟨n2, e3⟩ := remapFloydA_plenty env (p.initIntPalette v.quant.gamma (UInt8.ofNat v.quant.minPosterizationOutput)).1
            (maxDitherError (err.or v.quant.paletteError)) err.isSome { v with log := log } 0
          rw [e3] at hf
          generalize remapFloyd env { v with log := log } (p.initIntPalette v.quant.gamma (UInt8.ofNat v.quant.minPosterizationOutput)).1
            (maxDitherError (err.or v.quant.paletteError)) err.isSome = y at hf hok
          obtain ⟨res, u⟩ := y
          cases res with
          | error e => cases hok
          | ok x =>
            simp only [Prod.mk.injEq] at hok
            rw [← hok.2]
            exact hf

theorem Rows.Same.symm {a b : Rows F} (h : Rows.Same a b) : Rows.Same b a :=
  ⟨h.width.symm, h.height.symm, h.gamma.symm, fun y hy => (h.rowF y (by rw [← h.height]; exact hy)).symm⟩

theorem BgSame.symm {a b : Option (Rows F)} (h : BgSame a b) : BgSame b a := by
  cases a <;> cases b <;> simp only [BgSame] at *; exact h.symm

theorem Alike.symm {a b : Image F} (h : Alike a b) : Alike b a :=
  ⟨h.px.symm, h.background.symm, h.maps.1.symm, h.maps.2.1.symm, h.maps.2.2.symm⟩

theorem Alike.good {a b : Image F} (h : Alike a b) (hg : a.Good) : b.Good := by
  obtain ⟨h1, h2, h3, h4, h5⟩ := h
  have w : b.width = a.width := h1.width
  have w' : b.height = a.height := h1.height
  have hb := h2.good h1 fun b hb => hg.background b hb
  exact ⟨h1.readable hg.px, by rw [w]; exact hg.width_pos, by rw [w']; exact hg.height_pos, fun m hm => by rw [w, w']; exact hg.importance m (by rw [h5, hm]),
    fun m hm => by rw [w, w']; exact hg.edges m (by rw [h4, hm]), fun m hm => by rw [w, w']; exact hg.ditherMap m (by rw [h3, hm]), fun b h => hb b h⟩

/-- The same for `remap_into`: the image is left as after the remap that would have succeeded. -/
theorem remapIntoA_refused (env : RemapEnv F) {q : QuantizationResult F} {img : Image F} (hq : q.Good) (hi : img.Good) (buf : List (Option UInt8))
    (log : List F) (hl : eq q.ditherLevel (lit32 0) = false) (hok : (remapInto env q img buf log).res = .ok ()) :
    ∃ mem, (remapIntoA env mem 0 q img buf log).1.res = .error (.err .outOfMemory) ∧ (remapIntoA env mem 0 q img buf log).1.quant = q ∧
      Alike (remapInto env q img buf log).image (remapIntoA env mem 0 q img buf log).1.image := by
  have spec := remapInto_spec env buf log hq hi
  have hb : img.width * img.height ≤ buf.length := by
    by_contra hlt
    rw [spec.small (by omega)] at hok
    cases hok
  obtain ⟨c1, c2, -⟩ := chunksExact_rows (h := img.height) hi.width_pos (buf.take (img.width * img.height)) (by rw [List.length_take]; omega)
  have fs := Rows.free_same img.px
  have ho : OutGood img.freeHistogramInputs (chunksExact img.width (buf.take (img.width * img.height))) :=
    ⟨by rw [c1]; exact fs.height.symm, fun row hrow => by rw [c2 row hrow]; exact fs.width.symm⟩
  have hg : img.freeHistogramInputs.Good := hi.change fs (BgSame.refl _)
  unfold remapInto at hok ⊢
  dsimp only at hok ⊢
  rw [if_neg (by omega)] at hok ⊢
  unfold writeRemapped at hok ⊢
  dsimp only at hok ⊢
  rcases hpr : progress q.progressCallback (lit32 (remapStage1 q.useDitherMap) *₃ lit32 (1/4)) log with ⟨res, log1⟩
  rw [hpr] at hok
  cases res with
  | error e => cases hok
  | ok b =>
    cases b with
    | true => cases hok
    | false =>
      dsimp only at hok ⊢
      rw [hl] at hok ⊢
      rw [if_neg Bool.false_ne_true] at hok ⊢
      rcases hd : remapDithered env ⟨q, img.freeHistogramInputs, chunksExact img.width (buf.take (img.width * img.height)), log1, false⟩ with ⟨res, t⟩
      rw [hd] at hok
      cases res with
      | error e => cases hok
      | ok re =>
        obtain ⟨mem, n', u, e, -, -, hleft⟩ := remapDitheredA_refused env 
          (s := ⟨q, img.freeHistogramInputs, chunksExact img.width (buf.take (img.width * img.height)), log1, false⟩) hq.pos hq.le hg ho hd 0
        have hw : ∀ out, out = chunksExact img.width (buf.take (img.width * img.height)) →
            writeRemappedA env mem (0, ⟨q, img, out, log, false⟩) = (.error (.err .outOfMemory), n', u) := by
          rintro out rfl
          unfold writeRemappedA
          rw [AM.bind_apply]
          simp only [AM.get]
          rw [AM.bind_apply]
          unfold RemapState.progressA AM.run
          dsimp only
          rw [hpr]
          dsimp only
          rw [if_neg Bool.false_ne_true, AM.bind_apply,
            show AM.modify (fun s : RemapState F => { s with image := s.image.freeHistogramInputs }) mem
                (0, ⟨q, img, chunksExact img.width (buf.take (img.width * img.height)), log1, false⟩) =
              (.ok (), 0, ⟨q, img.freeHistogramInputs, chunksExact img.width (buf.take (img.width * img.height)), log1, false⟩) from rfl]
          dsimp only
          rw [AM.bind_apply]
          unfold remapBodyA
          rw [hl, if_neg Bool.false_ne_true, e]
        have hleft' := writeRemappedA_left (m := false) env mem 0 ⟨q, img, chunksExact img.width (buf.take (img.width * img.height)), log, false⟩
          (fun h => by cases h)
        rw [hw _ rfl] at hleft'
        have hpx := hleft'.1.px hi.px
        have hbg := hleft'.1.background fun b hb => (hi.background b hb).1
        refine ⟨mem, ?_⟩
        unfold remapIntoA
        dsimp only
        rw [if_neg (by omega), hw _ rfl]
        refine ⟨rfl, hleft'.2 (by simp), Alike.symm ⟨hleft.image.px (hpx.readable hi.px),
          hleft.image.background (hbg.readable fun b hb => (hi.background b hb).1), hleft.image.maps rfl⟩⟩

end Verif
