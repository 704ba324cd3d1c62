import Verif.Lemmas.Memory

/-! # Running out of memory while colours are counted: lemmas -/

set_option linter.unusedSectionVars false

namespace Verif
open Flt Spec

variable {F : Type} [Flt F]

/-- nothing is ever refused -/
def Answers.plenty : Answers := fun _ => true

/-- A computation that does the same as with plenty of memory if its requests are granted, and otherwise reports that memory ran
out. -/
structure Obeys {σ α : Type} (x : AM σ α) : Prop where
  le : ∀ mem n s, n ≤ (x mem (n, s)).2.1
  yes : ∀ mem n s, Granted mem n (x mem (n, s)).2.1 → x mem (n, s) = x Answers.plenty (n, s)
  no : ∀ mem n s, ¬ Granted mem n (x mem (n, s)).2.1 → (x mem (n, s)).1 = .error (.err .outOfMemory)

namespace Obeys
variable {σ τ α β : Type}

theorem bind {x : AM σ α} {f : α → AM σ β} (h : Obeys x) (hf : ∀ a, Obeys (f a)) : Obeys (x >>= f) := by
  refine ⟨fun mem n s => ?_, fun mem n s hg => ?_, fun mem n s hg => ?_⟩
  · have h1 := h.le mem n s
    rw [AM.bind_apply]
    rcases hx : x mem (n, s) with ⟨r, n1, s1⟩
    rw [hx] at h1
    cases r with
    | error e => exact h1
    | ok a => exact le_trans h1 ((hf a).le mem n1 s1)
  · have h1 := h.le mem n s
    have h2 := h.yes mem n s
    rw [AM.bind_apply] at hg ⊢
    rw [AM.bind_apply]
    rcases hx : x mem (n, s) with ⟨r, n1, s1⟩
    rw [hx] at h1 h2 hg
    cases r with
    | error e => rw [← h2 hg]
    | ok a =>
      obtain ⟨g1, g2⟩ := (Granted.split h1 ((hf a).le mem n1 s1)).1 hg
      rw [← h2 g1]
      exact (hf a).yes mem n1 _ g2
  · have h1 := h.le mem n s
    have h3 := h.no mem n s
    rw [AM.bind_apply] at hg ⊢
    rcases hx : x mem (n, s) with ⟨r, n1, s1⟩
    rw [hx] at h1 h3 hg
    cases r with
    | error e => simpa using h3 hg
    | ok a =>
      by_cases g1 : Granted mem n n1
      · exact (hf a).no mem n1 _ fun g2 => hg ((Granted.split h1 ((hf a).le mem n1 _)).2 ⟨g1, g2⟩)
      · exact absurd (h3 g1) (by simp)

theorem still {m : σ → Res α × σ} : Obeys (AM.run m) :=
  ⟨fun _ _ _ => le_rfl, fun _ _ _ _ => rfl, fun mem n _ hg => absurd (Granted.empty mem n) hg⟩

theorem lift (r : Res α) : Obeys (AM.lift r : AM σ α) := still (m := fun s => (r, s))
theorem pure (a : α) : Obeys (Pure.pure a : AM σ α) := still (m := fun s => (.ok a, s))
theorem throw (e : Fail) : Obeys (AM.throw e : AM σ α) := still (m := fun s => (.error e, s))
theorem get : Obeys (AM.get : AM σ σ) := still (m := fun s => (.ok s, s))
theorem modify (f : σ → σ) : Obeys (AM.modify f) := still (m := fun s => (.ok (), f s))

theorem alloc : Obeys (AM.alloc : AM σ Unit) := by
  refine ⟨fun _ n _ => Nat.le_succ n, fun mem n s hg => ?_, fun mem n s hg => ?_⟩
  · have : mem n = true := Granted.one.1 hg
    simp [AM.alloc, this, Answers.plenty]
  · have : ¬ mem n = true := fun h => hg (Granted.one.2 h)
    simp [AM.alloc, this]

theorem ite (c : Prop) [Decidable c] {x y : AM σ α} (h : Obeys x) (h' : Obeys y) : Obeys (if c then x else y) := by
  split
  · exact h
  · exact h'

theorem allocIf (b : Bool) : Obeys (AM.allocIf b : AM σ Unit) := ite _ alloc (pure ())

theorem on {get : σ → τ} {set : τ → σ → σ} {m : AM τ α} (h : Obeys m) : Obeys (AM.on get set m) := by
  refine ⟨fun mem n s => h.le mem n (get s), fun mem n s hg => ?_, fun mem n s hg => h.no mem n (get s) hg⟩
  unfold AM.on
  rw [h.yes mem n (get s) hg]

end Obeys

theorem contrastMapsA_obeys : Obeys (Image.contrastMapsA (F := F)) := by
  unfold Image.contrastMapsA Image.allRowsFA
  refine Obeys.get.bind fun img => Obeys.ite _ (Obeys.pure _) ?_
  refine (Obeys.allocIf _).bind fun _ => (Obeys.modify _).bind fun _ => (Obeys.allocIf _).bind fun _ => (Obeys.modify _).bind fun _ => ?_
  refine Obeys.bind (Obeys.get.bind fun img => (Obeys.allocIf _).bind fun _ => (Obeys.allocIf _).bind fun _ =>
    (Obeys.lift _).bind fun _ => (Obeys.modify _).bind fun _ => Obeys.pure _) fun _ => ?_
  exact (Obeys.lift _).bind fun _ => (Obeys.modify _).bind fun _ => Obeys.alloc.bind fun _ => (Obeys.lift _).bind fun _ => Obeys.modify _

theorem mapsA_obeys (attr : Attr F) : Obeys (Histogram.mapsA attr) := by
  unfold Histogram.mapsA
  exact Obeys.get.bind fun s => Obeys.ite _ (contrastMapsA_obeys (F := F)).on (Obeys.pure _)

theorem countA_obeys (ho : HashOrder) (attr : Attr F) : Obeys (Histogram.countA ho attr) := by
  unfold Histogram.countA
  refine (Obeys.modify _).bind fun _ => (Obeys.modify _).bind fun _ => Obeys.still.bind fun abort => Obeys.ite _ (Obeys.throw _) ?_
  refine Obeys.get.bind fun s => Obeys.ite _ (Obeys.throw _) ?_
  exact Obeys.alloc.bind fun _ => (Obeys.lift _).bind fun _ => Obeys.modify _

theorem addImageA_obeys (ho : HashOrder) (attr : Attr F) : Obeys (Histogram.addImageA ho attr) :=
  (mapsA_obeys attr).bind fun _ => countA_obeys ho attr

section
variable {σ : Type} {α β : Type}

/-- one step of a computation -/
theorem AM.step {m : AM σ α} {f : α → AM σ β} {mem : Answers} {s s' : ℕ × σ} {a : α} (h : m mem s = (.ok a, s')) :
    (m >>= f) mem s = f a mem s' := by
  rw [AM.bind_apply, h]

theorem AM.stop {m : AM σ α} {f : α → AM σ β} {mem : Answers} {s s' : ℕ × σ} {e : Fail} (h : m mem s = (.error e, s')) :
    (m >>= f) mem s = (.error e, s') := by
  rw [AM.bind_apply, h]

theorem AM.alloc_yes {mem : Answers} {n : ℕ} (s : σ) (h : mem n = true) : AM.alloc mem (n, s) = (.ok (), n + 1, s) := by
  simp [AM.alloc, h]

theorem AM.alloc_no {mem : Answers} {n : ℕ} (s : σ) (h : mem n = false) :
    AM.alloc mem (n, s) = (.error (.err .outOfMemory), n + 1, s) := by
  simp [AM.alloc, h]

theorem AM.allocIf_false (mem : Answers) (s : ℕ × σ) : AM.allocIf false mem s = (.ok (), s) := rfl
theorem AM.allocIf_plenty (b : Bool) (n : ℕ) (s : σ) : AM.allocIf b Answers.plenty (n, s) = (.ok (), n + b.toNat, s) := by
  cases b <;> rfl

end

theorem Res.bind_ok {α β : Type} {x : Res α} {f : α → Res β} {b : β} (h : x >>= f = .ok b) : ∃ a, x = .ok a ∧ f a = .ok b := by
  cases x with
  | error e => cases h
  | ok a => exact ⟨a, rfl, h⟩

/-- what `contrast_maps` computes, one step after the other -/
theorem contrastMaps_steps {img : Image F} (hg : img.Good) (hs : Image.skipsContrastMaps img.width img.height = false) :
    ∃ px rows raw noise edges, img.px.allRowsF = .ok (px, rows) ∧ Image.rawMaps rows img.width img.height = .ok raw ∧
      Image.filterMaps (raw.map (·.1)) (raw.map (·.2)) img.width img.height = .ok (noise, edges) ∧
      img.contrastMaps = .ok { img with px := px, importanceMap := some noise, edges := some edges } := by
  obtain ⟨img', e, _⟩ := contrastMaps_ok hg
  have e0 := e
  unfold Image.contrastMaps at e
  rw [if_neg (by simp [hs])] at e
  obtain ⟨⟨px, rows⟩, e1, e⟩ := Res.bind_ok e
  obtain ⟨raw, e2, e⟩ := Res.bind_ok e
  obtain ⟨⟨noise, edges⟩, e3, e⟩ := Res.bind_ok e
  cases e
  exact ⟨px, rows, raw, noise, edges, e1, e2, e3, e0⟩

/-- with plenty of memory the maps are those of `contrastMaps` -/
theorem contrastMapsA_plenty {img : Image F} (hg : img.Good) (n : ℕ) :
    (Image.contrastMapsA Answers.plenty (n, img)).1 = .ok () ∧
      img.contrastMaps = .ok (Image.contrastMapsA Answers.plenty (n, img)).2.2 := by
  by_cases hs : Image.skipsContrastMaps img.width img.height = true
  · unfold Image.contrastMaps Image.contrastMapsA
    simp [AM.bind_apply, AM.get, AM.pure_apply, hs]
  obtain ⟨px, rows, raw, noise, edges, e1, e2, e3, e⟩ := contrastMaps_steps hg (by simpa using hs)
  rw [e]
  unfold Image.contrastMapsA Image.allRowsFA
  cases h1 : img.importanceMap <;> cases h2 : img.edges <;> cases h3 : img.px.fPixels <;>
    simp [AM.bind_apply, AM.get, AM.pure_apply, AM.allocIf, AM.alloc, AM.modify, AM.lift, Answers.plenty, hs, h1, h2, h3, e1, e2, e3]

/-- what is left of the image and the histogram when the second part of `add_image` ends -/
def Histogram.started (h : Histogram F) (img : Image F) : Histogram F :=
  if img.fixedColors.isEmpty then { h with gamma := img.gamma } else ({ h with gamma := img.gamma } : Histogram F).extendFixed img.fixedColors

/-- the second part of `add_image` with plenty of memory -/
def Histogram.count (ho : HashOrder) (h : Histogram F) (attr : Attr F) (img : Image F) (log : List F) :
    (Res Unit × Histogram F × Image F) × List F :=
  match progress attr.progressCallback (lit32 attr.progressStage1 *₃ lit32 (4/10)) log with
  | (.error e, log) => ((.error e, h.started img, img), log)
  | (.ok true, log) => ((.error (.err .aborted), h.started img, img), log)
  | (.ok false, log) =>
    match img.px.rgbaRows with
    | .error e => ((.error e, h.started img, img), log)
    | .ok rows =>
      ((.ok (), (h.started img).addPixelRows ho img.width rows (img.importanceMap.map (·.map UInt8.toNat)) attr.posterizeBits, img), log)

theorem addImage_count (ho : HashOrder) (h : Histogram F) (attr : Attr F) (img : Image F) (log : List F) :
    h.addImage ho attr img log = match (if img.importanceMap.isNone && attr.useContrastMaps then img.contrastMaps else .ok img) with
      | .error e => ((.error e, h, img), log)
      | .ok img => h.count ho attr img log := by
  unfold Histogram.addImage Histogram.count Histogram.started
  rfl

/-- the second part of `add_image` -/
theorem countA_spec (ho : HashOrder) (attr : Attr F) (h : Histogram F) (img : Image F) (log : List F) (mem : Answers) (n : ℕ) :
    let r := Histogram.countA ho attr mem (n, h, img, log)
    r.2.2.2.1 = img ∧ (mem n = true → ((r.1, r.2.2.1, r.2.2.2.1), r.2.2.2.2) = h.count ho attr img log) ∧
      (r.1 = .error (.err .outOfMemory) → r.2.2.1 = h.started img) := by
  intro r
  obtain ⟨b, l, e⟩ : ∃ b l, progress attr.progressCallback (lit32 attr.progressStage1 *₃ lit32 (4/10)) log = (.ok b, l) := by
    unfold progress; cases attr.progressCallback <;> exact ⟨_, _, rfl⟩
  have hr : r = if b = true then (.error (.err .aborted), n, h.started img, img, l)
      else if Histogram.sourceGone img.px = true then (.error (.err .unsupported), n, h.started img, img, l)
      else if mem n = true then match img.px.rgbaRows with
        | .error e => (.error e, n + 1, h.started img, img, l)
        | .ok rows => (.ok (), n + 1, (h.started img).addPixelRows ho img.width rows
            (img.importanceMap.map (·.map UInt8.toNat)) attr.posterizeBits, img, l)
      else (.error (.err .outOfMemory), n + 1, h.started img, img, l) := by
    show Histogram.countA ho attr mem (n, h, img, log) = _
    unfold Histogram.countA
    cases b with
    | true => simp [AM.bind_apply, AM.modify, AM.run, AM.throw, e, Histogram.started]
    | false =>
      by_cases hs : Histogram.sourceGone img.px = true
      · simp [AM.bind_apply, AM.modify, AM.run, AM.throw, AM.get, e, Histogram.started, hs]
      · cases hm : mem n with
        | false => simp [AM.bind_apply, AM.modify, AM.run, AM.get, AM.alloc, e, Histogram.started, hs, hm]
        | true =>
          cases hrows : img.px.rgbaRows <;>
            simp [AM.bind_apply, AM.modify, AM.run, AM.get, AM.alloc, AM.lift, e, Histogram.started, hs, hm, hrows]
  have hgone : Histogram.sourceGone img.px = true → img.px.rgbaRows = .error (.err .unsupported) := by
    intro h
    unfold Histogram.sourceGone at h
    unfold Rows.rgbaRows
    split at h
    next hs => rw [hs]
    · cases h
  rw [hr]
  unfold Histogram.count
  rw [e]
  cases b with
  | true => simp
  | false =>
    by_cases hs : Histogram.sourceGone img.px = true
    · simp [hs, hgone hs]
    · cases hm : mem n with
      | false => simp [hs]
      | true =>
        cases hrows : img.px.rgbaRows with
        | error e => simp [hs]
        | ok rows => simp [hs]

/-- an image whose maps and converted pixels have not been asked for -/
structure Image.Fresh (img : Image F) : Prop where
  good : img.Good
  importance : img.importanceMap = none
  edges : img.edges = none
  floats : img.px.fPixels = none
  mapped : Image.skipsContrastMaps img.width img.height = false

theorem contrastMapsA_first {img : Image F} (hf : img.Fresh) {mem : Answers} {n : ℕ} (h : mem n = false) :
    Image.contrastMapsA mem (n, img) = (.error (.err .outOfMemory), n + 1, img) := by
  unfold Image.contrastMapsA
  simp [AM.bind_apply, AM.get, AM.allocIf, AM.alloc, hf.mapped, hf.importance, h]

theorem contrastMapsA_zeros {img : Image F} (hf : img.Fresh) {mem : Answers} {n : ℕ} (h : mem n = true) (h' : ¬ Granted mem (n + 1) (n + 4)) :
    ∃ (k : ℕ) (e : Option (List UInt8)), (∀ m, e = some m → m.length = img.width * img.height) ∧
      Image.contrastMapsA mem (n, img) = (.error (.err .outOfMemory), k,
      { img with importanceMap := some (List.replicate (img.width * img.height) 0), edges := e }) := by
  unfold Image.contrastMapsA Image.allRowsFA
  cases h1 : mem (n + 1) with
  | false =>
    refine ⟨n + 2, none, by simp, ?_⟩
    simp [AM.bind_apply, AM.get, AM.allocIf, AM.alloc, AM.modify, hf.mapped, hf.importance, hf.edges, h, h1]
  | true =>
    cases h2 : mem (n + 2) with
    | false =>
      refine ⟨n + 3, some (List.replicate (img.width * img.height) 0), fun m h => by cases h; simp, ?_⟩
      simp [AM.bind_apply, AM.get, AM.allocIf, AM.alloc, AM.modify, hf.mapped, hf.importance, hf.edges, hf.floats, h, h1, h2]
    | true =>
      have h3 : mem (n + 3) = false := by
        by_contra h3
        refine h' fun i a b => ?_
        obtain rfl | rfl | rfl : i = n + 1 ∨ i = n + 2 ∨ i = n + 3 := by omega
        · exact h1
        · exact h2
        · simpa using h3
      refine ⟨n + 4, some (List.replicate (img.width * img.height) 0), fun m h => by cases h; simp, ?_⟩
      simp [AM.bind_apply, AM.get, AM.allocIf, AM.alloc, AM.modify, hf.mapped, hf.importance, hf.edges, hf.floats, h, h1, h2, h3]

theorem contrastMapsA_done {img : Image F} (hf : img.Fresh) {mem : Answers} {n : ℕ} (h : Granted mem n (n + 5)) :
    ∃ img', img.contrastMaps = .ok img' ∧ img'.importanceMap.isSome = true ∧ Image.contrastMapsA mem (n, img) = (.ok (), n + 5, img') := by
  obtain ⟨px, rows, raw, noise, edges, e1, e2, e3, e⟩ := contrastMaps_steps hf.good hf.mapped
  refine ⟨_, e, rfl, ?_⟩
  have h0 := h n (by omega) (by omega)
  have h1 := h (n + 1) (by omega) (by omega)
  have h2 := h (n + 2) (by omega) (by omega)
  have h3 := h (n + 3) (by omega) (by omega)
  have h4 := h (n + 4) (by omega) (by omega)
  unfold Image.contrastMapsA Image.allRowsFA
  simp [AM.bind_apply, AM.get, AM.pure_apply, AM.allocIf, AM.alloc, AM.modify, AM.lift, hf.mapped, hf.importance, hf.edges, hf.floats, h0, h1, h2,
    h3, h4, e1, e2, e3]

/-- the first part of `add_image` -/
theorem mapsA_eq (attr : Attr F) (h : Histogram F) (img : Image F) (log : List F) (mem : Answers) (n : ℕ) :
    Histogram.mapsA attr mem (n, h, img, log) = if img.importanceMap.isNone && attr.useContrastMaps then
        ((Image.contrastMapsA mem (n, img)).1, (Image.contrastMapsA mem (n, img)).2.1, h, (Image.contrastMapsA mem (n, img)).2.2, log)
      else (.ok (), n, h, img, log) := by
  unfold Histogram.mapsA
  rw [AM.bind_apply]
  by_cases hc : (img.importanceMap.isNone && attr.useContrastMaps) = true
  · simp only [AM.get, hc, if_true]
    rfl
  · simp only [AM.get, hc]
    rfl

theorem insertFixed_keeps {s : List HashColor} {c : HashColor} (d : HashColor) (h : c ∈ s ∨ c = d) : c ∈ Histogram.insertFixed s d := by
  unfold Histogram.insertFixed
  split
  · rcases h with h | rfl <;> assumption
  · simpa using h

theorem extendFixed_twice (h : Histogram F) (cs : List RGBA) : (h.extendFixed cs).extendFixed cs = h.extendFixed cs := by
  have grow : ∀ (l : List (RGBA × ℕ)) (s : List HashColor), (∀ c ∈ s, c ∈ l.foldl (fun s (c, i) => Histogram.insertFixed s (c, i % 256)) s) ∧
      ∀ x ∈ l, (x.1, x.2 % 256) ∈ l.foldl (fun s (c, i) => Histogram.insertFixed s (c, i % 256)) s := by
    intro l
    induction l with
    | nil => intro s; exact ⟨fun _ h => h, by simp⟩
    | cons x l ih =>
      intro s
      obtain ⟨h1, h2⟩ := ih (Histogram.insertFixed s (x.1, x.2 % 256))
      refine ⟨fun c hc => h1 c (insertFixed_keeps _ (.inl hc)), fun y hy => ?_⟩
      rcases List.mem_cons.1 hy with rfl | hy
      · exact h1 _ (insertFixed_keeps _ (.inr rfl))
      · exact h2 y hy
  have still : ∀ (l : List (RGBA × ℕ)) (s : List HashColor), (∀ x ∈ l, (x.1, x.2 % 256) ∈ s) →
      l.foldl (fun s (c, i) => Histogram.insertFixed s (c, i % 256)) s = s := by
    intro l
    induction l with
    | nil => intro s _; rfl
    | cons x l ih =>
      intro s h
      obtain ⟨c, i⟩ := x
      rw [List.foldl_cons]
      dsimp only
      rw [show Histogram.insertFixed s (c, i % 256) = s from if_pos (h (c, i) (by simp))]
      exact ih s fun y hy => h y (by simp [hy])
  unfold Histogram.extendFixed
  simp only [Histogram.mk.injEq, true_and, and_true]
  exact still _ _ (grow _ _).2

theorem started_twice (h : Histogram F) (img : Image F) : (h.started img).started img = h.started img := by
  unfold Histogram.started
  split
  · rfl
  · exact extendFixed_twice ({ h with gamma := img.gamma } : Histogram F) img.fixedColors

theorem count_started (ho : HashOrder) (h : Histogram F) (attr : Attr F) (img : Image F) (log : List F) :
    (h.started img).count ho attr img log = h.count ho attr img log := by
  unfold Histogram.count
  rw [started_twice]

end Verif
