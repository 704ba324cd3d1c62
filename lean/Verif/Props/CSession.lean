import Verif.Lemmas.CSession

/-! # C58: C programs do not make the library panic, and get well-formed answers -/

set_option linter.unusedSectionVars false

namespace Verif
open Flt Spec

variable {F : Type} [Flt F]

namespace Spec

/-- The rows of an image can be read: a callback makes them, or each of the `height` row pointers points to `width` pixels,
or the library has released them itself. -/
def Backed (r : HRows F) (h : Heap) : Prop :=
  match r.source with
  | .callback _ => True
  | .pixels rows _ => rows.len = 0 ∨
      (r.height ≤ (rows.rowSlice h).length ∧ ∀ p ∈ rows.rowSlice h, r.width ≤ (h.pixelsAt p).length)

/-- an image whose contents are needed: if it is an image, its pixels and those of its background are still there -/
def Usable (w : World F) (h : Handle) : Prop :=
  w.get h ≠ .taken ∧
  ∀ i fn, w.get h = .image i fn → Backed i.px w.heap ∧ ∀ b, i.background = some b → Backed b w.heap

/-- What the library cannot check and the manual asks for: pixels of an image are there when they are used, output rows
have the size of the image, an image that became a background is not used any more, what is destroyed is of the right
type, and the two functions that do not look at the type of the settings get settings. -/
def Lawful (w : World F) : CCall F → Prop
  | .imageDestroy h => h = none ∨ ∃ i fn, w.get h = .image i fn
  | .attrDestroy h => h = none ∨ ∃ a fn, w.get h = .attr a fn
  | .resultDestroy h => h = none ∨ ∃ q, w.get h = .result q
  | .histogramDestroy h => h = none ∨ ∃ x, w.get h = .histogram x
  | .setSpeed h _ | .imageCreateCustom h _ _ _ _ => ∃ a fn, w.get h = .attr a fn
  | .imageSetBackground h b => h ≠ b ∧ w.get h ≠ .taken ∧ (b = none ∨ ∃ i fn, w.get b = .image i fn)
  | .quantizeImage _ h _ | .imageQuantize h _ _ | .histogramAddImage _ _ h _ | .writeRemappedImage _ h _ _ => Usable w h
  | .writeRemappedImageRows _ h rows _ => Usable w h ∧ ∀ rs i fn, rows = some rs → w.get h = .image i fn →
      rs.length = i.px.height ∧ ∀ r ∈ rs, r.length = i.px.width
  | .imageAddFixedColor h _ | .imageGetWidth h | .imageGetHeight h | .imageSetImportanceMap h _ _ _
  | .imageSetMemoryOwnership h _ => w.get h ≠ .taken
  | _ => True

/-- each call of a program is lawful at its time -/
def lawful (w : World F) : List (CCall F) → Prop
  | [] => True
  | c :: cs => Lawful w c ∧ lawful (exec w c).1 cs

/-- the states of the world between the calls of lawful programs -/
def Reached (w : World F) : Prop := ∃ cs, lawful World.init cs ∧ w = (runC World.init cs).1

end Spec

/-! ### What is true of every object -/

/-- converted pixels are complete, and a source was released only after conversion -/
structure HRows.Whole (r : HRows F) : Prop where
  cached : r.fPixels.isSome = true → ∀ h, (r.view h).Readable
  released : ∀ rows px, r.source = .pixels rows px → rows.len = 0 → r.fPixels.isSome = true

structure HImage.Whole (i : HImage F) : Prop where
  px : i.px.Whole
  width_pos : 0 < i.px.width
  height_pos : 0 < i.px.height
  importance : ∀ m, i.importanceMap = some m → m.length = i.px.width * i.px.height
  edges : ∀ m, i.edges = some m → m.length = i.px.width * i.px.height
  ditherMap : ∀ m, i.ditherMap = some m → m.length = i.px.width * i.px.height
  background : ∀ b, i.background = some b → b.Whole ∧ b.width = i.px.width ∧ b.height = i.px.height

theorem readable_of_cached {r r' : Rows F} (hf : r.fPixels.isSome = true) (e : r'.fPixels = r.fPixels)
    (hw : r'.width = r.width) (hh : r'.height = r.height) (h : r.Readable) : r'.Readable := by
  intro y hy
  rw [hh] at hy
  obtain ⟨row, h1, h2⟩ := h y hy
  obtain ⟨rows, hrows⟩ := Option.isSome_iff_exists.mp hf
  refine ⟨row, ?_, by rw [h2, hw]⟩
  unfold Rows.rowF at h1 ⊢
  rw [e]
  rw [hrows] at h1 ⊢
  exact h1

theorem rowSlice_zero {c : Cow} (h : c.len = 0) (hp : Heap) : c.rowSlice hp = [] := by
  unfold Cow.rowSlice
  rw [h]
  exact Heap.rowsAt_zero _ _

theorem HRows.Whole.readable {r : HRows F} (h : r.Whole) {hp : Heap} (hb : Backed r hp) : (r.view hp).Readable := by
  by_cases hf : r.fPixels.isSome = true
  · exact h.cached hf hp
  have hnone : r.fPixels = none := by simpa using hf
  intro y hy
  have hy' : y < r.height := hy
  unfold Rows.rowF
  rw [show (r.view hp).fPixels = none from hnone]
  simp only
  unfold Backed at hb
  unfold Rows.rowRgba
  cases hs : r.source with
  | callback f =>
    rw [show (r.view hp).source = .callback f by simp [HRows.view, hs, HSource.view]]
    exact ⟨_, rfl, by simp [Rows.convertRow]⟩
  | pixels rows px =>
    rw [hs] at hb
    rcases hb with hb | ⟨h1, h2⟩
    · exact absurd (h.released rows px hs hb) hf
    rw [show (r.view hp).source = .pixels ((rows.rowSlice hp).map hp.pixelsAt) by simp [HRows.view, hs, HSource.view]]
    have hlt : y < (rows.rowSlice hp).length := by omega
    simp only [List.getElem?_map, List.getElem?_eq_getElem hlt, Option.map_some]
    have h3 := h2 _ (List.getElem_mem hlt)
    rw [show (r.view hp).width = r.width from rfl, if_neg (by omega)]
    exact ⟨_, rfl, by simp [Rows.convertRow]; omega⟩

theorem HImage.Whole.good {i : HImage F} (h : i.Whole) {hp : Heap} (hb : Backed i.px hp)
    (hbg : ∀ b, i.background = some b → Backed b hp) : (i.view hp).Good := by
  refine ⟨h.px.readable hb, h.width_pos, h.height_pos, h.importance, h.edges, h.ditherMap, ?_⟩
  intro b hb'
  unfold HImage.view at hb'
  cases hx : i.background with
  | none => rw [hx] at hb'; cases hb'
  | some b0 =>
    rw [hx] at hb'
    cases hb'
    obtain ⟨h1, h2, h3⟩ := h.background b0 hx
    exact ⟨h1.readable (hbg b0 hx), h2, h3⟩

/-- reading all pixels for a histogram does not panic -/
theorem rgbaRows_no_panic {r : HRows F} {hp : Heap} (hb : Backed r hp) : (r.view hp).rgbaRows ≠ .error .panic := by
  have key : (∀ y < (r.view hp).height, ∃ row, (r.view hp).rowRgba y = .ok row) →
      (List.range (r.view hp).height).mapM (r.view hp).rowRgba ≠ .error .panic := by
    intro h
    have : ∀ y ∈ List.range (r.view hp).height, (r.view hp).rowRgba y =
        .ok (match (r.view hp).rowRgba y with | .ok row => row | .error _ => []) := by
      intro y hy
      obtain ⟨row, e⟩ := h y (List.mem_range.mp hy)
      rw [e]
    rw [mapM_ok _ _ _ this]
    simp
  unfold Rows.rgbaRows
  split
  · simp
  · rename_i hne
    apply key
    intro y hy
    have hy' : y < r.height := hy
    unfold Backed at hb
    unfold Rows.rowRgba
    cases hs : r.source with
    | callback f =>
      rw [show (r.view hp).source = .callback f by simp [HRows.view, hs, HSource.view]]
      exact ⟨_, rfl⟩
    | pixels rows px =>
      rw [hs] at hb
      rw [show (r.view hp).source = .pixels ((rows.rowSlice hp).map hp.pixelsAt) by simp [HRows.view, hs, HSource.view]]
      rcases hb with hb | ⟨h1, h2⟩
      · refine absurd ?_ hne
        simp [HRows.view, hs, HSource.view, rowSlice_zero hb]
      have hlt : y < (rows.rowSlice hp).length := by omega
      simp only [List.getElem?_map, List.getElem?_eq_getElem hlt, Option.map_some]
      have h3 := h2 _ (List.getElem_mem hlt)
      rw [show (r.view hp).width = r.width from rfl, if_neg (by omega)]
      exact ⟨_, rfl⟩

theorem addImage_no_panic (ho : HashOrder) (x : Histogram F) (attr : Attr F) {img : Image F} (log : List F) (hg : img.Good)
    (hr : img.px.rgbaRows ≠ .error .panic) : (x.addImage ho attr img log).1.1 ≠ .error .panic := by
  obtain ⟨i, e, hs⟩ : ∃ i, (if img.importanceMap.isNone && attr.useContrastMaps then img.contrastMaps else .ok img) = .ok i ∧
      i.px.rgbaRows = img.px.rgbaRows := by
    split
    · obtain ⟨i', e', _, s', _, _, _, hsrc, _⟩ := contrastMaps_ok hg
      refine ⟨i', e', ?_⟩
      have h1 : i'.px.rowRgba = img.px.rowRgba := by
        funext y
        unfold Rows.rowRgba
        rw [hsrc, s'.width]
      unfold Rows.rgbaRows
      rw [hsrc, s'.height, h1]
    · exact ⟨img, rfl, rfl⟩
  unfold Histogram.addImage
  rw [e]
  simp only
  have hp : ∀ p, (progress attr.progressCallback p log).1 ≠ .error .panic := by
    intro p
    unfold progress
    cases attr.progressCallback <;> simp
  split
  · rename_i h
    intro hc
    exact hp _ (by rw [h]; simpa using hc)
  · simp
  · split
    · rename_i h
      rw [hs] at h
      intro hc
      exact hr (by rw [h]; simpa using hc)
    · simp

/-- after a call that left the contents `c` the image is still whole -/
theorem absorb_whole {i : HImage F} {h h2 : Heap} {c : Image F} (hg : c.Good) (hpx : (i.px.view h).OnlyF c.px)
    (hbg : BgOnlyF (i.background.map (·.view h2)) c.background) : (i.absorb c).Whole := by
  have hempty : ∀ r : Rows F, r.Readable → 0 < r.height → r.source = .pixels [] → r.fPixels.isSome = true := by
    intro r hr h0 hs
    by_contra hn
    obtain ⟨row, e, _⟩ := hr 0 h0
    unfold Rows.rowF at e
    rw [show r.fPixels = none by simpa using hn] at e
    simp only [Rows.rowRgba, hs, List.getElem?_nil] at e
    cases e
  have hw : c.px.width = i.px.width := by rw [hpx]; rfl
  have hh : c.px.height = i.px.height := by rw [hpx]; rfl
  have hsrc : c.px.source = i.px.source.view h := by rw [hpx]; rfl
  have whole : ∀ (r : HRows F) (r' : Rows F) (h : Heap), r'.Readable → 0 < r'.height → (r.view h).OnlyF r' →
      ({ r with fPixels := r'.fPixels } : HRows F).Whole := by
    intro r r' h hr h0 e
    have ew : r'.width = r.width := by rw [e]; rfl
    have eh : r'.height = r.height := by rw [e]; rfl
    refine ⟨fun hf h' => readable_of_cached (r := r') hf rfl ew.symm eh.symm hr, fun rows px hs hl => ?_⟩
    refine hempty r' hr h0 ?_
    rw [e]
    have hs' : r.source = .pixels rows px := hs
    simp [HRows.view, HSource.view, hs', rowSlice_zero hl]
  have e1 : (i.absorb c).px.width = i.px.width := rfl
  have e2 : (i.absorb c).px.height = i.px.height := rfl
  refine ⟨whole i.px c.px h hg.px hg.height_pos hpx, by rw [e1, ← hw]; exact hg.width_pos, by rw [e2, ← hh]; exact hg.height_pos,
    fun m hm => by rw [e1, e2, ← hw, ← hh]; exact hg.importance m hm,
    fun m hm => by rw [e1, e2, ← hw, ← hh]; exact hg.edges m hm,
    fun m hm => by rw [e1, e2, ← hw, ← hh]; exact hg.ditherMap m hm, ?_⟩
  intro b hb
  rw [e1, e2, ← hw, ← hh]
  unfold HImage.absorb at hb
  cases hx : i.background with
  | none => rw [hx] at hb; cases hb
  | some b0 =>
    rw [hx] at hb hbg
    cases hc : c.background with
    | none => rw [hc] at hbg; exact hbg.elim
    | some cb =>
      rw [hc] at hb hbg
      simp only [Option.map_some, Option.getD_some, Option.some.injEq] at hb
      subst hb
      have hbg' : (b0.view h2).OnlyF cb := hbg
      obtain ⟨g1, g2, g3⟩ := hg.background cb hc
      refine ⟨whole b0 cb h2 g1 (by rw [g3]; exact hg.height_pos) hbg', ?_, ?_⟩
      · rw [show c.px.width = c.width from rfl, ← g2, hbg']; rfl
      · rw [show c.px.height = c.height from rfl, ← g3, hbg']; rfl

theorem ofRows_whole {s : HSource} {wd hg : ℕ} {g : F} {r : HRows F} (e : HRows.newInternal s wd hg g = .ok r)
    (hs : ∀ rows px, s = .pixels rows px → rows.len ≠ 0) : (HImage.ofRows r).Whole := by
  unfold HRows.newInternal at e
  split at e
  · cases e
  rename_i hc
  split at e
  · cases e
  cases e
  have h0 : 0 < wd ∧ 0 < hg := by
    simp only [Image.checkImageSize, Bool.not_eq_true', Bool.not_eq_false] at hc
    by_contra hn
    have : wd = 0 ∨ hg = 0 := by omega
    simp [this] at hc
  exact ⟨⟨(fun h => by cases h), fun rows px h hl => absurd hl (hs rows px h)⟩, h0.1, h0.2, (fun m h => by cases h),
    (fun m h => by cases h), (fun m h => by cases h), fun b h => by cases h⟩

theorem newInternal_pos {s : HSource} {wd hg : ℕ} {g : F} {r : HRows F} (e : HRows.newInternal s wd hg g = .ok r) : 0 < hg := by
  unfold HRows.newInternal at e
  split at e
  · cases e
  rename_i hc
  simp only [Image.checkImageSize, Bool.not_eq_true', Bool.not_eq_false] at hc
  by_contra hn
  have : hg = 0 := by omega
  simp [this] at hc

/-- the same image with other owners of its memory -/
structure HRows.Alike (r r' : HRows F) : Prop where
  width : r'.width = r.width
  height : r'.height = r.height
  cache : r'.fPixels = r.fPixels
  rows : ∀ rows px, r'.source = .pixels rows px → ∃ rows0 px0, r.source = .pixels rows0 px0 ∧ rows0.len = rows.len

theorem HRows.Alike.refl (r : HRows F) : r.Alike r := ⟨rfl, rfl, rfl, fun rows px h => ⟨rows, px, h, rfl⟩⟩

theorem HRows.Alike.trans {a b c : HRows F} (h : a.Alike b) (k : b.Alike c) : a.Alike c := by
  refine ⟨k.width.trans h.width, k.height.trans h.height, k.cache.trans h.cache, fun rows px e => ?_⟩
  obtain ⟨r1, p1, e1, l1⟩ := k.rows rows px e
  obtain ⟨r2, p2, e2, l2⟩ := h.rows r1 p1 e1
  exact ⟨r2, p2, e2, l2.trans l1⟩

theorem ownRows_alike {r r' : HRows F} {fn : ℕ} (e : r.ownRows fn = .ok r') : r.Alike r' := by
  have hlen : ∀ (c : Cow), c.len = (c.makeOwned fn).len := by intro c; cases c <;> rfl
  unfold HRows.ownRows at e
  cases hs : r.source with
  | callback f => rw [hs] at e; cases e
  | pixels rows px =>
    rw [hs] at e
    cases e
    exact ⟨rfl, rfl, rfl, fun rows' px' e => by cases e; exact ⟨_, _, hs, hlen _⟩⟩

theorem ownPixels_alike {r r' : HRows F} {fn : ℕ} {h : Heap} (e : r.ownPixels fn h = .ok r') : r.Alike r' := by
  unfold HRows.ownPixels at e
  cases hs : r.source with
  | callback f => rw [hs] at e; cases e
  | pixels rows px =>
    rw [hs] at e
    cases px with
    | some px =>
      cases e
      exact ⟨rfl, rfl, rfl, fun rows' px' e => by cases e; exact ⟨_, _, hs, rfl⟩⟩
    | none =>
      dsimp only at e
      split at e
      · cases e
      · cases e
        exact ⟨rfl, rfl, rfl, fun rows' px' e => by cases e; exact ⟨_, _, hs, rfl⟩⟩

theorem setMemoryOwnership_alike (r : HRows F) (rows pixels : Bool) (fn : ℕ) (h : Heap) :
    r.Alike (r.setMemoryOwnership rows pixels fn h).2 := by
  unfold HRows.setMemoryOwnership
  split
  · exact .refl _
  · rename_i r1 e1
    have h1 : r.Alike r1 := by
      split at e1
      · exact ownRows_alike e1
      · cases e1; exact .refl _
    split
    · exact h1
    · rename_i r2 e2
      refine h1.trans ?_
      split at e2
      · exact ownPixels_alike e2
      · cases e2; exact .refl _

theorem setMemoryOwnership_no_panic (r : HRows F) (rows pixels : Bool) (fn : ℕ) (h : Heap) :
    (r.setMemoryOwnership rows pixels fn h).1 ≠ .error .panic := by
  unfold HRows.setMemoryOwnership
  split
  · rename_i e e1
    split at e1
    · unfold HRows.ownRows at e1
      split at e1 <;> cases e1
      simp
    · cases e1
  · split
    · rename_i e e1
      split at e1
      · unfold HRows.ownPixels at e1
        repeat' split at e1
        all_goals cases e1
        all_goals simp
      · cases e1
    · simp

theorem setMemory_whole {i : HImage F} (h : i.Whole) (rows pixels : Bool) (fn : ℕ) (hp : Heap) :
    ({ i with px := (i.px.setMemoryOwnership rows pixels fn hp).2 } : HImage F).Whole := by
  have al := setMemoryOwnership_alike i.px rows pixels fn hp
  generalize (i.px.setMemoryOwnership rows pixels fn hp).2 = r' at al ⊢
  obtain ⟨e1, e2, e3, e4⟩ := al
  refine ⟨⟨fun hf h' => ?_, fun rows px hs hl => ?_⟩, by rw [e1]; exact h.width_pos, by rw [e2]; exact h.height_pos,
    fun m hm => by rw [e1, e2]; exact h.importance m hm, fun m hm => by rw [e1, e2]; exact h.edges m hm,
    fun m hm => by rw [e1, e2]; exact h.ditherMap m hm, fun b hb => by rw [e1, e2]; exact h.background b hb⟩
  · rw [e3] at hf
    exact readable_of_cached (r := i.px.view h') hf e3 e1 e2 (h.px.cached hf h')
  · obtain ⟨rows0, px0, hs0, hl0⟩ := e4 rows px hs
    rw [e3]
    exact h.px.released rows0 px0 hs0 (hl0.trans hl)

theorem userAttr_call (cs : List Call) (cb : Option (List F → Bool)) (c : Call) {a : Attr F}
    (h : (userAttr cs cb).call c = .ok a) : a = userAttr (cs ++ [c]) cb := by
  have key : ∀ a : Attr F, ({ a with progressCallback := cb } : Attr F).call c =
      (a.call c).map fun a => { a with progressCallback := cb } := by
    intro a
    cases c with
    | maxColors n => simp only [Attr.call, Attr.setMaxColors]; split <;> rfl
    | quality m t => simp only [Attr.call, Attr.setQuality]; split <;> rfl
    | minPosterization v => simp only [Attr.call, Attr.setMinPosterization]; split <;> rfl
    | lastIndexTransparent b => rfl
    | speed v =>
      simp only [Attr.call, Attr.setSpeed]
      split
      · rfl
      · simp only [bind, Except.bind]
        repeat' split
        all_goals rfl
  unfold userAttr at h ⊢
  rw [key] at h
  unfold Attr.after
  rw [List.foldl_append]
  simp only [List.foldl_cons, List.foldl_nil]
  change (((Attr.new : Attr F).after cs).call c).map (fun a => { a with progressCallback := cb }) = .ok a at h
  change a = { (match ((Attr.new : Attr F).after cs).call c with
    | .ok a' => a' | .error _ => (Attr.new : Attr F).after cs) with progressCallback := cb }
  generalize (Attr.new : Attr F).after cs = b at h ⊢
  cases hc : b.call c with
  | error e => rw [hc] at h; cases h
  | ok b' => rw [hc] at h; cases h; rfl

/-- what is true of what a handle points to -/
def Slot.Fine : Slot F → Prop
  | .attr a _ => ∃ cs cb, a = userAttr cs cb
  | .image i _ => i.Whole
  | .result q => q.Good
  | _ => True

structure World.Fine (w : World F) : Prop where
  objs : ∀ j, (w.objs j).Fine
  defined : w.undefined = false

namespace World.Fine

theorem get {w : World F} (h : w.Fine) (x : Handle) : (w.get x).Fine := by
  cases x with
  | none => trivial
  | some i => exact h.objs i

theorem set {w : World F} (h : w.Fine) (x : Handle) {s : Slot F} (hs : s.Fine) : (w.set x s).Fine := by
  cases x with
  | none => exact h
  | some i =>
    refine ⟨fun j => ?_, h.defined⟩
    rw [World.objs_set]
    split
    · exact hs
    · exact h.objs j

theorem create {w : World F} (h : w.Fine) {s : Slot F} (hs : s.Fine) : (w.create s).1.Fine := by
  refine ⟨fun j => ?_, h.defined⟩
  rw [World.objs_create]
  split
  · exact hs
  · exact h.objs j

theorem heap {w : World F} (h : w.Fine) (hp : Heap) : ({ w with heap := hp } : World F).Fine := ⟨h.objs, h.defined⟩
theorem log {w : World F} (h : w.Fine) (l : List F) : ({ w with log := l } : World F).Fine := ⟨h.objs, h.defined⟩

end World.Fine

/-- a call leaves the world fine and does not panic -/
def StepFine (x : World F × Reply F) : Prop := x.1.Fine ∧ x.2 ≠ .crash

theorem StepFine.withAttr {w : World F} (hw : w.Fine) {h : Handle} {bad : Reply F} {k : Attr F → ℕ → World F × Reply F}
    (hb : bad ≠ .crash) (hk : ∀ a fn, w.get h = .attr a fn → (∃ cs cb, a = userAttr cs cb) → StepFine (k a fn)) :
    StepFine (w.withAttr h bad k) := by
  unfold World.withAttr
  split
  · rename_i a fn e
    have := hw.get h
    rw [e] at this
    exact hk _ _ e this
  · exact ⟨hw, hb⟩

theorem StepFine.withImage {w : World F} (hw : w.Fine) {h : Handle} {bad : Reply F} {k : HImage F → ℕ → World F × Reply F}
    (ht : w.get h ≠ .taken) (hb : bad ≠ .crash) (hk : ∀ i fn, w.get h = .image i fn → i.Whole → StepFine (k i fn)) :
    StepFine (w.withImage h bad k) := by
  unfold World.withImage
  split
  · rename_i i fn e
    have := hw.get h
    rw [e] at this
    exact hk _ _ e this
  · rename_i e; exact absurd e ht
  · exact ⟨hw, hb⟩

theorem StepFine.withResult {w : World F} (hw : w.Fine) {h : Handle} {bad : Reply F} {k : QuantizationResult F → World F × Reply F}
    (hb : bad ≠ .crash) (hk : ∀ q, w.get h = .result q → q.Good → StepFine (k q)) : StepFine (w.withResult h bad k) := by
  unfold World.withResult
  split
  · rename_i q e
    have := hw.get h
    rw [e] at this
    exact hk _ e this
  · exact ⟨hw, hb⟩

theorem StepFine.withHistogram {w : World F} (hw : w.Fine) {h : Handle} {bad : Reply F} {k : Histogram F → World F × Reply F}
    (hb : bad ≠ .crash) (hk : ∀ x, w.get h = .histogram x → StepFine (k x)) : StepFine (w.withHistogram h bad k) := by
  unfold World.withHistogram
  split
  · rename_i x e
    exact hk _ e
  · exact ⟨hw, hb⟩

theorem StepFine.update {w : World F} (hw : w.Fine) {α : Type} {h : Handle} {r : Res α} {slot : α → Slot F}
    (hr : r ≠ .error .panic) (hs : ∀ a, r = .ok a → (slot a).Fine) : StepFine (w.update h r slot) := by
  unfold World.update
  split
  · rename_i a
    exact ⟨hw.set h (hs a rfl), by simp⟩
  · exact ⟨hw, by simp⟩
  · exact absurd rfl hr

theorem StepFine.call {w : World F} (hw : w.Fine) {h : Handle} {a : Attr F} {fn : ℕ} (ha : ∃ cs cb, a = userAttr cs cb) (c : Call) :
    StepFine (w.update h (a.call c) (.attr · fn)) := by
  obtain ⟨cs, cb, rfl⟩ := ha
  refine StepFine.update hw ?_ fun a e => ⟨cs ++ [c], cb, userAttr_call cs cb c e⟩
  cases c with
  | maxColors n => simp only [Attr.call, Attr.setMaxColors]; split <;> simp
  | quality m t => simp only [Attr.call, Attr.setQuality]; split <;> simp
  | minPosterization v => simp only [Attr.call, Attr.setMinPosterization]; split <;> simp
  | lastIndexTransparent b => simp [Attr.call]
  | speed v =>
    by_cases hv : 1 ≤ v ∧ v ≤ 10
    · obtain ⟨a', e, _⟩ := setSpeed_speedOK (userAttr cs cb) hv.1 hv.2
      simp [Attr.call, e]
    · have hv' : ¬ (1 ≤ v ∧ v ≤ 10) := hv
      simp only [Attr.call, Attr.setSpeed]
      rw [if_pos hv']
      simp

theorem StepFine.returnImage {w : World F} (hw : w.Fine) {r : Res (HRows F)} {fn : ℕ}
    (hr : ∀ x, r = .ok x → (HImage.ofRows x).Whole) : StepFine (w.returnImage r fn) := by
  unfold World.returnImage
  split
  · rename_i x
    exact ⟨hw.create (s := .image (.ofRows x) fn) (hr x rfl), by simp⟩
  · exact ⟨hw, by simp⟩

theorem StepFine.destroy {w : World F} (hw : w.Fine) {h : Handle} {k : Slot F → Option (World F)}
    (hk : h = none ∨ ∃ w', k (w.get h) = some w' ∧ w'.Fine) : StepFine (w.destroy h k) := by
  unfold World.destroy
  cases h with
  | none => exact ⟨hw, by simp⟩
  | some i =>
    rcases hk with hk | ⟨w', e, hf⟩
    · cases hk
    · have e' : k (w.objs i) = some w' := e
      simp only [e']
      exact ⟨World.Fine.set hf (some i) (s := .freed) trivial, by simp⟩

theorem ofRes_no_crash {r : Res Unit} (h : r ≠ .error .panic) : (Reply.ofRes r : Reply F) ≠ .crash := by
  unfold Reply.ofRes
  split
  · simp
  · simp
  · exact absurd rfl h

theorem StepFine.setBackground {w : World F} (hw : w.Fine) {i b : HImage F} (hi : i.Whole) (hb : b.Whole) (h hb' : Handle) (fn : ℕ) :
    StepFine (({ w with heap := (i.setBackground b w.heap).2.2 }.set h (.image (i.setBackground b w.heap).2.1 fn)).set hb' .taken,
      .ofRes (i.setBackground b w.heap).1) := by
  have key : (i.setBackground b w.heap).2.1.Whole ∧ (i.setBackground b w.heap).1 ≠ .error .panic := by
    unfold HImage.setBackground Image.setBackground
    by_cases h1 : (b.view w.heap).background.isSome = true
    · simp [h1, hi]
    · by_cases h2 : (i.view w.heap).px.width ≠ (b.view w.heap).px.width ∨ (i.view w.heap).px.height ≠ (b.view w.heap).px.height
      · simp [h1, h2, hi]
      · simp only [h1, h2, if_false, Bool.false_eq_true]
        refine ⟨⟨hi.px, hi.width_pos, hi.height_pos, hi.importance, hi.edges, hi.ditherMap, fun b' e => ?_⟩, by simp⟩
        cases e
        simp only [not_or, ne_eq, not_not] at h2
        exact ⟨hb.px, h2.1.symm, h2.2.symm⟩
  exact ⟨((hw.heap _).set h (s := .image _ fn) key.1).set hb' (s := .taken) trivial, ofRes_no_crash key.2⟩

variable [FltSign F]

theorem StepFine.results {w : World F} (hw : w.Fine) {r : Res (QuantizationResult F)} (hp : r ≠ .error .panic)
    (hr : ∀ q, r = .ok q → q.Good) : StepFine (w.storeResult r) ∧ StepFine (w.returnResult r) := by
  unfold World.storeResult World.returnResult
  match r, hp, hr with
  | .ok q, _, hr => exact ⟨⟨hw.create (s := .result q) (hr q rfl), by simp⟩, ⟨hw.create (s := .result q) (hr q rfl), by simp⟩⟩
  | .error (.err e), _, _ => exact ⟨⟨hw, by simp⟩, ⟨hw, by simp⟩⟩
  | .error .panic, hp, _ => exact absurd rfl hp

/-- quantization of an image with memory -/
theorem quantize_fine {w : World F} (hw : w.Fine) {a : Attr F} (ha : ∃ cs cb, a = userAttr cs cb) {hi : Handle} {i : HImage F}
    {fn : ℕ} (hwh : i.Whole) (hb : Backed i.px w.heap ∧ ∀ b, i.background = some b → Backed b w.heap) (env : Env F) :
    (w.quantize a hi i fn env).2.Fine ∧ (w.quantize a hi i fn env).1 ≠ .error .panic ∧
    ∀ q, (w.quantize a hi i fn env).1 = .ok q → q.Good ∧ q.palette.length ≤ a.maxColors := by
  obtain ⟨cs, cb, rfl⟩ := ha
  have hg := hwh.good hb.1 hb.2
  have hof := quantizeImage_onlyF env (userAttr cs cb) (i.view w.heap) w.log
  have hgood := (addImage_image env.ho (Histogram.new (userAttr cs cb)) (userAttr cs cb) w.log hg).1
  have hnp := addImage_no_panic env.ho (Histogram.new (userAttr cs cb)) (userAttr cs cb) w.log hg (rgbaRows_no_panic hb.1)
  obtain ⟨⟨⟨r0, x, c0⟩, log0⟩, e0⟩ : ∃ t, (Histogram.new (userAttr cs cb)).addImage env.ho (userAttr cs cb) (i.view w.heap) w.log = t :=
    ⟨_, rfl⟩
  rw [e0] at hgood hnp
  dsimp only at hgood hnp
  have hcases : (∃ e, e ≠ .panic ∧ quantizeImage env (userAttr cs cb) (i.view w.heap) w.log = ((.error e, c0), log0)) ∨
      quantizeImage env (userAttr cs cb) (i.view w.heap) w.log =
        (((x.quantizeInternal env (userAttr cs cb) false log0).1, c0), (x.quantizeInternal env (userAttr cs cb) false log0).2) := by
    unfold quantizeImage
    rw [e0]
    match r0, hnp with
    | .error e, hnp => exact .inl ⟨e, fun h => hnp (by rw [h]), rfl⟩
    | .ok (), _ => exact .inr rfl
  have himg : (quantizeImage env (userAttr cs cb) (i.view w.heap) w.log).1.2 = c0 := by
    rcases hcases with ⟨e, _, h⟩ | h <;> rw [h]
  rw [himg] at hof
  have habs : (i.absorb c0).Whole := absorb_whole (h := w.heap) (h2 := w.heap) hgood hof.1 (by rw [hof.2]; exact .refl _)
  unfold World.quantize
  rcases hcases with ⟨e, hne, h⟩ | h
  · rw [h]
    exact ⟨(hw.log _).set hi habs, fun h => hne (by simpa using h), fun q hq => by cases hq⟩
  · rw [h]
    refine ⟨(hw.log _).set hi habs, C01_no_panic env cs cb x false log0, fun q hq => ?_⟩
    have hq' : x.quantizeInternal env (userAttr cs cb) false log0 =
        (.ok q, (x.quantizeInternal env (userAttr cs cb) false log0).2) := Prod.ext hq rfl
    refine ⟨(quantize_good env cs cb x false log0 _ hq').1, ?_⟩
    rw [userAttr_maxColors]
    exact (C01_palette_size env cs cb x false log0 _ q hq').2.1

/-- a remap of an image with memory -/
theorem remap_fine {w : World F} (hw : w.Fine) {hr hi : Handle} {q : QuantizationResult F} (hq : q.Good) {i : HImage F} {fn : ℕ}
    (hwh : i.Whole) (hb : Backed i.px w.heap ∧ ∀ b, i.background = some b → Backed b w.heap)
    {rows : List (List (Option UInt8))} (hl : rows.length = i.px.height) (hrows : ∀ r ∈ rows, r.length = i.px.width)
    (env : RemapEnv F) : StepFine (w.remap hr hi q i fn rows env) := by
  have hg := hwh.good hb.1 hb.2
  have spec := writeRemapped_spec env (s := ⟨q, i.view w.heap, rows, w.log, false⟩) hg ⟨hl, hrows⟩ hq.pos hq.le
  have only := writeRemapped_onlyF env ⟨q, i.view w.heap, rows, w.log, false⟩
  unfold World.remap
  obtain ⟨⟨res, s⟩, e⟩ : ∃ t, writeRemapped env ⟨q, i.view w.heap, rows, w.log, false⟩ = t := ⟨_, rfl⟩
  rw [e] at spec only ⊢
  dsimp only at spec only ⊢
  have hq' : s.quant.Good := by
    by_cases hok : res = .ok ()
    · obtain ⟨re, hre, hl, _⟩ := spec.done hok
      rw [hre]
      exact ⟨hq.pos, hq.le, hq.int, fun x hx => by cases hx; exact hl⟩
    · rw [spec.failed hok]; exact hq
  have hi' : (i.afterRemap q w.log s.image w.heap).1.Whole := by
    unfold HImage.afterRemap
    by_cases hrel : HImage.releases q w.log = true
    · simp only [hrel, if_true] at only ⊢
      refine absorb_whole (h := (i.px.freeHistogramInputs w.heap).1) (h2 := w.heap) spec.good ?_ ?_
      · dsimp only
        rw [HRows.free_view]
        exact only.1
      · exact only.2
    · simp only [show HImage.releases q w.log = false by simpa using hrel, Bool.false_eq_true, if_false] at only ⊢
      exact absorb_whole (h := w.heap) (h2 := w.heap) spec.good only.1 only.2
  have hfin : ∀ hp : Heap, (({ w with heap := hp, log := s.log }.set hi (.image (i.afterRemap q w.log s.image w.heap).1 fn)).set hr
      (.result s.quant)).Fine := fun hp => (((hw.heap hp).log s.log).set hi (s := .image _ fn) hi').set hr (s := .result _) hq'
  have hnp : res ≠ .error .panic := by
    rcases spec.outcome with ⟨⟨a, h⟩, _⟩ | ⟨h, _⟩ | ⟨h, _⟩ <;> rw [h] <;> simp
  match res, hnp with
  | .ok (), _ => exact ⟨hfin _, by simp⟩
  | .error (.err e), _ => exact ⟨hfin _, by simp⟩
  | .error .panic, h => exact absurd rfl h

theorem step_fine {w : World F} (hw : w.Fine) (c : CCall F) (ok : Lawful w c) : StepFine (exec w c) := by
  have idle : ∀ r : Reply F, r ≠ .crash → StepFine (w, r) := fun r h => ⟨hw, h⟩
  cases c with
  | version => exact idle _ (by simp)
  | setMinOpacity h n => exact idle _ (by simp)
  | getMinOpacity h => exact idle _ (by simp)
  | setLastIndexTransparent h b =>
    exact StepFine.withAttr hw (by simp) fun a fn e ⟨cs, cb, ha⟩ =>
      ⟨hw.set h ⟨cs ++ [.lastIndexTransparent (b != 0)], cb, userAttr_call cs cb _ (by rw [← ha]; rfl)⟩, by simp⟩
  | getPalette h =>
    exact StepFine.withResult hw (by simp) fun q e hq => ⟨hw.set h (getPalette_good hq).1, by simp⟩
  | attrSetProgressCallback h f =>
    exact StepFine.withAttr hw (by simp) fun a fn e ⟨cs, cb, ha⟩ => ⟨hw.set h ⟨cs, some (breaks f), by subst ha; rfl⟩, by simp⟩
  | resultSetProgressCallback h f =>
    exact StepFine.withResult hw (by simp) fun q e hq => ⟨hw.set h ⟨hq.pos, hq.le, hq.int, hq.rem⟩, by simp⟩
  | setLogCallback h => exact StepFine.withAttr hw (by simp) fun a fn e _ => idle _ (by simp)
  | setLogFlushCallback h => exact StepFine.withAttr hw (by simp) fun a fn e _ => idle _ (by simp)
  | setMaxColors h n => exact StepFine.withAttr hw (by simp) fun a fn e ha => StepFine.call hw ha (.maxColors n.toNat)
  | getMaxColors h => exact StepFine.withAttr hw (by simp) fun a fn e _ => idle _ (by simp)
  | setMinPosterization h n =>
    exact StepFine.withAttr hw (by simp) fun a fn e ha => StepFine.call hw ha (.minPosterization (intAsU8 n))
  | getMinPosterization h => exact StepFine.withAttr hw (by simp) fun a fn e _ => idle _ (by simp)
  | setSpeed h n =>
    obtain ⟨a, fn, e⟩ := ok
    simp only [exec, e]
    have := hw.get h
    rw [e] at this
    exact StepFine.call hw this (.speed n.toInt)
  | getSpeed h => exact StepFine.withAttr hw (by simp) fun a fn e _ => idle _ (by simp)
  | setQuality h m t =>
    exact StepFine.withAttr hw (by simp) fun a fn e ha => StepFine.call hw ha (.quality (uintAsU8 m) (uintAsU8 t))
  | getMinQuality h => exact StepFine.withAttr hw (by simp) fun a fn e _ => idle _ (by simp)
  | getMaxQuality h => exact StepFine.withAttr hw (by simp) fun a fn e _ => idle _ (by simp)
  | quantizeImage ha hi env =>
    refine StepFine.withAttr hw (by simp) fun a fn e hau => StepFine.withImage hw ok.1 (by simp) fun i fn' e' hi' => ?_
    obtain ⟨h1, h2, h3⟩ := quantize_fine hw hau (hi := hi) (fn := fn') hi' (ok.2 i fn' e') env
    exact (StepFine.results h1 h2 fun q hq => (h3 q hq).1).2
  | imageQuantize hi ha env =>
    refine StepFine.withAttr hw (by simp) fun a fn e hau => StepFine.withImage hw ok.1 (by simp) fun i fn' e' hi' => ?_
    obtain ⟨h1, h2, h3⟩ := quantize_fine hw hau (hi := hi) (fn := fn') hi' (ok.2 i fn' e') env
    exact (StepFine.results h1 h2 fun q hq => (h3 q hq).1).1
  | histogramQuantize hh ha env =>
    refine StepFine.withAttr hw (by simp) fun a fn e hau => StepFine.withHistogram hw (by simp) fun x e' => ?_
    obtain ⟨cs, cb, rfl⟩ := hau
    exact (StepFine.results ((hw.log _).set hh (s := .histogram _) trivial) (C01_no_panic env cs cb x true w.log) fun q hq =>
      (quantize_good env cs cb x true w.log _ (Prod.ext hq rfl)).1).1
  | writeRemappedImage hr hi buf env =>
    refine StepFine.withResult hw (by simp) fun q e hq => StepFine.withImage hw ok.1 (by simp) fun i fn e' hi' => ?_
    split
    · exact idle _ (by simp)
    · split
      · exact idle _ (by simp)
      · rename_i buf hlen
        obtain ⟨c1, c2, _⟩ := chunksExact_rows (h := i.px.height) hi'.width_pos (buf.take (i.px.width * i.px.height))
          (by rw [List.length_take]; omega)
        exact remap_fine hw hq hi' (ok.2 i fn e') c1 c2 env
  | writeRemappedImageRows hr hi rows env =>
    refine StepFine.withResult hw (by simp) fun q e hq => StepFine.withImage hw ok.1.1 (by simp) fun i fn e' hi' => ?_
    split
    · exact idle _ (by simp)
    · rename_i rs
      obtain ⟨c1, c2⟩ := ok.2 rs i fn rfl e'
      exact remap_fine hw hq hi' (ok.1.2 i fn e') c1 c2 env
  | imageAddFixedColor h c =>
    refine StepFine.withImage hw ok (by simp) fun i fn e hi => StepFine.update hw ?_ fun v hv => ?_
    · unfold Image.addFixedColor; split <;> simp
    · unfold Image.addFixedColor at hv
      split at hv
      · cases hv
      · cases hv
        have : (i.absorb { i.view w.heap with fixedColors := (i.view w.heap).fixedColors ++ [c] }) =
            { i with fixedColors := i.fixedColors ++ [c] } := by
          unfold HImage.absorb HImage.view
          cases i with
          | mk px imp ed dm bg fc => cases bg <;> rfl
        rw [this]
        exact ⟨hi.px, hi.width_pos, hi.height_pos, hi.importance, hi.edges, hi.ditherMap, hi.background⟩
  | histogramAddFixedColor h c g =>
    refine StepFine.withHistogram hw (by simp) fun x e => StepFine.update hw ?_ fun v hv => trivial
    unfold Histogram.addFixedColor; split <;> simp
  | imageGetWidth h => exact StepFine.withImage hw ok (by simp) fun i fn e _ => idle _ (by simp)
  | imageGetHeight h => exact StepFine.withImage hw ok (by simp) fun i fn e _ => idle _ (by simp)
  | imageDestroy h =>
    cases h with
    | none => exact idle _ (by simp)
    | some j =>
      rcases ok with ok | ⟨im, fn, e⟩
      · cases ok
      · simp only [exec, World.dropImage, show w.objs j = .image im fn from e]
        exact ⟨(hw.heap _).set (some j) trivial, by simp⟩
  | imageSetBackground h b =>
    obtain ⟨hne, ht, hb⟩ := ok
    have hdrop : (w.dropImage b).Fine := by
      rcases hb with rfl | ⟨i, fn, e⟩
      · exact hw
      · cases b with
        | none => exact hw
        | some j =>
          simp only [World.dropImage, show w.objs j = .image i fn from e]
          exact (hw.heap _).set (some j) trivial
    have hbt : w.get b ≠ .taken := by
      rcases hb with rfl | ⟨i, fn, e⟩
      · simp [World.get]
      · rw [e]; simp
    simp only [exec]
    split
    · rename_i i fn bi _ e1 e2
      rw [if_neg hne]
      have h1 := hw.get h
      have h2 := hw.get b
      rw [e1] at h1
      rw [e2] at h2
      exact StepFine.setBackground hw h1 h2 h b fn
    · rename_i e; exact absurd e hbt
    · rename_i e _; exact absurd e ht
    · rename_i e; exact absurd e hbt
    · exact ⟨hdrop, by simp⟩
  | imageSetImportanceMap h p size own =>
    refine StepFine.withImage hw ok (by simp) fun i fn e hi => ?_
    have hfine : ∀ (m : List UInt8) v, (i.view w.heap).setImportanceMap m = .ok v → (Slot.image (i.absorb v) fn).Fine := by
      intro m v hv
      unfold Image.setImportanceMap at hv
      split at hv
      · cases hv
      · rename_i hlen
        cases hv
        have : (i.absorb { i.view w.heap with importanceMap := some m }) = { i with importanceMap := some m } := by
          unfold HImage.absorb HImage.view
          cases i with
          | mk px imp ed dm bg fc => cases bg <;> rfl
        rw [this]
        exact ⟨hi.px, hi.width_pos, hi.height_pos, fun m' hm => by cases hm; exact not_not.mp hlen, hi.edges, hi.ditherMap, hi.background⟩
    split
    · exact idle _ (by simp)
    · split
      · exact idle _ (by simp)
      · split
        · exact idle _ (by simp)
        · dsimp only
          split
          · exact StepFine.update hw (Image.setImportanceMap_no_panic _ _) fun v hv => hfine _ v hv
          · split
            · split
              · rename_i hv
                exact ⟨(hw.heap _).set h (hfine _ _ hv), by simp⟩
              · exact ⟨hw.heap _, by simp⟩
              · rename_i hv; exact absurd hv (Image.setImportanceMap_no_panic _ _)
            · exact idle _ (by simp)
  | imageSetMemoryOwnership h flags =>
    refine StepFine.withImage hw ok (by simp) fun i fn e hi => ?_
    split
    · exact idle _ (by simp)
    · exact ⟨hw.set h (setMemory_whole hi _ _ fn w.heap), ofRes_no_crash (setMemoryOwnership_no_panic _ _ _ _ _)⟩
  | histogramCreate h =>
    exact StepFine.withAttr hw (by simp) fun a fn e _ => ⟨hw.create (s := .histogram _) trivial, by simp⟩
  | histogramDestroy h =>
    refine StepFine.destroy hw ?_
    rcases ok with ok | ⟨x, e⟩
    · exact .inl ok
    · exact .inr ⟨w, by rw [e], hw⟩
  | attrCreateWithAllocator fn => exact ⟨hw.create (s := .attr Attr.new fn) ⟨[], none, rfl⟩, by simp [exec]⟩
  | attrCreate => exact ⟨hw.create (s := .attr Attr.new 0) ⟨[], none, rfl⟩, by simp [exec]⟩
  | attrCopy h =>
    exact StepFine.withAttr hw (by simp) fun a fn e ha => ⟨hw.create (s := .attr a fn) ha, by simp⟩
  | attrDestroy h =>
    refine StepFine.destroy hw ?_
    rcases ok with ok | ⟨x, fn, e⟩
    · exact .inl ok
    · exact .inr ⟨w, by rw [e], hw⟩
  | resultDestroy h =>
    refine StepFine.destroy hw ?_
    rcases ok with ok | ⟨x, e⟩
    · exact .inl ok
    · exact .inr ⟨w, by rw [e], hw⟩
  | setOutputGamma h g =>
    refine StepFine.withResult hw (by simp) fun q e hq => StepFine.update hw ?_ fun v hv => ?_
    · unfold QuantizationResult.setOutputGamma; split <;> simp
    · unfold QuantizationResult.setOutputGamma at hv
      split at hv
      · cases hv
      · cases hv; exact ⟨hq.pos, hq.le, hq.int, fun re h => by cases h⟩
  | setDitheringLevel h l =>
    refine StepFine.withResult hw (by simp) fun q e hq => StepFine.update hw ?_ fun v hv => ?_
    · unfold QuantizationResult.setDitheringLevel; split <;> simp
    · unfold QuantizationResult.setDitheringLevel at hv
      split at hv
      · cases hv; exact ⟨hq.pos, hq.le, hq.int, fun re h => by cases h⟩
      · cases hv
  | getOutputGamma h => exact StepFine.withResult hw (by simp) fun q e _ => idle _ (by simp)
  | getQuantizationError h => exact StepFine.withResult hw (by simp) fun q e _ => idle _ (by simp)
  | getRemappingError h => exact StepFine.withResult hw (by simp) fun q e _ => idle _ (by simp)
  | getQuantizationQuality h => exact StepFine.withResult hw (by simp) fun q e _ => idle _ (by simp)
  | getRemappingQuality h => exact StepFine.withResult hw (by simp) fun q e _ => idle _ (by simp)
  | imageCreateCustom h f wd ht g =>
    obtain ⟨a, fn, e⟩ := ok
    simp only [exec, e]
    exact StepFine.returnImage hw fun x hx => ofRows_whole hx fun rows px h => by cases h
  | imageCreateRgbaRows h rows wd ht g =>
    refine StepFine.withAttr hw (by simp) fun a fn e _ => ?_
    split
    · exact idle _ (by simp)
    · split
      · exact idle _ (by simp)
      · split
        · exact idle _ (by simp)
        · exact StepFine.returnImage hw fun x hx => ofRows_whole hx fun rows px h => by
            have := newInternal_pos hx
            cases h
            simpa [Cow.len] using (show ht.toNat ≠ 0 by omega)
  | imageCreateRgba h pixels wd ht g =>
    simp only [exec]
    split
    · exact idle _ (by simp)
    · refine StepFine.withAttr hw (by simp) fun a fn e _ => ?_
      split
      · exact idle _ (by simp)
      · split
        · rename_i px hpx
          refine StepFine.returnImage (hw.heap _) fun x hx => ?_
          cases hx
          refine ofRows_whole hpx fun rows px h => ?_
          have := newInternal_pos hpx
          cases h
          simpa [Cow.len] using (show ht.toNat ≠ 0 by omega)
        · exact ⟨hw.heap _, by simp⟩
  | histogramAddColors hh ha entries num g =>
    refine StepFine.withAttr hw (by simp) fun a fn e _ => StepFine.withHistogram hw (by simp) fun x e' => ?_
    split
    · exact idle _ (by simp)
    · split
      · exact idle _ (by simp)
      · split
        · exact idle _ (by simp)
        · exact StepFine.update hw (C43_add_colors x _ g).2.2 fun v hv => trivial
  | histogramAddImage hh ha hi ho =>
    refine StepFine.withAttr hw (by simp) fun a fn e hau => StepFine.withHistogram hw (by simp) fun x e' =>
      StepFine.withImage hw ok.1 (by simp) fun i fn' e'' hi' => ?_
    have hb := ok.2 i fn' e''
    have hg := hi'.good hb.1 hb.2
    have hof := addImage_onlyF ho x a (i.view w.heap) w.log
    exact ⟨((hw.log _).set hi (s := .image _ fn') (absorb_whole (h := w.heap) (h2 := w.heap) (addImage_image ho x a w.log hg).1 hof.1
      (by rw [hof.2]; exact .refl _))).set hh (s := .histogram _) trivial, ofRes_no_crash (addImage_no_panic ho x a w.log hg (rgbaRows_no_panic hb.1))⟩
  | malloc b => exact ⟨hw.heap _, by simp [exec]⟩
  | free b => exact ⟨hw.heap _, by simp [exec]⟩

/-! ### Programs -/

theorem run_fine {cs : List (CCall F)} {w : World F} (hw : w.Fine) (h : lawful w cs) :
    (runC w cs).1.Fine ∧ Reply.crash ∉ (runC w cs).2 := by
  induction cs generalizing w with
  | nil => exact ⟨hw, by simp [runC]⟩
  | cons c cs ih =>
    have h1 := step_fine hw c h.1
    have h2 := ih h1.1 h.2
    simp only [runC, List.mem_cons, not_or]
    exact ⟨h2.1, fun e => h1.2 e.symm, h2.2⟩

theorem init_fine : (World.init : World F).Fine := ⟨fun _ => trivial, rfl⟩

theorem Spec.Reached.fine {w : World F} (h : Reached w) : w.Fine := by
  obtain ⟨cs, hc, rfl⟩ := h
  exact (run_fine init_fine hc).1

theorem Spec.Reached.result {w : World F} (h : Reached w) {hr : Handle} {q : QuantizationResult F} (e : w.get hr = .result q) :
    q.Good := by
  have := h.fine.get hr
  rw [e] at this
  exact this

theorem Spec.Reached.image {w : World F} (h : Reached w) {hi : Handle} {i : HImage F} {fn : ℕ} (e : w.get hi = .image i fn) :
    i.Whole := by
  have := h.fine.get hi
  rw [e] at this
  exact this

/-- **C58**: in a program that obeys the manual no call panics, aborts or is undefined. -/
theorem C58_no_panic (cs : List (CCall F)) (h : lawful World.init cs) :
    (runC World.init cs).1.undefined = false ∧ Reply.crash ∉ (runC World.init cs).2 :=
  ⟨(run_fine init_fine h).1.defined, (run_fine init_fine h).2⟩

/-- **C58**: a palette that is handed out has from 1 to 256 entries and is the same when it is asked for again. -/
theorem C58_palette {w w' : World F} (h : Reached w) {hr : Handle} {p : List RGBA}
    (e : exec w (.getPalette hr) = (w', .palette (some p))) :
    1 ≤ p.length ∧ p.length ≤ 256 ∧ exec w' (.getPalette hr) = (w', .palette (some p)) := by
  simp only [exec, World.withResult] at e
  split at e
  · rename_i q hq
    cases e
    obtain ⟨hg, h1, h2⟩ := getPalette_good (h.result hq)
    refine ⟨h1 ▸ (h.result hq).pos, h1 ▸ (h.result hq).le, ?_⟩
    have hstable : q.getPalette.1.getPalette = q.getPalette := by
      have hne : q.getPalette.2 ≠ [] := fun hn => by
        have := (h.result hq).pos
        rw [← h1, hn] at this
        simp at this
      unfold QuantizationResult.getPalette at hne ⊢
      cases hre : q.remapped with
      | some re => simp [hre]
      | none =>
        simp only [hre] at hne ⊢
        by_cases hi : q.intPalette.isEmpty = true
        · simp only [hi, if_true] at hne ⊢
          simp [hne]
        · simp only [hi, if_false, Bool.false_eq_true] at hne ⊢
          simp [hre]
    cases hr with
    | none => cases hq
    | some j =>
      have hget : (w.set (some j) (.result q.getPalette.1)).get (some j) = .result q.getPalette.1 := by
        simp [World.get, World.set]
      simp only [exec, World.withResult, hget, hstable]
      congr 1
      simp only [World.set, World.mk.injEq, true_and, and_true]
      funext k
      split <;> rfl
  · cases e

/-- **C58**: a result has at most as many colours as the settings say. -/
theorem C58_palette_limit {w w' : World F} (h : Reached w) {hi ha : Handle} {env : Env F} {n j : ℕ}
    (ok : Lawful w (.imageQuantize hi ha env)) (en : exec w (.getMaxColors ha) = (w, .uint n))
    (e : exec w (.imageQuantize hi ha env) = (w', .stored none (.object j))) :
    ∃ w'' p, exec w' (.getPalette (some j)) = (w'', .palette (some p)) ∧ 1 ≤ p.length ∧ p.length ≤ n := by
  simp only [exec, World.withAttr] at e en
  split at e
  · rename_i a fn ea
    have hau := h.fine.get ha
    rw [ea] at hau en
    simp only [Prod.mk.injEq, Reply.uint.injEq, true_and] at en
    unfold World.withImage at e
    split at e
    · rename_i i fn' ei
      obtain ⟨h1, h2, h3⟩ := quantize_fine h.fine hau (hi := hi) (fn := fn') (h.image ei) (ok.2 i fn' ei) env
      simp only [World.storeResult] at e
      obtain ⟨q, hq⟩ : ∃ q, (w.quantize a hi i fn' env).1 = .ok q := by
        revert e h2
        cases (w.quantize a hi i fn' env).1 with
        | ok q => exact fun _ _ => ⟨q, rfl⟩
        | error f => cases f <;> simp
      obtain ⟨hg, hlen⟩ := h3 q hq
      rw [hq] at e
      cases e
      obtain ⟨_, g1, _⟩ := getPalette_good hg
      refine ⟨(exec ((w.quantize a hi i fn' env).2.create (.result q)).1
        (.getPalette (some ((w.quantize a hi i fn' env).2.create (.result q)).2))).1, q.getPalette.2, ?_, g1 ▸ hg.pos, ?_⟩
      · simp only [exec, World.withResult, World.create, World.get, if_true]
      · rw [g1, ← en]
        exact hlen
    · cases e
    · cases e
  · cases e

/-- a remap through the C API, taken apart -/
theorem remap_reply {w w' : World F} (hw : Reached w) {hr hi : Handle} {q : QuantizationResult F} {i : HImage F} {fn : ℕ}
    (eq' : w.get hr = .result q) (ei : w.get hi = .image i fn)
    (hb : Backed i.px w.heap ∧ ∀ b, i.background = some b → Backed b w.heap)
    {rows out : List (List (Option UInt8))} (hl : rows.length = i.px.height) (hrows : ∀ r ∈ rows, r.length = i.px.width)
    {env : RemapEnv F} {e : Option Error} (he : w.remap hr hi q i fn rows env = (w', .wrote e out)) :
    out.length = i.px.height ∧ (∀ r ∈ out, r.length = i.px.width) ∧
    (e = none → (∃ re : Remapped F, w'.get hr = .result { q with remapped := some re } ∧
      re.intPalette.length = q.palette.length) ∧ AllWritten q.palette.length out) ∧
    (e ≠ none → (e = some .aborted ∨ e = some .outOfMemory) ∧ w'.get hr = w.get hr) := by
  have hwh := hw.image ei
  have hq := hw.result eq'
  have hg := hwh.good hb.1 hb.2
  have spec := writeRemapped_spec env (s := ⟨q, i.view w.heap, rows, w.log, false⟩) hg ⟨hl, hrows⟩ hq.pos hq.le
  unfold World.remap at he
  obtain ⟨⟨res, s⟩, hs⟩ : ∃ t, writeRemapped env ⟨q, i.view w.heap, rows, w.log, false⟩ = t := ⟨_, rfl⟩
  rw [hs] at spec he
  dsimp only at spec he
  have hout : s.out.length = i.px.height ∧ ∀ r ∈ s.out, r.length = i.px.width := by
    obtain ⟨o1, o2⟩ := spec.out
    have hw' : s.image.width = i.px.width := spec.samePx.width
    have hh' : s.image.height = i.px.height := spec.samePx.height
    rw [hh'] at o1
    rw [hw'] at o2
    exact ⟨o1, o2⟩
  have hget : ∀ w0 : World F, (w0.set hr (.result s.quant)).get hr = .result s.quant := by
    intro w0
    cases hr with
    | none => cases eq'
    | some j => simp [World.get, World.set]
  match res, he, spec with
  | .ok (), he, spec =>
    simp only [Prod.mk.injEq, Reply.wrote.injEq] at he
    obtain ⟨he1, he2, he3⟩ := he
    subst he1 he2 he3
    obtain ⟨re, h1, h2, h3⟩ := spec.done rfl
    exact ⟨hout.1, hout.2, fun _ => ⟨⟨re, by rw [hget, h1], h2⟩, h3⟩, fun h => absurd rfl h⟩
  | .error (.err x), he, spec =>
    simp only [Prod.mk.injEq, Reply.wrote.injEq] at he
    obtain ⟨he1, he2, he3⟩ := he
    subst he1 he2 he3
    refine ⟨hout.1, hout.2, fun h => (by cases h), fun _ => ⟨?_, ?_⟩⟩
    · rcases spec.outcome with ⟨⟨a, h⟩, _⟩ | ⟨h, _⟩ | ⟨h, _⟩
      · cases h
      · cases h; exact .inl rfl
      · cases h; exact .inr rfl
    · rw [hget, spec.failed (by simp), eq']

/-- a call of either remapping function that reports through the output buffer, with the size of the image -/
def Spec.Remaps (w : World F) (c : CCall F) (hr : Handle) (width height : ℕ) : Prop :=
  ∃ hi env, exec w (.imageGetWidth hi) = (w, .uint width) ∧ exec w (.imageGetHeight hi) = (w, .uint height) ∧
    (∃ i fn, w.get hi = .image i fn) ∧
    ((∃ buf, c = .writeRemappedImage hr hi buf env) ∨ ∃ rows, c = .writeRemappedImageRows hr hi rows env)

theorem remaps_reply {w w' : World F} (hw : Reached w) {c : CCall F} {hr : Handle} {width height : ℕ}
    (hc : Remaps w c hr width height) (ok : Lawful w c) {e : Option Error} {out : List (List (Option UInt8))}
    (he : exec w c = (w', .wrote e out)) : ∃ q, w.get hr = .result q ∧
    out.length = height ∧ (∀ r ∈ out, r.length = width) ∧
    (e = none → (∃ re : Remapped F, w'.get hr = .result { q with remapped := some re } ∧
      re.intPalette.length = q.palette.length) ∧ AllWritten q.palette.length out) ∧
    (e ≠ none → (e = some .aborted ∨ e = some .outOfMemory) ∧ w'.get hr = w.get hr) := by
  obtain ⟨hi, env, hwd, hht, ⟨i, fn, ei⟩, hc⟩ := hc
  simp only [exec, World.withImage, ei, Prod.mk.injEq, Reply.uint.injEq, true_and] at hwd hht
  subst hwd hht
  rcases hc with ⟨buf, rfl⟩ | ⟨rows, rfl⟩
  · simp only [exec, World.withResult] at he
    split at he
    · rename_i q eq'
      simp only [World.withImage, ei] at he
      split at he
      · cases he
      · split at he
        · cases he
        · rename_i buf hlen
          obtain ⟨c1, c2, _⟩ := chunksExact_rows (h := i.px.height) (hw.image ei).width_pos
            (buf.take (i.px.width * i.px.height)) (by rw [List.length_take]; omega)
          exact ⟨q, eq', remap_reply hw eq' ei (ok.2 i fn ei) c1 c2 he⟩
    · cases he
  · simp only [exec, World.withResult] at he
    split at he
    · rename_i q eq'
      simp only [World.withImage, ei] at he
      split at he
      · cases he
      · rename_i rs
        obtain ⟨c1, c2⟩ := ok.2 rs i fn rfl ei
        exact ⟨q, eq', remap_reply hw eq' ei (ok.1.2 i fn ei) c1 c2 he⟩
    · cases he

/-- **C58**: a remap that reports success has written every pixel, and each is an index into the palette that is handed
out afterwards. -/
theorem C58_remap {w w' : World F} (hw : Reached w) {c : CCall F} {hr : Handle} {width height : ℕ}
    (hc : Remaps w c hr width height) (ok : Lawful w c) {out : List (List (Option UInt8))}
    (he : exec w c = (w', .wrote none out)) :
    out.length = height ∧ (∀ r ∈ out, r.length = width) ∧ ∃ w'' p, exec w' (.getPalette hr) = (w'', .palette (some p)) ∧
      ∀ r ∈ out, ∀ b ∈ r, ∃ k : UInt8, b = some k ∧ k.toNat < p.length := by
  obtain ⟨q, eq', h1, h2, h3, _⟩ := remaps_reply hw hc ok he
  obtain ⟨⟨re, h4, h5⟩, h6⟩ := h3 rfl
  refine ⟨h1, h2, (exec w' (.getPalette hr)).1, re.intPalette, ?_, ?_⟩
  · simp only [exec, World.withResult, h4, QuantizationResult.getPalette]
  · rw [h5]
    exact h6

/-- **C58**: a remap that began fails only because it was told to stop or memory ran out, and the result is as before. -/
theorem C58_remap_fails {w w' : World F} (hw : Reached w) {c : CCall F} {hr : Handle} {width height : ℕ}
    (hc : Remaps w c hr width height) (ok : Lawful w c) {x : Error} {out : List (List (Option UInt8))}
    (he : exec w c = (w', .wrote (some x) out)) :
    (x = .aborted ∨ x = .outOfMemory) ∧ w'.get hr = w.get hr := by
  obtain ⟨q, eq', _, _, _, h4⟩ := remaps_reply hw hc ok he
  obtain ⟨h5, h6⟩ := h4 (by simp)
  exact ⟨by simpa using h5, h6⟩

theorem mseToQuality_le (mse : F) : mseToQuality mse ≤ 100 := by
  have : ∀ n, mseToQualityFrom mse n ≤ n := by
    intro n
    induction n with
    | zero => exact le_refl _
    | succ n ih =>
      simp only [mseToQualityFrom]
      split <;> omega
  exact this 100

/-- **C58**: a reported quality is from 0 to 100, or −1. -/
theorem C58_quality (w : World F) (h : Handle) :
    (∃ n : ℤ, exec w (.getQuantizationQuality h) = (w, .int n) ∧ -1 ≤ n ∧ n ≤ 100) ∧
    ∃ n : ℤ, exec w (.getRemappingQuality h) = (w, .int n) ∧ -1 ≤ n ∧ n ≤ 100 := by
  have key : ∀ o : Option F, -1 ≤ ((o.map mseToQuality).map Int.ofNat).getD (-1) ∧
      ((o.map mseToQuality).map Int.ofNat).getD (-1) ≤ 100 := by
    intro o
    cases o with
    | none => simp
    | some x =>
      have := mseToQuality_le x
      simp only [Option.map_some, Option.getD_some, Int.ofNat_eq_natCast]
      omega
  constructor
  · simp only [exec, World.withResult]
    split
    · exact ⟨_, rfl, key _⟩
    · exact ⟨_, rfl, by simp, by simp⟩
  · simp only [exec, World.withResult]
    split
    · exact ⟨_, rfl, key _⟩
    · exact ⟨_, rfl, by simp, by simp⟩

/-! ### The hypotheses are met -/

theorem usable_quantize {w : World F} {hi ha : Handle} {env : Env F} (h : Usable w hi) :
    Usable (exec w (.imageQuantize hi ha env)).1 hi ∧
    (∀ i fn, w.get hi = .image i fn → (∀ j, hi = some j → j < w.next) →
      ∃ i' fn', (exec w (.imageQuantize hi ha env)).1.get hi = .image i' fn') := by
  simp only [exec, World.withAttr]
  split
  · unfold World.withImage
    split
    · rename_i a _ _ _ i fn ei
      obtain ⟨hb, hbg⟩ := h.2 i fn ei
      cases hi with
      | none => cases ei
      | some j =>
        obtain ⟨c, hc⟩ : ∃ c, (quantizeImage env a (i.view w.heap) w.log).1.2 = c := ⟨_, rfl⟩
        obtain ⟨l, hl⟩ : ∃ l, (quantizeImage env a (i.view w.heap) w.log).2 = l := ⟨_, rfl⟩
        have hw' : (w.quantize a (some j) i fn env).2 = ({ w with log := l } : World F).set (some j) (.image (i.absorb c) fn) := by
          unfold World.quantize
          rw [← hc, ← hl]
        have hback : Backed (i.absorb c).px w.heap ∧ ∀ b, (i.absorb c).background = some b → Backed b w.heap := by
          refine ⟨hb, fun b e => ?_⟩
          cases hx : i.background with
          | none => simp [HImage.absorb, hx] at e
          | some b0 =>
            simp only [HImage.absorb, hx, Option.map_some, Option.some.injEq] at e
            subst e
            exact hbg b0 hx
        simp only [World.storeResult, hw']
        split
        · refine ⟨⟨?_, fun i' fn' e => ?_⟩, fun i' fn' e hlt => ⟨i.absorb c, fn, ?_⟩⟩
          · simp only [World.get, World.create, World.set]
            split
            · simp
            · simp
          · simp only [World.get, World.create, World.set] at e
            split at e
            · cases e
            · simp only [if_true] at e
              cases e
              exact hback
          · simp only [World.get, World.create, World.set]
            rw [if_neg (by have := hlt j rfl; omega), if_pos trivial]
        · refine ⟨⟨by simp [World.get, World.set], fun i' fn' e => ?_⟩, fun i' fn' e hlt => ⟨i.absorb c, fn, by simp [World.get, World.set]⟩⟩
          simp only [World.get, World.set, if_true] at e
          cases e
          exact hback
        · refine ⟨⟨by simp [World.get, World.set], fun i' fn' e => ?_⟩, fun i' fn' e hlt => ⟨i.absorb c, fn, by simp [World.get, World.set]⟩⟩
          simp only [World.get, World.set, if_true] at e
          cases e
          exact hback
    · rename_i e; exact absurd e h.1
    · exact ⟨h, fun i fn e _ => ⟨i, fn, e⟩⟩
  · exact ⟨h, fun i fn e _ => ⟨i, fn, e⟩⟩

theorem image_remap {w : World F} {hr hi : Handle} {buf : Option (List (Option UInt8))} {env : RemapEnv F} {i : HImage F} {fn : ℕ}
    (ei : w.get hi = .image i fn) : ∃ i' fn', (exec w (.writeRemappedImage hr hi buf env)).1.get hi = .image i' fn' := by
  simp only [exec, World.withResult]
  split
  · rename_i q eq'
    simp only [World.withImage, ei]
    split
    · exact ⟨i, fn, ei⟩
    · split
      · exact ⟨i, fn, ei⟩
      · have hne : hi ≠ hr := fun h => by rw [h, eq'] at ei; cases ei
        rename_i buf _
        obtain ⟨rows, hrows⟩ : ∃ rows, chunksExact i.px.width (List.take (i.px.width * i.px.height) buf) = rows := ⟨_, rfl⟩
        rw [hrows]
        have key : ∀ (w0 : World F) (i' : HImage F) q', ((w0.set hi (.image i' fn)).set hr (.result q')).get hi = .image i' fn := by
          intro w0 i' q'
          cases hi with
          | none => cases ei
          | some j =>
            cases hr with
            | none => cases eq'
            | some k =>
              have : j ≠ k := fun h => hne (by rw [h])
              simp [World.get, World.set, this]
        simp only [World.remap]
        split <;> exact ⟨_, _, key _ _ _⟩
  · exact ⟨i, fn, ei⟩

/-- All the calls of `lateProgram` are lawful; that they succeed is `C18_does_not_hold`. -/
theorem lateProgram_lawful : lawful World.init lateProgram := by
  obtain ⟨ptrs, hptrs⟩ : ∃ ptrs : List Ptr, ptrs = [⟨1, 0⟩, ⟨1, 4⟩, ⟨1, 8⟩, ⟨1, 12⟩] := ⟨_, rfl⟩
  obtain ⟨heap, hheap⟩ : ∃ heap : Heap, heap = ((Heap.init.alloc (.pixels onePixels)).1.alloc (.rows ptrs)).1 := ⟨_, rfl⟩
  obtain ⟨r, hr⟩ : ∃ r : HRows ℝ, r = ⟨4, 4, none, .pixels (.borrowed ⟨2, 0⟩ 4) none, lit64 (45455/100000)⟩ := ⟨_, rfl⟩
  have hnew : HRows.newInternal (.pixels (.borrowed ⟨2, 0⟩ 4) none) 4 4 (0 : ℝ) = .ok r := by
    rw [hr]
    simp [HRows.newInternal, Image.checkImageSize]
  have hrows : heap.rowsAt ⟨2, 0⟩ 4 = ptrs := by
    rw [hheap, hptrs]; rfl
  have hpix : ptrs.map heap.pixelsAt = [onePixels.drop 0, onePixels.drop 4, onePixels.drop 8, onePixels.drop 12] := by
    rw [hheap, hptrs]; rfl
  obtain ⟨w4, hw4⟩ : ∃ w4 : World ℝ, w4 = ⟨heap, fun j => if j = 1 then .image (.ofRows r) 0 else if j = 0 then
    .attr Attr.new 0 else .other, 2, [], false⟩ := ⟨_, rfl⟩
  have e4 : exec ⟨heap, fun j => if j = 0 then .attr Attr.new 0 else .other, 1, [], false⟩
      (.imageCreateRgbaRows (some 0) (some ⟨2, 0⟩) 4 4 0) = (w4, .object (some 1)) := by
    have hnull : Heap.null ∉ heap.rowsAt ⟨2, 0⟩ (4 : UInt32).toNat := by
      rw [show (4 : UInt32).toNat = 4 from rfl, hrows, hptrs]; decide
    simp only [exec, World.withAttr, World.get, if_true]
    rw [show checkSizeC (4 : UInt32).toNat (4 : UInt32).toNat = true by decide, if_neg (by decide), if_neg hnull,
      show (4 : UInt32).toNat = 4 from rfl, hnew, hw4]
    rfl
  have hget : w4.get (some 1) = .image (.ofRows r) 0 := by rw [hw4]; rfl
  have hu : Usable w4 (some 1) := by
    refine ⟨by rw [hget]; simp, fun i fn e => ?_⟩
    rw [hget] at e
    cases e
    refine ⟨?_, fun b hb => by cases hb⟩
    have hs : (HImage.ofRows r).px.source = .pixels (.borrowed ⟨2, 0⟩ 4) none := by rw [hr]; rfl
    have hsl : (Cow.borrowed ⟨2, 0⟩ 4).rowSlice heap = ptrs := hrows
    unfold Backed
    rw [hs, hw4]
    dsimp only
    rw [hsl]
    refine .inr ⟨by rw [hptrs, hr]; decide, fun p hp => ?_⟩
    have hm : heap.pixelsAt p ∈ ptrs.map heap.pixelsAt := List.mem_map_of_mem hp
    rw [hpix] at hm
    rw [show (HImage.ofRows r).px.width = 4 by rw [hr]; rfl]
    simp only [List.mem_cons, List.not_mem_nil, or_false] at hm
    rcases hm with hm | hm | hm | hm <;> rw [hm] <;> simp [onePixels]
  obtain ⟨hu5, hi5⟩ := usable_quantize (ha := some 0) (env := Env.simple) hu
  obtain ⟨i5, fn5, hg5⟩ := hi5 _ _ hget (fun j h => by cases h; rw [hw4]; exact Nat.one_lt_two)
  obtain ⟨w5, hw5⟩ : ∃ w5, (exec w4 (.imageQuantize (some 1) (some 0) Env.simple)).1 = w5 := ⟨_, rfl⟩
  rw [hw5] at hu5 hg5
  obtain ⟨i6, fn6, hg6⟩ := image_remap (hr := some 2) (buf := some (List.replicate 16 none)) (env := RemapEnv.simple) hg5
  obtain ⟨w6, hw6⟩ : ∃ w6, (exec w5 (.writeRemappedImage (some 2) (some 1) (some (List.replicate 16 none)) RemapEnv.simple)).1 = w6 :=
    ⟨_, rfl⟩
  rw [hw6] at hg6
  have hg7 : ∃ i fn, (exec w6 (.imageSetMemoryOwnership (some 1) 4)).1.get (some 1) = .image i fn := by
    simp only [exec, World.withImage, hg6]
    split
    · exact ⟨_, _, hg6⟩
    · exact ⟨_, _, by simp only [World.get, World.set, if_true]; rfl⟩
  have rest : lawful w4 [.imageQuantize (some 1) (some 0) Env.simple,
      .writeRemappedImage (some 2) (some 1) (some (List.replicate 16 none)) RemapEnv.simple,
      .imageSetMemoryOwnership (some 1) 4, .imageDestroy (some 1)] := by
    simp only [lawful, hw5, hw6]
    exact ⟨hu, hu5, by rw [Lawful, hg6]; simp, .inr hg7, trivial⟩
  unfold lateProgram
  rw [← hptrs]
  refine ⟨trivial, trivial, trivial, trivial, ?_⟩
  have e : (exec (exec (exec (exec World.init (.malloc (.pixels onePixels))).1 (.malloc (.rows ptrs))).1 CCall.attrCreate).1
      (.imageCreateRgbaRows (some 0) (some ⟨2, 0⟩) 4 4 0)) = (w4, .object (some 1)) := by
    rw [← e4, hheap]; rfl
  rw [e]
  exact rest

/-- a program that obeys the manual, all of whose calls succeed -/
example : ∃ cs : List (CCall ℝ), lawful World.init cs ∧ ∃ out, (runC World.init cs).2 = [.uint 1, .uint 2, .object (some 0),
    .object (some 1), .stored none (.object 2), .wrote none out, .code none, .nothing] := by
  obtain ⟨w, _, out, h, _⟩ := C18_does_not_hold
  exact ⟨lateProgram, lateProgram_lawful, out, by rw [h]⟩

end Verif
