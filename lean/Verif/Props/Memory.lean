import Verif.Lemmas.MemoryImage
import Verif.Props.Lossless
import Verif.Props.Importance

/-! # C79: running out of memory while a picture is quantized -/

set_option linter.unusedSectionVars false

namespace Verif
open Flt Spec

variable {F : Type} [Flt F]

/-- some request from number `n` to before `n'` is refused -/
def Spec.Refused (mem : Answers) (n n' : ℕ) : Prop := ∃ i, n ≤ i ∧ i < n' ∧ mem i = false

theorem not_granted {mem : Answers} {n n' : ℕ} : ¬ Granted mem n n' ↔ Refused mem n n' := by
  unfold Granted Refused
  push Not
  simp

theorem addImageA_plenty (ho : HashOrder) (attr : Attr F) (h : Histogram F) {img : Image F} (hg : img.Good) (log : List F) (n : ℕ) :
    let r := Histogram.addImageA ho attr Answers.plenty (n, h, img, log)
    ((r.1, r.2.2.1, r.2.2.2.1), r.2.2.2.2) = h.addImage ho attr img log := by
  intro r
  have hr : r = Histogram.addImageA ho attr Answers.plenty (n, h, img, log) := rfl
  unfold Histogram.addImageA at hr
  rw [AM.bind_apply, mapsA_eq] at hr
  rw [addImage_count]
  by_cases hc : (img.importanceMap.isNone && attr.useContrastMaps) = true
  · rw [if_pos hc] at hr
    obtain ⟨h1, h2⟩ := contrastMapsA_plenty hg n
    rw [h1] at hr
    rw [if_pos hc, h2, hr]
    exact (countA_spec ho attr h _ log Answers.plenty _).2.1 rfl
  · rw [if_neg hc] at hr
    rw [if_neg hc, hr]
    exact (countA_spec ho attr h _ log Answers.plenty _).2.1 rfl

/-- **C79** (any float arithmetic). However the allocator answers: if all requests of `add_image` are granted it does what it does with
plenty of memory, and if one is refused it returns `OutOfMemory`. -/
theorem C79_add_image (ho : HashOrder) (attr : Attr F) (h : Histogram F) {img : Image F} (hu : UserImage img) (log : List F) (mem : Answers)
    (n : ℕ) :
    let r := Histogram.addImageA ho attr mem (n, h, img, log)
    (Refused mem n r.2.1 → r.1 = .error (.err .outOfMemory)) ∧
    (¬ Refused mem n r.2.1 → ((r.1, r.2.2.1, r.2.2.2.1), r.2.2.2.2) = h.addImage ho attr img log) := by
  intro r
  refine ⟨fun hn => (addImageA_obeys ho attr).no mem n _ (not_granted.2 hn), fun hn => ?_⟩
  have := (addImageA_obeys ho attr).yes mem n (h, img, log) (by rw [← not_granted, not_not] at hn; exact hn)
  show ((r.1, r.2.2.1, r.2.2.2.1), r.2.2.2.2) = _
  rw [show r = _ from this]
  exact addImageA_plenty ho attr h hu.good log n

/-- **C79** (any float arithmetic). The same for `quantize` on a histogram. When memory runs out, the progress reported until then is
what would have been reported. -/
theorem C79_quantize (env : Env F) (attr : Attr F) (freeze : Bool) (h : Histogram F) (log : List F) (mem : Answers) (n : ℕ) :
    let r := Histogram.quantizeInternalA env attr freeze mem (n, h, log)
    (Refused mem n r.2.1 → r.1 = .error (.err .outOfMemory) ∧ r.2.2.2 <+: (h.quantizeInternal env attr freeze log).2) ∧
    (¬ Refused mem n r.2.1 → (r.1, r.2.2.2) = h.quantizeInternal env attr freeze log) := by
  intro r
  obtain ⟨h', _, e⟩ := quantizeInternalA_eq env h attr freeze mem n log
  have t := quantizeLogA_tracks env h attr freeze
  rw [← not_granted, not_not]
  show (¬ Granted mem n r.2.1 → _) ∧ _
  rw [show r = _ from e]
  refine ⟨fun hn => t.no mem n log hn, fun hn => ?_⟩
  obtain ⟨h1, h2⟩ := t.yes mem n log hn
  exact Prod.ext h1 h2

/-- **C79** (any float arithmetic). The same for `Attributes::quantize` on an image. -/
theorem C79_quantize_image (env : Env F) (attr : Attr F) {img : Image F} (hu : UserImage img) (log : List F) (mem : Answers) (n : ℕ) :
    let r := quantizeImageA env attr mem (n, img, log)
    (Refused mem n r.2.1 → r.1 = .error (.err .outOfMemory)) ∧
    (¬ Refused mem n r.2.1 → ((r.1, r.2.2.1), r.2.2.2) = quantizeImage env attr img log) := by
  intro r
  obtain ⟨a1, a2⟩ := C79_add_image env.ho attr (Histogram.new attr) hu log mem n
  have ale := (addImageA_obeys env.ho attr).le mem n (Histogram.new attr, img, log)
  have hr : r = quantizeImageA env attr mem (n, img, log) := rfl
  unfold quantizeImageA at hr
  rcases ha : Histogram.addImageA env.ho attr mem (n, Histogram.new attr, img, log) with ⟨res, n1, h1, img1, log1⟩
  rw [ha] at a1 a2 ale
  dsimp only at ha a1 a2 ale
  rw [show Histogram.addImageA env.ho attr mem ((n, img, log).1, Histogram.new attr, (n, img, log).2.1, (n, img, log).2.2) = _ from ha] at hr
  cases res with
  | error e =>
    dsimp only at hr
    rw [hr]
    refine ⟨fun hn => by simpa using a1 hn, fun hn => ?_⟩
    unfold quantizeImage
    rw [← a2 hn]
  | ok u =>
    dsimp only at hr
    obtain ⟨q1, q2⟩ := C79_quantize env attr false h1 log1 mem n1
    have qle : n1 ≤ (Histogram.quantizeInternalA env attr false mem (n1, h1, log1)).2.1 := by
      obtain ⟨h', _, e⟩ := quantizeInternalA_eq env h1 attr false mem n1 log1
      rw [e]
      exact (quantizeLogA_tracks env h1 attr false).le mem n1 log1
    rcases hq : Histogram.quantizeInternalA env attr false mem (n1, h1, log1) with ⟨res, n2, h2, log2⟩
    rw [hq] at q1 q2 qle hr
    dsimp only at q1 q2 qle hr
    rw [hr]
    have hsplit : Refused mem n n2 ↔ Refused mem n n1 ∨ Refused mem n1 n2 := by
      rw [← not_granted, ← not_granted, ← not_granted, Granted.split ale qle]
      tauto
    have hok : ¬ Refused mem n n1 := fun h => by simpa using a1 h
    refine ⟨fun hn => (q1 ((hsplit.1 hn).resolve_left hok)).1, fun hn => ?_⟩
    have := q2 fun h => hn (hsplit.2 (.inr h))
    unfold quantizeImage
    rw [← a2 hok]
    dsimp only
    rw [← this]

/-- **C79** (any float arithmetic). Whatever became of a call of `quantize` on a histogram, the next call on that histogram gives what it
would have given without the first one. -/
theorem C79_quantize_again (env : Env F) (attr : Attr F) (freeze : Bool) (h : Histogram F) (log : List F) (mem : Answers) (n : ℕ) :
    let h' := (Histogram.quantizeInternalA env attr freeze mem (n, h, log)).2.2.1
    ∀ (env' : Env F), env'.ho = env.ho → ∀ attr' freeze' log',
      h'.quantizeInternal env' attr' freeze' log' = h.quantizeInternal env' attr' freeze' log' := by
  intro h' env' hho attr' freeze' log'
  obtain ⟨h2, hh, e⟩ := quantizeInternalA_eq env h attr freeze mem n log
  obtain rfl : h' = h2 := congrArg (·.2.2.1) e
  rcases hh with hh | hh
  · rw [hh]
  · by_cases hempty : (h.hashmap.isEmpty && h.fixedColors.isEmpty) = true
    · have : Histogram.quantizeInternalA env attr freeze mem (n, h, log) = (.error (.err .unsupported), n, h, log) := by
        unfold Histogram.quantizeInternalA
        rw [AM.bind_apply]
        simp only [AM.get, hempty, if_true]
        rfl
      rw [show h' = h from congrArg (·.2.2.1) this]
    · have hne : ¬ (h'.hashmap.isEmpty && h'.fixedColors.isEmpty) = true := by
        rw [hh]
        have h1 : h.hashmap ≠ [] ∨ h.fixedColors ≠ [] := by
          simp only [Bool.and_eq_true, List.isEmpty_iff] at hempty
          tauto
        have := Histogram.insertFixedColors_ne_nil env.ho h h1
        simp [Histogram.afterFinalize, this]
      unfold Histogram.quantizeInternal
      rw [if_neg hempty, if_neg hne, hh, hho]
      simp only [finalizeBuilder_twice]
      rfl

/-- the maps of the image are not computed by `add_image` -/
def Spec.NoMaps (attr : Attr F) (img : Image F) : Prop :=
  img.importanceMap.isSome = true ∨ attr.useContrastMaps = false ∨ Image.skipsContrastMaps img.width img.height = true

theorem mapsA_noMaps {attr : Attr F} {img : Image F} (hn : NoMaps attr img) (h : Histogram F) (log : List F) (mem : Answers) (n : ℕ) :
    Histogram.mapsA attr mem (n, h, img, log) = (.ok (), n, h, img, log) ∧
    (if img.importanceMap.isNone && attr.useContrastMaps then img.contrastMaps else .ok img) = .ok img := by
  rw [mapsA_eq]
  by_cases hc : (img.importanceMap.isNone && attr.useContrastMaps) = true
  · rw [if_pos hc, if_pos hc]
    rcases hn with hn | hn | hn
    · simp only [Bool.and_eq_true, Option.isNone_iff_eq_none] at hc
      rw [hc.1] at hn; cases hn
    · simp [hn] at hc
    · unfold Image.contrastMaps Image.contrastMapsA
      simp [AM.bind_apply, AM.get, AM.pure_apply, hn]
  · rw [if_neg hc, if_neg hc]
    exact ⟨rfl, rfl⟩

/-- **C79** (any float arithmetic), partial. If `add_image` runs out of memory and it was not computing the maps of the image (it has
an importance map, the setting is off, or the image is too small or too large), then the next call gives what it would have given
without the first one. Missing: images whose maps are computed (see `C79_spoiled`). -/
theorem C79_add_image_again_partial (ho : HashOrder) (attr : Attr F) (h : Histogram F) {img : Image F} (hn : NoMaps attr img) (log : List F)
    (mem : Answers) (n : ℕ) :
    let r := Histogram.addImageA ho attr mem (n, h, img, log)
    r.1 = .error (.err .outOfMemory) → ∀ log', r.2.2.1.addImage ho attr r.2.2.2.1 log' = h.addImage ho attr img log' := by
  intro r hoom log'
  have hr : r = Histogram.countA ho attr mem (n, h, img, log) := by
    show Histogram.addImageA ho attr mem (n, h, img, log) = _
    unfold Histogram.addImageA
    rw [AM.bind_apply, (mapsA_noMaps hn h log mem n).1]
  obtain ⟨h1, _, h3⟩ := countA_spec ho attr h img log mem n
  rw [hr] at hoom ⊢
  rw [h1, h3 hoom, addImage_count, addImage_count, (mapsA_noMaps hn h log mem n).2]
  exact count_started ho h attr img log'

/-- what happens when `add_image` is given the image that `quantize` on an image left behind -/
theorem quantizeImageA_image (env : Env F) (attr : Attr F) (img : Image F) (log : List F) (mem : Answers) (n : ℕ) :
    (quantizeImageA env attr mem (n, img, log)).2.2.1 = (Histogram.mapsA attr mem (n, Histogram.new attr, img, log)).2.2.2.1 := by
  unfold quantizeImageA Histogram.addImageA
  dsimp only
  rw [AM.bind_apply]
  rcases hm : Histogram.mapsA attr mem (n, Histogram.new attr, img, log) with ⟨res, n1, h1, img1, log1⟩
  cases res with
  | error e => rfl
  | ok u =>
    dsimp only
    have := (countA_spec env.ho attr h1 img1 log1 mem n1).1
    rcases hc : Histogram.countA env.ho attr mem (n1, h1, img1, log1) with ⟨res, n2, h2, img2, log2⟩
    rw [hc] at this
    dsimp only at this
    subst this
    cases res with
    | error e => rfl
    | ok u => rfl

/-- **C79** (any float arithmetic), partial. The same for `Attributes::quantize` on an image, whatever became of the first call. -/
theorem C79_quantize_image_again_partial (env : Env F) (attr : Attr F) {img : Image F} (hn : NoMaps attr img) (log : List F) (mem : Answers)
    (n : ℕ) : (quantizeImageA env attr mem (n, img, log)).2.2.1 = img := by
  rw [quantizeImageA_image, (mapsA_noMaps hn _ log mem n).1]

/-- **C79** (any float arithmetic), partial. If the maps are computed for the first time, five requests are made for them. If the first
of them is refused, or none of the five, then the next call gives what it would have given without the first one. -/
theorem C79_quantize_image_again_fresh_partial (env : Env F) (attr : Attr F) {img : Image F} (hf : img.Fresh) (hc : attr.useContrastMaps = true)
    (log : List F) (mem : Answers) (n : ℕ) (hm : mem n = false ∨ ¬ Refused mem n (n + 5)) :
    let img' := (quantizeImageA env attr mem (n, img, log)).2.2.1
    ∀ (env' : Env F) (log' : List F), quantizeImage env' attr img' log' = quantizeImage env' attr img log' := by
  intro img' env' log'
  have himg : img' = (Histogram.mapsA attr mem (n, Histogram.new attr, img, log)).2.2.2.1 := quantizeImageA_image env attr img log mem n
  rw [mapsA_eq, if_pos (by simp [hf.importance, hc])] at himg
  dsimp only at himg
  rcases hm with hm | hm
  · rw [contrastMapsA_first hf hm] at himg
    rw [himg]
  · rw [← not_granted, not_not] at hm
    obtain ⟨i, e, hs, e2⟩ := contrastMapsA_done hf hm
    rw [e2] at himg
    rw [show img' = i from himg]
    unfold quantizeImage
    rw [addImage_count, addImage_count, if_pos (c := (img.importanceMap.isNone && attr.useContrastMaps) = true) (by simp [hf.importance, hc]), e]
    have : ¬ (i.importanceMap.isNone && attr.useContrastMaps) = true := by
      rw [Option.isSome_iff_exists] at hs
      obtain ⟨m, hs⟩ := hs
      rw [hs]
      simp
    rw [if_neg this]

/-- counting with an importance map of zeros finds nothing -/
theorem addImage_zeros (ho : HashOrder) (attr : Attr F) (hcb : attr.progressCallback = none) {img : Image F} (hg : img.Good) (n : ℕ)
    (hm : img.importanceMap = some (List.replicate n 0)) (hfix : img.fixedColors = []) {rows : List (List RGBA)}
    (hrows : img.px.rgbaRows = .ok rows) (h : Histogram F) (hh : h.hashmap = [] ∧ h.fixedColors = []) (log : List F) :
    ∃ h', h.addImage ho attr img log = ((.ok (), h', img), log) ∧ h'.hashmap = [] ∧ h'.fixedColors = [] := by
  have e : h.addImage ho attr img log = ((.ok (), ({ h with gamma := img.gamma } : Histogram F).addPixelRows ho img.width rows
      (img.importanceMap.map (·.map UInt8.toNat)) attr.posterizeBits, img), log) := by
    rw [addImage_count, if_neg (by rw [hm]; simp)]
    unfold Histogram.count Histogram.started
    simp only [progress, hcb, hrows, hfix]
    rfl
  refine ⟨_, e, ?_⟩
  have hinit : ∀ (h : Histogram F) b, h.hashmap = [] ∧ h.fixedColors = [] →
      (h.initPosterizeBits ho b).hashmap = [] ∧ (h.initPosterizeBits ho b).fixedColors = [] := by
    intro h b ⟨h1, h2⟩
    unfold Histogram.initPosterizeBits
    split
    · exact ⟨h1, h2⟩
    · refine ⟨?_, h2⟩
      have : ho.map h.hashmap = [] := by
        have := (ho.map_perm h.hashmap)
        rw [h1] at this ⊢
        exact this.eq_nil
      simp [this]
  obtain ⟨hc, -, rows', hr', h0, a1, a2, ⟨-, -, a3⟩, a4⟩ := addImage_ok hg e
  rw [a4, hm]
  simp only [Option.map_some, Addition.pixels]
  have hfold : ∀ (l : List (RGBA × ℕ)), (∀ x ∈ l, x.2 = 0) → h0.addAll l = h0 := by
    intro l hl
    show l.foldl (fun h x => h.addColor x.1 x.2) h0 = h0
    rw [C19_zero_leaves_no_trace, List.filter_eq_nil_iff.2 (by intro x hx; simp [hl x hx])]
    rfl
  rw [hfold _ (by
    intro x hx
    have := (List.of_mem_zip hx).2
    rw [List.map_replicate] at this
    exact List.eq_of_mem_replicate this)]
  unfold Histogram.finishRows
  have hi := hinit h0 attr.posterizeBits ⟨a1.trans hh.1, (a3 hfix).trans hh.2⟩
  dsimp only
  split
  · exact hinit _ _ hi
  · exact hi

theorem Made.fresh {f : ℕ → ℕ → RGBA} {w h : ℕ} {gamma : F} {img : Image F} (hm : Made f w h gamma img)
    (hs : Image.skipsContrastMaps w h = false) : img.Fresh := by
  have hf := hm.facts
  have key : img.edges = none ∧ img.px.fPixels = none := by
    have key : ∀ {src : Source}, Image.newInternal src w h gamma = .ok img → img.edges = none ∧ img.px.fPixels = none := by
      intro src e
      obtain ⟨h1, h2, rfl⟩ := newInternal_ok e
      exact ⟨rfl, rfl⟩
    rcases hm with e | ⟨buf, stride, e, _⟩
    · unfold Image.newFn at e
      rw [toU32_eq, toU32_eq] at e
      split at e
      · split at e
        · simp only [bind, Except.bind] at e
          exact key e
        · cases e
      · cases e
    · rw [newStride_eq] at e
      split at e
      · split at e
        · exact key e
        · cases e
      · cases e
  exact ⟨hf.user.good, hf.importance, key.1, key.2, by rw [hf.width_, hf.height_]; exact hs⟩

/-- **C79** (any float arithmetic): why the partial theorems above say no more. Take any new image whose maps are to be computed. If the
first request is granted and one of the next three is refused, `quantize` runs out of memory — and from then on, with any settings that
have no callback and all the memory in the world, quantizing this image fails with `Unsupported`: the importance map was attached to the
image before it was computed, all its entries are 0, so no pixel counts. -/
theorem C79_spoiled (env : Env F) (attr : Attr F) {f : ℕ → ℕ → RGBA} {w h : ℕ} {γ : F} {img : Image F} (hm : Made f w h γ img)
    (hs : Image.skipsContrastMaps w h = false) (hc : attr.useContrastMaps = true) (log : List F) (mem : Answers) (n : ℕ)
    (h1 : mem n = true) (h2 : Refused mem (n + 1) (n + 4)) :
    let r := quantizeImageA env attr mem (n, img, log)
    r.1 = .error (.err .outOfMemory) ∧
    ∀ (env' : Env F) (attr' : Attr F), attr'.progressCallback = none → ∀ log',
      quantizeImage env' attr' r.2.2.1 log' = ((.error (.err .unsupported), r.2.2.1), log') := by
  intro r
  have hf := hm.facts
  have hfr := hm.fresh hs
  obtain ⟨k, e, he, em⟩ := contrastMapsA_zeros hfr h1 (not_granted.2 h2)
  have hmaps : Histogram.mapsA attr mem (n, Histogram.new attr, img, log) = (.error (.err .outOfMemory), k, Histogram.new attr,
      { img with importanceMap := some (List.replicate (img.width * img.height) 0), edges := e }, log) := by
    rw [mapsA_eq, if_pos (by simp [hf.importance, hc]), em]
  have himg : r.2.2.1 = { img with importanceMap := some (List.replicate (img.width * img.height) 0), edges := e } := by
    rw [show r.2.2.1 = _ from quantizeImageA_image env attr img log mem n, hmaps]
  constructor
  · show (quantizeImageA env attr mem (n, img, log)).1 = _
    unfold quantizeImageA Histogram.addImageA
    dsimp only
    rw [AM.bind_apply, hmaps]
  · intro env' attr' hcb log'
    have hg := hf.user.good
    rw [himg]
    obtain ⟨h', e1, e2, e3⟩ := addImage_zeros env'.ho attr' hcb
      (img := { img with importanceMap := some (List.replicate (img.width * img.height) 0), edges := e })
      ⟨hg.px, hg.width_pos, hg.height_pos, fun m hm => by cases hm; simp; rfl, he, hg.ditherMap, hg.background⟩ _ rfl hf.fixed hf.rows
      (Histogram.new attr') ⟨rfl, rfl⟩ log'
    unfold quantizeImage
    rw [e1]
    dsimp only
    unfold Histogram.quantizeInternal
    rw [e2, e3]
    rfl

/-- **C79**: such an image is quantized without loss if memory does not run out (exact arithmetic). So giving the same image to
`quantize` again after it ran out of memory is not the same as the first time. -/
theorem C79_again_false : ∃ (img : Image ℝ) (mem : Answers),
    (∃ q, (quantizeImage Env.simple (userAttr [] none) img []).1.1 = .ok q) ∧
    (quantizeImageA Env.simple (userAttr [] none) mem (0, img, [])).1 = .error (.err .outOfMemory) ∧
    (quantizeImage Env.simple (userAttr [] none) (quantizeImageA Env.simple (userAttr [] none) mem (0, img, [])).2.2.1 []).1.1 =
      .error (.err .unsupported) := by
  obtain ⟨img, e⟩ : ∃ img : Image ℝ, Image.newFn (fun _ x => if x = 0 then ⟨10, 20, 30, 40⟩ else ⟨50, 60, 70, 255⟩) 4 4 0 = .ok img := by
    unfold Image.newFn Image.newInternal Image.toU32
    simp [Image.checkImageSize, Bind.bind, Except.bind]
    norm_num
  refine ⟨img, fun i => decide (i ≠ 1), ?_, ?_⟩
  · obtain ⟨q, img', log', e, -⟩ := C06_lossless Env.simple RemapEnv.simple [] (by decide) (by decide) (by decide) (.inl e)
      [⟨10, 20, 30, 40⟩, ⟨50, 60, 70, 255⟩] (by decide) (fun y _ x _ => by
        by_cases hx : x = 0
        · exact ⟨⟨10, 20, 30, 40⟩, by simp, .inl (by rw [if_pos hx])⟩
        · exact ⟨⟨50, 60, 70, 255⟩, by simp, .inl (by rw [if_neg hx])⟩) []
    exact ⟨q, by rw [e]⟩
  · obtain ⟨a, b⟩ := C79_spoiled Env.simple (userAttr [] none) (.inl e) (by decide) (by decide) [] (fun i => decide (i ≠ 1)) 0 (by decide)
      ⟨1, by decide, by decide, by decide⟩
    exact ⟨a, by rw [b Env.simple (userAttr [] none) rfl []]⟩

/-- A histogram with a colour: quantizing it makes requests, and when the second of them is refused it runs out of memory. -/
example : ∃ (h : Histogram ℝ) (mem : Answers), mem 0 = true ∧
    (Histogram.quantizeInternalA Env.simple (userAttr [] none) true mem (0, h, [])).1 = .error (.err .outOfMemory) := by
  refine ⟨{ Histogram.new (userAttr [] none) with hashmap := [(⟨1, 2, 3, 4⟩, (5, ⟨1, 2, 3, 4⟩))] }, fun i => decide (i ≠ 1), rfl, ?_⟩
  unfold Histogram.quantizeInternalA
  simp [AM.bind_apply, AM.get, AM.run, AM.on, Histogram.onLog, AM.modify, AM.alloc, progress, show (userAttr [] none : Attr ℝ).progressCallback = none from rfl]

/-- An image too small for maps: counting its pixels needs one row, which may be refused; and an image whose maps are computed, with no
request refused. -/
example : ∃ (img img2 : Image ℝ) (mem : Answers), NoMaps (userAttr [] none) img ∧ UserImage img ∧
    (Histogram.addImageA (Env.simple (F := ℝ)).ho (userAttr [] none) mem (0, Histogram.new (userAttr [] none), img, [])).1 = .error (.err .outOfMemory) ∧
    img2.Fresh ∧ (userAttr [] none : Attr ℝ).useContrastMaps = true ∧ ¬ Refused mem 1 6 := by
  obtain ⟨img, e⟩ : ∃ img : Image ℝ, Image.newFn (fun _ x => if x = 0 then ⟨10, 20, 30, 40⟩ else ⟨50, 60, 70, 255⟩) 2 1 0 = .ok img := by
    unfold Image.newFn Image.newInternal Image.toU32
    simp [Image.checkImageSize, Bind.bind, Except.bind]
    norm_num
  obtain ⟨img2, e2⟩ : ∃ img : Image ℝ, Image.newFn (fun _ x => if x = 0 then ⟨10, 20, 30, 40⟩ else ⟨50, 60, 70, 255⟩) 4 4 0 = .ok img := by
    unfold Image.newFn Image.newInternal Image.toU32
    simp [Image.checkImageSize, Bind.bind, Except.bind]
    norm_num
  have hf := Made.facts (.inl e)
  have hn : NoMaps (userAttr [] none) img := .inr (.inr (by rw [hf.width_, hf.height_]; decide))
  refine ⟨img, img2, fun i => decide (i ≠ 0), hn, hf.user, ?_, Made.fresh (.inl e2) (by decide), by decide, ?_⟩
  · refine (C79_add_image (Env.simple (F := ℝ)).ho (userAttr [] none) (Histogram.new (userAttr [] none)) hf.user [] _ 0).1 ⟨0, le_rfl, ?_, by decide⟩
    have : (Histogram.addImageA (Env.simple (F := ℝ)).ho (userAttr [] none) (fun i => decide (i ≠ 0)) (0, Histogram.new (userAttr [] none), img, [])).2.1 = 1 := by
      unfold Histogram.addImageA
      rw [AM.bind_apply, (mapsA_noMaps hn _ _ _ _).1]
      have hsrc : Histogram.sourceGone img.px = false := by
        have := hf.rows
        unfold Histogram.sourceGone
        unfold Rows.rgbaRows at this
        split at this
        · cases this
        · rename_i h
          split
          · rename_i h'; exact absurd h' h
          · rfl
      unfold Histogram.countA
      simp [AM.bind_apply, AM.get, AM.run, AM.modify, AM.alloc, progress, show (userAttr [] none : Attr ℝ).progressCallback = none from rfl, hsrc]
    rw [this]
    decide
  · rintro ⟨i, h1, h2, h3⟩
    simp at h3
    omega

end Verif
