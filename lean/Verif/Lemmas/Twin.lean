import Verif.Lemmas.Alike
import Verif.Lemmas.Debug

/-! # Images with the same pixels are treated alike, wherever the pixels come from -/

set_option linter.unusedSectionVars false

namespace Verif
open Flt Image

variable {F : Type} [Flt F]

/-- both fail with the same error or both succeed with related values -/
inductive Both {α β : Type} (R : α → β → Prop) : Res α → Res β → Prop
  | error (e : Fail) : Both R (.error e) (.error e)
  | ok {x : α} {y : β} : R x y → Both R (.ok x) (.ok y)

namespace Rows

/-- the rows were given up (`rows.rs:242-249`) -/
def gone (r : Rows F) : Bool := match r.source with
  | .pixels [] => true
  | _ => false

/-- `n` rows of `w` pixels, the same gamma, the same converted pixels if any are kept, and the same 8-bit pixels behind
every row -/
structure Twin (w n : ℕ) (a b : Rows F) : Prop where
  widthLeft : a.width = w
  widthRight : b.width = w
  left : a.height = n
  right : b.height = n
  gamma : b.gamma = a.gamma
  fPixels : b.fPixels = a.fPixels
  gone : b.gone = a.gone
  row : ∀ y < n, b.rowRgba y = a.rowRgba y

theorem Twin.refl (a : Rows F) : Twin a.width a.height a a := ⟨rfl, rfl, rfl, rfl, rfl, rfl, rfl, fun _ _ => rfl⟩

theorem Twin.symm {w n : ℕ} {a b : Rows F} (h : Twin w n a b) : Twin w n b a :=
  ⟨h.widthRight, h.widthLeft, h.right, h.left, h.gamma.symm, h.fPixels.symm, h.gone.symm, fun y hy => (h.row y hy).symm⟩

theorem Twin.trans {w n : ℕ} {a b c : Rows F} (h : Twin w n a b) (k : Twin w n b c) : Twin w n a c :=
  ⟨h.widthLeft, k.widthRight, h.left, k.right, k.gamma.trans h.gamma, k.fPixels.trans h.fPixels, k.gone.trans h.gone,
    fun y hy => (k.row y hy).trans (h.row y hy)⟩

theorem Twin.width {w n : ℕ} {a b : Rows F} (h : Twin w n a b) : b.width = a.width := h.widthRight.trans h.widthLeft.symm

theorem Twin.height {w n : ℕ} {a b : Rows F} (h : Twin w n a b) : b.height = a.height := h.right.trans h.left.symm

theorem Twin.rowF {w n : ℕ} {a b : Rows F} (h : Twin w n a b) {y : ℕ} (hy : y < n) : b.rowF y = a.rowF y := by
  unfold Rows.rowF
  rw [h.fPixels, h.gamma, h.row y hy]

theorem rowRgba_fPixels (r : Rows F) (fp : Option (List (List (FPixel F)))) (y : ℕ) :
    ({ r with fPixels := fp } : Rows F).rowRgba y = r.rowRgba y := rfl

theorem mapM_congr {α β : Type} {f g : α → Res β} {l : List α} (h : ∀ x ∈ l, f x = g x) : l.mapM f = l.mapM g := by
  induction l with
  | nil => rfl
  | cons x l ih =>
    rw [List.mapM_cons, List.mapM_cons, h x List.mem_cons_self, ih fun y hy => h y (List.mem_cons_of_mem _ hy)]

theorem Twin.prepare {w n : ℕ} {a b : Rows F} (h : Twin w n a b) (s : Bool) : Both (Twin w n) (a.prepare s) (b.prepare s) := by
  unfold Rows.prepare
  have hl : b.lowMemory = a.lowMemory := by unfold lowMemory; rw [h.width, h.height]
  rw [hl, h.fPixels, h.height, h.gamma]
  split
  · exact .ok h
  · rw [mapM_congr (f := fun y => (b.rowRgba y).map (convertRow a.gamma)) (g := fun y => (a.rowRgba y).map (convertRow a.gamma))
      (fun y hy => by rw [h.row y (h.left ▸ List.mem_range.mp hy)])]
    cases (List.range a.height).mapM fun y => (a.rowRgba y).map (convertRow a.gamma) with
    | error e => exact .error e
    | ok rows => exact .ok ⟨h.widthLeft, h.widthRight, h.left, h.left, rfl, rfl, h.gone, fun y hy => h.row y hy⟩

theorem Twin.allRowsF {w n : ℕ} {a b : Rows F} (h : Twin w n a b) :
    Both (fun x y => Twin w n x.1 y.1 ∧ y.2 = x.2) a.allRowsF b.allRowsF := by
  unfold Rows.allRowsF
  have := h.prepare false
  revert this
  generalize a.prepare false = x
  generalize b.prepare false = y
  rintro (e | ht)
  · exact .error e
  · simp only [bind, Except.bind]
    rw [ht.fPixels]
    split
    · exact .ok ⟨ht, rfl⟩
    · exact .error _

theorem rgbaRows_eq (r : Rows F) : r.rgbaRows = if r.gone then .error (.err .unsupported) else (List.range r.height).mapM r.rowRgba := by
  obtain ⟨w, h, f, s, g⟩ := r
  cases s with
  | pixels rows => cases rows <;> rfl
  | callback f => rfl

theorem Twin.rgbaRows {w n : ℕ} {a b : Rows F} (h : Twin w n a b) : b.rgbaRows = a.rgbaRows := by
  rw [rgbaRows_eq, rgbaRows_eq, h.gone, h.height]
  split
  · rfl
  · exact mapM_congr fun y hy => h.row y (h.left ▸ List.mem_range.mp hy)

theorem Twin.free {w n : ℕ} {a b : Rows F} (h : Twin w n a b) : Twin w n a.freeHistogramInputs b.freeHistogramInputs := by
  unfold Rows.freeHistogramInputs
  rw [h.fPixels]
  split
  · refine ⟨h.widthLeft, h.widthRight, h.left, h.right, h.gamma, rfl, rfl, fun y _ => ?_⟩
    simp [Rows.rowRgba]
  · exact h

end Rows

/-- twins of the given size, or nothing at all -/
def BgTwin (width height : ℕ) : Option (Rows F) → Option (Rows F) → Prop
  | none, none => True
  | some a, some b => Rows.Twin width height a b
  | _, _ => False

theorem BgTwin.isSome {w n : ℕ} {a b : Option (Rows F)} (h : BgTwin w n a b) : b.isSome = a.isSome := by
  cases a <;> cases b <;> first | rfl | exact h.elim

theorem BgTwin.prepare {w n : ℕ} {a b : Option (Rows F)} (h : BgTwin w n a b) : Both (BgTwin w n) (prepareOpt a) (prepareOpt b) := by
  cases a <;> cases b <;> simp only [BgTwin] at h
  · exact .ok trivial
  · rename_i a b
    unfold prepareOpt
    dsimp only
    have := h.prepare true
    revert this
    generalize a.prepare true = x
    generalize b.prepare true = y
    rintro (e | ht)
    · exact .error e
    · exact .ok ht

/-- images with the same pixels, the same things attached, and backgrounds with the same pixels -/
structure Image.Twin (w n : ℕ) (a b : Image F) : Prop where
  px : Rows.Twin w n a.px b.px
  background : BgTwin w n a.background b.background
  importanceMap : b.importanceMap = a.importanceMap
  edges : b.edges = a.edges
  ditherMap : b.ditherMap = a.ditherMap
  fixedColors : b.fixedColors = a.fixedColors

namespace Image

theorem Twin.width {w n : ℕ} {a b : Image F} (h : Twin w n a b) : b.width = a.width := h.px.width
theorem Twin.height {w n : ℕ} {a b : Image F} (h : Twin w n a b) : b.height = a.height := h.px.height

theorem Twin.free {w n : ℕ} {a b : Image F} (h : Twin w n a b) : Twin w n a.freeHistogramInputs b.freeHistogramInputs :=
  ⟨h.px.free, h.background, h.importanceMap, h.edges, h.ditherMap, h.fixedColors⟩

theorem Twin.contrastMaps {w n : ℕ} {a b : Image F} (h : Twin w n a b) : Both (Twin w n) a.contrastMaps b.contrastMaps := by
  unfold Image.contrastMaps
  rw [h.width, h.height]
  split
  · exact .ok h
  · have := h.px.allRowsF
    revert this
    generalize a.px.allRowsF = x
    generalize b.px.allRowsF = y
    rintro (e | @⟨⟨px, rows⟩, ⟨px', rows'⟩, ht⟩)
    · exact .error e
    · obtain ⟨h1, rfl⟩ := ht
      simp only [bind, Except.bind]
      cases rawMaps rows' a.width a.height with
      | error e => exact .error e
      | ok raw =>
        dsimp only
        cases filterMaps (raw.map (·.1)) (raw.map (·.2)) a.width a.height with
        | error e => exact .error e
        | ok v => exact .ok ⟨h1, h.background, rfl, rfl, h.ditherMap, h.fixedColors⟩

theorem Twin.withEdges {w n : ℕ} {a b : Image F} (h : Twin w n a b) : Both (Twin w n) a.withEdges b.withEdges := by
  unfold Image.withEdges
  rw [h.edges]
  split
  · exact h.contrastMaps
  · exact .ok h

theorem Twin.updateDitherMap {w n : ℕ} {a b : Image F} (h : Twin w n a b) (rows : List (List UInt8)) (p : PalF F) (ub : Bool) :
    Both (Twin w n) (a.updateDitherMap rows p ub) (b.updateDitherMap rows p ub) := by
  unfold Image.updateDitherMap
  have := h.withEdges
  revert this
  generalize a.withEdges = x
  generalize b.withEdges = y
  rintro (e | @⟨a', b', ht⟩)
  · exact .error e
  · simp only [bind, Except.bind]
    rw [ht.edges]
    cases a'.edges with
    | none => exact .ok ht
    | some edges =>
      dsimp only
      rw [ht.width]
      cases ditherMapRows p ub a'.width none (rows.zip (chunksExact a'.width edges)) with
      | error e => exact .error e
      | ok out => exact .ok ⟨ht.px, ht.background, ht.importanceMap, rfl, rfl, ht.fixedColors⟩

end Image

theorem addImage_twin (ho : HashOrder) (h : Histogram F) (attr : Attr F) {w n : ℕ} {a b : Image F} (ht : Image.Twin w n a b) (log : List F) :
    (h.addImage ho attr b log).1.1 = (h.addImage ho attr a log).1.1 ∧
    (h.addImage ho attr b log).1.2.1 = (h.addImage ho attr a log).1.2.1 ∧
    (h.addImage ho attr b log).2 = (h.addImage ho attr a log).2 ∧
    Image.Twin w n (h.addImage ho attr a log).1.2.2 (h.addImage ho attr b log).1.2.2 := by
  unfold Histogram.addImage
  have : Both (Image.Twin w n) (if a.importanceMap.isNone && attr.useContrastMaps then a.contrastMaps else .ok a)
      (if b.importanceMap.isNone && attr.useContrastMaps then b.contrastMaps else .ok b) := by
    rw [ht.importanceMap]
    split
    · exact ht.contrastMaps
    · exact .ok ht
  revert this
  generalize (if a.importanceMap.isNone && attr.useContrastMaps then a.contrastMaps else .ok a) = x
  generalize (if b.importanceMap.isNone && attr.useContrastMaps then b.contrastMaps else .ok b) = y
  rintro (e | @⟨a', b', k⟩)
  · exact ⟨rfl, rfl, rfl, ht⟩
  · dsimp only
    have hg : b'.gamma = a'.gamma := by unfold Image.gamma; rw [k.px.gamma]
    rw [hg, k.fixedColors, k.px.rgbaRows, k.importanceMap, k.width]
    generalize (if a'.fixedColors.isEmpty = true then _ else _ : Histogram F) = h'
    generalize progress attr.progressCallback _ log = z
    obtain ⟨z, l⟩ := z
    rcases z with e | (_ | _)
    · exact ⟨rfl, rfl, rfl, k⟩
    · dsimp only
      cases a'.px.rgbaRows with
      | error e => exact ⟨rfl, rfl, rfl, k⟩
      | ok rows => exact ⟨rfl, rfl, rfl, k⟩
    · exact ⟨rfl, rfl, rfl, k⟩

theorem quantizeImage_twin (env : Env F) (attr : Attr F) {w n : ℕ} {a b : Image F} (ht : Image.Twin w n a b) (log : List F) :
    (quantizeImage env attr b log).1.1 = (quantizeImage env attr a log).1.1 ∧
    (quantizeImage env attr b log).2 = (quantizeImage env attr a log).2 ∧
    Image.Twin w n (quantizeImage env attr a log).1.2 (quantizeImage env attr b log).1.2 := by
  unfold quantizeImage
  have := addImage_twin env.ho (Histogram.new attr) attr ht log
  revert this
  generalize (Histogram.new attr).addImage env.ho attr a log = x
  generalize (Histogram.new attr).addImage env.ho attr b log = y
  obtain ⟨⟨r, h, i⟩, l⟩ := x
  obtain ⟨⟨r', h', i'⟩, l'⟩ := y
  rintro ⟨rfl, rfl, rfl, k⟩
  cases r' with
  | error e => exact ⟨rfl, rfl, k⟩
  | ok u => exact ⟨rfl, rfl, k⟩

/-! ### Remapping -/

theorem remapRow_twin (n : Nearest F) (ti : UInt8) {w h : ℕ} {px px' : Rows F} {bg bg' : Option (Rows F)} (hp : Rows.Twin w h px px')
    (hb : BgTwin w h bg bg') (imp : Option (List UInt8)) {y : ℕ} (hy : y < h) :
    remapRow n ti px' bg' imp y = remapRow n ti px bg imp y := by
  unfold remapRow
  rw [hp.rowF hy, hp.width]
  cases bg <;> cases bg' <;> simp only [BgTwin] at hb
  · rfl
  · dsimp only
    rw [hb.rowF hy]

theorem foldlM_congr {α β : Type} {f g : β → α → Res β} {l : List α} (h : ∀ b, ∀ x ∈ l, f b x = g b x) (b : β) :
    l.foldlM f b = l.foldlM g b := by
  induction l generalizing b with
  | nil => rfl
  | cons x l ih =>
    rw [List.foldlM_cons, List.foldlM_cons, h b x List.mem_cons_self]
    cases g b x with
    | error e => rfl
    | ok c => exact ih (fun b y hy => h b y (List.mem_cons_of_mem _ hy)) c

theorem remapLoop_twin (order : List ℕ) (n : Nearest F) (ti : UInt8) {w h : ℕ} {px px' : Rows F} {bg bg' : Option (Rows F)}
    (hp : Rows.Twin w h px px') (hb : BgTwin w h bg bg') (imp : Option (List UInt8)) (nrows : ℕ) (ho : ∀ y ∈ order, y < h) :
    remapLoop order n ti px' bg' imp nrows = remapLoop order n ti px bg imp nrows := by
  unfold remapLoop
  rw [foldlM_congr (g := fun slots y => do
    let r ← remapRow n ti px bg imp y
    store slots y (some r)) fun b y hy => by rw [remapRow_twin n ti hp hb imp (ho y hy)]]

theorem pickBackground_twin (n : Nearest F) {w h : ℕ} {a b : Option (Rows F)} (hb : BgTwin w h a b) :
    BgTwin w h (pickBackground n a).1 (pickBackground n b).1 ∧ (pickBackground n b).2 = (pickBackground n a).2 := by
  unfold pickBackground
  cases a <;> cases b <;> simp only [BgTwin] at hb
  · exact ⟨trivial, rfl⟩
  · dsimp only
    split
    · exact ⟨hb, rfl⟩
    · exact ⟨trivial, rfl⟩

/-- what an undithered pass leaves behind -/
structure OutTwin (w n : ℕ) (x y : Res F × RemapOut F) : Prop where
  res : y.1 = x.1
  px : Rows.Twin w n x.2.px y.2.px
  background : BgTwin w n x.2.background y.2.background
  rows : y.2.rows = x.2.rows
  palette : y.2.palette = x.2.palette

theorem remapToPalette_twin (env : RemapEnv F) {w h : ℕ} {px px' : Rows F} {bg bg' : Option (Rows F)} (hp : Rows.Twin w h px px')
    (hb : BgTwin w h bg bg') (imp : Option (List UInt8)) {nrows : ℕ} (hn : nrows ≤ h) (p : PalF F) :
    OutTwin w h (remapToPalette env px bg imp nrows p) (remapToPalette env px' bg' imp nrows p) := by
  unfold remapToPalette
  cases Nearest.new p with
  | error e => exact ⟨rfl, hp, hb, rfl, rfl⟩
  | ok n =>
    dsimp only
    have := hp.prepare true
    revert this
    generalize px.prepare true = x
    generalize px'.prepare true = y
    rintro (e | @⟨px1, px1', hp1⟩)
    · exact ⟨rfl, hp, hb, rfl, rfl⟩
    · dsimp only
      obtain ⟨hb1, hti⟩ := pickBackground_twin n hb
      rw [hti]
      have := hb1.prepare
      revert this
      generalize prepareOpt (pickBackground n bg).1 = x
      generalize prepareOpt (pickBackground n bg').1 = y
      rintro (e | @⟨b1, b1', hb2⟩)
      · exact ⟨rfl, hp1, hb, rfl, rfl⟩
      · dsimp only
        have hb3 : BgTwin w h (if b1.isSome then b1 else bg) (if b1'.isSome then b1' else bg') := by
          rw [hb2.isSome]
          split
          · exact hb2
          · exact hb
        rw [remapLoop_twin _ n _ hp1 hb2 imp nrows fun y hy => by
          have := (env.sched_valid nrows).2.mem_iff.mp hy
          rw [List.mem_range] at this
          omega]
        cases remapLoop (env.sched nrows).order n (pickBackground n bg).2 px1 b1 imp nrows with
        | error e => exact ⟨rfl, hp1, hb3, rfl, rfl⟩
        | ok outs =>
          dsimp only
          split
          · exact ⟨rfl, hp1, hb3, rfl, rfl⟩
          · refine ⟨?_, hp1, hb3, rfl, ?_⟩
            · dsimp only
              rw [hp1.width, hp1.height]
            · dsimp only
              rw [hb2.isSome]

/-- what two remaps read and change -/
structure StateTwin (w n : ℕ) (s t : RemapState F) : Prop where
  quant : t.quant = s.quant
  image : Image.Twin w n s.image t.image
  out : t.out = s.out
  log : t.log = s.log
  uninit : t.uninit = s.uninit
  rows : s.out.length ≤ n

theorem remapLoop_length {order : List ℕ} {n : Nearest F} {ti : UInt8} {px : Rows F} {bg : Option (Rows F)} {imp : Option (List UInt8)}
    {nrows : ℕ} {outs : List (RowOut F)} (h : remapLoop order n ti px bg imp nrows = .ok outs) : outs.length = nrows := by
  unfold remapLoop at h
  have key : ∀ (order : List ℕ) (slots slots' : List (Option (RowOut F))), order.foldlM (fun slots y => do
        let r ← remapRow n ti px bg imp y
        store slots y (some r)) slots = .ok slots' → slots'.length = slots.length := by
    intro order
    induction order with
    | nil => intro slots slots' e; cases e; rfl
    | cons y ys ih =>
      intro slots slots' e
      rw [List.foldlM_cons] at e
      cases er : remapRow n ti px bg imp y with
      | error e' => rw [er] at e; cases e
      | ok r0 =>
        rw [er] at e
        simp only [Res.ok_bind] at e
        unfold store at e
        split at e
        · rw [ih _ _ e, List.length_set]
        · cases e
  cases hf : order.foldlM (fun slots y => do
        let r ← remapRow n ti px bg imp y
        store slots y (some r)) (List.replicate nrows none) with
  | error e => rw [hf] at h; cases h
  | ok slots =>
    rw [hf] at h
    simp only [bind, Except.bind] at h
    rw [(mapM_get h).1, key _ _ _ hf, List.length_replicate]

theorem remapToPalette_count (env : RemapEnv F) (px : Rows F) (bg : Option (Rows F)) (imp : Option (List UInt8)) (nrows : ℕ) (p : PalF F)
    (rows : List (List UInt8)) (h : (remapToPalette env px bg imp nrows p).2.rows = some rows) : rows.length = nrows := by
  unfold remapToPalette at h
  cases hn : Nearest.new p with
  | error e => rw [hn] at h; cases h
  | ok n =>
    rw [hn] at h
    dsimp only at h
    cases hp : px.prepare true with
    | error e => rw [hp] at h; cases h
    | ok px1 =>
      rw [hp] at h
      dsimp only at h
      cases hb : prepareOpt (pickBackground n bg).1 with
      | error e => rw [hb] at h; cases h
      | ok b1 =>
        rw [hb] at h
        dsimp only at h
        cases hl : remapLoop (env.sched nrows).order n (pickBackground n bg).2 px1 b1 imp nrows with
        | error e => rw [hl] at h; cases h
        | ok outs =>
          rw [hl] at h
          dsimp only at h
          split at h <;> (cases h; rw [List.length_map]; exact remapLoop_length hl)

theorem writeRows_length {rows : Option (List (List UInt8))} {out : List (List (Option UInt8))} {n : ℕ} (hr : ∀ r, rows = some r → r.length ≤ n)
    (ho : out.length ≤ n) : (writeRows rows out).length ≤ n := by
  cases rows with
  | none => exact ho
  | some r => simpa [writeRows] using hr r rfl

theorem generateDitherMap_twin (env : RemapEnv F) {w n : ℕ} {s t : RemapState F} (h : StateTwin w n s t) (ub : Bool) (p : PalF F) :
    (generateDitherMap env t ub p).1 = (generateDitherMap env s ub p).1 ∧
    StateTwin w n (generateDitherMap env s ub p).2 (generateDitherMap env t ub p).2 := by
  unfold generateDitherMap
  have hg : generatesDitherMap t.quant.useDitherMap t.image = generatesDitherMap s.quant.useDitherMap s.image := by
    unfold generatesDitherMap
    rw [h.quant, h.image.px.width, h.image.px.height, h.image.ditherMap]
  rw [hg]
  split
  · exact ⟨rfl, h⟩
  · rw [h.image.importanceMap, h.out]
    have k := remapToPalette_twin env h.image.px (show BgTwin w n none none from trivial) s.image.importanceMap h.rows p
    have c := remapToPalette_count env s.image.px none s.image.importanceMap s.out.length p
    revert k c
    generalize remapToPalette env s.image.px none s.image.importanceMap s.out.length p = x
    generalize remapToPalette env t.image.px none s.image.importanceMap s.out.length p = y
    obtain ⟨res, r⟩ := x
    obtain ⟨res', r'⟩ := y
    rintro ⟨h1, h2, -, h4, h5⟩ c
    dsimp only at h1 h2 h4 h5 c
    subst h1
    have hlen : (writeRows r.rows s.out).length ≤ n := writeRows_length (fun rows hr => (c rows hr).trans_le h.rows) h.rows
    have him : Image.Twin w n { s.image with px := r.px } { t.image with px := r'.px } :=
      ⟨h2, h.image.background, h.image.importanceMap, h.image.edges, h.image.ditherMap, h.image.fixedColors⟩
    cases res' with
    | error e => exact ⟨rfl, h.quant, him, by dsimp only; rw [h4], h.log, h.uninit, hlen⟩
    | ok err =>
      dsimp only
      rw [h4, h5]
      have k := him.updateDitherMap (r.rows.getD []) r.palette ub
      revert k
      generalize ({ s.image with px := r.px } : Image F).updateDitherMap (r.rows.getD []) r.palette ub = x
      generalize ({ t.image with px := r'.px } : Image F).updateDitherMap (r.rows.getD []) r.palette ub = y
      rintro (e | k)
      · exact ⟨rfl, h.quant, him, rfl, h.log, h.uninit, hlen⟩
      · exact ⟨rfl, h.quant, k, rfl, h.log, h.uninit, hlen⟩

theorem remapPlain_twin (env : RemapEnv F) {w n : ℕ} {s t : RemapState F} (h : StateTwin w n s t) :
    (remapPlain env t).1 = (remapPlain env s).1 ∧ StateTwin w n (remapPlain env s).2 (remapPlain env t).2 := by
  unfold remapPlain
  rw [h.image.importanceMap, h.out, h.quant]
  generalize s.quant.palette.initIntPalette s.quant.gamma (UInt8.ofNat s.quant.minPosterizationOutput) = P
  obtain ⟨p, ip⟩ := P
  dsimp only
  have k := remapToPalette_twin env h.image.px h.image.background s.image.importanceMap h.rows p
  have c := remapToPalette_count env s.image.px s.image.background s.image.importanceMap s.out.length p
  revert k c
  generalize remapToPalette env s.image.px s.image.background s.image.importanceMap s.out.length p = x
  generalize remapToPalette env t.image.px t.image.background s.image.importanceMap s.out.length p = y
  obtain ⟨res, r⟩ := x
  obtain ⟨res', r'⟩ := y
  rintro ⟨h1, h2, h3, h4, -⟩ c
  dsimp only at h1 h2 h3 h4 c
  subst h1
  have hlen : (writeRows r.rows s.out).length ≤ n := writeRows_length (fun rows hr => (c rows hr).trans_le h.rows) h.rows
  have him : Image.Twin w n { s.image with px := r.px, background := r.background } { t.image with px := r'.px, background := r'.background } :=
    ⟨h2, h3, h.image.importanceMap, h.image.edges, h.image.ditherMap, h.image.fixedColors⟩
  rw [h4]
  cases res' with
  | error e => exact ⟨rfl, rfl, him, rfl, h.log, h.uninit, hlen⟩
  | ok err => exact ⟨rfl, rfl, him, rfl, h.log, h.uninit, hlen⟩

theorem pickBackgroundFloyd_twin (n : Nearest F) {w h : ℕ} {a b : Option (Rows F)} (hb : BgTwin w h a b) :
    BgTwin w h (pickBackgroundFloyd n a).1 (pickBackgroundFloyd n b).1 ∧ (pickBackgroundFloyd n b).2 = (pickBackgroundFloyd n a).2 := by
  unfold pickBackgroundFloyd
  cases a <;> cases b <;> simp only [BgTwin] at hb
  · exact ⟨trivial, rfl⟩
  · dsimp only
    split
    · exact ⟨trivial, rfl⟩
    · exact ⟨hb, rfl⟩

theorem ditherImageRow_twin (ctx : DitherCtx F) {w h : ℕ} {px px' : Rows F} {bg bg' : Option (Rows F)} (m : List UInt8)
    (hp : Rows.Twin w h px px') (hb : BgTwin w h bg bg') (d : Diffusion F) {y : ℕ} (hy : y < h) (o : List (Option UInt8)) :
    ditherImageRow ctx ⟨px', bg', m⟩ d y o = ditherImageRow ctx ⟨px, bg, m⟩ d y o := by
  unfold ditherImageRow DitherInput.dmapRow
  dsimp only
  rw [hp.rowF hy, hp.width]
  cases bg <;> cases bg' <;> simp only [BgTwin] at hb
  · rfl
  · dsimp only
    rw [hb.rowF hy]

theorem ditherRows_twin (ctx : DitherCtx F) {w h : ℕ} {px px' : Rows F} {bg bg' : Option (Rows F)} (m : List UInt8)
    (hp : Rows.Twin w h px px') (hb : BgTwin w h bg bg') (os : List (List (Option UInt8))) (d : Diffusion F) (y : ℕ) (hy : y + os.length ≤ h) :
    ditherRows ctx ⟨px', bg', m⟩ d y os = ditherRows ctx ⟨px, bg, m⟩ d y os := by
  induction os generalizing d y with
  | nil => rfl
  | cons o os ih =>
    unfold ditherRows
    simp only [List.length_cons] at hy
    rw [ditherImageRow_twin ctx m hp hb d (by omega) o]
    have : ∀ d, ditherRows ctx ⟨px', bg', m⟩ d (y + 1) os = ditherRows ctx ⟨px, bg, m⟩ d (y + 1) os := fun d => ih d (y + 1) (by omega)
    simp only [this]

theorem warmUp_twin (ctx : DitherCtx F) {w h : ℕ} {px px' : Rows F} {bg bg' : Option (Rows F)} (m : List UInt8)
    (hp : Rows.Twin w h px px') (hb : BgTwin w h bg bg') {start : ℕ} (hs : start ≤ h) :
    warmUp ctx ⟨px', bg', m⟩ start = warmUp ctx ⟨px, bg, m⟩ start := by
  unfold warmUp
  split
  · have h1 : ∀ d o, ditherImageRow ctx ⟨px', bg', m⟩ d (start - 2) o = ditherImageRow ctx ⟨px, bg, m⟩ d (start - 2) o :=
      fun d o => ditherImageRow_twin ctx m hp hb d (by omega) o
    have h2 : ∀ d o, ditherImageRow ctx ⟨px', bg', m⟩ d (start - 1) o = ditherImageRow ctx ⟨px, bg, m⟩ d (start - 1) o :=
      fun d o => ditherImageRow_twin ctx m hp hb d (by omega) o
    simp only [h1, h2]
  · rfl

theorem floydChunks_twin (ctx : DitherCtx F) {w h : ℕ} {px px' : Rows F} {bg bg' : Option (Rows F)} (m : List UInt8)
    (hp : Rows.Twin w h px px') (hb : BgTwin w h bg bg') (cb : Option (List F → Bool)) (stage1 : ℕ) (cs : List (List (List (Option UInt8))))
    (start : ℕ) (log : List F) (hs : start + cs.flatten.length ≤ h) :
    floydChunks ctx ⟨px', bg', m⟩ cb stage1 start cs log = floydChunks ctx ⟨px, bg, m⟩ cb stage1 start cs log := by
  induction cs generalizing start log with
  | nil => rfl
  | cons c cs ih =>
    rw [List.flatten_cons, List.length_append] at hs
    unfold floydChunks
    rw [warmUp_twin ctx m hp hb (by omega)]
    cases warmUp ctx ⟨px, bg, m⟩ start with
    | error e => rfl
    | ok v =>
      obtain ⟨d, un⟩ := v
      dsimp only
      rw [hp.height]
      generalize progress cb (ditherProgress stage1 start px.height) log = z
      obtain ⟨z, l⟩ := z
      rcases z with e | (_ | _)
      · rfl
      · dsimp only
        rw [ditherRows_twin ctx m hp hb c d start (by omega)]
        cases ditherRows ctx ⟨px, bg, m⟩ d start c with
        | error e => rfl
        | ok r =>
          dsimp only
          rw [ih _ _ (by omega)]
      · rfl

theorem floydChunks_rows (ctx : DitherCtx F) (inp : DitherInput F) (cb : Option (List F → Bool)) (stage1 : ℕ)
    (cs : List (List (List (Option UInt8)))) (start : ℕ) (log : List F) :
    (floydChunks ctx inp cb stage1 start cs log).1.rows.length = cs.flatten.length := by
  induction cs generalizing start log with
  | nil => rfl
  | cons c cs ih =>
    unfold floydChunks
    cases warmUp ctx inp start with
    | error e => rfl
    | ok v =>
      obtain ⟨d, un⟩ := v
      dsimp only
      generalize progress cb (ditherProgress stage1 start inp.px.height) log = z
      obtain ⟨z, l⟩ := z
      rcases z with e | (_ | _)
      · rfl
      · dsimp only
        cases hr : ditherRows ctx inp d start c with
        | error e => rfl
        | ok r =>
          dsimp only
          rw [List.length_append, ih, ditherRows_length _ _ _ hr, List.flatten_cons, List.length_append]
      · rfl

theorem remapFloyd_twin (env : RemapEnv F) {w n : ℕ} {s t : RemapState F} (h : StateTwin w n s t) (p : PalF F) (maxErr : F) (isRemapped : Bool) :
    (remapFloyd env t p maxErr isRemapped).1 = (remapFloyd env s p maxErr isRemapped).1 ∧
    StateTwin w n (remapFloyd env s p maxErr isRemapped).2 (remapFloyd env t p maxErr isRemapped).2 := by
  unfold remapFloyd
  have hdm : ditherMapOf t.image t.quant.useDitherMap = ditherMapOf s.image s.quant.useDitherMap := by
    unfold ditherMapOf
    rw [h.image.ditherMap, h.image.edges, h.quant]
  rw [hdm]
  generalize ditherMapOf s.image s.quant.useDitherMap = m
  cases Nearest.new p with
  | error e => exact ⟨rfl, h⟩
  | ok nn =>
    dsimp only
    have k := h.image.background.prepare
    revert k
    generalize prepareOpt s.image.background = x
    generalize prepareOpt t.image.background = y
    rintro (e | @⟨bg, bg', hb⟩)
    · exact ⟨rfl, h⟩
    · dsimp only
      have him : Image.Twin w n { s.image with background := bg } { t.image with background := bg' } :=
        ⟨h.image.px, hb, h.image.importanceMap, h.image.edges, h.image.ditherMap, h.image.fixedColors⟩
      have k := h.image.px.prepare true
      revert k
      generalize s.image.px.prepare true = x
      generalize t.image.px.prepare true = y
      rintro (e | @⟨px, px', hp⟩)
      · exact ⟨rfl, h.quant, him, h.out, h.log, h.uninit, h.rows⟩
      · dsimp only
        obtain ⟨hb1, hti⟩ := pickBackgroundFloyd_twin nn hb
        have hnone : (pickBackgroundFloyd nn bg').1.isNone = (pickBackgroundFloyd nn bg).1.isNone := by
          have := hb1.isSome
          revert this
          cases (pickBackgroundFloyd nn bg').1 <;> cases (pickBackgroundFloyd nn bg).1 <;> simp
        rw [hti, hnone, hp.width, hp.height, h.quant, h.out, h.log]
        generalize (px.height + ditherChunks s.quant.singleThreadedDithering px.width px.height env.cpus - 1) /
          ditherChunks s.quant.singleThreadedDithering px.width px.height env.cpus = size
        have hlen : (chunksOf size s.out).flatten.length ≤ s.out.length := by
          rcases Nat.eq_zero_or_pos size with h | h
          · subst h; simp [chunksOf]
          · rw [(chunksOf_flatten h s.out).1]
        rw [floydChunks_twin _ m hp hb1 _ _ _ 0 s.log (by have := h.rows; omega)]
        have hr := fun ctx => floydChunks_rows ctx ⟨px, (pickBackgroundFloyd nn bg).1, m⟩ s.quant.progressCallback
          (remapStage1 s.quant.useDitherMap) (chunksOf size s.out) 0 s.log
        refine ⟨rfl, rfl, ⟨hp, hb, h.image.importanceMap, h.image.edges, h.image.ditherMap, h.image.fixedColors⟩, rfl, rfl, ?_, ?_⟩
        · dsimp only
          rw [h.uninit]
        · dsimp only
          rw [hr]
          exact hlen.trans h.rows

theorem remapDithered_twin (env : RemapEnv F) {w n : ℕ} {s t : RemapState F} (h : StateTwin w n s t) :
    (remapDithered env t).1 = (remapDithered env s).1 ∧ StateTwin w n (remapDithered env s).2 (remapDithered env t).2 := by
  unfold remapDithered
  rw [h.image.background.isSome, h.quant]
  have k := generateDitherMap_twin env h s.image.background.isSome s.quant.palette
  revert k
  generalize generateDitherMap env s s.image.background.isSome s.quant.palette = x
  generalize generateDitherMap env t s.image.background.isSome s.quant.palette = y
  obtain ⟨r, s1⟩ := x
  obtain ⟨r', t1⟩ := y
  rintro ⟨h1, k⟩
  dsimp only at h1 k
  subst h1
  cases r' with
  | error e => exact ⟨rfl, k⟩
  | ok v =>
    obtain ⟨e, p⟩ := v
    dsimp only
    obtain ⟨q2, i2, o2, l2, u2⟩ := t1
    obtain ⟨hq, hi, ho, hl, hu, hr⟩ := k
    dsimp only at hq hi ho hl hu hr ⊢
    subst hq ho hl hu
    generalize progress s1.quant.progressCallback (lit32 (remapStage1 s1.quant.useDitherMap) *₃ lit32 (1/2)) s1.log = z
    obtain ⟨z, l⟩ := z
    have k1 : StateTwin w n { s1 with log := l } ⟨s1.quant, i2, s1.out, l, s1.uninit⟩ := ⟨rfl, hi, rfl, rfl, rfl, hr⟩
    rcases z with e | (_ | _)
    · exact ⟨rfl, k1⟩
    · dsimp only
      have k2 := remapFloyd_twin env k1 (p.initIntPalette s1.quant.gamma (UInt8.ofNat s1.quant.minPosterizationOutput)).1
        (maxDitherError (e.or s1.quant.paletteError)) e.isSome
      revert k2
      generalize remapFloyd env { s1 with log := l } _ _ _ = x
      generalize remapFloyd env ⟨s1.quant, i2, s1.out, l, s1.uninit⟩ _ _ _ = y
      obtain ⟨r, s2⟩ := x
      obtain ⟨r', t2⟩ := y
      rintro ⟨h1, k⟩
      dsimp only at h1 k
      subst h1
      cases r' <;> exact ⟨rfl, k⟩
    · exact ⟨rfl, k1⟩

theorem writeRemapped_twin (env : RemapEnv F) {w n : ℕ} {s t : RemapState F} (h : StateTwin w n s t) :
    (writeRemapped env t).1 = (writeRemapped env s).1 ∧ StateTwin w n (writeRemapped env s).2 (writeRemapped env t).2 := by
  unfold writeRemapped
  rw [h.quant, h.log]
  generalize progress s.quant.progressCallback (lit32 (remapStage1 s.quant.useDitherMap) *₃ lit32 (1/4)) s.log = z
  obtain ⟨z, l⟩ := z
  have k0 : StateTwin w n { s with log := l } ⟨s.quant, t.image, t.out, l, t.uninit⟩ := ⟨rfl, h.image, h.out, rfl, h.uninit, h.rows⟩
  have k1 : StateTwin w n { s with log := l, image := s.image.freeHistogramInputs }
      ⟨s.quant, t.image.freeHistogramInputs, t.out, l, t.uninit⟩ := ⟨rfl, h.image.free, h.out, rfl, h.uninit, h.rows⟩
  rcases z with e | (_ | _)
  · exact ⟨rfl, k0⟩
  · dsimp only
    have k2 : ∀ b : Bool, (if b = true then remapPlain env ⟨s.quant, t.image.freeHistogramInputs, t.out, l, t.uninit⟩
          else remapDithered env ⟨s.quant, t.image.freeHistogramInputs, t.out, l, t.uninit⟩).1 =
        (if b = true then remapPlain env { s with log := l, image := s.image.freeHistogramInputs }
          else remapDithered env { s with log := l, image := s.image.freeHistogramInputs }).1 ∧
        StateTwin w n (if b = true then remapPlain env { s with log := l, image := s.image.freeHistogramInputs }
          else remapDithered env { s with log := l, image := s.image.freeHistogramInputs }).2
        (if b = true then remapPlain env ⟨s.quant, t.image.freeHistogramInputs, t.out, l, t.uninit⟩
          else remapDithered env ⟨s.quant, t.image.freeHistogramInputs, t.out, l, t.uninit⟩).2 := by
      intro b
      cases b
      · exact remapDithered_twin env k1
      · exact remapPlain_twin env k1
    have k3 := k2 (eq s.quant.ditherLevel (lit32 0))
    revert k3
    generalize (if eq s.quant.ditherLevel (lit32 0) = true then remapPlain env { s with log := l, image := s.image.freeHistogramInputs }
          else remapDithered env { s with log := l, image := s.image.freeHistogramInputs }) = x
    generalize (if eq s.quant.ditherLevel (lit32 0) = true then remapPlain env ⟨s.quant, t.image.freeHistogramInputs, t.out, l, t.uninit⟩
          else remapDithered env ⟨s.quant, t.image.freeHistogramInputs, t.out, l, t.uninit⟩) = y
    obtain ⟨r, s2⟩ := x
    obtain ⟨r', t2⟩ := y
    rintro ⟨h1, k⟩
    dsimp only at h1 k
    subst h1
    cases r' with
    | error e => exact ⟨rfl, k⟩
    | ok re => exact ⟨rfl, by dsimp only; rw [k.quant], k.image, k.out, k.log, k.uninit, k.rows⟩
  · exact ⟨rfl, k0⟩

/-- Remapping images with the same pixels does the same. -/
theorem remapInto_twin (env : RemapEnv F) (q : QuantizationResult F) {w n : ℕ} {a b : Image F} (h : Image.Twin w n a b) (hw : 0 < a.width)
    (buf : List (Option UInt8)) (log : List F) :
    (remapInto env q b buf log).res = (remapInto env q a buf log).res ∧
    (remapInto env q b buf log).quant = (remapInto env q a buf log).quant ∧
    (remapInto env q b buf log).buf = (remapInto env q a buf log).buf ∧
    (remapInto env q b buf log).log = (remapInto env q a buf log).log ∧
    (remapInto env q b buf log).uninit = (remapInto env q a buf log).uninit ∧
    Image.Twin w n (remapInto env q a buf log).image (remapInto env q b buf log).image := by
  unfold remapInto
  dsimp only
  rw [h.width, h.height]
  split
  · exact ⟨rfl, rfl, rfl, rfl, rfl, h⟩
  next hb =>
    obtain ⟨c1, -, -⟩ := chunksExact_rows (h := a.height) hw (buf.take (a.width * a.height)) (by rw [List.length_take]; omega)
    obtain ⟨k1, k2⟩ := writeRemapped_twin env (n := n) (s := ⟨q, a, chunksExact a.width (buf.take (a.width * a.height)), log, false⟩)
      (t := ⟨q, b, chunksExact a.width (buf.take (a.width * a.height)), log, false⟩)
      ⟨rfl, h, rfl, rfl, rfl, by rw [c1, show a.height = n from h.px.left]⟩
    exact ⟨k1, k2.quant, by dsimp only; rw [k2.out], k2.log, k2.uninit, k2.image⟩

end Verif
