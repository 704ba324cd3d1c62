import Verif.Props.Ownership
import Verif.Props.Remap

/-! # Programs that use the C API: invariants of the objects (C58) -/

set_option linter.unusedSectionVars false

namespace Verif
open Flt Spec

variable {F : Type} [Flt F]

/-! ### A remap changes nothing about the rows but the converted pixels -/

theorem Rows.OnlyF.trans {a b c : Rows F} (h : a.OnlyF b) (k : b.OnlyF c) : a.OnlyF c := by
  unfold Rows.OnlyF at *
  rw [k, h]

/-- the same for an optional background -/
def BgOnlyF (b b' : Option (Rows F)) : Prop :=
  match b, b' with
  | some b, some b' => b.OnlyF b'
  | none, none => True
  | _, _ => False

theorem BgOnlyF.refl (b : Option (Rows F)) : BgOnlyF b b := by
  cases b with
  | none => trivial
  | some b => exact Rows.OnlyF.refl b

theorem BgOnlyF.trans {a b c : Option (Rows F)} (h : BgOnlyF a b) (k : BgOnlyF b c) : BgOnlyF a c := by
  cases a <;> cases b <;> cases c <;> first | trivial | exact h.elim | exact k.elim | exact Rows.OnlyF.trans h k

theorem prepareOpt_onlyF {b b' : Option (Rows F)} (h : prepareOpt b = .ok b') : BgOnlyF b b' := by
  unfold prepareOpt at h
  cases b with
  | none => cases h; trivial
  | some b =>
    dsimp only at h
    cases hp : b.prepare true with
    | error e => rw [hp] at h; cases h
    | ok r => rw [hp] at h; cases h; exact prepare_onlyF hp

theorem pickBackground_some {n : Nearest F} {bg b : Option (Rows F)} {ti : UInt8} (h : pickBackground n bg = (b, ti)) :
    b = none ∨ b = bg := by
  have : (pickBackground n bg).1 = b := by rw [h]
  subst this
  unfold pickBackground
  cases bg with
  | none => simp
  | some r =>
    dsimp only
    split <;> simp

theorem remapToPalette_onlyF (env : RemapEnv F) (px : Rows F) (bg : Option (Rows F)) (imp : Option (List UInt8)) (nrows : ℕ)
    (p : PalF F) : px.OnlyF (remapToPalette env px bg imp nrows p).2.px ∧
      BgOnlyF bg (remapToPalette env px bg imp nrows p).2.background := by
  unfold remapToPalette
  split
  · exact ⟨.refl _, .refl _⟩
  split
  · exact ⟨.refl _, .refl _⟩
  rename_i n _ px1 px2 hpx
  have h1 := prepare_onlyF hpx
  dsimp only
  obtain ⟨⟨b, ti⟩, hpick⟩ : ∃ t, pickBackground n bg = t := ⟨_, rfl⟩
  rw [hpick]
  dsimp only
  split
  · exact ⟨h1, .refl _⟩
  rename_i b' hb'
  have h2 : BgOnlyF bg (if b'.isSome then b' else bg) := by
    have h3 := prepareOpt_onlyF hb'
    split
    · rcases pickBackground_some hpick with rfl | rfl
      · cases b' with
        | none => simp_all
        | some _ => exact h3.elim
      · exact h3
    · exact .refl _
  split
  · exact ⟨h1, h2⟩
  split
  · exact ⟨h1, h2⟩
  · exact ⟨h1, h2⟩

/-- only the converted pixels of an image and of its background differ -/
def Image.OnlyF (i i' : Image F) : Prop := i.px.OnlyF i'.px ∧ BgOnlyF i.background i'.background

theorem Image.OnlyF.refl (i : Image F) : i.OnlyF i := ⟨.refl _, .refl _⟩
theorem Image.OnlyF.trans {a b c : Image F} (h : a.OnlyF b) (k : b.OnlyF c) : a.OnlyF c := ⟨h.1.trans k.1, h.2.trans k.2⟩

theorem updateDitherMap_onlyF {img img' : Image F} {rows : List (List UInt8)} {p : PalF F} {b : Bool}
    (h : img.updateDitherMap rows p b = .ok img') : img.OnlyF img' := by
  unfold Image.updateDitherMap Image.withEdges at h
  simp only [bind, Except.bind] at h
  split at h
  · cases h
  rename_i i hi
  have h1 : img.OnlyF i := by
    split at hi
    · have := contrastMaps_onlyF hi
      exact ⟨this.1, by rw [this.2]; exact .refl _⟩
    · cases hi; exact .refl _
  split at h
  · cases h; exact h1
  · split at h
    · cases h
    · cases h; exact h1

theorem generateDitherMap_onlyF (env : RemapEnv F) (s : RemapState F) (b : Bool) (p : PalF F) :
    s.image.OnlyF (generateDitherMap env s b p).2.image := by
  unfold generateDitherMap
  split
  · exact .refl _
  have h1 := (remapToPalette_onlyF env s.image.px none s.image.importanceMap s.out.length p).1
  split
  · rename_i e
    rw [e] at h1
    exact ⟨h1, .refl _⟩
  · rename_i e
    rw [e] at h1
    dsimp only
    split
    · exact ⟨h1, .refl _⟩
    · rename_i hu
      exact Image.OnlyF.trans (b := { s.image with px := _ }) ⟨h1, .refl _⟩ (updateDitherMap_onlyF hu)

theorem remapFloyd_onlyF (env : RemapEnv F) (s : RemapState F) (p : PalF F) (maxErr : F) (b : Bool) :
    s.image.OnlyF (remapFloyd env s p maxErr b).2.image := by
  unfold remapFloyd
  dsimp only
  split
  · exact .refl _
  split
  · exact .refl _
  rename_i bg hbg
  have h1 := prepareOpt_onlyF hbg
  split
  · exact ⟨.refl _, h1⟩
  · rename_i hpx
    exact ⟨prepare_onlyF hpx, h1⟩

theorem remapDithered_onlyF (env : RemapEnv F) (s : RemapState F) : s.image.OnlyF (remapDithered env s).2.image := by
  unfold remapDithered
  have h1 := generateDitherMap_onlyF env s s.image.background.isSome s.quant.palette
  split
  · rename_i e; rw [e] at h1; exact h1
  · rename_i s' e
    rw [e] at h1
    dsimp only at h1
    split
    · exact h1
    · exact h1
    · rename_i log _
      dsimp only
      split
      · rename_i e2
        refine h1.trans ?_
        have h2 := congrArg (fun x => x.2.image) e2
        dsimp only at h2
        rw [← h2]
        exact remapFloyd_onlyF env { s' with log := log } _ _ _
      · rename_i e2
        refine h1.trans ?_
        have h2 := congrArg (fun x => x.2.image) e2
        dsimp only at h2
        rw [← h2]
        exact remapFloyd_onlyF env { s' with log := log } _ _ _

theorem remapPlain_onlyF (env : RemapEnv F) (s : RemapState F) : s.image.OnlyF (remapPlain env s).2.image := by
  unfold remapPlain
  dsimp only
  have h1 := remapToPalette_onlyF env s.image.px s.image.background s.image.importanceMap s.out.length
    (s.quant.palette.initIntPalette s.quant.gamma (UInt8.ofNat s.quant.minPosterizationOutput)).1
  split
  · exact h1
  · exact h1

/-- a remap releases the source of the image as `HImage.releases` says, and otherwise changes nothing about the rows but
the converted pixels -/
theorem writeRemapped_onlyF (env : RemapEnv F) (s : RemapState F) :
    (if HImage.releases s.quant s.log then s.image.freeHistogramInputs else s.image).OnlyF (writeRemapped env s).2.image := by
  unfold writeRemapped HImage.releases
  obtain ⟨⟨ans, log⟩, e⟩ : ∃ t, progress s.quant.progressCallback (lit32 (remapStage1 s.quant.useDitherMap) *₃ lit32 (1/4)) s.log = t :=
    ⟨_, rfl⟩
  rw [e]
  match ans with
  | .error _ => exact .refl _
  | .ok true => exact .refl _
  | .ok false =>
    dsimp only
    have h1 := remapPlain_onlyF env { s with log := log, image := s.image.freeHistogramInputs }
    have h2 := remapDithered_onlyF env { s with log := log, image := s.image.freeHistogramInputs }
    by_cases hd : eq s.quant.ditherLevel (lit32 0) = true
    · simp only [hd, if_true]
      split
      · rename_i e2; rw [e2] at h1; exact h1
      · rename_i e2; rw [e2] at h1; exact h1
    · simp only [hd, if_false, if_true, Bool.false_eq_true]
      split
      · rename_i e2; rw [e2] at h2; exact h2
      · rename_i e2; rw [e2] at h2; exact h2

theorem absorb_view_onlyF (i : HImage F) (h : Heap) (c : Image F) (e : (i.view h).OnlyF c) : (i.absorb c).view h = c := by
  obtain ⟨h1, h2⟩ := e
  cases c with
  | mk px imp edges dm bg fixed =>
    unfold HImage.view at h1 h2
    dsimp only at h1 h2
    unfold HImage.view HImage.absorb
    dsimp only
    congr 1
    · rw [h1]; rfl
    · cases hb : i.background with
      | none =>
        rw [hb] at h2
        cases bg with
        | none => rfl
        | some _ => exact h2.elim
      | some b =>
        rw [hb] at h2
        cases bg with
        | none => exact h2.elim
        | some b' =>
          have h3 : (b.view h).OnlyF b' := h2
          simp only [Option.map_some, Option.getD_some, Option.some.injEq]
          rw [h3]; rfl

/-- After a remap the image with memory shows the contents that the model of contents says. (The source of the background
is not looked at if it is in the memory that is released; the two do not share memory.) -/
theorem afterRemap_view (env : RemapEnv F) (i : HImage F) (q : QuantizationResult F) (rows : List (List (Option UInt8)))
    (log : List F) (h : Heap) (hbg : ∀ b, i.background = some b → b.view (i.afterRemap q log (i.view h) h).2 = b.view h) :
    (i.afterRemap q log (writeRemapped env ⟨q, i.view h, rows, log, false⟩).2.image h).1.view
      (i.afterRemap q log (i.view h) h).2 = (writeRemapped env ⟨q, i.view h, rows, log, false⟩).2.image := by
  have key := writeRemapped_onlyF env ⟨q, i.view h, rows, log, false⟩
  generalize (writeRemapped env ⟨q, i.view h, rows, log, false⟩).2.image = c at *
  dsimp only at key
  unfold HImage.afterRemap at hbg ⊢
  by_cases hr : HImage.releases q log = true
  · simp only [hr, if_true] at key hbg ⊢
    apply absorb_view_onlyF
    have : ({ i with px := (i.px.freeHistogramInputs h).2 } : HImage F).view (i.px.freeHistogramInputs h).1 =
        (i.view h).freeHistogramInputs := by
      unfold HImage.view Image.freeHistogramInputs
      dsimp only
      rw [HRows.free_view]
      congr 1
      cases hb : i.background with
      | none => rfl
      | some b => simp [hbg b hb]
    rw [this]; exact key
  · have hr' : HImage.releases q log = false := by simpa using hr
    simp only [hr', Bool.false_eq_true, if_false] at key ⊢
    exact absorb_view_onlyF _ _ _ key

end Verif
