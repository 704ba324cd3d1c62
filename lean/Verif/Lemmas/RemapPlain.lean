import Verif.Model.Remap
import Verif.Lemmas.Blur
import Verif.Lemmas.Kmeans

/-! # Undithered remapping, for any float arithmetic -/

set_option linter.unusedSectionVars false

namespace Verif
open Flt

variable {F : Type} [Flt F]

/-- A concrete environment: the main thread does all rows in order, errors are added from left to right. -/
def RemapEnv.simple : RemapEnv F where
  sched n := ⟨[], List.range n, [], List.range n⟩
  sched_valid n := ⟨by simp, List.Perm.refl _⟩
  sum l := l.foldl (fun s x => s +₆ x) (lit64 0)
  sum_spec l := by
    have : ∀ (l m : List F) (s : F), SumsTo m s → SumsTo (m ++ l) (l.foldl (fun s x => s +₆ x) s) := by
      intro l
      induction l with
      | nil => intro m s h; simpa using h
      | cons x xs ih =>
        intro m s h
        have := ih (m ++ [x]) (s +₆ x) (.add h (.single x))
        simpa using this
    simpa using this l [] _ .nil
  cpus := 1
  cpus_pos := by omega
  garbage _ := 0

instance : Inhabited (RemapEnv F) := ⟨RemapEnv.simple⟩

/-- the byte written for a pixel when the search starts from `hint` -/
def plainByte (n : Nearest F) (ti : UInt8) (bg : Option (FPixel F)) (px : FPixel F) (hint : UInt8) : UInt8 :=
  match bg with
  | some b => if le (b.diff px) (n.search px hint.toNat).2 then ti else UInt8.ofNat (n.search px hint.toNat).1
  | none => UInt8.ofNat (n.search px hint.toNat).1

/-- the difference counted for a pixel -/
def plainDiff (n : Nearest F) (bg : Option (FPixel F)) (px : FPixel F) (hint : UInt8) : F :=
  match bg with
  | some b => if le (b.diff px) (n.search px hint.toNat).2 then b.diff px else (n.search px hint.toNat).2
  | none => (n.search px hint.toNat).2

theorem remapPixels_cons (n : Nearest F) (ti : UInt8) (px : FPixel F) (pxs bgs : List (FPixel F)) (imps : List UInt8)
    (last : UInt8) (err : F) :
    let r := remapPixels n ti pxs bgs.tail imps.tail (UInt8.ofNat (n.search px last.toNat).1) (err +₆ plainDiff n bgs.head? px last)
    (remapPixels n ti (px :: pxs) bgs imps last err).bytes = plainByte n ti bgs.head? px last :: r.bytes ∧
    (remapPixels n ti (px :: pxs) bgs imps last err).err = r.err := by
  rw [remapPixels]
  unfold plainDiff plainByte
  cases hb : bgs.head? with
  | none => exact ⟨rfl, rfl⟩
  | some b =>
    by_cases hle : le (b.diff px) (n.search px last.toNat).2 = true
    · simp [hle]
    · simp [hle]

theorem transparentIndex_lt {p : PalF F} {n : Nearest F} (hn : Nearest.new p = .ok n) :
    (transparentIndex n).toNat < p.length := by
  have h1 := Nearest.search_lt hn FPixel.default 0
  have h2 := (Nearest.new_ok hn).2.1
  unfold transparentIndex
  rw [UInt8.toNat_ofNat_of_lt' (by simp only [UInt8.size]; omega)]
  exact h1

theorem search_toNat {p : PalF F} {n : Nearest F} (hn : Nearest.new p = .ok n) (px : FPixel F) (hint : ℕ) :
    (UInt8.ofNat (n.search px hint).1).toNat = (n.search px hint).1 := by
  have h1 := Nearest.search_lt hn px hint
  have h2 := (Nearest.new_ok hn).2.1
  rw [UInt8.toNat_ofNat_of_lt' (by simp only [UInt8.size]; omega)]

theorem remapPixels_spec {n : Nearest F} (hn : Nearest.new n.palette = .ok n) (ti : UInt8) (pxs bgs : List (FPixel F))
    (imps : List UInt8) (last : UInt8) (err : F) (hlast : last.toNat < n.palette.length) :
    (remapPixels n ti pxs bgs imps last err).bytes.length = pxs.length ∧
    ∀ (i : ℕ) (px : FPixel F), pxs[i]? = some px → ∃ hint : UInt8, hint.toNat < n.palette.length ∧
      (remapPixels n ti pxs bgs imps last err).bytes[i]? = some (plainByte n ti bgs[i]? px hint) := by
  induction pxs generalizing bgs imps last err with
  | nil => exact ⟨rfl, fun i px h => by simp at h⟩
  | cons p ps ih =>
    obtain ⟨h1, _⟩ := remapPixels_cons n ti p ps bgs imps last err
    rw [h1]
    obtain ⟨l, g⟩ := ih bgs.tail imps.tail (UInt8.ofNat (n.search p last.toNat).1) (err +₆ plainDiff n bgs.head? p last)
      (by rw [search_toNat hn]; exact Nearest.search_lt hn _ _)
    refine ⟨by simp [l], ?_⟩
    intro i px hi
    cases i with
    | zero =>
      simp only [List.getElem?_cons_zero, Option.some.injEq] at hi
      subst hi
      exact ⟨last, hlast, by rw [List.getElem?_cons_zero, List.head?_eq_getElem?]⟩
    | succ i =>
      obtain ⟨hint, hlt, hh⟩ := g i px (by simpa using hi)
      exact ⟨hint, hlt, by rw [List.getElem?_cons_succ, hh, List.getElem?_tail]⟩

/-- the pixel of the background, if there is one -/
def bgPixel (bg : Option (Rows F)) (y x : ℕ) : Option (FPixel F) :=
  match bg with
  | some b => (b.pixelsF y)[x]?
  | none => none

/-- a background that can be read and has the size of the image -/
def BgGood (px : Rows F) (bg : Option (Rows F)) : Prop :=
  ∀ b, bg = some b → b.Readable ∧ b.width = px.width ∧ b.height = px.height

/-- what one row writes -/
structure RowSpec (n : Nearest F) (ti : UInt8) (px : Rows F) (bg : Option (Rows F)) (y : ℕ) (bytes : List UInt8) : Prop where
  len : bytes.length = px.width
  val : ∀ (x : ℕ) (p : FPixel F), (px.pixelsF y)[x]? = some p →
    ∃ hint : UInt8, hint.toNat < n.palette.length ∧ bytes[x]? = some (plainByte n ti (bgPixel bg y x) p hint)

theorem remapRow_ok {n : Nearest F} (hn : Nearest.new n.palette = .ok n) (ti : UInt8) {px : Rows F} {bg : Option (Rows F)} (imp : Option (List UInt8))
    (hpx : px.Readable) (hbg : BgGood px bg) {y : ℕ} (hy : y < px.height) :
    ∃ r, remapRow n ti px bg imp y = .ok r ∧ RowSpec n ti px bg y r.bytes := by
  have h0 : (0 : UInt8).toNat < n.palette.length := (Nearest.new_ok hn).1
  unfold remapRow
  obtain ⟨e1, l1⟩ := hpx.rowF hy
  rw [e1]
  cases bg with
  | none =>
    refine ⟨_, rfl, ?_, ?_⟩
    · rw [(remapPixels_spec hn ti _ _ _ _ _ h0).1, l1]
    · intro x p hp
      obtain ⟨hint, hlt, hh⟩ := (remapPixels_spec hn ti (px.pixelsF y) [] ((imp.getD []).drop (y * px.width)) 0 (lit64 0) h0).2 x p hp
      exact ⟨hint, hlt, by simpa [bgPixel] using hh⟩
  | some b =>
    obtain ⟨hb, hw, hh⟩ := hbg b rfl
    obtain ⟨e2, _⟩ := hb.rowF (show y < b.height by omega)
    simp only [bind, Except.bind]
    rw [e2]
    refine ⟨_, rfl, ?_, ?_⟩
    · rw [(remapPixels_spec hn ti _ _ _ _ _ h0).1, l1]
    · intro x p hp
      exact (remapPixels_spec hn ti (px.pixelsF y) (b.pixelsF y) ((imp.getD []).drop (y * px.width)) 0 (lit64 0) h0).2 x p hp

/-- Rows finished in any order end up where they belong. -/
theorem remapLoop_ok {order : List ℕ} {nrows : ℕ} (ho : order.Perm (List.range nrows)) (n : Nearest F) (ti : UInt8)
    (px : Rows F) (bg : Option (Rows F)) (imp : Option (List UInt8)) (g : ℕ → RowOut F)
    (hg : ∀ y < nrows, remapRow n ti px bg imp y = .ok (g y)) :
    remapLoop order n ti px bg imp nrows = .ok ((List.range nrows).map g) := by
  have hmem : ∀ y ∈ order, y < nrows := fun y hy => List.mem_range.mp (ho.mem_iff.mp hy)
  obtain ⟨slots, e, hl, hv⟩ := foldlM_inv
    (f := fun slots y => do
      let r ← remapRow n ti px bg imp y
      store slots y (some r))
    (fun k (slots : List (Option (RowOut F))) => slots.length = nrows ∧ ∀ y < nrows,
      slots[y]? = some (if y ∈ order.take k then some (g y) else none))
    order (List.replicate nrows none) ⟨by simp, fun y hy => by simp [hy]⟩ (by
      intro k y slots hy hp
      have hyn := hmem y (List.mem_of_getElem? hy)
      rw [hg y hyn]
      refine ⟨slots.set y (some (g y)), ?_, by simp [hp.1], fun z hz => ?_⟩
      · simp only [bind, Except.bind]
        rw [store_of_lt (by omega)]
      · rw [getElem?_set_iff _ _ _ _ (by omega)]
        have htake : order.take (k + 1) = order.take k ++ [y] := by
          rw [List.take_add_one, hy]; rfl
        rw [htake]
        by_cases hzy : z = y
        · subst hzy; simp
        · rw [if_neg hzy, hp.2 z hz]; simp [hzy])
  unfold remapLoop
  rw [e]
  simp only [bind, Except.bind]
  have hslots : slots = (List.range nrows).map fun y => some (g y) := by
    apply List.ext_getElem?
    intro y
    by_cases hy : y < nrows
    · rw [hv y hy, List.take_length, if_pos (ho.mem_iff.mpr (List.mem_range.mpr hy)), List.getElem?_map,
        List.getElem?_range hy]; rfl
    · rw [List.getElem?_eq_none (by omega), List.getElem?_eq_none (by simp; omega)]
  rw [hslots, mapM_ok _ (fun o => o.getD (g 0))]
  · rw [List.map_map]; rfl
  · intro o ho'
    obtain ⟨y, _, rfl⟩ := List.mem_map.mp ho'
    rfl

theorem plainByte_lt {p : PalF F} {n : Nearest F} (hn : Nearest.new p = .ok n) {ti : UInt8} (hti : ti.toNat < p.length)
    (bg : Option (FPixel F)) (px : FPixel F) (hint : UInt8) : (plainByte n ti bg px hint).toNat < p.length := by
  have h := Nearest.search_lt hn px hint.toNat
  have e := search_toNat hn px hint.toNat
  unfold plainByte
  cases bg with
  | none => simp only; omega
  | some b => simp only; split <;> omega

/-- the same background, if any -/
def BgSame (a b : Option (Rows F)) : Prop :=
  match a, b with
  | none, none => True
  | some a, some b => Rows.Same a b
  | _, _ => False

theorem BgSame.refl (a : Option (Rows F)) : BgSame a a := by
  cases a with
  | none => trivial
  | some a => exact Rows.Same.refl a

theorem BgSame.trans {a b c : Option (Rows F)} (h : BgSame a b) (k : BgSame b c) : BgSame a c := by
  cases a <;> cases b <;> cases c <;> simp only [BgSame] at *; exact h.trans k

theorem BgSame.good {px px' : Rows F} {a b : Option (Rows F)} (h : BgSame a b) (hp : Rows.Same px px') (hg : BgGood px a) :
    BgGood px' b := by
  intro x hx
  subst hx
  cases a with
  | none => simp only [BgSame] at h
  | some a =>
    simp only [BgSame] at h
    obtain ⟨h1, h2, h3⟩ := hg a rfl
    exact ⟨h.readable h1, by rw [h.width, h2, hp.width], by rw [h.height, h3, hp.height]⟩

theorem BgSame.pixel {px : Rows F} {a b : Option (Rows F)} (h : BgSame a b) (hg : BgGood px a) {y : ℕ} (hy : y < px.height)
    (x : ℕ) : bgPixel b y x = bgPixel a y x := by
  cases a <;> cases b <;> simp only [BgSame] at h
  · rfl
  next a b => simp only [bgPixel]; rw [h.pixelsF (by rw [(hg a rfl).2.2]; exact hy)]

theorem prepareOpt_ok {px : Rows F} {bg : Option (Rows F)} (hg : BgGood px bg) :
    ∃ bg', prepareOpt bg = .ok bg' ∧ BgSame bg bg' := by
  cases bg with
  | none => exact ⟨none, rfl, trivial⟩
  | some b =>
    obtain ⟨b', e, same, _⟩ := Rows.prepare_same (hg b rfl).1 true
    refine ⟨some b', ?_, same⟩
    simp only [prepareOpt, e]; rfl

/-- whether the background is used, and the transparent index then -/
theorem pickBackground_cases (n : Nearest F) (bg : Option (Rows F)) :
    (∃ b, bg = some b ∧ lt (palColor n.palette (transparentIndex n).toNat).a minOpaqueA = true ∧
      pickBackground n bg = (some b, transparentIndex n)) ∨
    ((bg = none ∨ lt (palColor n.palette (transparentIndex n).toNat).a minOpaqueA = false) ∧
      pickBackground n bg = (none, 0)) := by
  unfold pickBackground
  cases bg with
  | none => exact .inr ⟨.inl rfl, rfl⟩
  | some b =>
    by_cases h : lt (palColor n.palette (transparentIndex n).toNat).a minOpaqueA = true
    · exact .inl ⟨b, rfl, h, by simp only [h, if_true]⟩
    · exact .inr ⟨.inr (by simpa using h), by simp [h]⟩

/-- What an undithered remap does, whether it reports success or not. -/
structure PlainSpec (px : Rows F) (bg : Option (Rows F)) (nrows : ℕ) (p : PalF F) (res : Res F) (r : RemapOut F) : Prop where
  samePx : Rows.Same px r.px
  sameBg : BgSame bg r.background
  palette : r.palette.length = p.length
  outcome : (∃ e, res = .ok e) ∨ (res = .error (.err .outOfMemory) ∧ ∃ x : F, isNan x = true)
  rows : ∃ n rows, Nearest.new p = .ok n ∧ r.rows = some rows ∧ rows.length = nrows ∧
    ∀ (y : ℕ) (bytes : List UInt8), rows[y]? = some bytes →
      RowSpec n (pickBackground n bg).2 px (pickBackground n bg).1 y bytes

theorem remapFinish_length (env : RemapEnv F) (outs : List (RowOut F)) (b : Bool) (ti : UInt8) (p : PalF F) :
    (remapFinish env outs b ti p).length = p.length := by
  unfold remapFinish
  dsimp only
  split
  · exact (Kmeans.finalizePalette_keeps _ _).1
  · rfl

/-- the loop part: nothing can fail once the palette is accepted -/
theorem remapToPalette_spec (env : RemapEnv F) {px : Rows F} {bg : Option (Rows F)} (imp : Option (List UInt8))
    {nrows : ℕ} {p : PalF F} (hp0 : 0 < p.length) (hp : p.length ≤ 256) (hpx : px.Readable) (hbg : BgGood px bg)
    (hn : nrows ≤ px.height) :
    PlainSpec px bg nrows p (remapToPalette env px bg imp nrows p).1 (remapToPalette env px bg imp nrows p).2 := by
  obtain ⟨n, hnew⟩ := Nearest.new_of_len hp0 hp
  have hn' : Nearest.new n.palette = .ok n := by rw [(Nearest.new_ok hnew).2.2.1]; exact hnew
  unfold remapToPalette
  rw [hnew]
  obtain ⟨px', e1, s1, _⟩ := Rows.prepare_same hpx true
  simp only [e1]
  -- the background in use
  have hused : ∃ used ti, pickBackground n bg = (used, ti) ∧ (used = none ∨ used = bg) := by
    rcases pickBackground_cases n bg with ⟨b, hb, _, h⟩ | ⟨_, h⟩
    · exact ⟨_, _, h, .inr hb.symm⟩
    · exact ⟨_, _, h, .inl rfl⟩
  obtain ⟨used, ti, hpick, hor⟩ := hused
  rw [hpick]
  simp only
  have hgood : BgGood px used := by
    rcases hor with rfl | rfl
    · intro b hb; cases hb
    · exact hbg
  obtain ⟨used', e2, s2⟩ := prepareOpt_ok hgood
  rw [e2]
  simp only
  have hgood' : BgGood px' used' := s2.good s1 hgood
  -- rows
  have hrow : ∀ y < nrows, ∃ r, remapRow n ti px' used' imp y = .ok r ∧ RowSpec n ti px' used' y r.bytes :=
    fun y hy => remapRow_ok hn' ti imp (s1.readable hpx) hgood' (by rw [s1.height]; omega)
  let g : ℕ → RowOut F := fun y => match remapRow n ti px' used' imp y with
    | .ok r => r
    | .error _ => ⟨[], zero, []⟩
  have hg : ∀ y < nrows, remapRow n ti px' used' imp y = .ok (g y) := by
    intro y hy
    obtain ⟨r, hr, _⟩ := hrow y hy
    simp only [g, hr]
  rw [remapLoop_ok (env.sched_valid nrows).2 n ti px' used' imp g hg]
  simp only
  have hbgsame : BgSame bg (if used'.isSome = true then used' else bg) := by
    split
    next h =>
      rcases hor with rfl | rfl
      · cases used' with
        | none => cases h
        | some x => simp only [BgSame] at s2
      · exact s2
    · exact BgSame.refl bg
  have hrows : ∃ n' rows, Except.ok n = (Except.ok n' : Res (Nearest F)) ∧
      some (((List.range nrows).map g).map (·.bytes)) = some rows ∧ rows.length = nrows ∧
      ∀ (y : ℕ) (bytes : List UInt8), rows[y]? = some bytes →
        RowSpec n' (pickBackground n' bg).2 px (pickBackground n' bg).1 y bytes := by
    refine ⟨n, _, rfl, rfl, by simp, fun y bytes hb => ?_⟩
    rw [hpick]
    have hy : y < nrows := by
      have := (List.getElem?_eq_some_iff.mp hb).1
      simpa using this
    rw [List.getElem?_map, List.getElem?_map, List.getElem?_range hy] at hb
    simp only [Option.map_some, Option.some.injEq] at hb
    subst hb
    obtain ⟨r, hr, hs⟩ := hrow y hy
    have : g y = r := by simp only [g, hr]
    rw [this]
    refine ⟨by rw [hs.len, s1.width], fun x q hq => ?_⟩
    rw [← s1.pixelsF (by omega)] at hq
    obtain ⟨hint, hlt, hh⟩ := hs.val x q hq
    refine ⟨hint, hlt, ?_⟩
    rw [hh, s2.pixel hgood (by omega)]
  split
  next hnan => exact ⟨s1, hbgsame, rfl, .inr ⟨rfl, _, hnan⟩, hnew ▸ hrows⟩
  · exact ⟨s1, hbgsame, remapFinish_length .., .inl ⟨_, rfl⟩, hnew ▸ hrows⟩

end Verif
