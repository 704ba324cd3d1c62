import Verif.Lemmas.Machine
import Verif.Lemmas.HistDistinct

/-! Histograms in machine integers are histograms in unbounded integers. -/

set_option linter.unusedSectionVars false

namespace Verif
open Flt Mach Spec

variable {F : Type} [Flt F]

/-! ### Keys -/

theorem maskColorM_eq {bits : ℕ} (hb : bits ≤ 7) (c : RGBA) : maskColorM bits c = .ok (maskColor bits c) := by
  unfold maskColorM shl
  rw [if_pos (by omega), Res.ok_bind]
  have h : ∀ b : Fin 8, UInt8.ofNat (255 * 2 ^ b.val % 2 ^ 8) = (255 : UInt8) <<< UInt8.ofNat b.val := by decide
  have hb' := h ⟨bits, by omega⟩
  dsimp only at hb'
  rw [hb']
  rfl

theorem addColorM_eq {h : Histogram F} (hb : h.posterizeBits ≤ 7) (c : RGBA) (n : ℕ) :
    h.addColorM c n = .ok (h.addColor c n) := by
  unfold Histogram.addColorM Histogram.addColor
  split
  · rfl
  · by_cases ha : c.a ≠ 0
    · rw [if_pos ha, if_pos ha, maskColorM_eq hb]; rfl
    · rw [if_neg ha, if_neg ha]; rfl

theorem addRowM_eq {h : Histogram F} (hb : h.posterizeBits ≤ 7) (row : List RGBA) (imp : List ℕ) :
    h.addRowM row imp = .ok (h.addRow row imp) := by
  induction row generalizing h imp with
  | nil => rfl
  | cons c cs ih =>
    have hr : ∀ n, (h.addColor c n).posterizeBits ≤ 7 := fun n => by rw [(Histogram.addColor_rest h c n).1]; exact hb
    cases imp with
    | nil => rw [Histogram.addRowM, Histogram.addRow, addColorM_eq hb, Res.ok_bind, ih (hr _)]
    | cons b bs => rw [Histogram.addRowM, Histogram.addRow, addColorM_eq hb, Res.ok_bind, ih (hr _)]

theorem addRow_bits (h : Histogram F) (row : List RGBA) (imp : List ℕ) : (h.addRow row imp).posterizeBits = h.posterizeBits := by
  induction row generalizing h imp with
  | nil => rfl
  | cons c cs ih =>
    cases imp with
    | nil => rw [Histogram.addRow, ih, (Histogram.addColor_rest h c _).1]
    | cons b bs => rw [Histogram.addRow, ih, (Histogram.addColor_rest h c _).1]

theorem addRowsM_eq {h : Histogram F} (hb : h.posterizeBits ≤ 7) (w : ℕ) (rows : List (List RGBA)) (imp : List ℕ) :
    h.addRowsM w rows imp = .ok (h.addRows w rows imp) := by
  induction rows generalizing h imp with
  | nil => rfl
  | cons r rs ih =>
    unfold Histogram.addRowsM Histogram.addRows
    split
    · rw [addRowM_eq hb, Res.ok_bind, ih (by rw [addRow_bits]; exact hb)]
    · rw [addRowM_eq hb, Res.ok_bind, ih (by rw [addRow_bits]; exact hb)]

theorem addRows_bits (h : Histogram F) (w : ℕ) (rows : List (List RGBA)) (imp : List ℕ) :
    (h.addRows w rows imp).posterizeBits = h.posterizeBits := by
  induction rows generalizing h imp with
  | nil => rfl
  | cons r rs ih =>
    unfold Histogram.addRows
    split <;> rw [ih, addRow_bits]

theorem initPosterizeBitsM_eq (ho : HashOrder) (h : Histogram F) {bits : ℕ} (hb : bits ≤ 7) :
    h.initPosterizeBitsM ho bits = .ok (h.initPosterizeBits ho bits) := by
  unfold Histogram.initPosterizeBitsM Histogram.initPosterizeBits
  split
  · rfl
  · have : ∀ (l m : ColorMap), l.foldlM (fun m (x : RGBA × (ℕ × RGBA)) => do return ColorMap.upsert m (← maskColorM bits x.1) (fun _ => x.2)) m =
        (.ok (l.foldl (fun m (x : RGBA × (ℕ × RGBA)) => ColorMap.upsert m (maskColor bits x.1) (fun _ => x.2)) m) : Res ColorMap) := by
      intro l
      induction l with
      | nil => intro m; rfl
      | cons x l ih =>
        intro m
        rw [List.foldlM_cons, List.foldl_cons, ← ih, maskColorM_eq hb]
        rfl
    have h2 := this (ho.map h.hashmap) []
    change (List.foldlM (fun m (x : RGBA × (ℕ × RGBA)) => do return ColorMap.upsert m (← maskColorM bits x.1) (fun _ => x.2)) [] (ho.map h.hashmap) >>= _) = _
    rw [h2, Res.ok_bind]
    rfl

theorem initPosterizeBits_le (ho : HashOrder) (h : Histogram F) (bits : ℕ) :
    (h.initPosterizeBits ho bits).posterizeBits = max h.posterizeBits bits := by
  unfold Histogram.initPosterizeBits
  split
  · omega
  · simp only; omega

theorem finishRowsM_eq (ho : HashOrder) (h : Histogram F) {bits : ℕ} (hb : bits ≤ 7) :
    h.finishRowsM ho bits = .ok (h.finishRows ho bits) := by
  unfold Histogram.finishRowsM Histogram.finishRows
  rw [initPosterizeBitsM_eq ho h hb, Res.ok_bind]
  dsimp only
  split
  next hc =>
    rw [add_lt (by norm_num; omega), Res.ok_bind, initPosterizeBitsM_eq ho _ (by omega)]
  · rfl

theorem addPixelRowsM_eq (ho : HashOrder) {h : Histogram F} (hh : h.posterizeBits ≤ 7) (w : ℕ) (rows : List (List RGBA))
    (imp : Option (List ℕ)) {bits : ℕ} (hb : bits ≤ 7) :
    h.addPixelRowsM ho w rows imp bits = .ok (h.addPixelRows ho w rows imp bits) := by
  unfold Histogram.addPixelRowsM Histogram.addPixelRows
  rw [addRowsM_eq hh, Res.ok_bind, finishRowsM_eq ho _ hb]

theorem addColorsM_eq {h : Histogram F} (hh : h.posterizeBits ≤ 7) (entries : List (RGBA × ℕ)) (gamma : F) :
    h.addColorsM entries gamma = h.addColors entries gamma := by
  unfold Histogram.addColorsM Histogram.addColors
  split
  · rfl
  · split
    · rfl
    · have : ∀ (l : List (RGBA × ℕ)) (h : Histogram F), h.posterizeBits ≤ 7 →
          l.foldlM (fun h (x : RGBA × ℕ) => Histogram.addColorM h x.1 x.2) h =
          (.ok (l.foldl (fun h (x : RGBA × ℕ) => Histogram.addColor h x.1 x.2) h) : Res (Histogram F)) := by
        intro l
        induction l with
        | nil => intro h _; rfl
        | cons x l ih =>
          intro h hb
          rw [List.foldlM_cons, List.foldl_cons, addColorM_eq hb, Res.ok_bind]
          exact ih _ (by rw [(Histogram.addColor_rest h x.1 x.2).1]; exact hb)
      exact this entries _ (by split <;> exact hh)

/-! ### A histogram has less than `2 ^ 32` entries -/

/-- the colour that is the key of nothing -/
def noKey : RGBA := ⟨1, 0, 0, 0⟩

/-- few bits are dropped, and the keys are not all the `2 ^ 32` colours -/
structure KeysOK (h : Histogram F) : Prop where
  bits : h.posterizeBits ≤ 4
  keys : ∀ k ∈ h.hashmap.map (·.1), k ≠ noKey

theorem maskColor_ne {bits : ℕ} (h1 : 1 ≤ bits) (h7 : bits ≤ 7) (c : RGBA) : maskColor bits c ≠ noKey := by
  intro e
  have hr : maskChannel bits c.r = 1 := congrArg RGBA.r e
  have := maskChannel_toNat bits h7 c.r
  rw [hr] at this
  obtain ⟨b, rfl⟩ : ∃ b, bits = b + 1 := ⟨bits - 1, by omega⟩
  rw [pow_succ, ← mul_assoc] at this
  have h1 : (1 : UInt8).toNat = 1 := rfl
  omega

theorem maskColor_zero (c : RGBA) : maskColor 0 c = c := by
  have h : ∀ x : UInt8, maskChannel 0 x = x := by
    intro x
    have := maskChannel_toNat 0 (by omega) x
    rw [← UInt8.toNat_inj, this]; simp
  unfold maskColor RGBA.map
  rw [h, h, h, h]

theorem colorKey_ne {bits : ℕ} (h7 : bits ≤ 7) (c : RGBA) : colorKey bits c ≠ noKey := by
  unfold colorKey
  split
  next ha =>
    by_cases hb : bits = 0
    · subst hb
      rw [maskColor_zero]
      intro e
      exact ha (congrArg RGBA.a e)
    · exact maskColor_ne (by omega) h7 c
  · decide

theorem upsert_mem {m : ColorMap} {k : RGBA} {f : Option (ℕ × RGBA) → ℕ × RGBA} {x : RGBA}
    (h : x ∈ (ColorMap.upsert m k f).map (·.1)) : x ∈ m.map (·.1) ∨ x = k := by
  rw [ColorMap.upsert_keys] at h
  split at h
  · exact Or.inl h
  · simpa using h

theorem KeysOK.addColor {h : Histogram F} (k : KeysOK h) (c : RGBA) (n : ℕ) : KeysOK (h.addColor c n) := by
  refine ⟨by rw [(Histogram.addColor_rest h c n).1]; exact k.bits, ?_⟩
  unfold Histogram.addColor
  split
  · exact k.keys
  · intro x hx
    rcases upsert_mem hx with h1 | h1
    · exact k.keys x h1
    · rw [h1]; exact colorKey_ne (by have := k.bits; omega) c

theorem KeysOK.addAll {h : Histogram F} (k : KeysOK h) (l : List (RGBA × ℕ)) :
    KeysOK (l.foldl (fun h (x : RGBA × ℕ) => h.addColor x.1 x.2) h) := by
  induction l generalizing h with
  | nil => exact k
  | cons x l ih => exact ih (k.addColor _ _)

theorem KeysOK.addRow {h : Histogram F} (k : KeysOK h) (row : List RGBA) (imp : List ℕ) : KeysOK (h.addRow row imp) := by
  induction row generalizing h imp with
  | nil => exact k
  | cons c cs ih =>
    cases imp with
    | nil => exact ih (k.addColor _ _) _
    | cons b bs => exact ih (k.addColor _ _) _

theorem KeysOK.addRows {h : Histogram F} (k : KeysOK h) (w : ℕ) (rows : List (List RGBA)) (imp : List ℕ) :
    KeysOK (h.addRows w rows imp) := by
  induction rows generalizing h imp with
  | nil => exact k
  | cons r rs ih =>
    unfold Histogram.addRows
    split <;> exact ih (k.addRow _ _) _

theorem KeysOK.initPosterizeBits {h : Histogram F} (k : KeysOK h) (ho : HashOrder) {bits : ℕ} (hb : bits ≤ 4) :
    KeysOK (h.initPosterizeBits ho bits) := by
  refine ⟨by rw [initPosterizeBits_le]; have := k.bits; omega, ?_⟩
  unfold Histogram.initPosterizeBits
  split
  · exact k.keys
  next hc =>
    have : ∀ (l m : ColorMap), (∀ x ∈ m.map (·.1), x ≠ noKey) →
        ∀ x ∈ (l.foldl (fun m (x : RGBA × (ℕ × RGBA)) => ColorMap.upsert m (maskColor bits x.1) (fun _ => x.2)) m).map (·.1), x ≠ noKey := by
      intro l
      induction l with
      | nil => intro m h; exact h
      | cons y l ih =>
        intro m h
        refine ih _ fun x hx => ?_
        rcases upsert_mem hx with h1 | h1
        · exact h x h1
        · rw [h1]; exact maskColor_ne (by omega) (by omega) _
    exact this _ [] (by simp)

theorem KeysOK.finishRows {h : Histogram F} (k : KeysOK h) (ho : HashOrder) {bits : ℕ} (hb : bits ≤ 4) :
    KeysOK (h.finishRows ho bits) := by
  unfold Histogram.finishRows
  dsimp only
  split
  next hc => exact (k.initPosterizeBits ho hb).initPosterizeBits ho (by omega)
  · exact k.initPosterizeBits ho hb

theorem fixedKey_ne (c : RGBA) : fixedKey c ≠ noKey := by
  unfold fixedKey
  split
  next ha => intro e; exact ha (congrArg RGBA.a e)
  · decide

theorem KeysOK.insertFixed {h : Histogram F} (k : KeysOK h) (ho : HashOrder) :
    ∀ x ∈ (h.insertFixedColors ho).map (·.1), x ≠ noKey := by
  intro x hx
  rw [Histogram.insertFixedColors_fold, insertFixed_keys] at hx
  rcases hx with h1 | ⟨f, _, rfl⟩
  · exact k.keys x h1
  · exact fixedKey_ne _

theorem userAttr_posterizeBits (cs : List Call) (cb : Option (List F → Bool)) : (userAttr cs cb).posterizeBits ≤ 4 := by
  have h1 := userAttr_posterization cs cb
  have h2 := (userAttr_speedOK cs cb).input
  unfold Attr.posterizeBits
  rw [h2]
  split <;> omega

theorem UserHistogram.keysOK {h : Histogram F} (hu : UserHistogram h) : KeysOK h := by
  induction hu with
  | new cs cb => exact ⟨userAttr_posterizeBits cs cb, by simp [Histogram.new]⟩
  | @image h img ho cs cb log _ _ ih =>
    unfold Histogram.addImage
    split
    · exact ih
    next i _ =>
      dsimp only
      have hx : KeysOK (if i.fixedColors.isEmpty then { h with gamma := i.gamma }
          else Histogram.extendFixed { h with gamma := i.gamma } i.fixedColors) := by
        split <;> exact ⟨ih.bits, ih.keys⟩
      split
      · exact hx
      · exact hx
      · split
        · exact hx
        · dsimp only
          unfold Histogram.addPixelRows
          exact (hx.addRows _ _ _).finishRows _ (userAttr_posterizeBits cs cb)
  | @colors h h' entries gamma _ e ih =>
    unfold Histogram.addColors at e
    split at e
    · cases e
    · split at e
      · cases e
      · dsimp only at e
        cases e
        refine KeysOK.addAll ?_ entries
        split
        · exact ⟨ih.bits, ih.keys⟩
        · exact ih
  | @fixed h h' c gamma _ e ih =>
    unfold Histogram.addFixedColor at e
    split at e
    · cases e
    · dsimp only at e
      cases e
      by_cases hc : h.gamma.isNone = true ∧ lt (lit64 0) gamma = true
      · simp only [if_pos hc]
        exact ⟨ih.bits, ih.keys⟩
      · simp only [if_neg hc]
        exact ⟨ih.bits, ih.keys⟩
  | @quantized h ho _ ih => exact ⟨ih.bits, ih.insertFixed ho⟩

/-- a colour as a number -/
def RGBA.code (c : RGBA) : ℕ := c.r.toNat + 256 * c.g.toNat + 65536 * c.b.toNat + 16777216 * c.a.toNat

theorem RGBA.code_inj {x y : RGBA} (h : x.code = y.code) : x = y := by
  unfold code at h
  have := x.r.toNat_lt; have := x.g.toNat_lt; have := x.b.toNat_lt; have := x.a.toNat_lt
  have := y.r.toNat_lt; have := y.g.toNat_lt; have := y.b.toNat_lt; have := y.a.toNat_lt
  cases x; cases y
  simp only [RGBA.mk.injEq, ← UInt8.toNat_inj] at *
  omega

theorem length_lt_of_noKey {l : List RGBA} (hd : l.Nodup) (hk : ∀ k ∈ l, k ≠ noKey) : l.length < 2 ^ 32 := by
  have h1 : (l.map RGBA.code).Nodup := hd.map fun _ _ => RGBA.code_inj
  have h2 : (l.map RGBA.code).toFinset ⊆ (Finset.range (2 ^ 32)).erase 1 := by
    intro n hn
    rw [List.mem_toFinset, List.mem_map] at hn
    obtain ⟨c, hc, rfl⟩ := hn
    rw [Finset.mem_erase, Finset.mem_range]
    refine ⟨fun e => hk c hc (RGBA.code_inj (e.trans (show 1 = noKey.code from rfl))), ?_⟩
    unfold RGBA.code
    have := c.r.toNat_lt; have := c.g.toNat_lt; have := c.b.toNat_lt; have := c.a.toNat_lt
    omega
  have h3 := Finset.card_le_card h2
  rw [List.toFinset_card_of_nodup h1, List.length_map, Finset.card_erase_of_mem (by simp), Finset.card_range] at h3
  omega

theorem UserHistogram.entries_lt {h : Histogram F} (hu : UserHistogram h) (ho : HashOrder) :
    (h.insertFixedColors ho).length < 2 ^ 32 := by
  rw [← List.length_map (f := (·.1))]
  refine length_lt_of_noKey ?_ (hu.keysOK.insertFixed ho)
  rw [Histogram.insertFixedColors_fold]
  exact insertFixed_distinct _ _ hu.distinct

/-! ### `finalize_builder` -/

namespace Histogram

theorem clusterCountsM_eq (temp : List (TempHistItem F)) (hc : ∀ t ∈ temp, t.cluster < maxCluster) (hl : temp.length < 2 ^ 32) :
    clusterCountsM temp = .ok (clusterCounts temp) := by
  unfold clusterCountsM clusterCounts
  have : ∀ (l : List (TempHistItem F)) (cs : List ℕ) (n : ℕ), cs.length = maxCluster → (∀ t ∈ l, t.cluster < maxCluster) →
      (∀ x ∈ cs, x ≤ n) → n + l.length < 2 ^ 32 →
      l.foldlM (fun counts t => do
        let n ← add 32 (← index counts t.cluster) 1
        return counts.set t.cluster n) cs = (.ok (l.foldl (fun counts t => counts.modify t.cluster (· + 1)) cs) : Res (List ℕ)) := by
    intro l
    induction l with
    | nil => intro cs n _ _ _ _; rfl
    | cons t l ih =>
      intro cs n h1 h2 h3 h4
      have ht : t.cluster < cs.length := by rw [h1]; exact h2 t (by simp)
      rw [List.foldlM_cons, List.foldl_cons]
      simp only [List.length_cons] at h4
      have hx := h3 _ (List.getElem_mem ht)
      have hi : index cs t.cluster = .ok cs[t.cluster] := by
        unfold index; rw [List.getElem?_eq_getElem ht]
      rw [hi, Res.ok_bind, add_lt (by omega), Res.ok_bind]
      have hm : cs.modify t.cluster (· + 1) = cs.set t.cluster (cs[t.cluster] + 1) := by
        rw [List.modify_eq_set_getElem?, List.getElem?_eq_getElem ht]; rfl
      rw [hm]
      show l.foldlM _ (cs.set t.cluster (cs[t.cluster] + 1)) = _
      refine ih _ (n + 1) (by simpa using h1) (fun t ht => h2 t (by simp [ht])) ?_ (by omega)
      intro x hx
      rcases List.mem_or_eq_of_mem_set hx with h5 | h5
      · have := h3 x h5; omega
      · omega
  exact this temp _ 0 (by simp) hc (by simp) (by omega)

theorem clusterBeginsM_eq (s : ℕ) (l : List ℕ) (h : s + l.sum < 2 ^ 32) : clusterBeginsM s l = .ok (clusterBegins s l) := by
  induction l generalizing s with
  | nil => rfl
  | cons c cs ih =>
    rw [List.sum_cons] at h
    unfold clusterBeginsM clusterBegins
    rw [add_lt (by omega), Res.ok_bind, ih (s + c) (by omega)]
    rfl

theorem placeM_eq (lut : UInt8 → F) (maxW : F) (temp : List (TempHistItem F)) (st : List (ℕ × ℕ) × List (HistItem F) × F)
    (h : st.2.1.length < 2 ^ 32) : temp.foldlM (placeItemM lut maxW) st = temp.foldlM (placeItem lut maxW) st := by
  induction temp generalizing st with
  | nil => rfl
  | cons t l ih =>
    obtain ⟨clusters, items, total⟩ := st
    dsimp only at h
    rw [List.foldlM_cons, List.foldlM_cons]
    cases hc : clusters[t.cluster]? with
    | none => simp only [placeItemM, placeItem, hc]; rfl
    | some be =>
      obtain ⟨b, e⟩ := be
      by_cases he : e < items.length
      · simp only [placeItemM, placeItem, hc]
        rw [add_lt (by omega), Res.ok_bind]
        simp only [if_pos he]
        rw [Res.ok_bind, Res.ok_bind]
        exact ih _ (by simpa using h)
      · simp only [placeItemM, placeItem, hc, if_neg he]
        unfold add fit
        split <;> rfl

theorem finalizeBuilderM_eq (ho : HashOrder) (h : Histogram F) (gamma : F) (hl : (h.insertFixedColors ho).length < 2 ^ 32) :
    h.finalizeBuilderM ho gamma = h.finalizeBuilder ho gamma := by
  unfold finalizeBuilderM finalizeBuilder
  dsimp only
  generalize htemp : (tempItems ho (h.insertFixedColors ho) : List (TempHistItem F)) = temp
  have hlen : temp.length < 2 ^ 32 := by rw [← htemp, length_tempItems]; exact hl
  have hc : ∀ t ∈ temp, t.cluster < maxCluster := by rw [← htemp]; exact tempItems_cluster ho _
  have hsum : (clusterCounts temp).sum = temp.length := by
    rw [counts_eq]
    exact beginOf_end temp hc
  rw [clusterCountsM_eq temp hc hlen, Res.ok_bind, clusterBeginsM_eq _ _ (by omega), Res.ok_bind,
    placeM_eq _ _ _ _ (by simpa using hlen)]

end Histogram

/-- Quantization of a caller's histogram. -/
theorem quantizeInternalM_eq [FltSign F] {h : Histogram F} (hu : UserHistogram h) (env : Env F) (cs : List Call) (cb : Option (List F → Bool))
    (freeze : Bool) (log : List F) :
    h.quantizeInternalM env (userAttr cs cb) freeze log = h.quantizeInternal env (userAttr cs cb) freeze log := by
  unfold Histogram.quantizeInternalM Histogram.quantizeInternal
  split
  · rfl
  next hne =>
    have hne' : h.hashmap ≠ [] ∨ h.fixedColors ≠ [] := by
      by_contra hn
      push Not at hn
      simp [hn.1, hn.2] at hne
    refine PM.bind_congr fun ab l e => ?_
    split
    · rfl
    · refine PM.bind_congr fun ab l e => ?_
      split
      · rfl
      · dsimp only
        rw [Histogram.finalizeBuilderM_eq _ _ _ (hu.entries_lt _)]
        refine PM.bind_congr fun hist l2 e2 => ?_
        obtain ⟨f2, rfl⟩ := PM.lift_ok_inv e2
        obtain ⟨r, e1, ht, hlen⟩ := Histogram.finalize_ok env.ho h (h.gamma.getD (lit64 (45455/100000)))
        rw [f2] at e1; cases e1
        have hpos : hist.items ≠ [] := by
          apply List.ne_nil_of_length_pos
          rw [hlen]; exact List.length_pos_iff.2 (Histogram.insertFixedColors_ne_nil env.ho h hne')
        have hmax := userAttr_range (F := F) cs cb
        have hs := userAttr_speedOK cs cb
        have hr := hs.range
        refine newM_eq (histOK_kept env hmax.2 hist) (fun p hp => ?_) hmax.1 ?_ ?_ ?_ ⟨ht, hpos, .refl _, rfl, rfl⟩ freeze _ _
        · have := hp.le; have := hmax.2; omega
        · rw [hs.trials]; omega
        · rw [hs.iterations]
          have h8 : 8 - (userAttr cs cb).speed ≤ 7 := by omega
          have := Nat.mul_le_mul h8 h8
          omega
        · have := userAttr_posterization cs cb; omega

end Verif
