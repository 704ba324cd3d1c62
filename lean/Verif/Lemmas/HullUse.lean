import Verif.Lemmas.HullHist
import Verif.Lemmas.Lossless
import Verif.Props.Gamma
import Mathlib.Analysis.Convex.Combination

/-! Properties that mixing keeps: which there are, and that the palette keeps them while a result is used. -/

set_option linter.unusedSectionVars false

namespace Verif
open Flt Spec

/-! ### Properties that mixing keeps -/

theorem Mixes.and {P R : FPixel ℝ → Prop} (hP : Mixes P) (hR : Mixes R) : Mixes fun c => P c ∧ R c := by
  intro l h0 h1
  exact ⟨hP l (fun x hx => ⟨(h0 x hx).1.1, (h0 x hx).2⟩) h1, hR l (fun x hx => ⟨(h0 x hx).1.2, (h0 x hx).2⟩) h1⟩

theorem Mixes.congr {P R : FPixel ℝ → Prop} (hP : Mixes P) (h : ∀ c, R c ↔ P c) : Mixes R := by
  intro l h0 h1
  rw [h]
  exact hP l (fun x hx => ⟨(h _).1 (h0 x hx).1, (h0 x hx).2⟩) h1

/-- half-spaces -/
theorem mixes_half (k ka kr kg kb : ℝ) : Mixes fun c => k ≤ ka * c.a + kr * c.r + kg * c.g + kb * c.b := by
  intro l h0 h1
  show k ≤ ka * _ + kr * _ + kg * _ + kb * _
  have key : k * (l.map (·.2)).sum ≤ ka * (l.map fun x => x.1.a * x.2).sum + kr * (l.map fun x => x.1.r * x.2).sum +
      kg * (l.map fun x => x.1.g * x.2).sum + kb * (l.map fun x => x.1.b * x.2).sum := by
    clear h1
    induction l with
    | nil => simp
    | cons y l ih =>
      have := ih (fun x hx => h0 x (by simp [hx]))
      have hy := h0 y (by simp)
      have := mul_le_mul_of_nonneg_right hy.1 hy.2
      simp only [List.map_cons, List.sum_cons]
      linarith
  rw [show ∀ s A R G B : ℝ, ka * (A / s) + kr * (R / s) + kg * (G / s) + kb * (B / s) = (ka * A + kr * R + kg * G + kb * B) / s from
    fun s A R G B => by ring]
  rw [le_div_iff₀ h1]
  exact key

/-- the four numbers of a colour -/
def Spec.vec (c : FPixel ℝ) : Fin 4 → ℝ := ![c.a, c.r, c.g, c.b]

/-- convex sets -/
theorem mixes_convex {K : Set (Fin 4 → ℝ)} (hK : Convex ℝ K) : Mixes fun c => vec c ∈ K := by
  intro l h0 h1
  have hs := hK.sum_mem (t := Finset.univ) (w := fun i : Fin l.length => l[i].2 / (l.map (·.2)).sum) (z := fun i => vec l[i].1)
    (fun i _ => div_nonneg (h0 _ (List.getElem_mem _)).2 h1.le)
    (by
      simp only [div_eq_mul_inv]; rw [← Finset.sum_mul]
      have : ∑ i : Fin l.length, l[i].2 = (l.map (·.2)).sum := by
        rw [← Fin.sum_univ_getElem]
        exact Fintype.sum_equiv (finCongr (by simp)) _ _ (fun i => by simp)
      rw [this]; exact mul_inv_cancel₀ h1.ne')
    (fun i _ => (h0 _ (List.getElem_mem _)).1)
  have hsum : ∀ g : FPixel ℝ × ℝ → ℝ, (l.map g).sum = ∑ i : Fin l.length, g l[i] := by
    intro g
    rw [← Fin.sum_univ_getElem]
    exact (Fintype.sum_equiv (finCongr (by simp)) _ _ (fun i => by simp)).symm
  convert hs using 1
  funext k
  rw [Finset.sum_apply]
  simp only [Pi.smul_apply, smul_eq_mul]
  have hk : ∀ g : FPixel ℝ → ℝ, (l.map fun x => g x.1 * x.2).sum / (l.map (·.2)).sum =
      ∑ i : Fin l.length, l[i].2 / (l.map (·.2)).sum * g l[i].1 := by
    intro g
    rw [hsum, div_eq_mul_inv, Finset.sum_mul]
    exact Finset.sum_congr rfl fun i _ => by ring
  fin_cases k
  · exact hk (·.a)
  · exact hk (·.r)
  · exact hk (·.g)
  · exact hk (·.b)

/-! ### The palette after an undithered remap -/

open Kmeans in
theorem gain_sums (l : List (FPixel ℝ × ℝ × ℕ)) (j : ℕ) : gain l j =
    let m := l.filter (fun u => u.2.2 = j)
    ⟨⟨(m.map fun u => u.1.a * u.2.1).sum, (m.map fun u => u.1.r * u.2.1).sum, (m.map fun u => u.1.g * u.2.1).sum,
      (m.map fun u => u.1.b * u.2.1).sum⟩, (m.map fun u => u.2.1).sum⟩ := by
  unfold gain
  dsimp only
  generalize l.filter (fun u => decide (u.2.2 = j)) = m
  induction m with
  | nil => rfl
  | cons u m ih =>
    simp only [List.map_cons, List.sum_cons, ih]
    rfl

open Kmeans in
theorem finalizeEntry_gain {P : FPixel ℝ → Prop} (hP : Mixes P) {l : List (FPixel ℝ × ℝ × ℕ)} {j : ℕ} {e : PalEntry ℝ}
    (he : P e.color) (h : ∀ u ∈ l, P u.1 ∧ 0 ≤ u.2.1) : P (finalizeEntry (gain l j) e).color := by
  unfold finalizeEntry
  split
  · exact he
  · dsimp only
    split
    next hc =>
      have hc1 := ((Bool.and_eq_true _ _).mp hc).1
      rw [gain_sums] at hc1 ⊢
      simp only [real_lt, real_lit64, Rat.cast_zero] at hc1
      have := hP ((l.filter fun u => decide (u.2.2 = j)).map fun u => (u.1, u.2.1)) (by
        intro y hy
        obtain ⟨x, hx, rfl⟩ := List.mem_map.1 hy
        exact h x (List.mem_filter.1 hx).1) (by simpa [List.map_map, Function.comp_def] using hc1)
      simpa [List.map_map, Function.comp_def] using this
    · exact he

open Kmeans in
/-- The palette that an undithered remap without background computes mixes the palette with the pixels. -/
theorem remapToPalette_mixes {P : FPixel ℝ → Prop} (hP : Mixes P) (env : RemapEnv ℝ) {px : Rows ℝ} (imp : Option (List UInt8))
    {nrows : ℕ} {p : PalF ℝ} (h0 : 0 < p.length) (h1 : p.length ≤ 256) (hpx : px.Readable) (hn : nrows ≤ px.height)
    (hall : ∀ y < nrows, ∀ c ∈ px.pixelsF y, P c) (hp : ∀ e ∈ p, P e.color) :
    ∀ e ∈ (remapToPalette env px none imp nrows p).2.palette, P e.color := by
  obtain ⟨n, hnew⟩ := Nearest.new_of_len h0 h1
  have hn' : Nearest.new n.palette = .ok n := by rw [(Nearest.new_ok hnew).2.2.1]; exact hnew
  have hplen : n.palette = p := (Nearest.new_ok hnew).2.2.1
  obtain ⟨px', bg', _, _, heq⟩ := remapToPalette_eq (bg := none) imp hnew hpx (fun b hb => by cases hb) hn
  rw [heq env]
  split
  · exact hp
  · dsimp only
    have hpick : pickBackground n (none : Option (Rows ℝ)) = (none, 0) := rfl
    have hups : ∀ r ∈ plainRows n px none imp nrows, ∀ u ∈ r.updates, u.2.2 < p.length ∧ P u.1 ∧ 0 ≤ u.2.1 := by
      intro r hr u hu
      unfold plainRows at hr
      simp only [List.mem_map, List.mem_range] at hr
      obtain ⟨y, hy, rfl⟩ := hr
      unfold plainRow at hu
      obtain ⟨hmem, ⟨hint, hidx⟩, b, hb⟩ := remapPixels_updates hn' _ _ _ _ _ _ u hu
      refine ⟨?_, hall y hy _ hmem, ?_⟩
      · rw [hidx, ← hplen]; exact Nearest.search_lt hn' _ _
      · rw [hb, real_lit32]; positivity
    rw [hpick]
    simp only [Option.isSome_none]
    rw [remapFinish_eq env _ _ _ _ (by simpa using h0) (fun r hr u hu => (hups r hr u hu).1)]
    intro e he
    obtain ⟨i, hi⟩ := List.getElem?_of_mem he
    have hlt : i < p.length := by
      have := (List.getElem?_eq_some_iff.mp hi).1
      rwa [finalizePalette_length] at this
    rw [finalizePalette_get _ _ (by simp) i p[i] (List.getElem?_eq_getElem hlt)] at hi
    injection hi with hi
    rw [← hi]
    have hget : ((List.range p.length).map (gain (allUpdates (plainRows n px none imp nrows) false 0))).getD i 0 =
        gain (allUpdates (plainRows n px none imp nrows) false 0) i := by
      simp [List.getD_eq_getElem?_getD, hlt]
    rw [hget]
    apply finalizeEntry_gain hP (hp _ (List.getElem_mem hlt))
    intro u hu
    unfold allUpdates rowUpdates at hu
    simp only [Bool.false_eq_true, if_false, List.nil_append, List.mem_flatMap, List.mem_range] at hu
    obtain ⟨y, _, hu⟩ := hu
    split at hu
    next r hr => exact (hups r (List.mem_of_getElem? hr) u hu).2
    · cases hu

/-! ### Use of a result -/

/-- What a caller can do with a result when all the images it is applied to have only pixels with `Q` and a gamma with
`G`, and only output gammas with `G` are set. -/
inductive Spec.UsesOn (G : ℝ → Prop) (Q : RGBA → Prop) (q0 : QuantizationResult ℝ) : QuantizationResult ℝ → Prop
  | start : UsesOn G Q q0 q0
  | remap {q : QuantizationResult ℝ} {img : Image ℝ} {f : ℕ → ℕ → RGBA} (env : RemapEnv ℝ) (buf : List (Option UInt8))
      (log : List ℝ) : UsesOn G Q q0 q → UserImage img → G img.px.gamma → img.px.Shows f →
      (∀ y < img.height, ∀ x < img.width, Q (f y x)) → UsesOn G Q q0 (remapInto env q img buf log).quant
  | level {q q' : QuantizationResult ℝ} {v : ℝ} : UsesOn G Q q0 q → q.setDitheringLevel v = .ok q' → UsesOn G Q q0 q'
  | gamma {q q' : QuantizationResult ℝ} {v : ℝ} : UsesOn G Q q0 q → G v → q.setOutputGamma v = .ok q' → UsesOn G Q q0 q'
  | callback {q : QuantizationResult ℝ} (cb : Option (List ℝ → Bool)) :
      UsesOn G Q q0 q → UsesOn G Q q0 { q with progressCallback := cb }
  | clone {q : QuantizationResult ℝ} : UsesOn G Q q0 q → UsesOn G Q q0 q.clone
  | palette {q : QuantizationResult ℝ} : UsesOn G Q q0 q → UsesOn G Q q0 q.getPalette.1

theorem Spec.UsesOn.user {G : ℝ → Prop} {Q : RGBA → Prop} {q0 q : QuantizationResult ℝ} (hq : UserResult q0) (h : UsesOn G Q q0 q) :
    UserResult q := by
  induction h with
  | start => exact hq
  | remap env buf log _ hi _ _ _ ih => exact .remap env buf log ih hi
  | level _ e ih => exact .level ih e
  | gamma _ _ e ih => exact .gamma ih e
  | callback cb _ ih => exact .callback cb ih
  | clone _ ih => exact .clone ih
  | palette _ ih => exact .palette ih

/-- the colours of the palette have `P`, the bytes that were computed from them `B` -/
structure OnState (G : ℝ → Prop) (P : FPixel ℝ → Prop) (B : RGBA → Prop) (bits : ℕ) (q : QuantizationResult ℝ) : Prop where
  gamma_ : G q.gamma
  post_ : q.minPosterizationOutput = bits
  palette_ : ∀ e ∈ q.palette, P e.color
  int_ : ∀ c ∈ q.intPalette, B c
  remapped_ : ∀ re, q.remapped = some re → ∀ c ∈ re.intPalette, B c

theorem Spec.UsesOn.state {G : ℝ → Prop} {Q : RGBA → Prop} {P : FPixel ℝ → Prop} {B : RGBA → Prop} {bits : ℕ}
    {q0 q : QuantizationResult ℝ} (hP : Mixes P) (hPQ : ∀ γ c, G γ → Q c → P (FPixel.fromRgba (gammaLut γ) c))
    (hr : ∀ γ e, G γ → P e.color → B (PalF.roundEntry γ (UInt8.ofNat bits) e).2 ∧ P (PalF.roundEntry γ (UInt8.ofNat bits) e).1.color)
    (hq : UserResult q0) (h0 : OnState G P B bits q0) (h : UsesOn G Q q0 q) : OnState G P B bits q := by
  induction h with
  | start => exact h0
  | @remap q img f env buf log hc hi hg hs hf ih =>
    have good := (hc.user hq).good
    rcases remapInto_quant env good hi.good buf log with ⟨_, e⟩ | ⟨_, p, err, hp, e⟩ <;> rw [e]
    · exact ih
    · refine ⟨ih.gamma_, ih.post_, ih.palette_, ih.int_, fun re hre => ?_⟩
      simp only [Option.some.injEq] at hre
      rw [← hre]
      dsimp only
      have hpP : ∀ e ∈ p, P e.color := by
        rcases hp with rfl | ⟨_, px, hsame, rfl⟩
        · exact ih.palette_
        · apply remapToPalette_mixes hP env _ good.pos good.le (hsame.readable hi.good.px) (le_of_eq hsame.height.symm) _ ih.palette_
          intro y hy c hc
          have := (hsame.shows hs) y (by rw [hsame.height]; exact hy)
          unfold Rows.pixelsF at hc
          rw [this] at hc
          obtain ⟨x, hx, rfl⟩ := List.mem_map.1 hc
          rw [hsame.gamma]
          apply hPQ _ _ hg (hf y hy x _)
          have := List.mem_range.1 hx
          rw [hsame.width] at this
          exact this
      intro c hc
      unfold PalF.conv PalF.initIntPalette at hc
      obtain ⟨e, he, rfl⟩ := List.mem_map.1 hc
      rw [ih.post_]
      exact (hr _ _ ih.gamma_ (hpP e he)).1
  | level _ e ih =>
    unfold QuantizationResult.setDitheringLevel at e
    split at e <;> cases e
    exact ⟨ih.1, ih.2, ih.3, ih.4, fun re hre => by cases hre⟩
  | gamma _ hg e ih =>
    unfold QuantizationResult.setOutputGamma at e
    split at e <;> cases e
    exact ⟨hg, ih.2, ih.3, ih.4, fun re hre => by cases hre⟩
  | callback cb _ ih => exact ⟨ih.1, ih.2, ih.3, ih.4, ih.5⟩
  | clone _ ih => exact ⟨ih.1, ih.2, ih.3, ih.4, ih.5⟩
  | @palette q _ ih =>
    unfold QuantizationResult.getPalette
    cases hre : q.remapped with
    | some re => exact ih
    | none =>
      dsimp only
      split
      · refine ⟨ih.1, ih.2, ?_, ?_, fun re h => by cases h⟩
        · intro e he
          unfold PalF.initIntPalette at he
          obtain ⟨e', he', rfl⟩ := List.mem_map.1 he
          rw [ih.post_]
          exact (hr _ _ ih.gamma_ (ih.palette_ e' he')).2
        · intro c hc
          unfold PalF.initIntPalette at hc
          obtain ⟨e, he, rfl⟩ := List.mem_map.1 hc
          rw [ih.post_]
          exact (hr _ _ ih.gamma_ (ih.palette_ e he)).1
      · exact ih

theorem OnState.report {G : ℝ → Prop} {P : FPixel ℝ → Prop} {B : RGBA → Prop} {bits : ℕ} {q : QuantizationResult ℝ}
    (hr : ∀ γ e, G γ → P e.color → B (PalF.roundEntry γ (UInt8.ofNat bits) e).2 ∧ P (PalF.roundEntry γ (UInt8.ofNat bits) e).1.color)
    (h : OnState G P B bits q) : ∀ c ∈ q.getPalette.2, B c := by
  unfold QuantizationResult.getPalette
  cases hre : q.remapped with
  | some re => exact h.remapped_ re hre
  | none =>
    dsimp only
    split
    · intro c hc
      unfold PalF.initIntPalette at hc
      obtain ⟨e, he, rfl⟩ := List.mem_map.1 hc
      rw [h.post_]
      exact (hr _ _ h.gamma_ (h.palette_ e he)).1
    · exact h.int_

/-- the whole story from histogram to reported palette -/
theorem mixes_report {G : ℝ → Prop} {Q : RGBA → Prop} {P : FPixel ℝ → Prop} {B : RGBA → Prop} (hP : Mixes P)
    (hPQ : ∀ γ c, G γ → Q c → P (FPixel.fromRgba (gammaLut γ) c)) {cs : List Call} {cb : Option (List ℝ → Bool)}
    (hr : ∀ γ e, G γ → P e.color → B (PalF.roundEntry γ (UInt8.ofNat (userAttr (F := ℝ) cs cb).minPosterizationOutput) e).2 ∧
      P (PalF.roundEntry γ (UInt8.ofNat (userAttr (F := ℝ) cs cb).minPosterizationOutput) e).1.color)
    {h : Histogram ℝ} (hh : Holds Q h) {env : Env ℝ} {freeze : Bool} {log log' : List ℝ}
    {r q : QuantizationResult ℝ} (e : h.quantizeInternal env (userAttr cs cb) freeze log = (.ok r, log'))
    (hg : G r.gamma) (hu : UsesOn G Q r q) : ∀ c ∈ q.getPalette.2, B c := by
  have hfacts : r.gamma = h.gamma.getD (45455/100000 : ℝ) ∧ r.minPosterizationOutput = (userAttr (F := ℝ) cs cb).minPosterizationOutput := by
    rcases user_outcome env cs cb h freeze log with ⟨-, -, e'⟩ | ⟨-, e'⟩
    · rw [e] at e'; cases e'
    · rw [e] at e'
      cases e' with
      | ok _ _ _ _ hr => rw [hr.rest]; exact ⟨by simp, rfl⟩
  obtain ⟨-, h1, h2⟩ := quantize_good env cs cb h freeze log log' e
  have h0 : OnState G P B (userAttr (F := ℝ) cs cb).minPosterizationOutput r := by
    refine ⟨hg, hfacts.2, quantize_mixes hP hh (fun c hc => ?_) e, by simp [h2], fun re hre => by rw [h1] at hre; cases hre⟩
    rw [← hfacts.1]
    exact hPQ _ _ hg hc
  exact (hu.state hP hPQ hr (.quantized env cs cb h freeze log log' e) h0).report hr

end Verif
