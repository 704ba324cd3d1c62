import Verif.Lemmas.User
import Verif.Lemmas.HistAdd

/-! # Histograms a caller can make -/

set_option linter.unusedSectionVars false

namespace Verif
open Flt Spec

variable {F : Type} [Flt F]

/-- histograms after any use, including failed additions of images -/
inductive UserHistogram : Histogram F → Prop
  | new (cs : List Call) (cb : Option (List F → Bool)) : UserHistogram (Histogram.new (userAttr cs cb))
  | image {h : Histogram F} {img : Image F} (ho : HashOrder) (cs : List Call) (cb : Option (List F → Bool)) (log : List F) :
      UserHistogram h → UserImage img → UserHistogram (h.addImage ho (userAttr cs cb) img log).1.2.1
  | colors {h h' : Histogram F} {entries : List (RGBA × ℕ)} {gamma : F} :
      UserHistogram h → h.addColors entries gamma = .ok h' → UserHistogram h'
  | fixed {h h' : Histogram F} {c : RGBA} {gamma : F} :
      UserHistogram h → h.addFixedColor c gamma = .ok h' → UserHistogram h'
  | quantized {h : Histogram F} (ho : HashOrder) : UserHistogram h → UserHistogram (h.afterFinalize ho)

theorem Histogram.initPosterizeBits_gamma (ho : HashOrder) (h : Histogram F) (bits : ℕ) :
    (h.initPosterizeBits ho bits).gamma = h.gamma := by
  unfold Histogram.initPosterizeBits
  split <;> rfl

theorem Histogram.finishRows_gamma (ho : HashOrder) (h : Histogram F) (bits : ℕ) : (h.finishRows ho bits).gamma = h.gamma := by
  unfold Histogram.finishRows
  dsimp only
  split <;> simp only [initPosterizeBits_gamma]

theorem Histogram.addRow_gamma (h : Histogram F) (row : List RGBA) (imp : List ℕ) : (h.addRow row imp).gamma = h.gamma := by
  have hc : ∀ (h : Histogram F) c n, (h.addColor c n).gamma = h.gamma := by
    intro h c n; unfold Histogram.addColor; split <;> rfl
  induction row generalizing h imp with
  | nil => rfl
  | cons c cs ih =>
    cases imp with
    | nil => simp only [Histogram.addRow]; rw [ih, hc]
    | cons b bs => simp only [Histogram.addRow]; rw [ih, hc]

theorem Histogram.addRows_gamma (h : Histogram F) (w : ℕ) (rows : List (List RGBA)) (imp : List ℕ) :
    (h.addRows w rows imp).gamma = h.gamma := by
  induction rows generalizing h imp with
  | nil => rfl
  | cons r rs ih =>
    simp only [Histogram.addRows]
    split <;> rw [ih, addRow_gamma]

/-- A histogram's gamma is positive if it is known. -/
theorem UserHistogram.gamma_pos {h : Histogram F} (hu : UserHistogram h) : ∀ g, h.gamma = some g → lt (lit64 0) g = true := by
  have hset : ∀ (h : Histogram F) (gamma : F), (∀ g, h.gamma = some g → lt (lit64 0) g = true) →
      ∀ g, (if h.gamma.isNone = true ∧ lt (lit64 0) gamma = true then { h with gamma := some gamma } else h).gamma = some g →
        lt (lit64 0) g = true := by
    intro h gamma hh g hg
    split at hg
    next hc => cases hg; exact hc.2
    · exact hh g hg
  induction hu with
  | new cs cb => intro g hg; cases hg
  | @image h img ho cs cb log _ _ ih =>
    have himg : ∀ (i : Image F) g, i.gamma = some g → lt (lit64 0) g = true := by
      intro i g hg
      unfold Image.gamma at hg
      split at hg
      next hc => cases hg; exact hc
      · cases hg
    intro g hg
    unfold Histogram.addImage at hg
    split at hg
    · exact ih g hg
    next i _ =>
      dsimp only at hg
      have hx : ∀ (h' : Histogram F), (if i.fixedColors.isEmpty then { h with gamma := i.gamma }
          else Histogram.extendFixed { h with gamma := i.gamma } i.fixedColors) = h' → h'.gamma = some g → lt (lit64 0) g = true := by
        intro h' e hg
        subst e
        refine himg i g ?_
        split at hg <;> exact hg
      split at hg
      · exact hx _ rfl hg
      · exact hx _ rfl hg
      · split at hg
        · exact hx _ rfl hg
        · dsimp only at hg
          unfold Histogram.addPixelRows at hg
          rw [Histogram.finishRows_gamma, Histogram.addRows_gamma] at hg
          exact hx _ rfl hg
  | @colors h h' entries gamma _ e ih =>
    intro g hg
    unfold Histogram.addColors at e
    split at e
    · cases e
    · split at e
      · cases e
      · dsimp only at e
        cases e
        rw [show ∀ h : Histogram F, (entries.foldl (fun h (x : RGBA × ℕ) => h.addColor x.1 x.2) h).gamma = h.gamma from
          fun h => (h.addAll_rest entries).2.2.2] at hg
        exact hset h gamma ih g hg
  | @fixed h h' c gamma _ e ih =>
    intro g hg
    unfold Histogram.addFixedColor at e
    split at e
    · cases e
    · dsimp only at e
      cases e
      exact hset h gamma ih g hg
  | quantized ho _ ih => exact ih

end Verif
