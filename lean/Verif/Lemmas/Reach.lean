import Verif.Props.Settings
import Verif.Lemmas.QuantRun

/-! Settings that a user can make, and fixed colours in the order they were added. -/

set_option linter.unusedSectionVars false

namespace Verif
open Flt Spec

variable {F : Type} [Flt F]

/-- A handle after a history of setter calls, with a progress callback or without. -/
def userAttr (cs : List Call) (cb : Option (List F → Bool)) : Attr F :=
  { (Attr.new : Attr F).after cs with progressCallback := cb }

theorem after_maxColors_range (cs : List Call) (s : Settings) (h : 2 ≤ s.maxColors ∧ s.maxColors ≤ 256) :
    2 ≤ (s.after cs).maxColors ∧ (s.after cs).maxColors ≤ 256 := by
  induction cs generalizing s with
  | nil => exact h
  | cons c cs ih =>
    apply ih
    cases c with
    | maxColors n =>
      simp only [Settings.call]
      split
      next hn => exact hn
      · exact h
    | quality m t => simp only [Settings.call]; split <;> exact h
    | speed v => simp only [Settings.call]; split <;> exact h
    | minPosterization v => simp only [Settings.call]; split <;> exact h
    | lastIndexTransparent b => exact h

theorem userAttr_maxColors (cs : List Call) (cb : Option (List F → Bool)) :
    (userAttr cs cb).maxColors = (Settings.default.after cs).maxColors := by
  have := C13_settings_registers_any_float (F := F) cs
  simp only [Attr.observeInt, Attr.getMaxColors, Prod.mk.injEq] at this
  exact this.1

theorem userAttr_range (cs : List Call) (cb : Option (List F → Bool)) :
    1 ≤ (userAttr (F := F) cs cb).maxColors ∧ (userAttr (F := F) cs cb).maxColors ≤ 256 := by
  rw [userAttr_maxColors]
  have := after_maxColors_range cs Settings.default (by decide)
  omega

/-- the pair of the last accepted `set_quality` call -/
def lastQuality (cs : List Call) : Option (ℕ × ℕ) :=
  cs.foldl (fun q c => match c with
    | .quality m t => if m ≤ t ∧ t ≤ 100 then some (m, t) else q
    | _ => q) none

/-- an invariant of every accepted setter call holds after every history -/
theorem after_induct (P : Attr F → Prop) (h0 : P Attr.new)
    (hstep : ∀ a c a', P a → a.call c = .ok a' → P a') (cs : List Call) : P ((Attr.new : Attr F).after cs) := by
  unfold Attr.after
  generalize (Attr.new : Attr F) = a at h0
  induction cs generalizing a with
  | nil => exact h0
  | cons c cs ih =>
    apply ih
    dsimp only
    split
    next a' h => exact hstep a c a' h0 h
    · exact h0

/-- everything `set_speed` leaves behind, for reachable settings -/
structure SpeedOK (a : Attr F) : Prop where
  range : 1 ≤ a.speed ∧ a.speed ≤ 10
  stages : a.progressStage1 + a.progressStage2 + a.progressStage3 = 100
  trials : a.feedbackLoopTrials = 56 - 9 * a.speed
  iterations : a.kmeansIterations = (8 - a.speed) + (8 - a.speed) * (8 - a.speed) / 2
  input : a.minPosterizationInput = if a.speed ≥ 8 then 1 else 0
  contrast : a.useContrastMaps = decide (a.speed ≤ 7)
  dither : a.useDitherMap = if a.speed < 3 then .always else if a.speed ≤ 6 then .enabled else .none
  single : a.singleThreadedDithering = decide (a.speed = 1)
  entries : a.maxHistogramEntries = 2 ^ 17 + 2 ^ 18 * (10 - a.speed)
  limit : a.kmeansIterationLimit = lit64 1 /₆ lit64 (2 ^ (23 - a.speed))

theorem setSpeed_speedOK (a : Attr F) {v : ℤ} (h1 : 1 ≤ v) (h10 : v ≤ 10) :
    ∃ a', a.setSpeed v = .ok a' ∧ SpeedOK a' ∧ a'.speed = v.toNat := by
  unfold Attr.setSpeed
  rw [if_neg (by omega)]
  interval_cases v <;>
    exact ⟨_, rfl, ⟨by dsimp only; decide, rfl, rfl, rfl, rfl, rfl, rfl, rfl, rfl, rfl⟩, rfl⟩

theorem after_speedOK (cs : List Call) : SpeedOK ((Attr.new : Attr F).after cs) := by
  apply after_induct
  · obtain ⟨a', e, h, -⟩ := setSpeed_speedOK (Attr.blank : Attr F) (v := 4) (by norm_num) (by norm_num)
    have hn : (Attr.new : Attr F) = a' := by unfold Attr.new; rw [e]
    rw [hn]; exact h
  · intro a c a' h hc
    cases c with
    | maxColors n =>
      simp only [Attr.call, Attr.setMaxColors] at hc
      split at hc
      · cases hc; exact ⟨h.1, h.2, h.3, h.4, h.5, h.6, h.7, h.8, h.9, h.10⟩
      · cases hc
    | quality m t =>
      simp only [Attr.call, Attr.setQuality] at hc
      split at hc
      · cases hc
      · cases hc; exact ⟨h.1, h.2, h.3, h.4, h.5, h.6, h.7, h.8, h.9, h.10⟩
    | speed v =>
      by_cases hv : 1 ≤ v ∧ v ≤ 10
      · obtain ⟨a'', e, h', -⟩ := setSpeed_speedOK a hv.1 hv.2
        simp only [Attr.call] at hc
        rw [e] at hc; cases hc; exact h'
      · simp only [Attr.call, Attr.setSpeed] at hc; rw [if_pos hv] at hc; cases hc
    | minPosterization v =>
      simp only [Attr.call, Attr.setMinPosterization] at hc
      split at hc
      · cases hc; exact ⟨h.1, h.2, h.3, h.4, h.5, h.6, h.7, h.8, h.9, h.10⟩
      · cases hc
    | lastIndexTransparent b =>
      simp only [Attr.call, Attr.setLastIndexTransparent] at hc
      cases hc; exact ⟨h.1, h.2, h.3, h.4, h.5, h.6, h.7, h.8, h.9, h.10⟩

theorem userAttr_speedOK (cs : List Call) (cb : Option (List F → Bool)) : SpeedOK (userAttr cs cb) := by
  have h := after_speedOK (F := F) cs
  exact ⟨h.1, h.2, h.3, h.4, h.5, h.6, h.7, h.8, h.9, h.10⟩

/-- the quality registers hold the limits of the last accepted pair -/
theorem after_quality (cs : List Call) :
    ((Attr.new : Attr F).after cs).maxMse = (lastQuality cs).map (fun q => qualityToMse q.1) ∧
    ((Attr.new : Attr F).after cs).targetMse = match lastQuality cs with | none => lit64 0 | some q => qualityToMse q.2 := by
  have h0 : (Attr.new : Attr F).maxMse = (none : Option (ℕ × ℕ)).map (fun q => qualityToMse q.1) ∧
      (Attr.new : Attr F).targetMse = match (none : Option (ℕ × ℕ)) with | none => lit64 0 | some q => qualityToMse q.2 := by
    obtain ⟨a', e, -, -, h3, h4, -⟩ := setSpeed_ok (Attr.blank : Attr F) (v := 4) (by norm_num) (by norm_num)
    have hn : (Attr.new : Attr F) = a' := by unfold Attr.new; rw [e]
    rw [hn, h3, h4]; exact ⟨rfl, rfl⟩
  unfold Attr.after lastQuality
  generalize (none : Option (ℕ × ℕ)) = q at h0 ⊢
  generalize (Attr.new : Attr F) = a at h0 ⊢
  induction cs generalizing a q with
  | nil => exact h0
  | cons c cs ih =>
    simp only [List.foldl_cons]
    apply ih
    cases c with
    | maxColors n =>
      simp only [Attr.call, Attr.setMaxColors]
      by_cases hn : 2 ≤ n ∧ n ≤ 256
      · simp only [if_pos hn]; exact h0
      · simp only [if_neg hn]; exact h0
    | quality m t =>
      simp only [Attr.call, Attr.setQuality]
      by_cases hn : m ≤ t ∧ t ≤ 100
      · have : ¬ (¬ t ≤ 100 ∨ t < m) := by omega
        simp only [if_pos hn, if_neg this, Option.map_some, and_self]
      · have : (¬ t ≤ 100 ∨ t < m) := by omega
        simp only [if_neg hn, if_pos this]; exact h0
    | speed v =>
      by_cases hv : 1 ≤ v ∧ v ≤ 10
      · obtain ⟨a', e, -, -, h3, h4, -⟩ := setSpeed_ok a hv.1 hv.2
        simp only [Attr.call, e]
        rw [h3, h4]; exact h0
      · have e : a.setSpeed v = .error (.err .valueOutOfRange) := by unfold Attr.setSpeed; rw [if_pos hv]
        simp only [Attr.call, e]; exact h0
    | minPosterization v =>
      simp only [Attr.call, Attr.setMinPosterization]
      by_cases hn : v ≤ 4
      · simp only [if_pos hn]; exact h0
      · simp only [if_neg hn]; exact h0
    | lastIndexTransparent b => exact h0

theorem userAttr_quality (cs : List Call) (cb : Option (List F → Bool)) :
    (userAttr cs cb).maxMse = (lastQuality cs).map (fun q => qualityToMse q.1) ∧
    (userAttr cs cb).targetMse = match lastQuality cs with | none => lit64 0 | some q => qualityToMse q.2 :=
  after_quality cs

theorem lastQuality_range (cs : List Call) : ∀ q ∈ lastQuality cs, q.1 ≤ q.2 ∧ q.2 ≤ 100 := by
  unfold lastQuality
  have h0 : ∀ q ∈ (none : Option (ℕ × ℕ)), q.1 ≤ q.2 ∧ q.2 ≤ 100 := by simp
  generalize (none : Option (ℕ × ℕ)) = q at h0 ⊢
  induction cs generalizing q with
  | nil => exact h0
  | cons c cs ih =>
    simp only [List.foldl_cons]
    apply ih
    cases c with
    | quality m t =>
      dsimp only
      split
      next h => intro q hq; simp at hq; subst hq; exact h
      · exact h0
    | _ => exact h0

theorem userAttr_posterization (cs : List Call) (cb : Option (List F → Bool)) :
    (userAttr cs cb).minPosterizationOutput ≤ 4 := by
  show ((Attr.new : Attr F).after cs).minPosterizationOutput ≤ 4
  apply after_induct (fun a => a.minPosterizationOutput ≤ 4)
  · obtain ⟨a', e, -, -, -, -, h5, -⟩ := setSpeed_ok (Attr.blank : Attr F) (v := 4) (by norm_num) (by norm_num)
    have hn : (Attr.new : Attr F) = a' := by unfold Attr.new; rw [e]
    rw [hn, h5]; exact Nat.zero_le _
  · intro a c a' h hc
    cases c with
    | maxColors n =>
      simp only [Attr.call, Attr.setMaxColors] at hc
      split at hc
      · cases hc; exact h
      · cases hc
    | quality m t =>
      simp only [Attr.call, Attr.setQuality] at hc
      split at hc
      · cases hc
      · cases hc; exact h
    | speed v =>
      by_cases hv : 1 ≤ v ∧ v ≤ 10
      · obtain ⟨a'', e, -, -, -, -, h5, -⟩ := setSpeed_ok a hv.1 hv.2
        simp only [Attr.call] at hc
        rw [e] at hc; cases hc; rw [h5]; exact h
      · simp only [Attr.call, Attr.setSpeed] at hc; rw [if_pos hv] at hc; cases hc
    | minPosterization v =>
      simp only [Attr.call, Attr.setMinPosterization] at hc
      split at hc
      next hv => cases hc; exact hv
      · cases hc
    | lastIndexTransparent b =>
      simp only [Attr.call, Attr.setLastIndexTransparent] at hc
      cases hc; exact h

/-- fixed colours with increasing indices are sorted by the order in which they were added -/
theorem mergeSort_increasing (l l' : List HashColor) (h : l.Pairwise (fun x y => x.2 < y.2)) (hp : l'.Perm l) :
    l'.mergeSort (fun x y => decide (x.2 ≤ y.2)) = l := by
  have h1 : (l'.mergeSort (fun x y => decide (x.2 ≤ y.2))).Pairwise (fun x y => x.2 ≤ y.2) := by
    have := List.pairwise_mergeSort (le := fun x y : HashColor => decide (x.2 ≤ y.2))
      (by intro a b c h1 h2; simp at *; omega) (by intro a b; simp; omega) l'
    exact this.imp (by intro a b h; simpa using h)
  have hperm : (l'.mergeSort (fun x y => decide (x.2 ≤ y.2))).Perm l := (List.mergeSort_perm _ _).trans hp
  have hinj : ∀ x ∈ l, ∀ y ∈ l, x.2 = y.2 → x = y := by
    intro x hx y hy hxy
    by_contra hne
    obtain ⟨i, hi, rfl⟩ := List.mem_iff_getElem.1 hx
    obtain ⟨j, hj, rfl⟩ := List.mem_iff_getElem.1 hy
    rcases Nat.lt_trichotomy i j with hij | hij | hij
    · have := List.pairwise_iff_getElem.1 h i j hi hj hij; omega
    · subst hij; exact hne rfl
    · have := List.pairwise_iff_getElem.1 h j i hj hi hij; omega
  refine List.Perm.eq_of_pairwise (le := fun x y : HashColor => x.2 ≤ y.2) ?_ h1 (h.imp (fun hab => le_of_lt hab)) hperm
  intro a b ha hb hab hba
  exact hinj a (hperm.mem_iff.1 ha) b hb (le_antisymm hab hba)

end Verif
