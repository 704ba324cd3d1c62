import Verif.Spec.Floyd

/-! # Specification: Floyd-Steinberg dithering with small errors

The same as `Spec/Floyd.lean`, for computations that are exact only up to `ε`. The errors do not add up: every pixel is
compared with what it should have received from the errors that were really made at its neighbours.
-/

namespace Verif.Spec

/-- `i` is an index of a palette colour whose distance from `px` exceeds that of any other by no more than `t` -/
def IsNearestUpTo (t : ℝ) (pal : List Color) (px : Color) (i : ℕ) : Prop :=
  ∃ c, pal[i]? = some c ∧ ∀ c' ∈ pal, dist px c ≤ dist px c' + t

/-- whether `n` counts as larger than `limit`; either answer is right if they are too close to tell. No limit is known if
`limit` is `none`. -/
def LargeUpTo (ε : ℝ) (limit : Option ℝ) (n : ℝ) (large : Bool) : Prop :=
  ∀ l, limit = some l → (large = true → l ≤ (1 + ε) * n + ε ^ 2) ∧ (large = false → (1 - ε) * n - ε ^ 2 ≤ l)

/-- `Pushed` up to `ε` -/
def PushedUpTo (ε : ℝ) (limit : Option ℝ) (px s target : Fin 4 → ℝ) : Prop :=
  (normSq s ≤ (1 + ε) * (2 / 65536) ∧ target = px) ∨
  ((1 - ε) * (2 / 65536) ≤ normSq s ∧ |target 0 - max 0 (min 1 (px 0 + s 0))| ≤ ε ∧
    ∃ (t : ℝ) (large : Bool), IsGreatest {t | 0 ≤ t ∧ t ≤ 1 ∧ Fits px s t} t ∧ LargeUpTo ε limit (normSq s) large ∧
      ∀ i ≠ 0, |target i - (px i + (if large then 4/5 * t else t) * s i)| ≤ ε)

/-- `Dithered` up to `ε` -/
structure DitheredUpTo (ε : ℝ) (w top bottom : ℕ) (strength : ℕ → ℕ → ℝ) (limit : Option ℝ) (px shown target : ℕ → ℕ → Color)
    (err : ℤ → ℤ → Fin 4 → ℝ) : Prop where
  outside : ∀ y x : ℤ, y < top ∨ x < 0 ∨ (w : ℤ) ≤ x → err y x = 0
  wanted : ∀ y x : ℕ, top ≤ y → y < bottom → x < w → ∃ s : Fin 4 → ℝ,
    (∀ i, |s i - strength y x * received err y x i| ≤ ε) ∧ PushedUpTo ε limit (px y x).chans s (target y x).chans
  error : ∀ y x : ℕ, top ≤ y → y < bottom → x < w → ∃ large,
    let e := fun i => (target y x).chans i - (shown y x).chans i
    LargeUpTo ε limit (normSq e) large ∧ ∀ i, |err y x i - (if large then 3/4 * e i else e i)| ≤ ε

/-- `Plain` up to `ε` -/
def PlainUpTo (ε : ℝ) (pal : List Color) (target shown : Color) (byte : ℕ) : Prop :=
  (∃ c, pal[byte]? = some c ∧ dist shown c ≤ ε) ∧ IsNearestUpTo ε pal target byte

/-- `InFront` up to `ε`; if the background and the nearest palette colour are too close to tell, either may be shown -/
def InFrontUpTo (ε : ℝ) (pal : List Color) (t : ℕ) (back px target shown : Color) (byte : ℕ) : Prop :=
  ((∀ c ∈ pal, dist target back ≤ dist target c + ε) ∧ byte = t ∧ dist shown back ≤ ε) ∨
  ((∃ c ∈ pal, dist target c ≤ dist target back + ε) ∧ (∃ c, pal[byte]? = some c ∧ dist shown c ≤ ε) ∧
    (IsNearestUpTo ε pal target byte ∨ ∃ j c, pal[j]? = some c ∧ IsNearestUpTo ε pal target j ∧
      dist px back ≤ dist px c + ε ∧ dist px shown ≤ dist px back + ε))

end Verif.Spec
