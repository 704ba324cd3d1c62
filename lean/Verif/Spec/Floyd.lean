import Verif.Spec.Color
import Mathlib.Algebra.BigOperators.Fin
import Mathlib.Data.Fin.VecNotation
import Mathlib.Order.Bounds.Basic

/-! # Specification: Floyd-Steinberg dithering in serpentine order

Independent of the model. There are no buffers here: the error that a pixel receives is a sum over its neighbours that
came before it. Rows are scanned alternately from left to right (even rows) and from right to left (odd rows).
-/

namespace Verif.Spec

/-- the four channels of a colour: alpha, red, green, blue -/
def Color.chans (c : Color) : Fin 4 → ℝ := ![c.a, c.r, c.g, c.b]

/-- sum of squares -/
def normSq (v : Fin 4 → ℝ) : ℝ := ∑ i, v i ^ 2

/-- `1` if the row is scanned to the right, `-1` if it is scanned to the left -/
def direction (y : ℤ) : ℤ := if y % 2 = 0 then 1 else -1

/-- What the pixel in row `y` and column `x` receives if the errors of the pixels are `err`: 7/16 of the previous pixel of
its row, and 3/16, 5/16 and 1/16 of the three pixels above. The pixel above that gives 3/16 is the one on the side from
which the row is scanned. -/
noncomputable def received (err : ℤ → ℤ → Fin 4 → ℝ) (y x : ℤ) (i : Fin 4) : ℝ :=
  let d := direction y
  7/16 * err y (x - d) i + 3/16 * err (y - 1) (x - d) i + 5/16 * err (y - 1) x i + 1/16 * err (y - 1) (x + d) i

/-- the colour channels stay within [-0.1, 1.1] if the part `t` of `s` is added to the colour `px` -/
def Fits (px s : Fin 4 → ℝ) (t : ℝ) : Prop := ∀ i : Fin 4, i ≠ 0 → -0.1 ≤ px i + t * s i ∧ px i + t * s i ≤ 1.1

/-- `target` is the colour `px` after `s` has been added with care: not at all if `s` is too small to be seen; otherwise as
much of it as fits, and only 4/5 of that if `s` is larger than `limit`. All of `s` goes to alpha, which is then clamped. -/
def Pushed (limit : ℝ) (px s target : Fin 4 → ℝ) : Prop :=
  (normSq s < 2 / 65536 ∧ target = px) ∨
  (2 / 65536 ≤ normSq s ∧ target 0 = max 0 (min 1 (px 0 + s 0)) ∧
    ∃ t, IsGreatest {t | 0 ≤ t ∧ t ≤ 1 ∧ Fits px s t} t ∧
      ∀ i ≠ 0, target i = px i + (if limit < normSq s then 4/5 * t else t) * s i)

/-- Error diffusion in the rows from `top` to `bottom` (not included) of an image of width `w`: nothing comes from outside;
to every pixel what it receives is added, multiplied by the `strength`; and its error is the difference between the colour
wanted and the colour shown, or 3/4 of it if it is larger than `limit`. -/
structure Dithered (w top bottom : ℕ) (strength : ℕ → ℕ → ℝ) (limit : ℝ) (px shown target : ℕ → ℕ → Color)
    (err : ℤ → ℤ → Fin 4 → ℝ) : Prop where
  outside : ∀ y x : ℤ, y < top ∨ x < 0 ∨ (w : ℤ) ≤ x → err y x = 0
  wanted : ∀ y x : ℕ, top ≤ y → y < bottom → x < w →
    Pushed limit (px y x).chans (fun i => strength y x * received err y x i) (target y x).chans
  error : ∀ y x : ℕ, top ≤ y → y < bottom → x < w → ∀ i,
    let e := fun i => (target y x).chans i - (shown y x).chans i
    err y x i = if limit < normSq e then 3/4 * e i else e i

/-- Without a background the palette colour nearest to the colour wanted is shown. -/
def Plain (pal : List Color) (target shown : Color) (byte : ℕ) : Prop := pal[byte]? = some shown ∧ IsNearest pal target byte

/-- In front of the background colour `back`, if `t` is a transparent colour of the palette: the background is shown if it is
at least as near to the colour wanted as every palette colour. Otherwise a nearest palette colour is shown, or another one
that is nearer to the pixel `px` itself than the background is, while the nearest colour wanted would be farther. -/
def InFront (pal : List Color) (t : ℕ) (back px target shown : Color) (byte : ℕ) : Prop :=
  ((∀ c ∈ pal, diff target back ≤ diff target c) → byte = t ∧ shown = back) ∧
  ((∃ c ∈ pal, diff target c < diff target back) → pal[byte]? = some shown ∧
    (IsNearest pal target byte ∨ ∃ j c, pal[j]? = some c ∧ IsNearest pal target j ∧
      diff px back < diff px c ∧ diff px shown < diff px back))

end Verif.Spec
