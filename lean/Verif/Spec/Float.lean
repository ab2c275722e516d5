import Verif.Py
import Mathlib.Data.Int.Log

/-!
# Rounding functions

`Rounding fl N`: what the proofs use of floating point rounding.  `fl64` is IEEE 754 binary64 round-to-nearest-even
(53 bit significand) without overflow and underflow.
-/

namespace Kinisi.Spec

/-- Monotone, exact on integers up to `N`, relative error at most `1/N`. -/
structure Rounding {K : Type} [Field K] [LinearOrder K] [IsStrictOrderedRing K] (fl : K → K) (N : ℕ) : Prop where
  mono : Monotone fl
  int_exact : ∀ z : ℤ, |z| ≤ N → fl z = z
  rel : ∀ x, |fl x - x| * N ≤ |x|

/-- Round to the nearest integer, ties to even. -/
def roundEven (y : ℚ) : ℤ :=
  let f := ⌊y⌋
  let r := y - f
  if r < 1 / 2 then f else if 1 / 2 < r then f + 1 else if f % 2 = 0 then f else f + 1

/-- Round to nearest even with a 53 bit significand. -/
def fl64 (x : ℚ) : ℚ :=
  if x = 0 then 0
  else
    let e : ℤ := Int.log 2 |x| - 52
    (roundEven (x / (2 : ℚ) ^ e) : ℚ) * (2 : ℚ) ^ e

end Kinisi.Spec
