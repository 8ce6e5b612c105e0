import Mathlib.Analysis.SpecialFunctions.Log.Base
import Verif.Model.Py
/-!
# Model of `ulp` (numutil.py:69-81)

Floats are the finite IEEE 754 binary64 numbers, as real numbers; infinities and NaN are not modelled.  `math.log2` and the multiplication round to a nearest float (ties in any direction).
-/
namespace Unpy.Ulp
open Unpy (PyErr)

/-- A finite binary64 number -/
def IsFloat (y : ℝ) : Prop := ∃ m e : ℤ, |m| < 2 ^ 53 ∧ -1074 ≤ e ∧ e ≤ 971 ∧ y = m * (2 : ℝ) ^ e

/-- `z` is a float nearest to the number `y` -/
def Rounds (y z : ℝ) : Prop := IsFloat z ∧ ∀ w, IsFloat w → |z - y| ≤ |w - y|

/-- What a call can do: a number, or an error -/
inductive Outcome where
  | value (r : ℝ)
  | valueError
  | overflowError

/-- `ulp(x)` (numutil.py:69-81): `log2(0)` raises ValueError; `2**n` is an exact `int` for `n >= 0`, and converting it for the multiplication raises OverflowError if it is too large -/
def Returns (x : ℝ) : Outcome → Prop
  | .valueError => x = 0
  | .overflowError => x ≠ 0 ∧ ∃ l, Rounds (Real.logb 2 |x|) l ∧ 1024 ≤ ⌊l⌋
  | .value r => x ≠ 0 ∧ ∃ l, Rounds (Real.logb 2 |x|) l ∧ ⌊l⌋ < 1024 ∧ Rounds ((2 : ℝ) ^ ⌊l⌋ * (2 : ℝ) ^ (-52 : ℤ)) r

end Unpy.Ulp
