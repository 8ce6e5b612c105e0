import Mathlib.Data.Real.Basic
/-! # Specification of the unit in the last place -/
namespace Unpy.Spec.Ulp

/-- `u` is the value of the least-significant bit of the binary64 number `x`: that of the last of its 53 bits, or of the smallest exponent there is -/
def LastPlace (x u : ℝ) : Prop :=
  ∃ m e : ℤ, x = m * (2 : ℝ) ^ e ∧ u = (2 : ℝ) ^ e ∧ |m| < 2 ^ 53 ∧ -1074 ≤ e ∧ e ≤ 971 ∧ (2 ^ 52 ≤ |m| ∨ e = -1074)

end Unpy.Spec.Ulp
