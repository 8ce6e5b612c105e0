import Verif.Model.Ulp
/-!
# Model of `summarize` (test/fixtures.py:450-502)

Floats and rounding are those of `Verif.Model.Ulp`; the summary is a list of texts, each with the styles that `maybe_colorize` gets for it.  The counts are natural numbers (the assertions hold), far below the largest float.
-/
namespace Unpy.Summary
open Unpy.Ulp

/-- `int(x)` of a float: toward zero -/
noncomputable def trunc (x : ℝ) : ℤ := if 0 ≤ x then ⌊x⌋ else ⌈x⌉

/-- `int(pass_percentage)` (test/fixtures.py:465-474, 497): `p` can come out.  `fails / runs` of two integers is rounded correctly. -/
def Percentage (runs fails errors : Nat) (p : ℤ) : Prop :=
  ∃ f e a b c : ℝ,
    (if runs ≠ 0 then Rounds ((fails : ℝ) / runs) f ∧ Rounds ((errors : ℝ) / runs) e else f = 0 ∧ e = 0) ∧
    Rounds (1 - f) a ∧ Rounds (a - e) b ∧ Rounds (100 * b) c ∧ p = trunc c

/-- The styles (test/fixtures.py:336-347) -/
inductive Style where
  | bright | heading | pass | fail | error | warning | greyedOut | summaryOk | summaryNotOk
  deriving DecidableEq

/-- `summarize(runs, fails, errors, warns)` (test/fixtures.py:465, 476-502), with the percentage that was computed -/
def summarize (runs fails errors warns : Nat) (p : ℤ) : List (String × List Style) :=
  let passes : ℤ := runs - fails - errors
  let c1 := if passes ≠ 0 then Style.pass else .greyedOut
  let c2 := if fails ≠ 0 then Style.fail else .greyedOut
  let c3 := if errors ≠ 0 then Style.error else .greyedOut
  let c4 := if runs ≠ 0 then Style.heading else .greyedOut
  let c5 := if passes = runs then Style.summaryOk else .summaryNotOk
  [("Pass", [.bright, c1]), (" ", []), (toString passes, [c1]), (", ", [.heading])] ++
  [("Fail", [.bright, c2]), (" ", []), (toString fails, [c2]), (", ", [.heading])] ++
  [("Error", [.bright, c3]), (" ", []), (toString errors, [c3]), (", ", [.heading])] ++
  [("Total", [.bright, c4]), (" ", []), (toString runs, [c4])] ++
  [(" ", []), ("(" ++ toString p ++ "% pass)", [.bright, c5])] ++
  if warns > 0 then [(" ", []), ("+ " ++ toString warns ++ " Warn", [.bright, .warning])] else []

end Unpy.Summary
