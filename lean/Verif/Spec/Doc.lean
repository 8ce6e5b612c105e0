import Verif.Model.Doc
/-!
# What `doc` should print
-/
namespace Unpy.Doc.Spec
open Unpy.Doc
variable {O : Type}

/-- The source of `x` is known: it is in this file, from this line on. -/
def Known (w : World O) (x : O) (file : String) (line : Nat) : Prop :=
  w.sourcefile x = .ok (some file) ∧ ∃ src, w.sourcelines x = .ok (src, line)

/-- The source of `x` is not known, and Python says so. -/
def Unknown (w : World O) (x : O) : Prop :=
  (w.sourcefile x = .typeError ∨ w.sourcefile x = .osError) ∨
  (∃ f, w.sourcefile x = .ok f) ∧ (w.sourcelines x = .typeError ∨ w.sourcelines x = .osError)

/-- `obj` has the docstring `s`. -/
def Documented (w : World O) (obj : O) (s : String) : Prop := w.docAttr obj = some (.str s) ∧ s ≠ ""

/-- `obj` has no docstring. -/
def Undocumented (w : World O) (obj : O) : Prop :=
  w.docAttr obj = none ∨ w.docAttr obj = some .none ∨ w.docAttr obj = some (.str "")

/-- The text for the docstring of `obj`. -/
def Shown (w : World O) (obj : O) (t : String) : Prop :=
  (∃ s, Documented w obj s ∧ t = w.cleandoc s) ∨ (Undocumented w obj ∧ t = "<no docstring>")

/-- For examples: 0 is a function, 1 an instance of the class 2, 3 a number, 4 a class made by the metaclass 2 without a source, 5 an object with a number as `__doc__`. -/
def demo : World Nat where
  cls x := if x = 1 ∨ x = 4 then 2 else 9
  sourcefile x := if x = 0 then .ok (some "a.py") else if x = 2 then .ok (some "b.py") else if x = 4 then .ok none else .typeError
  sourcelines x := if x = 0 then .ok (["def f():\n", "    '''Do.'''\n"], 7) else if x = 2 then .ok (["class C:\n", "    pass\n"], 3) else .osError
  docAttr x := if x = 0 then some (.str " Do.") else if x = 3 then some .none else if x = 5 then some (.other true) else if x = 6 then none else some (.str "Text")
  cleandoc s := if s = " Do." then "Do." else s

end Unpy.Doc.Spec
