import Verif.Model.LList
/-!
# Model of `cons.__repr__` and `cons.lispyrepr` (llist.py:229-250)

Besides the text, the model counts how many times the representation of an atom is asked for.  Simplification: the representations of atoms do not raise.
-/
namespace Unpy.LList
universe u
variable {α : Type u}

mutual
/-- `repr(x)`: that of an atom; `nil` (llist.py:44-45); `cons.__repr__` (llist.py:229-241) -/
def pyrepr (r : α → String) : Obj α → String × Nat
  | .atom a => (r a, 1)
  | .nil => ("nil", 0)
  | .cons a d =>
    let x := pyrepr r a
    let y := reprs r d
    match y.1 with
    | some l => ("ll(" ++ ", ".intercalate (x.1 :: l) ++ ")", x.2 + y.2)
    | none =>   -- `except TypeError`: both parts are represented (again)
      let z := pyrepr r d
      ("cons(" ++ ", ".intercalate [x.1, z.1] ++ ")", x.2 + y.2 + (x.2 + z.2))
/-- `[repr(x) for x in LinkedListIterator(self, _fullerror=False)]` (llist.py:78-89, 234-235), from a cell on; none: TypeError -/
def reprs (r : α → String) : Obj α → Option (List String) × Nat
  | .nil => (some [], 0)
  | .atom _ => (none, 0)
  | .cons a d =>
    let x := pyrepr r a
    let y := reprs r d
    (y.1.map (x.1 :: ·), x.2 + y.2)
end

/-- `r(x)` in `lispyrepr`: `x.lispyrepr()` if it is a cons (llist.py:242-250), otherwise `repr(x)` -/
def lispyrepr (r : α → String) : Obj α → String × Nat
  | .atom a => pyrepr r (.atom a)
  | .nil => pyrepr r .nil
  | .cons a d =>
    let y := reprs r (.cons a d)
    match y.1 with
    | some l => ("(" ++ " ".intercalate l ++ ")", y.2)
    | none =>
      let p := lispyrepr r a
      let q := lispyrepr r d
      ("(" ++ " ".intercalate [p.1, ".", q.1] ++ ")", y.2 + (p.2 + q.2))

end Unpy.LList
