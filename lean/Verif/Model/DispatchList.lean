import Verif.Model.Dispatch
/-!
# Model of the introspection of generic functions: `isgeneric`, `list_methods`, `format_methods`, docstrings

The registries are those of `Verif.Model.Dispatch`; here, also the docstring of the dispatcher is kept, whose construction needs the source code of the multimethod, and fails if there is none.
`desc f` is `_format_callable(f)` (dispatch.py:485-504), `none` if it raises OSError because there is no source code; `docOf f` is `f.__doc__`.
-/
namespace Unpy.Dispatch
open Unpy.Arity
variable {C V T : Type}

/-- What can be raised: an exception of `Verif.Model.Py`, or OSError -/
inductive Err where
  | py (e : PyErr)
  | osError
  deriving DecidableEq

/-- The dispatchers, and the `__doc__` of each (none: None) -/
structure Docs (V T : Type) where
  reg : Reg V T
  doc : String → Option String

/-- The docstring of a multimethod with its call signature on top (dispatch.py:745-748) -/
def section_ (desc : String) : Option String → String
  | some s => if s = "" then desc else desc ++ "\n" ++ s
  | none => desc

/-- `_setup`, `_register_to` (dispatch.py:644-760), with the docstring.  `@wraps` gives a new dispatcher the docstring of the function (dispatch.py:664).
The multimethod is in the registry before its description is made (dispatch.py:741-745). -/
def setupDoc (desc : Fn V T → Option String) (docOf : Fn V T → Option String) (anyT : T) (st : Docs V T) (n : String) (f : Fn V T) : Except Err Unit × Docs V T :=
  let doc := if PyDict.has st.reg n then st.doc else fun k => if k = n then docOf f else st.doc k
  match setup anyT st.reg n f with
  | (.error e, reg) => (.error (.py e), ⟨reg, doc⟩)
  | (.ok (), reg) =>
    match desc f with
    | none => (.error .osError, ⟨reg, doc⟩)
    | some d =>
      let ours := section_ d (docOf f)
      let first := match PyDict.get? reg n with
        | some d => d.registry.length == 1
        | none => false
      let old := (doc n).getD ""
      let new := if first || old == "" then ours else old ++ "\n\n" ++ "".pushn '-' 80 ++ "\n" ++ ours
      (.ok (), ⟨reg, fun k => if k = n then some new else doc k⟩)

/-- `@generic` (dispatch.py:76-242), `@augment` (dispatch.py:244-292), `@typed` (dispatch.py:294-315) -/
def stepDoc (desc : Fn V T → Option String) (docOf : Fn V T → Option String) (anyT : T) (st : Docs V T) : Op V T → Except Err Unit × Docs V T
  | .generic n f => setupDoc desc docOf anyT st n f
  | .augment n f => if PyDict.has st.reg n then setupDoc desc docOf anyT st n f else (.error (.py .TypeError), st)
  | .typed n f =>
    match setupDoc desc docOf anyT st n f with
    | (.error e, st) => (.error e, st)
    | (.ok (), st) =>
      match PyDict.get? st.reg n with
      | none => (.error (.py .KeyError), st)   -- does not happen
      | some d => (.ok (), { st with reg := PyDict.set st.reg n { d with typed := true } })

/-- A history of decorations, with what each did; one that raises is caught by the program, which goes on. -/
def runDoc (desc : Fn V T → Option String) (docOf : Fn V T → Option String) (anyT : T) (st : Docs V T) : List (Op V T) → List (Op V T × Except Err Unit) × Docs V T
  | [] => ([], st)
  | op :: ops =>
    let r := stepDoc desc docOf anyT st op
    let q := runDoc desc docOf anyT r.2 ops
    ((op, r.1) :: q.1, q.2)

/-- Nothing is decorated at first. -/
def noDocs : Docs V T := ⟨[], fun _ => none⟩

/-- A callable: one that has nothing to do with this module; a dispatcher as a plain function, by its full name; a dispatcher as a bound method (`Foo.classmeth`, `foo.instmeth`) -/
inductive Callable (V : Type) where
  | other
  | raw (fullname : String)
  | bound (fullname : String) (self : V)

/-- `getfunc(f)[0]` (arity.py:160-203): the dispatcher under a callable, if it is one -/
def Callable.fullname : Callable V → Option String
  | .other => none
  | .raw n => some n
  | .bound n _ => some n

/-- `isgeneric` (dispatch.py:57-68), None for False; a bound method has the attributes of its function -/
def isgeneric (st : Reg V T) (f : Callable V) : Option String :=
  match f.fullname with
  | none => none
  | some n =>
    match PyDict.get? st n with
    | none => none
    | some d => if d.typed then some "typed" else some "generic"

/-- `list_methods` (dispatch.py:364-419) -/
def listMethods (w : World C V) (st : Reg V T) (f : Callable V) : Res (List (MM V T)) :=
  match f.fullname with
  | none => .error .TypeError
  | some n =>
    match PyDict.get? st n with
    | none => .error .TypeError
    | some d =>
      let self := match f with
        | .bound _ s => some s
        | _ => none
      .ok (listMultimethods w st d self)

/-- `format_methods` (dispatch.py:346-362); `line` is `_format_callable` of a multimethod, which had its source code when it was registered -/
def formatMethods (line : MM V T → String) (w : World C V) (st : Reg V T) (f : Callable V) : Res String :=
  match listMethods w st f with
  | .error e => .error e
  | .ok l =>
    let text := match l with
      | [] => "  <no multimethods registered>"
      | _ => "\n".intercalate (l.map (fun m => "  " ++ line m))
    .ok ("Multimethods for @" ++ (isgeneric st f).getD "False" ++ " " ++ (f.fullname).getD "" ++ ":\n" ++ text)

/-- Calling it: a bound method passes the object first -/
def callIt (isof : T → BVal V → Res Bool) (w : World C V) (st : Reg V T) (f : Callable V) (args : List V) (kwargs : PyDict String V) : Option (Res (MM V T)) :=
  match f.fullname with
  | none => none
  | some n =>
    match PyDict.get? st n with
    | none => none
    | some d => match f with
      | .bound _ s => some (call isof w st d (s :: args) kwargs)
      | _ => some (call isof w st d args kwargs)

end Unpy.Dispatch
