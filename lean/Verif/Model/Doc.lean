import Verif.Model.Py
/-!
# Model of `doc` in REPL sessions (`unpythonic/net/server.py`)

What Python's `inspect` module knows about objects is given.

Simplified: looking up `__class__` and `__doc__` has no effects, and looking up `__doc__` raises nothing but AttributeError.
-/
namespace Unpy.Doc
open Unpy

/-- What `inspect` functions do: they return something, or raise TypeError or OSError, or something else -/
inductive Got (α : Type) where
  | ok (a : α)
  | typeError
  | osError
  | other
  deriving DecidableEq

/-- The value of an attribute `__doc__` -/
inductive DocAttr where
  | none
  | str (s : String)
  /-- another object, that counts as true or not -/
  | other (truth : Bool)
  deriving DecidableEq

/-- Python's view of objects -/
structure World (O : Type) where
  /-- `obj.__class__` -/
  cls : O → O
  /-- `inspect.getsourcefile(x)`; it may return `None` -/
  sourcefile : O → Got (Option String)
  /-- `inspect.getsourcelines(x)` -/
  sourcelines : O → Got (List String × Nat)
  /-- `obj.__doc__`, if there is this attribute -/
  docAttr : O → Option DocAttr
  /-- `inspect.cleandoc(s)` -/
  cleandoc : String → String

/-- How a call ends -/
inductive End where
  | returns
  /-- an exception of `inspect` that is neither TypeError nor OSError -/
  | inspectFailed
  /-- AttributeError: `inspect.cleandoc` of something else than a string -/
  | notString
  deriving DecidableEq

variable {O : Type}

/-- The loop of `_get_source` (net/server.py:182-189); `Except.error true` is NotImplementedError, `Except.error false` an exception that is not caught -/
def search (w : World O) : List O → Except Bool (Option String × List String × Nat)
  | [] => .error true
  | x :: xs =>
    match w.sourcefile x with
    | .typeError => search w xs
    | .osError => search w xs
    | .other => .error false
    | .ok filename =>
      match w.sourcelines x with
      | .typeError => search w xs
      | .osError => search w xs
      | .other => .error false
      | .ok (source, firstlineno) => .ok (filename, source, firstlineno)

/-- `_get_source(obj)` (net/server.py:176-189) -/
def getSource (w : World O) (obj : O) : Except Bool (Option String × List String × Nat) := search w [obj, w.cls obj]

/-- `f"{filename}:{firstlineno}"` (net/server.py:211) -/
def place (filename : Option String) (firstlineno : Nat) : String := filename.getD "None" ++ ":" ++ toString firstlineno

/-- The rest of `doc(obj)` (net/server.py:214-217): what it prints, and how it ends -/
def docstring (w : World O) (obj : O) : List String × End :=
  match w.docAttr obj with
  | none => (["<no docstring>"], .returns)
  | some .none => (["<no docstring>"], .returns)
  | some (.str s) => if s = "" then (["<no docstring>"], .returns) else ([w.cleandoc s], .returns)
  | some (.other truth) => if truth then ([], .notString) else (["<no docstring>"], .returns)

/-- `doc(obj)` (net/server.py:191-217): what it prints, and how it ends -/
def doc (w : World O) (obj : O) : List String × End :=
  match getSource w obj with
  | .error false => ([], .inspectFailed)
  | .error true => docstring w obj
  | .ok (filename, _, firstlineno) =>
    let r := docstring w obj
    (place filename firstlineno :: r.1, r.2)

end Unpy.Doc
