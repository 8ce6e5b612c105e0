/-!
# Model of `namelambda` (`unpythonic/misc.py`)

Function objects live in a heap; values refer to them.  A function object has its three names and its code, which is opaque.
Code objects are immutable, so that `co_name` is kept with the function.
-/
namespace Unpy.Namelambda

abbrev Text := List Char

/-- A function object: `__name__`, `__qualname__`, `__code__.co_name`, and all else. -/
structure Fn where
  name : Text
  qual : Text
  coName : Text
  code : Nat
  deriving DecidableEq

inductive V where
  | fn (i : Nat)
  | other (n : Int)
  deriving DecidableEq

/-- What is given for the name: a string or something else. -/
inductive NameArg where
  | str (t : Text)
  | other (n : Int)

inductive Err where
  | type
  deriving DecidableEq

/-- `copy(f)` for a function (misc.py:94): the standard library's `copy.copy` returns functions themselves. -/
def copyFn (i : Nat) (h : List Fn) : Nat × List Fn := (i, h)

/-- What is before the last dot, if there is one: `s[:s.rfind('.')]` (misc.py:99-100) -/
def beforeDot : Text → Option Text
  | [] => none
  | c :: cs => match beforeDot cs with
    | some p => some (c :: p)
    | none => if c = '.' then some [] else none

/-- The new qualified name (misc.py:99-100) -/
def requal (q name : Text) : Text :=
  match beforeDot q with
  | some p => p ++ '.' :: name
  | none => name

/-- `namelambda(name)(f)` (misc.py:89-123): the value, or the exception, and the heap -/
def rename (name : NameArg) (f : V) (h : List Fn) : Except Err V × List Fn :=
  match f with
  | .other n => (.ok (.other n), h)
  | .fn i =>
    let (j, h) := copyFn i h
    match name with
    -- `f.__name__ = name` raises if it is no string
    | .other _ => (.error .type, h)
    | .str t => (.ok (.fn j), h.modify j fun f => { f with name := t, qual := requal f.qual t, coName := t })

/-- `namelambda(n1)(f)`, then `namelambda(n2)` of the result, and so on -/
def renames : List Text → V → List Fn → Except Err V × List Fn
  | [], f, h => (.ok f, h)
  | t :: ts, f, h => match rename (.str t) f h with
    | (.ok f, h) => renames ts f h
    | (.error e, h) => (.error e, h)

end Unpy.Namelambda
