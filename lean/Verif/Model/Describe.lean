/-!
# Model of `describe_exception` (test/fixtures.py:405-448)

Exceptions live in a heap, because their links to earlier exceptions can form a circle.  Simplification: `str(instance)` does not raise; the dim color of the tracebacks is left out.
-/
namespace Unpy.Describe

/-- An exception instance: what `describe_recursive` looks at -/
structure Exc where
  /-- `__cause__` -/
  cause : Option Nat
  /-- `__context__` -/
  context : Option Nat
  /-- `__suppress_context__` -/
  suppress : Bool
  /-- `"".join(format_tb(__traceback__))`; none if the traceback is None -/
  traceback : Option String
  /-- `f"{type(instance)}"` -/
  type : String
  /-- `str(instance)` -/
  msg : String

/-- `describe_instance` (test/fixtures.py:416-429) -/
def describeInstance (x : Exc) : List String :=
  (match x.traceback with
    | some t => ["\nTraceback (most recent call last):\n" ++ t]
    | none => []) ++
  [if x.msg = "" then x.type else x.type ++ ": " ++ x.msg]

/-- `describe_recursive` of an instance (test/fixtures.py:431-444); the first argument is how deep the recursion may go; none: RecursionError -/
def describeRecursive (heap : Nat → Exc) : Nat → Nat → Option (List String)
  | 0, _ => none
  | n + 1, e =>
    let x := heap e
    let own := describeInstance x
    match x.cause with
    | some c => (describeRecursive heap n c).map (· ++ ["\n\nThe above exception was the direct cause of the following exception:\n"] ++ own)
    | none =>
      if !x.suppress then
        match x.context with
        | some c => (describeRecursive heap n c).map (· ++ ["\n\nDuring handling of the above exception, another exception occurred:\n"] ++ own)
        | none => some own
      else some own

/-- What `describe_exception` is given: an instance, or something else (an exception class, as in `raise SomeError`), of which only `str` matters -/
inductive Raised where
  | instance_ (e : Nat)
  | other (str : String)

/-- `describe_exception(exc)` (test/fixtures.py:405-448; the branch for something else than an instance is 445-446) -/
def describeException (heap : Nat → Exc) (limit : Nat) : Raised → Option String
  | .instance_ e => (describeRecursive heap limit e).map String.join
  | .other s => some (String.join [s])

end Unpy.Describe
