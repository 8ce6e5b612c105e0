/-!
# Shared vocabulary of the model

Python exceptions are modelled as values of `PyErr`.  Only the class of an exception is kept,
because no property in `properties.jsonl` speaks about messages; where the identity of an exception
instance matters (memoize, Lazy, tryf, ...) the model uses a type parameter instead.
-/

namespace Unpy

/-- Exception classes raised by the modelled code itself. -/
inductive PyErr where
  | IndexError | ValueError | TypeError | AttributeError | KeyError | AssertionError
  | RuntimeError | StopIteration | EOFError | UnboundLocalError | ControlError
  | ZeroDivisionError | SyntaxError | UnicodeDecodeError | NotImplementedError
  deriving DecidableEq, Repr, Inhabited

/-- What a Python call does: return a value or raise. -/
abbrev Res (α : Type _) := Except PyErr α

instance [DecidableEq ε] [DecidableEq α] : DecidableEq (Except ε α) := fun a b =>
  match a, b with
  | .ok x, .ok y => if h : x = y then isTrue (by rw [h]) else isFalse (by simpa using h)
  | .error x, .error y => if h : x = y then isTrue (by rw [h]) else isFalse (by simpa using h)
  | .ok _, .error _ => isFalse (by simp)
  | .error _, .ok _ => isFalse (by simp)

/-- What a finite generator does when it is exhausted: the items it yields, and then either it
stops normally (`none`) or raises. -/
structure Gen (α : Type _) where
  items : List α
  exc : Option PyErr := none
  deriving DecidableEq, Repr

/-- Nested Python values: an atom, or a list (`tup = false`) / tuple (`tup = true`). -/
inductive Val (α : Type u) where
  | atom (a : α)
  | seq (tup : Bool) (items : List (Val α))
  deriving Repr

end Unpy
