import Verif.Model.Py
import Verif.Model.PyDict
/-!
# Signatures as data

What `inspect.signature` tells about a function: its parameters in order.
-/
namespace Unpy.Arity

/-- `inspect.Parameter.kind` -/
inductive Kind where
  | posOnly | posOrKw | varPos | kwOnly | varKw
  deriving DecidableEq, Repr

/-- `inspect.Parameter`: `default = none` is `Parameter.empty`. -/
structure Param (V : Type) where
  name : String
  kind : Kind
  default : Option V := none
  deriving DecidableEq, Repr

/-- A signature: the parameters in order. -/
abbrev Sig (V : Type) := List (Param V)

/-- What a parameter is bound to: an object, the tuple of `*args`, or the dict of `**kwargs`. -/
inductive BVal (V : Type) where
  | val (v : V)
  | tuple (vs : List V)
  | dict (kws : List (String × V))
  deriving DecidableEq, Repr

end Unpy.Arity
