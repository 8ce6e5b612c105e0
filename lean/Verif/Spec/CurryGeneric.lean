import Verif.Spec.Dispatch
/-!
# What a generic function makes of some of its arguments
-/
namespace Unpy.Spec.CurryGeneric
open Unpy Unpy.Arity Unpy.Spec.Arity Unpy.Dispatch Unpy.Spec.Dispatch
variable {C V T : Type}

/-- What a parameter gets from the arguments, without defaults: an argument, or the arguments that `*args` or `**kwargs` collects if there are any. -/
def supplied (sig : Sig V) (args : List V) (kwargs : PyDict String V) (p : Param V) : Option (BVal V) :=
  if p.kind = .varPos then (if overflow sig args = [] then none else some (.tuple (overflow sig args)))
  else if p.kind = .varKw then (if unknown sig kwargs = [] then none else some (.dict (unknown sig kwargs)))
  else (given sig args kwargs p).map .val

/-- Every argument is of the type that the parameter is annotated with. -/
def TypesFit (isof : T → BVal V → Res Bool) (args : List V) (kwargs : PyDict String V) (m : MM V T) : Prop :=
  ∀ p ∈ m.sig, ∀ b, supplied m.sig args kwargs p = some b → ∃ t, PyDict.get? m.hints p.name = some t ∧ isof t b = .ok true

/-- The multimethod can be called with the arguments. -/
def Exact (isof : T → BVal V → Res Bool) (args : List V) (kwargs : PyDict String V) (m : MM V T) : Prop :=
  Accepts m.sig args kwargs ∧ TypesFit isof args kwargs m

/-- It could be called with some of the arguments, but others are left over. -/
def TooMany (isof : T → BVal V → Res Bool) (args : List V) (kwargs : PyDict String V) (m : MM V T) : Prop :=
  missing m.sig args kwargs = [] ∧ (extraArgs m.sig args ≠ [] ∨ extraKwargs m.sig kwargs ≠ []) ∧ TypesFit isof args kwargs m

/-- It needs more arguments. -/
def TooFew (isof : T → BVal V → Res Bool) (args : List V) (kwargs : PyDict String V) (m : MM V T) : Prop :=
  missing m.sig args kwargs ≠ [] ∧ TypesFit isof args kwargs m

/-- There is a parameter for each of the arguments. -/
def Takes (sig : Sig V) (args : List V) (kwargs : PyDict String V) : Prop :=
  ¬ Conflict sig args kwargs ∧ ¬ PosOnlyClash sig args kwargs ∧ extraArgs sig args = [] ∧ extraKwargs sig kwargs = []

/-- The arguments so far are all right for the multimethod: each has a parameter, of the right type (and so have the defaults of the parameters without an argument). -/
def SoFar (isof : T → BVal V → Res Bool) (args : List V) (kwargs : PyDict String V) (m : MM V T) : Prop :=
  Takes m.sig args kwargs ∧
  ∀ p ∈ m.sig, ∀ b, seen m.sig args kwargs p = some b → ∃ t, PyDict.get? m.hints p.name = some t ∧ isof t b = .ok true

/-- No argument of the call is given to the multimethod twice; and if arguments are left over, it has no parameters that can only be given by name. -/
def Clear (args : List V) (kwargs : PyDict String V) (m : MM V T) : Prop :=
  ¬ Conflict m.sig args kwargs ∧ ¬ PosOnlyClash m.sig args kwargs ∧ (extraArgs m.sig args = [] ∨ (¬ hasKind .kwOnly m.sig ∧ ¬ hasKind .varKw m.sig))

/-- A signature of `k` positional parameters without defaults (they may also be positional-only). -/
def Plain (k : Nat) (sig : Sig V) : Prop := sig.length = k ∧ ∀ p ∈ sig, (p.kind = .posOnly ∨ p.kind = .posOrKw) ∧ p.default = none

/-- All positional arguments of a chain of calls, in order. -/
def allArgs (cs : List (List V × PyDict String V)) : List V := (cs.map (·.1)).flatten

/-- All named arguments of a chain of calls; a name given again gets the later value. -/
def allKwargs (cs : List (List V × PyDict String V)) : PyDict String V := PyDict.update [] (cs.map (·.2)).flatten

end Unpy.Spec.CurryGeneric
