import Verif.Model.Sig
/-!
# How Python binds arguments to parameters

The rules of a Python call, stated parameter by parameter instead of as a scan.
-/
namespace Unpy.Spec.Arity
open Unpy Unpy.Arity
variable {V : Type}

/-- Parameters that can be filled by position. -/
def positional (sig : Sig V) : List (Param V) := sig.filter (fun p => p.kind = .posOnly ∨ p.kind = .posOrKw)

/-- Parameters other than `*args` and `**kwargs`. -/
def Ordinary (p : Param V) : Prop := p.kind = .posOnly ∨ p.kind = .posOrKw ∨ p.kind = .kwOnly
instance (p : Param V) : Decidable (Ordinary p) := by unfold Ordinary; infer_instance

/-- Parameters that can be filled by name. -/
def ByName (p : Param V) : Prop := p.kind = .posOrKw ∨ p.kind = .kwOnly
instance (p : Param V) : Decidable (ByName p) := by unfold ByName; infer_instance

/-- The positional argument that fills the parameter of this name: the first positional argument goes to the
first positional parameter, and so on. -/
def posArg (sig : Sig V) (args : List V) (name : String) : Option V :=
  (((positional sig).map (·.name)).zip args).lookup name

/-- The argument for an ordinary parameter: by position, else by name. -/
def given (sig : Sig V) (args : List V) (kwargs : PyDict String V) (p : Param V) : Option V :=
  match posArg sig args p.name with
  | some v => some v
  | none => if ByName p then PyDict.get? kwargs p.name else none

/-- A parameter is given both by position and by name. -/
def Conflict (sig : Sig V) (args : List V) (kwargs : PyDict String V) : Prop :=
  ∃ p ∈ sig, ByName p ∧ (posArg sig args p.name).isSome ∧ PyDict.has kwargs p.name = true

/-- Required parameters that get no argument. -/
def missing (sig : Sig V) (args : List V) (kwargs : PyDict String V) : List (Param V) :=
  sig.filter (fun p => Ordinary p ∧ p.default = none ∧ given sig args kwargs p = none)

/-- Positional arguments beyond the positional parameters. -/
def overflow (sig : Sig V) (args : List V) : List V := args.drop (positional sig).length

/-- Named arguments that name no parameter. -/
def unknown (sig : Sig V) (kwargs : PyDict String V) : PyDict String V :=
  kwargs.filter (fun kv => ¬ ∃ p ∈ sig, ByName p ∧ p.name = kv.1)

def hasKind (k : Kind) (sig : Sig V) : Prop := ∃ p ∈ sig, p.kind = k
instance (k : Kind) (sig : Sig V) : Decidable (hasKind k sig) := by unfold hasKind; infer_instance

/-- Arguments that Python would reject: positional ones beyond the positional parameters if there is no
`*args`, and unknown named ones if there is no `**kwargs`. -/
def extraArgs (sig : Sig V) (args : List V) : List V := if hasKind .varPos sig then [] else overflow sig args
def extraKwargs (sig : Sig V) (kwargs : PyDict String V) : PyDict String V :=
  if hasKind .varKw sig then [] else unknown sig kwargs

/-- Python accepts the call. -/
def Accepts (sig : Sig V) (args : List V) (kwargs : PyDict String V) : Prop :=
  ¬ Conflict sig args kwargs ∧ missing sig args kwargs = [] ∧
  extraArgs sig args = [] ∧ extraKwargs sig kwargs = []

instance (sig : Sig V) (args : List V) (kwargs : PyDict String V) : Decidable (Conflict sig args kwargs) := by
  unfold Conflict; infer_instance

instance (sig : Sig V) (args : List V) (kwargs : PyDict String V) : Decidable (Accepts sig args kwargs) :=
  decidable_of_iff (¬ Conflict sig args kwargs ∧ (missing sig args kwargs).isEmpty = true ∧
    (extraArgs sig args).isEmpty = true ∧ (extraKwargs sig kwargs).isEmpty = true)
    (by simp [Accepts, List.isEmpty_iff])

/-- What the body of the function sees for a parameter, when the call is accepted. -/
def seen (sig : Sig V) (args : List V) (kwargs : PyDict String V) (p : Param V) : Option (BVal V) :=
  if p.kind = .varPos then some (.tuple (overflow sig args))
  else if p.kind = .varKw then some (.dict (unknown sig kwargs))
  else (given sig args kwargs p <|> p.default).map .val

/-- A signature as Python's grammar allows it (the rule that defaults come last is not needed). -/
structure WF (sig : Sig V) : Prop where
  shape : ∃ po pk va ko vk : List (Param V), sig = po ++ pk ++ va ++ ko ++ vk ∧
    (∀ p ∈ po, p.kind = .posOnly) ∧ (∀ p ∈ pk, p.kind = .posOrKw) ∧
    (∀ p ∈ va, p.kind = .varPos) ∧ va.length ≤ 1 ∧
    (∀ p ∈ ko, p.kind = .kwOnly) ∧ (∀ p ∈ vk, p.kind = .varKw) ∧ vk.length ≤ 1
  names : (sig.map (·.name)).Nodup
  /-- `*args` and `**kwargs` have no default -/
  stars : ∀ p ∈ sig, p.kind = .varPos ∨ p.kind = .varKw → p.default = none

/-- A positional-only parameter that got no positional argument has its name used as a named argument. -/
def PosOnlyClash (sig : Sig V) (args : List V) (kwargs : PyDict String V) : Prop :=
  ∃ p ∈ sig, p.kind = .posOnly ∧ posArg sig args p.name = none ∧ PyDict.has kwargs p.name = true

end Unpy.Spec.Arity
