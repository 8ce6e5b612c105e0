import Verif.Model.Dispatch
import Verif.Spec.Arity
/-!
# Which multimethod a call should run
-/
namespace Unpy.Spec.Dispatch
open Unpy Unpy.Arity Unpy.Spec.Arity Unpy.Dispatch
variable {C V T : Type}

/-- The call can be bound to the signature.  (The standard library also refuses the corner case
`PosOnlyClash`.) -/
def Binds (sig : Sig V) (args : List V) (kwargs : PyDict String V) : Prop :=
  Accepts sig args kwargs ∧ ¬ PosOnlyClash sig args kwargs

/-- A multimethod accepts a call: the arguments can be bound to its parameters, and what each parameter is
bound to, including defaults and the contents of `*args` and `**kwargs`, is of the type it is annotated
with. -/
def Matches (isof : T → BVal V → Res Bool) (args : List V) (kwargs : PyDict String V) (m : MM V T) : Prop :=
  Binds m.sig args kwargs ∧
  ∀ p ∈ m.sig, ∀ b, seen m.sig args kwargs p = some b →
    ∃ t, PyDict.get? m.hints p.name = some t ∧ isof t b = .ok true

/-- `m` is the first in the list with the property. -/
def First (P : α → Prop) (l : List α) (m : α) : Prop :=
  ∃ before after, l = before ++ m :: after ∧ P m ∧ ∀ x ∈ before, ¬ P x

/-- `m` is the last in the list with the property. -/
def Last (P : α → Prop) (l : List α) (m : α) : Prop :=
  ∃ before after, l = before ++ m :: after ∧ P m ∧ ∀ x ∈ after, ¬ P x

/-- Registries as they are found in a program: signatures are Python signatures and every parameter has a
type. -/
def Good (m : MM V T) : Prop := WF m.sig ∧ ∀ p ∈ m.sig, PyDict.has m.hints p.name = true

/-- The multimethods that the class itself defines under the name, most recent first. -/
def ownMethods (w : World C V) (st : Reg V T) (c : C) (name : String) : List (MM V T) :=
  match w.own c name with
  | some (.generic n) => ((PyDict.get? st n).map (·.registry)).getD [] |>.reverse
  | _ => []

/-- The documented search order for methods: class by class in MRO order, most recent multimethod first
within each class. -/
def mroOrder (w : World C V) (st : Reg V T) (c : C) (name : String) : List (MM V T) :=
  (w.mro c).flatMap (fun d => ownMethods w st d name)

/-- Looking the name up in a class of the MRO finds what is defined next in the MRO.  This holds for single
inheritance, where the MRO of each class is the rest of the MRO. -/
def Consistent (w : World C V) (c : C) (name : String) : Prop :=
  ∀ before d after, w.mro c = before ++ d :: after →
    (w.mro d).findSome? (fun e => w.own e name) = (d :: after).findSome? (fun e => w.own e name)

/-- A function with annotations on all parameters but a self-like first one. -/
def Annotated (f : Fn V T) : Prop :=
  ∀ i, ∀ p, f.sig[i]? = some p → (∃ t, PyDict.get? f.hints p.name = some t) ∨ (i = 0 ∧ p.name ∈ selfNames)

/-- The multimethods of a generic function, in the order of registration. -/
def methodsOf (st : Reg V T) (n : String) : List (MM V T) := ((PyDict.get? st n).map (·.registry)).getD []

/-- The generic function was closed by `@typed`. -/
def Closed (st : Reg V T) (n : String) : Prop := ∃ d, PyDict.get? st n = some d ∧ d.typed = true

/-- `@augment` needs a target that exists. -/
def TargetExists (st : Reg V T) : Op V T → Prop
  | .augment n _ => ∃ d, PyDict.get? st n = some d
  | _ => True

/-- Not a method: the first positional parameter of the definition that created the generic function has no
self-like name. -/
def NotMethod (d : Disp V T) : Prop := ∀ n, firstPositional d.sig = some n → n ∉ selfNames

/-- A method: it has one. -/
def IsMethod (d : Disp V T) : Prop := ∃ n, firstPositional d.sig = some n ∧ n ∈ selfNames

end Unpy.Spec.Dispatch
