import Verif.Model.Excutil
/-!
# The `try` statement, and exception conversion
-/
namespace Unpy.Excutil.Spec
open Unpy Unpy.Eff Unpy.Excutil

variable {σ E C V : Type}

/-- A clause `except (types) as e: code`. -/
structure Clause (σ E C V : Type) where
  types : List C
  code : E → Eff σ E V

/-- The class of `e` is one of the types of the clause, or a subclass of one. -/
def Clause.Matches (cl : Classes E C) (e : E) (c : Clause σ E C V) : Prop := ∃ t ∈ c.types, cl.sub (cl.typ e) t = true

/-- `try`/`except`/`else` (Python language reference, 8.4). -/
inductive TryElse (cl : Classes E C) (body : Eff σ E V) (clauses : List (Clause σ E C V)) (els : Option (Eff σ E V))
    (s : σ) : Except E V → σ → Prop
  | plain {v s1} : body s = (.ok v, s1) → els = none → TryElse cl body clauses els s (.ok v) s1
  | els {v s1 f} : body s = (.ok v, s1) → els = some f → TryElse cl body clauses els s (f s1).1 (f s1).2
  | caught {e s1 before c after} : body s = (.error e, s1) → clauses = before ++ c :: after →
      (∀ b ∈ before, ¬ b.Matches cl e) → c.Matches cl e → TryElse cl body clauses els s (c.code e s1).1 (c.code e s1).2
  | uncaught {e s1} : body s = (.error e, s1) → (∀ c ∈ clauses, ¬ c.Matches cl e) →
      TryElse cl body clauses els s (.error e) s1

/-- With `finally`: it runs last, in any case; if it raises, that exception replaces the outcome. -/
inductive Try (cl : Classes E C) (body : Eff σ E V) (clauses : List (Clause σ E C V)) (els fin : Option (Eff σ E V))
    (s : σ) : Except E V → σ → Prop
  | nofin {r s1} : TryElse cl body clauses els s r s1 → fin = none → Try cl body clauses els fin s r s1
  | fin {r s1 f v s2} : TryElse cl body clauses els s r s1 → fin = some f → f s1 = (.ok v, s2) →
      Try cl body clauses els fin s r s2
  | finRaises {r s1 f e s2} : TryElse cl body clauses els s r s1 → fin = some f → f s1 = (.error e, s2) →
      Try cl body clauses els fin s (.error e) s2

/-- The types named by an excspec. -/
def types : ExcSpec C → List C
  | .one c => c.toList
  | .tuple cs => cs.filterMap id

/-- The clause that a pair `(excspec, handler)` stands for. -/
def clause (h : ExcSpec C × Handler σ E V) : Clause σ E C V where
  types := types h.1
  code := fun e => h.2.call (if h.2.accepts then some e else none)

/-- All objects in the excspec are exception types. -/
def Valid (x : ExcSpec C) : Prop :=
  match x with
  | .one c => c ≠ none
  | .tuple cs => none ∉ cs

/-- `isinstance(e, x)` -/
def IsInstance (cl : Classes E C) (e : E) (x : ExcSpec C) : Prop := ∃ t ∈ types x, cl.sub (cl.typ e) t = true

end Unpy.Excutil.Spec
