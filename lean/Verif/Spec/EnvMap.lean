import Verif.Spec.Env
/-!
# Specification for names in environments: which are acceptable, and in which order they are listed
-/
namespace Unpy.Props
open Unpy Unpy.EnvM
universe u
variable {V : Type u}

/-- A name that an env accepts: an identifier that is not one of the reserved names. -/
def Acceptable (w : World V) (n : String) : Prop :=
  w.isIdent n = true ∧ n ∉ ["set", "clear", "finalize", "_env", "_finalized", "_direct_write", "_reserved_names"]

/-- The operations that do not check names are used with acceptable names. -/
def ChecksNames (w : World V) : Op V → Prop
  | .update ms bs => (∀ m ∈ ms, ∀ p ∈ m, Acceptable w p.1) ∧ ∀ p ∈ bs, Acceptable w p.1
  | .setdefault k _ => Acceptable w k
  | _ => True

/-- a name is bound: a new one goes last, a bound one keeps its place -/
def listed (names : List String) (n : String) : List String := if n ∈ names then names else names ++ [n]

/-- The names in order, after an operation that succeeded and returned `out` -/
def order (names : List String) (op : Op V) (out : Out V) : List String :=
  match op, out with
  | .setattr n _, _ | .setitem n _, _ | .set n _, _ | .lshift n _, _ | .setdefault n _, _ => listed names n
  | .delattr n, _ | .delitem n, _ => names.filter (· ≠ n)
  | .pop n _, _ => names.filter (· ≠ n)
  | .popitem, _ => names.dropLast
  | .clear, _ | .exit, _ => []
  | .update ms bs, _ => ((ms.flatten ++ bs).map Prod.fst).foldl listed names
  | _, _ => names

end Unpy.Props
