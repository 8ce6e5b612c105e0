import Verif.Model.Py
/-!
# Independent specifications for the it.py properties

Nothing here refers to the model (`Model.Py` only supplies the type of nested values).
-/
namespace Unpy.Spec.It
universe u v
variable {α : Type u} {β : Type v}

/-- `m` is the length of the shortest of the (at least one) lists. -/
def IsShortest (its : List (List α)) (m : Nat) : Prop :=
  (∀ xs ∈ its, m ≤ xs.length) ∧ (∃ xs ∈ its, xs.length = m)

/-- The i-th item counted from the right end. -/
def fromRight (xs : List α) (i : Nat) : Option α :=
  if i < xs.length then xs[xs.length - 1 - i]? else none

/-- The items of `xs` at those positions `i` for which `keep i`. -/
def atPositions (keep : Nat → Bool) (xs : List α) : List α :=
  ((List.range xs.length).filter keep).filterMap (fun i => xs[i]?)

/-- Position `i` carries a key that no earlier position carries. -/
def isFirstOcc [DecidableEq β] (key : α → β) (xs : List α) (i : Nat) : Bool :=
  (List.range i).all (fun j => xs[j]?.map key != xs[i]?.map key)

/-- Position `i` is the first, or its key differs from that of the position before. -/
def isRunStart [DecidableEq β] (key : α → β) (xs : List α) (i : Nat) : Bool :=
  i == 0 || xs[i-1]?.map key != xs[i]?.map key

/-- Round-robin: all complete rounds, then the incomplete round up to the first exhausted input. -/
def roundRobin (its : List (List α)) (m : Nat) : List α :=
  (List.range m).flatMap (fun q => its.filterMap (fun xs => xs[q]?))
    ++ (its.takeWhile (fun xs => decide (m < xs.length))).filterMap (fun xs => xs[m]?)

/-- `Reach pred xs p v`: starting from the items of `xs` and entering only lists/tuples accepted by
`pred`, the path `p` (a list of positions, outermost first) leads to the item `v`. -/
inductive Reach (pred : Bool → List (Val α) → Bool) : List (Val α) → List Nat → Val α → Prop
  | here {xs i v} : xs[i]? = some v → Reach pred xs [i] v
  | into {xs i t es p v} : xs[i]? = some (.seq t es) → pred t es = true →
      Reach pred es p v → Reach pred xs (i :: p) v

/-- An item that is not itself to be entered: an atom, or a list/tuple rejected by `pred`. -/
def Final (pred : Bool → List (Val α) → Bool) (v : Val α) : Prop :=
  ∀ t es, v = .seq t es → pred t es = false

mutual
/-- All atoms inside a nested value, left to right. -/
def atoms : Val α → List α
  | .atom a => [a]
  | .seq _ es => atomsL es
/-- All atoms inside a list of nested values, left to right. -/
def atomsL : List (Val α) → List α
  | [] => []
  | e :: es => atoms e ++ atomsL es
end

end Unpy.Spec.It
