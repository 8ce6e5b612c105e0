import Verif.Model.Fold
/-!
# Independent specifications for the fold.py properties

Only the data types for user-function results and `next()` outcomes are shared with the model.
-/
namespace Unpy.Spec.Fold
universe u w
variable {V : Type u} {ε : Type w}

/-- `rows` lists the tuples of corresponding items of `its`, where item `i` of an input is counted from
its left end.  Shortest: a row needs an item from every input.  Longest: a row needs an item from at
least one input, the others being replaced by the fill value. -/
def IsRows (longest : Bool) (fill : V) (its : List (List V)) (rows : List (List V)) : Prop :=
  ∀ i : Nat,
    if longest then
      ((∃ xs ∈ its, i < xs.length) → rows[i]? = some (its.map (fun xs => xs[i]?.getD fill))) ∧
      ((∀ xs ∈ its, xs.length ≤ i) → rows.length ≤ i)
    else
      ((∀ xs ∈ its, i < xs.length) → rows[i]? = some (its.map (fun xs => xs[i]?.getD fill))) ∧
      ((∃ xs ∈ its, xs.length ≤ i) → rows.length ≤ i)

/-- The same with items counted from the right end of each input. -/
def IsRowsR (longest : Bool) (fill : V) (its : List (List V)) (rows : List (List V)) : Prop :=
  ∀ i : Nat,
    if longest then
      ((∃ xs ∈ its, i < xs.length) → rows[i]? = some (its.map (fun xs =>
          if i < xs.length then xs[xs.length - 1 - i]?.getD fill else fill))) ∧
      ((∀ xs ∈ its, xs.length ≤ i) → rows.length ≤ i)
    else
      ((∀ xs ∈ its, i < xs.length) → rows[i]? = some (its.map (fun xs =>
          if i < xs.length then xs[xs.length - 1 - i]?.getD fill else fill))) ∧
      ((∃ xs ∈ its, xs.length ≤ i) → rows.length ≤ i)

/-- The value accumulated over the first `k` rows, calling `proc(*row, acc)` for each in turn. -/
def partialResult (proc : List V → Except ε V) (init : V) (rows : List (List V)) (k : Nat) :
    Except ε V :=
  (rows.take k).foldlM (fun acc row => proc (row ++ [acc])) init

/-- `items`/`exc` are what a scan over `rows` must produce: the partial results over 0, 1, 2, ... rows;
if none of the calls raises, one per row plus the initial one; otherwise everything before the failing
call, and then the exception of that call. -/
structure Traces (proc : List V → Except ε V) (init : V) (rows : List (List V))
    (items : List V) (exc : Option ε) : Prop where
  nonempty : 0 < items.length
  item : ∀ (k : Nat) v, items[k]? = some v → partialResult proc init rows k = .ok v
  complete : exc = none → items.length = rows.length + 1
  failed : ∀ e, exc = some e →
    items.length ≤ rows.length ∧ partialResult proc init rows items.length = .error e

/-- `s` is what `lt` needs to satisfy for "least" and "greatest" to make sense: a strict weak order
(total orders such as `<` on numbers or strings are examples; distinct items may also tie). -/
structure StrictWeak (lt : V → V → Bool) : Prop where
  irrefl : ∀ a, lt a a = false
  trans : ∀ a b c, lt a b = true → lt b c = true → lt a c = true
  cotrans : ∀ a b c, lt a c = true → lt a b = true ∨ lt b c = true

/-- `m` is the first item of `xs` such that no item of `xs` is smaller. -/
def IsFirstMin (lt : V → V → Bool) (xs : List V) (m : V) : Prop :=
  ∃ i : Nat, xs[i]? = some m ∧ (∀ x ∈ xs, lt x m = false) ∧
    ∀ (j : Nat) x, j < i → xs[j]? = some x → lt m x = true

open Unpy.Fold (Ret1 RetN Vals Out Err)

/-- The state before the `k`-th call of the user function (counting from 0), if there is such a call:
each call must have returned a pair whose second component is the next state. -/
def stateAt1 (proc : V → Ret1 ε V) (init : V) : Nat → Option V
  | 0 => some init
  | k + 1 =>
    match stateAt1 proc init k with
    | none => none
    | some s => match proc s with
      | .seq [_, s'] => some s'
      | _ => none

/-- The state (positional and named arguments) before the `k`-th call of the user function. -/
def stateAtN (proc : List V → List (String × V) → RetN ε V) (init : Vals V) : Nat → Option (Vals V)
  | 0 => some init
  | k + 1 =>
    match stateAtN proc init k with
    | none => none
    | some s => match proc s.rets s.kwrets with
      | .values ⟨_ :: rets, kw⟩ => some ⟨rets, kw⟩
      | _ => none

end Unpy.Spec.Fold
