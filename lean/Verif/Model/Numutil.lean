import Verif.Model.Py
/-!
# Model of `unpythonic/numutil.py`: `fixpoint` and the integer partitions

Python's `int` is `Int`; the checks that the arguments are integers are left out.
-/
namespace Unpy.Numutil

/-! ## fixpoint -/

/-- `fixpoint(f, x0, tol)` (numutil.py:84-119): `last(within(tol, iterate1(f, x0)))`.  `iterate1` (it.py:561-565) yields
`x0` and then applies `f` once for each further item; `within` (it.py:788-792) looks at each pair of successive items,
and ends with the second item of the first pair that is close; `last` (it.py:448-449) returns it.  At most so many
pairs are looked at (`none`: not yet done).  `close a b` is `abs(a - b) <= tol`. -/
def fixpoint {α ε : Type} (close : α → α → Bool) (f : α → Except ε α) : Nat → α → Option (Except ε α)
  | 0, _ => none
  | steps + 1, a =>
    match f a with
    | .error e => some (.error e)
    | .ok b => if close a b then some (.ok b) else fixpoint close f steps b

/-! ## partitions -/

/-- `partition_int_custom(n, components)` (numutil.py:205-237), recursing to depth at most `fuel`: the checks, and then
the list of all that the generator `rec` yields. -/
def customAux : Nat → Int → List Int → Except PyErr (List (List Int))
  | 0, _, _ => .error .RuntimeError
  | fuel + 1, n, components =>
    if n < 1 then .error .ValueError
    else if components.any (fun x => !(decide (1 ≤ x) && decide (x ≤ n))) then .error .ValueError
    else
      components.foldl (fun acc k =>
        match acc with
        | .error e => .error e
        | .ok out =>
          let m := n - k
          if m = 0 then .ok (out ++ [[k]])
          else
            match customAux fuel m (components.filter (fun x => decide (x ≤ m))) with
            | .error e => .error e
            | .ok items => .ok (out ++ items.map (fun item => k :: item))) (.ok [])

/-- `partition_int_custom(n, components)`; each level of the recursion has a smaller positive `n`. -/
def partitionIntCustom (n : Int) (components : List Int) : Except PyErr (List (List Int)) :=
  customAux (n.toNat + 1) n components

/-- `range(hi, lo - 1, -1)`: so many items, from `hi` down. -/
def downFrom (hi : Int) : Nat → List Int
  | 0 => []
  | k + 1 => hi :: downFrom (hi - 1) k

/-- `partition_int(n, lower, upper)` (numutil.py:151-165). -/
def partitionInt (n lower : Int) (upper : Option Int) : Except PyErr (List (List Int)) :=
  let upper := upper.getD n
  if n < 1 then .error .ValueError
  else if lower < 1 || upper < 1 || lower > n || upper > n || lower > upper then .error .ValueError
  else partitionIntCustom n (downFrom (min n upper) (min n upper - (lower - 1)).toNat)

/-- `takewhile(lambda m: m <= n, triangular())`: the running total `s` and the next row `r` (mathseq.py:913-918). -/
def triangularUpto (n : Int) : Nat → Int → Int → List Int
  | 0, _, _ => []
  | fuel + 1, s, r => if s ≤ n then s :: triangularUpto n fuel (s + r) (r + 1) else []

/-- `partition_int_triangular(n, lower, upper)` (numutil.py:187-203). -/
def partitionIntTriangular (n lower : Int) (upper : Option Int) : Except PyErr (List (List Int)) :=
  let upper := upper.getD n
  if n < 1 then .error .ValueError
  else if lower < 1 || upper < 1 || lower > n || upper > n || lower > upper then .error .ValueError
  else partitionIntCustom n
    ((triangularUpto n (n.toNat + 1) 1 2).filter (fun m => decide (lower ≤ m) && decide (m ≤ upper))).reverse

end Unpy.Numutil
