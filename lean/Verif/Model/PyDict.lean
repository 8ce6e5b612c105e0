/-!
# Python dicts

A dict is the list of its items in insertion order, which is the order Python iterates in.  The operations
below never create two items with the same key (`Nodup`, see `Verif.Proof.PyDict`).
-/
namespace Unpy
universe u v

/-- A Python `dict`: items in insertion order. -/
abbrev PyDict (K : Type u) (V : Type v) := List (K × V)

namespace PyDict
variable {K : Type u} {V : Type v} [DecidableEq K]

/-- `d[k]`, `none` for KeyError -/
def get? (d : PyDict K V) (k : K) : Option V :=
  match d with
  | [] => none
  | (k', v) :: d => if k' = k then some v else get? d k

/-- `k in d` -/
def has (d : PyDict K V) (k : K) : Bool := (get? d k).isSome

/-- `list(d)` -/
def keys (d : PyDict K V) : List K := d.map Prod.fst

/-- `d[k] = v`: an existing key keeps its place, a new one goes last. -/
def set (d : PyDict K V) (k : K) (v : V) : PyDict K V :=
  match d with
  | [] => [(k, v)]
  | (k', v') :: d => if k' = k then (k, v) :: d else (k', v') :: set d k v

/-- `del d[k]` of an existing key -/
def erase (d : PyDict K V) (k : K) : PyDict K V := d.filter (fun p => p.1 ≠ k)

/-- `d.update(m)` with the items of `m` in order -/
def update (d : PyDict K V) (m : List (K × V)) : PyDict K V := m.foldl (fun d p => set d p.1 p.2) d

end PyDict
end Unpy
