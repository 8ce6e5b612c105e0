import Verif.Model.View
/-!
# Model of assigning to a slice of a view from a sequence that is alive (`view.__setitem__`, collections.py:717-734)

The right-hand side is the underlying sequence itself, or a view of it.  Its items are read one by one, in between the writes.
-/
namespace Unpy.View
open Unpy
universe u
variable {α : Type u}

/-- What is assigned: the underlying sequence, or the view in a variable -/
inductive Live where
  | seq | var (w : Nat)
  deriving DecidableEq, Repr

/-- `for j, item in zip(r[k], vs): data[j] = item` (collections.py:726-727), where `vs` goes over these positions of the same data: each item is
read (collections.py:632-634) just before the write. -/
def copyAll (data : List α) : List Int → List Int → Res Unit × List α
  | [], _ => (.ok (), data)
  | _ :: _, [] => (.ok (), data)
  | j :: js, q :: qs =>
    match data[q.toNat]? with
    | none => (.error .IndexError, data)
    | some a => if j < 0 ∨ data.length ≤ j then (.error .IndexError, data) else copyAll (data.set j.toNat a) js qs

/-- `iter(v)` (collections.py:723, 630-635): the positions that the iterator will go over; an iterator of the sequence itself goes over all. -/
def iterOf (st : St α) : Live → Res (List Int) × St α
  | .seq => (.ok (rng st.data.length), st)
  | .var w => match st.vars[w]? with
    | none => (.error .UnboundLocalError, st)
    | some i => updateCache st (i + 1) i

/-- `v[k] = src` (collections.py:717-727) -/
def copySlice (st : St α) (v : Nat) (k : Slice) (src : Live) : Res (Out α) × St α :=
  match st.vars[v]? with
  | none => (.error .UnboundLocalError, st)
  | some i => match st.heap[i]? with
    | none => (.error .AttributeError, st)
    | some o => if o.ro then (.error .TypeError, st) else
      match updateCache st (i + 1) i with
      | (.error e, st) => (.error e, st)
      | (.ok r, st) => match iterOf st src with
        | (.error e, st) => (.error e, st)
        | (.ok qs, st) => match rangeSlice r k with
          | .error e => (.error e, st)
          | .ok rk =>
            let w := copyAll st.data rk qs
            (match w.1 with | .ok _ => .ok .unit | .error e => .error e, { st with data := w.2 })

end Unpy.View
