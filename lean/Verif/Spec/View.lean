import Verif.Model.View
/-!
# Specification of views

A view is nothing but the list of slices through which it was made.  Reading it is slicing the current contents with each of them in
turn; writing to it writes to the positions found by slicing `range(len(seq))` with each of them in turn.
-/
namespace Unpy.Spec.View
open Unpy Unpy.View
universe u
variable {α : Type u}

/-- The positions selected by `seq[s1][s2]...` from a sequence of length `n`. -/
def positions (n : Nat) (c : List Slice) : List Int := c.foldl pySlice ((List.range n).map (fun k : Nat => (k : Int)))

/-- `seq[s1][s2]...` -/
def contents (data : List α) (c : List Slice) : List α := c.foldl pySlice data

/-- assign the items, in order, to the positions -/
def assignAt (data : List α) (ps : List Int) (items : List α) : List α :=
  (ps.zip items).foldl (fun l p => l.set p.1.toNat p.2) data

/-- The value, and the new contents of the sequence, when the view made through the slices `c` is used. -/
def use (data : List α) (ro : Bool) (c : List Slice) : Use α → Res (Out α) × List α
  | .len => (.ok (.num (contents data c).length), data)
  | .iter => (.ok (.items (contents data c)), data)
  | .get k =>
    let l := contents data c
    if -(l.length : Int) ≤ k ∧ k < l.length then
      match l[(normIdx k l.length).toNat]? with
      | some a => (.ok (.item a), data)
      | none => (.error .IndexError, data)
    else (.error .IndexError, data)
  | .set k a => if ro then (.error .TypeError, data) else
    let ps := positions data.length c
    if -(ps.length : Int) ≤ k ∧ k < ps.length then
      match ps[(normIdx k ps.length).toNat]? with
      | some j => (.ok .unit, data.set j.toNat a)
      | none => (.error .IndexError, data)
    else (.error .IndexError, data)
  | .setSlice k (.items vs) => if ro then (.error .TypeError, data) else
    if k.by = 0 then (.error .ValueError, data) else
    (.ok .unit, assignAt data (positions data.length (c ++ [k])) vs)
  | .setSlice k (.scalar a) => if ro then (.error .TypeError, data) else
    if k.by = 0 then (.error .ValueError, data) else
    let ps := positions data.length (c ++ [k])
    (.ok .unit, assignAt data ps (List.replicate ps.length a))
  | .reverse => if ro then (.error .AttributeError, data) else
    (.ok .unit, assignAt data (positions data.length c).reverse (contents data c))

/-- How the view in each variable was made: whether it is read-only, and through which slices. -/
def track (roData : Bool) (vars : List (Bool × List Slice)) : Op α → List (Bool × List Slice)
  | .mk ro none s => if !ro && roData then vars else vars ++ [(ro, [s])]
  | .mk ro (some v) s => match vars[v]? with
    | some (pro, c) => if !ro && pro then vars else vars ++ [(ro, c ++ [s])]
    | none => vars
  | .slice v s => match vars[v]? with
    | some (pro, c) => vars ++ [(pro, c ++ [s])]
    | none => vars
  | .mutate _ | .use _ _ => vars

/-- the variables after a history -/
def made (roData : Bool) (ops : List (Op α)) : List (Bool × List Slice) := ops.foldl (track roData) []

/-- The steps do not use slices with step 0 to make views. -/
def NonzeroSteps (ops : List (Op α)) : Prop :=
  ∀ op ∈ ops, match op with
    | .mk _ _ s | .slice _ s => s.by ≠ 0
    | _ => True

/-- At every level, the length of what is sliced determines what is selected.  (`Anchored` chains are like this, see below.) -/
def Determined (c : List Slice) : Prop :=
  ∀ p s, (p ++ [s]) <+: c → ∀ n n', (positions n p).length = (positions n' p).length →
    positions n (p ++ [s]) = positions n' (p ++ [s])

/-- A slice that begins at a fixed place and goes forward. -/
def Anchored (s : Slice) : Prop := 0 < s.by ∧ ∀ k, s.start = some k → 0 ≤ k

/-- Only the last slice of the chain may be anything, the earlier ones are anchored.  (In particular any single slice of the
sequence itself.) -/
def Stable (c : List Slice) : Prop := ∀ s ∈ c.dropLast, Anchored s

end Unpy.Spec.View
