import Verif.Model.Py
import Verif.Model.PySlice
/-!
# Model of `roview` and `view` (unpythonic/collections.py:579-736)

One underlying sequence `data`, and a heap of view objects.  A view object refers to the underlying sequence or to another view
object, and caches the range of positions it shows.  The program holds the views in variables (`vars`, in order of creation); two
variables may refer to the same object.  A `range` object is modelled by the list of its items, so slicing a range is slicing that list.

Simplifications: one underlying sequence; iteration over a view happens in one go (the docstring excludes inserts/deletes during
iteration); replacement values of a slice assignment are a list of values (the items of an iterable that does not itself
depend on the sequence) or one scalar.
-/
namespace Unpy.View
open Unpy
universe u
variable {α : Type u}

/-- A view object: attributes `seq`, `slice`, `_seql`, `_cache` (collections.py:616-628); `ro` for class `roview`. -/
structure Obj where
  ro : Bool
  /-- `self.seq`: `none` is the underlying sequence, `some i` the view object `i` -/
  parent : Option Nat
  slice : Slice
  /-- `self._seql` -/
  seql : Option Nat := none
  /-- the range in `self._cache` (`none`: attribute not set) -/
  cache : Option (List Int) := none
  deriving DecidableEq, Repr

/-- State of the program: the underlying sequence, whether it is of an immutable type, the view objects, the variables. -/
structure St (α : Type u) where
  data : List α
  roData : Bool
  heap : List Obj
  vars : List Nat
  deriving Repr, DecidableEq

/-- The slice `[:]` -/
def noop : Slice := ⟨none, none, none⟩

/-- `r[s]` for a range object `r` -/
def rangeSlice (r : List Int) (s : Slice) : Res (List Int) := if s.by = 0 then .error .ValueError else .ok (pySlice r s)

/-- `range(n)` -/
def rng (n : Nat) : List Int := (List.range n).map (fun k : Nat => (k : Int))

/-- collections.py:645-651 `buildr` of view object `i`.  The first argument bounds the recursion; `self.seq` always
is an older object than `self`, so `i + 1` suffices. -/
def buildr (st : St α) : Nat → Nat → Res (List Int)
  | 0, _ => .error .RuntimeError
  | f + 1, i =>
    match st.heap[i]? with
    | none => .error .AttributeError
    | some o =>
      match o.parent with
      | none => rangeSlice (rng st.data.length) o.slice
      | some p => match buildr st f p with
        | .ok r => rangeSlice r o.slice
        | .error e => .error e

/-- replace the object `i` -/
def St.put (st : St α) (i : Nat) (o : Obj) : St α := { st with heap := st.heap.set i o }

/-- collections.py:640-645 `_update_cache` of view object `i`; `len(self.seq)` of a view is its `__len__`
(collections.py:636-638), which calls its own `_update_cache`.  When `_range` raises, `_seql` has already been set. -/
def updateCache (st : St α) : Nat → Nat → Res (List Int) × St α
  | 0, _ => (.error .RuntimeError, st)
  | f + 1, i =>
    match st.heap[i]? with
    | none => (.error .AttributeError, st)
    | some o =>
      let lenSeq : Res Nat × St α := match o.parent with
        | none => (.ok st.data.length, st)
        | some p => match updateCache st f p with
          | (.ok r, st1) => (.ok r.length, st1)
          | (.error e, st1) => (.error e, st1)
      match lenSeq with
      | (.error e, st1) => (.error e, st1)
      | (.ok seql, st1) =>
        if o.seql ≠ some seql then
          match buildr st1 (i + 1) i with
          | .ok r => (.ok r, st1.put i { o with seql := some seql, cache := some r })
          | .error e => (.error e, st1.put i { o with seql := some seql })
        else
          match o.cache with
          | some r => (.ok r, st1)
          | none => (.error .AttributeError, st1)

/-- What to write into a slice: the items of an iterable, or a scalar to broadcast. -/
inductive Src (α : Type u) where
  | items (l : List α)
  | scalar (a : α)
  deriving Repr, DecidableEq

/-- The first `n` items of `vs` (collections.py:718-722: `iter(v)`, or `repeat(v)`). -/
def Src.take (n : Nat) : Src α → List α
  | .items l => l.take n
  | .scalar a => List.replicate n a

/-- `for j, item in zip(...): data[j] = item` (collections.py:723-724) -/
def writeAll (data : List α) : List (Int × α) → Res Unit × List α
  | [] => (.ok (), data)
  | (j, a) :: ps =>
    if j < 0 ∨ data.length ≤ j then (.error .IndexError, data) else writeAll (data.set j.toNat a) ps

/-- `[data[j] for j in r]` -/
def readAll (data : List α) : List Int → Res (List α)
  | [] => .ok []
  | j :: r => match data[j.toNat]? with
    | none => .error .IndexError
    | some a => match readAll data r with
      | .ok l => .ok (a :: l)
      | .error e => .error e

/-- The uses of an existing view. -/
inductive Use (α : Type u) where
  | len | iter | get (k : Int) | set (k : Int) (a : α) | setSlice (k : Slice) (vs : Src α) | reverse
  deriving Repr, DecidableEq

/-- What a use returns. -/
inductive Out (α : Type u) where
  | unit | num (n : Nat) | item (a : α) | items (l : List α)
  deriving Repr, DecidableEq

/-- collections.py:717-734 `__setitem__` with a slice -/
def setSlice (st : St α) (i : Nat) (k : Slice) (vs : Src α) : Res (Out α) × St α :=
  match updateCache st (i + 1) i with
  | (.error e, st) => (.error e, st)
  | (.ok r, st) =>
    match rangeSlice r k with
    | .error e => (.error e, st)
    | .ok rk =>
      let w := writeAll st.data (rk.zip (vs.take rk.length))
      (match w.1 with | .ok _ => .ok .unit | .error e => .error e, { st with data := w.2 })

/-- Use of view object `i`: `__len__` 634-636, `__iter__` 628-633, `__getitem__` with an int 662-667, `__setitem__` 712-732,
`reverse` 733-734.  A `roview` has no `__setitem__` (TypeError) and no `reverse` (AttributeError). -/
def useObj (st : St α) (i : Nat) (ro : Bool) : Use α → Res (Out α) × St α
  | .len => match updateCache st (i + 1) i with
    | (.ok r, st) => (.ok (.num r.length), st)
    | (.error e, st) => (.error e, st)
  | .iter => match updateCache st (i + 1) i with
    | (.ok r, st) => (match readAll st.data r with | .ok l => .ok (.items l) | .error e => .error e, st)
    | (.error e, st) => (.error e, st)
  | .get k => match updateCache st (i + 1) i with
    | (.ok r, st) =>
      if k ≥ r.length ∨ k < -(r.length : Int) then (.error .IndexError, st)
      else match r[(normIdx k r.length).toNat]? with
        | some j => match st.data[j.toNat]? with
          | some a => (.ok (.item a), st)
          | none => (.error .IndexError, st)
        | none => (.error .IndexError, st)
    | (.error e, st) => (.error e, st)
  | .set k a => if ro then (.error .TypeError, st) else
    match updateCache st (i + 1) i with
    | (.ok r, st) =>
      if k ≥ r.length ∨ k < -(r.length : Int) then (.error .IndexError, st)
      else match r[(normIdx k r.length).toNat]? with
        | some j => let w := writeAll st.data [(j, a)]
          (match w.1 with | .ok _ => .ok .unit | .error e => .error e, { st with data := w.2 })
        | none => (.error .IndexError, st)
    | (.error e, st) => (.error e, st)
  | .setSlice k vs => if ro then (.error .TypeError, st) else setSlice st i k vs
  | .reverse => if ro then (.error .AttributeError, st) else
    match updateCache st (i + 1) i with
    | (.error e, st) => (.error e, st)
    | (.ok r, st) => match readAll st.data r with
      | .error e => (.error e, st)
      | .ok l => setSlice st i ⟨none, none, some (-1)⟩ (.items l)

/-- Steps of a program. -/
inductive Op (α : Type u) where
  /-- the underlying sequence is changed directly, to any contents of any length -/
  | mutate (l : List α)
  /-- `x = view(seq, s)` / `x = roview(seq, s)`; `of` is the underlying sequence (`none`) or the view in a variable -/
  | mk (ro : Bool) (of : Option Nat) (s : Slice)
  /-- `x = v[s]` -/
  | slice (v : Nat) (s : Slice)
  /-- use of the view in variable `v` -/
  | use (v : Nat) (u : Use α)
  deriving Repr, DecidableEq

/-- allocate a view object and bind it to a new variable -/
def St.alloc (st : St α) (o : Obj) : St α :=
  { st with heap := st.heap ++ [o], vars := st.vars ++ [st.heap.length] }

/-- One step.  `mk`: constructors, collections.py:616-626 and 704-711 (a writable view of something read-only is a TypeError).
`slice`: `__getitem__` with a slice, 653-660.  A step that fails, or names a nonexistent variable, binds nothing. -/
def step (st : St α) : Op α → Res (Out α) × St α
  | .mutate l => (.ok .unit, { st with data := l })
  | .mk ro none s =>
    if !ro && st.roData then (.error .TypeError, st) else (.ok .unit, st.alloc ⟨ro, none, s, none, none⟩)
  | .mk ro (some v) s =>
    match st.vars[v]? with
    | none => (.error .UnboundLocalError, st)
    | some i => match st.heap[i]? with
      | none => (.error .AttributeError, st)
      | some o =>
        if !ro && o.ro then (.error .TypeError, st) else (.ok .unit, st.alloc ⟨ro, some i, s, none, none⟩)
  | .slice v s =>
    match st.vars[v]? with
    | none => (.error .UnboundLocalError, st)
    | some i => match st.heap[i]? with
      | none => (.error .AttributeError, st)
      | some o =>
        if s = noop then (.ok .unit, { st with vars := st.vars ++ [i] })
        else if o.slice = noop then (.ok .unit, st.alloc ⟨o.ro, o.parent, s, none, none⟩)
        else (.ok .unit, st.alloc ⟨o.ro, some i, s, none, none⟩)
  | .use v u =>
    match st.vars[v]? with
    | none => (.error .UnboundLocalError, st)
    | some i => match st.heap[i]? with
      | none => (.error .AttributeError, st)
      | some o => useObj st i o.ro u

/-- A history of steps. -/
def run (st : St α) (ops : List (Op α)) : St α := ops.foldl (fun st op => (step st op).2) st

/-- A program starts with a sequence and no views. -/
def init (roData : Bool) (l : List α) : St α := ⟨l, roData, [], []⟩

end Unpy.View
