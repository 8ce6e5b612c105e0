import Verif.Model.Py
import Verif.Model.PyDict
/-!
# Model of `frozendict`, `fupdate` of mappings, `box` and `ThreadLocalBox` (unpythonic/collections.py, fup.py)
-/
namespace Unpy.FD
open Unpy
universe u v
variable {K : Type u} {V : Type v} [DecidableEq K]

/-- A program with mutable mappings (`dicts`) and frozendict objects (`frozen`, the attribute `_data` of each);
`empty` is the global `_the_empty_frozendict` (collections.py:390). -/
structure St (K : Type u) (V : Type v) where
  dicts : List (PyDict K V) := []
  frozen : List (PyDict K V) := []
  empty : Option Nat := none

/-- A reference to a mapping object -/
inductive Ref where
  | dict (i : Nat)
  | fd (i : Nat)
  deriving DecidableEq, Repr

/-- the current contents of a mapping -/
def St.read (st : St K V) : Ref → Option (PyDict K V)
  | .dict i => st.dicts[i]?
  | .fd i => st.frozen[i]?

/-- the current contents of all arguments -/
def St.readAll (st : St K V) : List Ref → Option (List (PyDict K V))
  | [] => some []
  | r :: rs => match st.read r, st.readAll rs with
    | some m, some ms => some (m :: ms)
    | _, _ => none

/-- collections.py:461-465 `__init__`: `_data = {}`, then `update` with each mapping and with the bindings. -/
def initData (ms : List (PyDict K V)) (bindings : List (K × V)) : PyDict K V :=
  PyDict.update (ms.foldl PyDict.update []) bindings

/-- `frozendict(*ms, **bindings)`: `__new__` (collections.py:430-436) and then `__init__` on the result — also on the shared empty
instance, which `__new__` returns when there are no arguments.  Subclasses are not modelled.  Bindings
named like the parameters `cls` and `self` of these methods are in `Model/FupCall.lean`. -/
def make (st : St K V) (args : List Ref) (bindings : List (K × V)) : Option (Nat × St K V) :=
  match st.readAll args with
  | none => none   -- an argument that does not exist
  | some ms =>
    if args.isEmpty && bindings.isEmpty then
      match st.empty with
      | none => some (st.frozen.length, { st with frozen := st.frozen ++ [initData ms bindings], empty := some st.frozen.length })
      | some i => some (i, { st with frozen := st.frozen.set i (initData ms bindings) })
    else some (st.frozen.length, { st with frozen := st.frozen ++ [initData ms bindings] })

/-- `fupdate(target, **bindings)` for a mapping, fup.py:120-128: a frozendict is made anew, a dict is copied and updated; without
bindings, both are `copy(target)`; `copy` of a frozendict goes through `__getnewargs__` (collections.py:442-449), which gives the
shared empty instance again, and otherwise a new object with the same contents.  The bindings are those that Python's binding of
arguments leaves: `Model/FupCall.lean`. -/
def fupdate (st : St K V) (target : Ref) (bindings : List (K × V)) : Option (Ref × St K V) :=
  if bindings.isEmpty then
    match target with
    | .fd i => if st.empty = some i then some (.fd i, st) else match st.frozen[i]? with
      | some d => some (.fd st.frozen.length, { st with frozen := st.frozen ++ [d] })
      | none => none
    | .dict i => match st.dicts[i]? with
      | some d => some (.dict st.dicts.length, { st with dicts := st.dicts ++ [d] })
      | none => none
  else
    match target with
    | .fd i => match make st [.fd i] bindings with
      | some (j, st') => some (.fd j, st')
      | none => none
    | .dict i => match st.dicts[i]? with
      | some d => some (.dict st.dicts.length, { st with dicts := st.dicts ++ [PyDict.update d bindings] })
      | none => none

/-- Steps of a program. -/
inductive Op (K : Type u) (V : Type v) where
  /-- a new mutable mapping with the given items -/
  | newDict (m : PyDict K V)
  /-- an existing mutable mapping gets any new contents -/
  | mutate (i : Nat) (m : PyDict K V)
  | make (args : List Ref) (bindings : List (K × V))
  | fupdate (target : Ref) (bindings : List (K × V))

/-- one step (a failing one changes nothing) -/
def step (st : St K V) : Op K V → St K V
  | .newDict m => { st with dicts := st.dicts ++ [m] }
  | .mutate i m => { st with dicts := st.dicts.set i m }
  | .make args b => match make st args b with
    | some (_, st') => st'
    | none => st
  | .fupdate t b => match fupdate st t b with
    | some (_, st') => st'
    | none => st

def run (st : St K V) (ops : List (Op K V)) : St K V := ops.foldl step st

/-- Python's `dict.__eq__`: same number of items, and each key of one has an equal value in the other. -/
def dictEq [DecidableEq V] (a b : PyDict K V) : Bool :=
  a.length == b.length && a.all (fun p => PyDict.get? b p.1 == some p.2)

/-- collections.py:514-515 `__eq__`: `other == self._data`; for another frozendict that calls its `__eq__` with the dict
`self._data`, i.e. `self._data == other._data`. -/
def fdEq [DecidableEq V] (self other : PyDict K V) : Bool := dictEq self other

/-- collections.py:478-479 `__hash__`: the hash of the frozenset of items, here an arbitrary function `h` of that set (of a list of
items, in an unspecified order). -/
def fdHash {β : Type _} (h : List (K × V) → β) (self : PyDict K V) : β := h self

end Unpy.FD

namespace Unpy.TLBox
universe u
variable {V : Type u}

/-- collections.py:242-279 `ThreadLocalBox`: `_default` and, for each thread, the attribute `x` of the thread-local `storage`. -/
structure Box (V : Type u) where
  default : V
  x : Nat → Option V

/-- The operations; the `Nat` is the thread that performs it. -/
inductive Op (V : Type u) where
  | set (t : Nat) (v : V)      -- also `box << v`
  | clear (t : Nat)
  | setdefault (t : Nat) (v : V)
  | get (t : Nat)              -- also `unbox`, `in`, `==`, iteration
  deriving Repr

/-- `__init__` 249-251 -/
def new (v : V) : Box V := ⟨v, fun _ => none⟩

/-- `get` 265-268 -/
def get (b : Box V) (t : Nat) : V :=
  match b.x t with
  | some v => v
  | none => b.default

/-- `set` 260-262, `clear` 275-278, `setdefault` 269-271.  Each is a single attribute write, so threads interleave by operation. -/
def step (b : Box V) : Op V → Box V
  | .set t v => { b with x := fun t' => if t' = t then some v else b.x t' }
  | .clear t => match b.x t with
    | some _ => { b with x := fun t' => if t' = t then none else b.x t' }
    | none => b
  | .setdefault _ v => { b with default := v }
  | .get _ => b

def run (b : Box V) (ops : List (Op V)) : Box V := ops.foldl step b

end Unpy.TLBox
