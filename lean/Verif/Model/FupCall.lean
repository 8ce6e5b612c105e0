import Verif.Model.Slices
import Verif.Model.PyDict
/-!
# Model of calls of `fupdate` and `fup` with their arguments (unpythonic/fup.py, slicing.py)

`Model/Slices.lean` has the functional update of a sequence by a list of updates, and `Model/Containers.lean` that of a mapping by a
list of bindings, with the identity of objects.  Here is the whole function: how Python binds the arguments to the parameters
`target`, `indices`, `values` and `**bindings`, which branch is taken, and how indices are paired with values.
-/
namespace Unpy.FupCall
open Unpy Unpy.Slices

/-- The objects that are passed around: `None`, ints (not bools), strings, slices, lists, tuples, iterators (the items left in them;
not memoized ones), and objects which are none of these. -/
inductive Obj where
  | none
  | int (k : Int)
  | str (s : String)
  | slice (s : Slice)
  | list (l : List Obj)
  | tuple (l : List Obj)
  | iter (l : List Obj)
  | other (n : Nat)

/-- The targets: lists, tuples, named tuples (which class), dicts and frozendicts, with strings as keys.  Values, not objects: that the
target is never changed, and that a new object is made, is in `Model/Containers.lean` for mappings. -/
inductive Target where
  | list (l : List Obj)
  | tuple (l : List Obj)
  | named (cls : Nat) (l : List Obj)
  | dict (d : PyDict String Obj)
  | fd (d : PyDict String Obj)

/-- the items of an iterable, `none` if `iter` raises TypeError -/
def Obj.items : Obj → Option (List Obj)
  | .str s => some (s.toList.map fun c => .str (String.singleton c))
  | .list l | .tuple l | .iter l => some l
  | _ => Option.none

/-- `isinstance(indices, (list, tuple))` -/
def Obj.many : Obj → Option (List Obj)
  | .list l | .tuple l => some l
  | _ => Option.none

/-- the replacement for a slice, by what `isinstance(v, Sequence)` and `isinstance(v, Iterable)` say (collections.py:772, 811-846) -/
def Obj.repl : Obj → Repl Obj
  | .str s => .seq (s.toList.map fun c => .str (String.singleton c))
  | .list l | .tuple l => .seq l
  | .iter l => .iter false (fun n => l[n]?)
  | o => .item o

/-- collections.py:767-781, the checks of `ShadowedSequence.__init__`: what the new layer is, with `none` for a layer without effect
(`ix is None`).  Whether `seq` is a sequence is checked after `ix`. -/
def layer (isSeq : Bool) (ix v : Obj) : Res (Option (Upd Obj)) :=
  match ix with
  | .none => if isSeq then .ok Option.none else .error .TypeError
  | .int k => if isSeq then .ok (some (.int k v)) else .error .TypeError
  | .slice s =>
    if isSeq then match v.repl with
      | .item _ => .error .TypeError
      | r => .ok (some (.slice s r))
    else .error .TypeError
  | _ => .error .TypeError

/-- fup.py:115-117: the layers made by the loop over `zip(indices, values)`, which stops at the end of the shorter one -/
def layers (isSeq : Bool) : List (Obj × Obj) → Res (List (Upd Obj))
  | [] => .ok []
  | (ix, v) :: ps => match layer isSeq ix v with
    | .error e => .error e
    | .ok u => match layers isSeq ps with
      | .error e => .error e
      | .ok us => .ok (u.toList ++ us)

/-- `dict(keys)`, for strings: each must have two characters -/
def dictOf : List String → PyDict String Obj → Res (PyDict String Obj)
  | [], d => .ok d
  | k :: ks, d => match k.toList with
    | [a, b] => dictOf ks (PyDict.set d (String.singleton a) (.str (String.singleton b)))
    | _ => .error .ValueError

/-- fup.py:105-118: the target updated by layers, rebuilt by its type or by `_make`.  A mapping gets here only without any layer, and is
then built from its keys. -/
def build (t : Target) (us : List (Upd Obj)) : Res Target :=
  match t with
  | .list l => match Slices.fupdate l us with
    | .ok l' => .ok (.list l')
    | .error e => .error e
  | .tuple l => match Slices.fupdate l us with
    | .ok l' => .ok (.tuple l')
    | .error e => .error e
  | .named c l => match Slices.fupdate l us with
    | .ok l' => .ok (.named c l')
    | .error e => .error e
  | .dict d => match dictOf d.keys [] with
    | .ok d' => .ok (.dict d')
    | .error e => .error e
  | .fd d => match dictOf d.keys [] with
    | .ok d' => .ok (.fd d')
    | .error e => .error e

/-- `isinstance(seq, Sequence)` -/
def Target.isSeq : Target → Bool
  | .list _ | .tuple _ | .named _ _ => true
  | .dict _ | .fd _ => false

/-- `frozendict(*ms, **bindings)`, collections.py:430 and 450: the names of the first parameters of `__new__` and `__init__` cannot be
keys.  (`ms` are the contents of the mappings; `__init__` as in `Model/Containers.lean`.) -/
def frozen (ms : List (PyDict String Obj)) (bindings : List (String × Obj)) : Res (PyDict String Obj) :=
  if bindings.any (fun p => p.1 = "cls" ∨ p.1 = "self") then .error .TypeError
  else .ok (PyDict.update (ms.foldl PyDict.update []) bindings)

/-- fup.py:10-128, the body, once the arguments are bound.  `update` on a list or tuple is an AttributeError (125-126: "assume mutable
mapping"). -/
def body (t : Target) (indices values : Obj) (bindings : List (String × Obj)) : Res Target :=
  match indices with
  | .none =>
    if bindings.isEmpty then .ok t   -- 128 `copy(target)`
    else match t with
      | .fd d => match frozen [d] bindings with
        | .ok d' => .ok (.fd d')
        | .error e => .error e
      | .dict d => .ok (.dict (PyDict.update d bindings))
      | _ => .error .AttributeError
  | ix =>
    if !bindings.isEmpty then .error .ValueError else
    match ix.many with
    | Option.none => match layers t.isSeq [(ix, values)] with
      | .ok us => build t us
      | .error e => .error e
    | some ixs => match values.items with
      | Option.none => .error .TypeError
      | some vs => match layers t.isSeq (ixs.zip vs) with
        | .ok us => build t us
        | .error e => .error e

/-- the value bound to a parameter: given by position, or by name, or the default `None`; both is a TypeError -/
def param (name : String) (pos : Option Obj) (named : List (String × Obj)) : Res Obj :=
  match pos, named.find? (·.1 = name) with
  | some _, some _ => .error .TypeError
  | some v, Option.none => .ok v
  | Option.none, some p => .ok p.2
  | Option.none, Option.none => .ok .none

/-- `fupdate(target, *pos, **named)`, fup.py:10 with Python's binding of arguments: the target is the first positional argument; names
that are parameters do not get into `**bindings`. -/
def call (t : Target) (pos : List Obj) (named : List (String × Obj)) : Res Target :=
  if pos.length > 2 then .error .TypeError
  else if named.any (·.1 = "target") then .error .TypeError
  else match param "indices" pos[0]? named, param "values" pos[1]? named with
    | .ok ix, .ok v => body t ix v (named.filter fun p => p.1 ≠ "indices" ∧ p.1 ≠ "values")
    | _, _ => .error .TypeError

/-- `fup(seq)[k] << v`, slicing.py:107-140 -/
def fup (t : Target) (k v : Obj) : Res Target :=
  match k with
  | .tuple _ => .error .TypeError
  | k => call t [k, v] []

end Unpy.FupCall
