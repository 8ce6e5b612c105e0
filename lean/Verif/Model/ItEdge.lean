import Verif.Model.It
/-!
# Further parts of `unpythonic/it.py`: `flatten1` without a predicate, `flatten_in` on named tuples, `subset` of an iterator, `iterate`
-/
namespace Unpy.ItEdge
open Unpy
universe u
variable {α : Type u}

/-- `flatten1(iterable)` without a predicate (it.py:517-520): `chain.from_iterable(iterable)`.  `iter a` are the items of an item which is
neither a list nor a tuple, if it is iterable (such as a string or an iterator). -/
def flatten1 (iter : α → Option (List (Val α))) : List (Val α) → Gen (Val α)
  | [] => ⟨[], none⟩
  | .atom a :: it => match iter a with
    | none => ⟨[], some .TypeError⟩
    | some es => let r := flatten1 iter it; ⟨es ++ r.items, r.exc⟩
  | .seq _ es :: it => let r := flatten1 iter it; ⟨es ++ r.items, r.exc⟩

/-- Types of nested sequences -/
inductive Kind where
  | list | tuple | named (name : String)
  deriving DecidableEq, Repr

/-- Nested values with named tuples; a generator that has been stored, with the items it will give -/
inductive NVal (α : Type u) where
  | atom (a : α)
  | seq (k : Kind) (items : List (NVal α))
  | generator (items : List (NVal α))
  deriving Repr

/-- `t(gen)` for the type `t` of a list or tuple with that number of items (it.py:556-557): a named tuple type takes its fields one by one. -/
def rebuild (k : Kind) (fields : Nat) (gen : Gen (NVal α)) : Res (NVal α) :=
  match k with
  | .named _ => if fields = 1 then .ok (.seq k [.generator gen.items]) else .error .TypeError
  | k => match gen.exc with
    | none => .ok (.seq k gen.items)
    | some e => .error e

mutual
/-- `flatten_in` (it.py:534-559), the loop; an exception ends it -/
def flattenInL (pred : Kind → List (NVal α) → Bool) : List (NVal α) → Gen (NVal α)
  | [] => ⟨[], none⟩
  | e :: it =>
    let g := flattenInE pred e
    match g.exc with
    | some _ => g
    | none => let r := flattenInL pred it; ⟨g.items ++ r.items, r.exc⟩
/-- The body of the loop (it.py:550-559) -/
def flattenInE (pred : Kind → List (NVal α) → Bool) : NVal α → Gen (NVal α)
  | .atom a => ⟨[.atom a], none⟩
  | .generator l => ⟨[.generator l], none⟩
  | .seq k es =>
    if pred k es then flattenInL pred es
    else match rebuild k es.length (flattenInL pred es) with
      | .ok v => ⟨[v], none⟩
      | .error e => ⟨[], some e⟩
end

/-- `elt in whole` for an iterator: it is read up to the item found, or to the end -/
def inIter [DecidableEq α] (x : α) : List α → Bool × List α
  | [] => (false, [])
  | y :: it => if y = x then (true, it) else inIter x it

/-- `subset(part, whole)` where `whole` is an iterator (it.py:819-832): `all(elt in whole for elt in part)` -/
def subsetIter [DecidableEq α] : List α → List α → Bool
  | [], _ => true
  | x :: part, whole => match inIter x whole with
    | (false, _) => false
    | (true, whole') => subsetIter part whole'

/-- A `Values` object: its positional and its named values -/
structure Vals (α : Type u) where
  rets : List α
  kwrets : List (String × α)
  deriving DecidableEq, Repr

/-- What the function given to `iterate` returns: a `Values`, or something else -/
inductive Ret (α : Type u) where
  | values (v : Vals α)
  | other (a : α)
  deriving DecidableEq, Repr

/-- What a generator raises when that exception escapes from it: StopIteration becomes RuntimeError (PEP 479) -/
def escape : PyErr → PyErr
  | .StopIteration => .RuntimeError
  | e => e

/-- `iterate(f, *args, **kwargs)` (it.py:567-586), the outcome of the `next` number `i` from 0: the generator ends when it raises -/
def iterate (f : Vals α → Res (Ret α)) (x : Vals α) : Nat → Res (Vals α)
  | 0 => .ok x
  | i + 1 => match f x with
    | .ok (.values x') => iterate f x' i
    | .ok (.other _) => if i = 0 then .error .TypeError else .error .StopIteration
    | .error e => if i = 0 then .error (escape e) else .error .StopIteration

end Unpy.ItEdge
