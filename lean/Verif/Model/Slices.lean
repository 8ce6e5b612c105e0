import Verif.Model.Py
import Verif.Model.PySlice
/-!
# Model of the slice helpers and functional update (collections.py:741-954, fup.py:9-128)

Simplifications: arguments have the right types (the `isinstance` checks that raise TypeError are only modelled for the
replacement values of a slice); `int` is unbounded as in Python; Python's `%` and `//` are `Int.fmod` and `Int.fdiv`.
-/
namespace Unpy.Slices
open Unpy
universe u
variable {α : Type u}

/-- collections.py:894-919 `_make_negidx_converter`, the check when it is made -/
def checkLength : Option Int → Res Unit
  | none => .ok ()
  | some n => if n ≤ 0 then .error .ValueError else .ok ()

/-- collections.py:894-919: the `convert` function (for `k is not None`) -/
def wrap (length : Option Int) (k : Int) : Res Int :=
  match length with
  | some n =>
    if !(-n ≤ k && k ≤ n) then .error .IndexError
    else if k < 0 then .ok (k.fmod n) else .ok k
  | none => if k < 0 then .error .ValueError else .ok k

/-- `wrap` on an optional index; `None` stays `None` -/
def wrapOpt (length : Option Int) : Option Int → Res (Option Int)
  | none => .ok none
  | some k => match wrap length k with
    | .ok k' => .ok (some k')
    | .error e => .error e

/-- collections.py:921-954 `_canonize_slice` -/
def canonize (s : Slice) (length : Option Int) : Res (Int × Int × Int) := do
  let step := s.by
  if step = 0 then throw .ValueError
  let start ← match ← wrapOpt length s.start with
    | some k => pure k
    | none =>
      if step > 0 then pure 0
      else match length with
        | none => throw .ValueError
        | some _ => wrap length (-1)
  let stop ← match ← wrapOpt length s.stop with
    | some k => pure k
    | none =>
      if step > 0 then
        match length with
        | none => throw .ValueError
        | some n => pure n
      else pure (-1)
  return (start, stop, step)

/-- an index specification: int or slice -/
inductive Ix where
  | int (k : Int)
  | slice (s : Slice)
  deriving DecidableEq, Repr

/-- collections.py:848-875 `in_slice` -/
def inSlice (i : Int) (s : Ix) (length : Option Int) : Res Bool := do
  checkLength length
  let i ← wrap length i
  match s with
  | .int k =>
    let k ← wrap length k
    return decide (i = k)
  | .slice s =>
    let (start, stop, step) ← canonize s length
    let atOrAfterStart := if step > 0 then decide (i ≥ start) else decide (i ≤ start)
    let beforeStop := if step > 0 then decide (i < stop) else decide (i > stop)
    let onGrid := decide ((i - start).fmod step = 0)
    return atOrAfterStart && onGrid && beforeStop

/-- collections.py:888-892, the computation of `_index_in_slice` once `i` is known to be in `s` -/
def indexNoCheck (i : Int) (s : Slice) (length : Option Int) : Res Int := do
  checkLength length
  let (start, _, step) ← canonize s length
  let i ← wrap length i
  return (i - start).fdiv step

/-- collections.py:877-892 `index_in_slice` -/
def indexInSlice (i : Int) (s : Slice) (length : Option Int) : Res (Option Int) := do
  if ← inSlice i (.slice s) length then
    let k ← indexNoCheck i s length
    return some k
  else return none

/-! ## ShadowedSequence and fupdate -/

/-- The replacement `v`: an item which is not iterable, a sequence, or an iterator (its items by index, `none` from
its end on), which may be a memoized one having `__len__` and `__getitem__`. -/
inductive Repl (α : Type u) where
  | item (a : α)
  | seq (l : List α)
  | iter (memo : Bool) (items : Nat → Option α)

/-- A list or tuple, or a `ShadowedSequence` on top of another sequence (collections.py:741-784).
`isItem` gives the value stored when `ix` is an int: any object may be stored. -/
inductive Seq (α : Type u) where
  | base (l : List α)
  | shadowInt (s : Seq α) (k : Int) (a : α)
  | shadowSlice (s : Seq α) (sl : Slice) (v : Repl α)

/-- collections.py:793-794 `__len__` -/
def Seq.len : Seq α → Nat
  | .base l => l.length
  | .shadowInt s _ _ => s.len
  | .shadowSlice s _ _ => s.len

/-- collections.py:811-846 `_getone`, from the slice branch on: read item `i` of the replacement, given how many items of
`v` its `CountingIterator` has delivered so far; returns the new count.  `next` on an exhausted iterator raises StopIteration.
(`drop` returns the same `CountingIterator`, it.py:288-290.) -/
def readRepl (v : Repl α) (i : Int) (count : Nat) : Res α × Nat :=
  match v with
  | .item _ => (.error .AssertionError, count)
  | .seq l => if i ≥ l.length then (.error .IndexError, count)
    else match l[i.toNat]? with
      | some a => (.ok a, count)
      | none => (.error .IndexError, count)
  | .iter memo items =>
    if i < count then
      if memo then match items i.toNat with
        | some a => (.ok a, count)
        | none => (.error .IndexError, count)
      else (.error .IndexError, count)
    else
      -- skip `i - count` items (stopping silently at the end of the iterator), then `next`
      match items i.toNat with
      | some a => (.ok a, i.toNat + 1)
      | none => (.error .StopIteration, count)

/-- collections.py:811-846: `_getone(k)`, where `self.seq[k]` of an underlying `ShadowedSequence` is `__getitem__` with its own
range check.  The list holds the item counts of the replacement iterators, outermost first. -/
def Seq.getone : Seq α → Int → List Nat → Res α × List Nat
  | .base l, k, cs => match l[(normIdx k l.length).toNat]? with
    | some a => (.ok a, cs)
    | none => (.error .IndexError, cs)
  | .shadowInt s ix a, k, cs =>
    match inSlice k (.int ix) (some s.len) with
    | .error e => (.error e, cs)
    | .ok true => (.ok a, cs)
    | .ok false =>
      if k ≥ s.len || k < -s.len then (.error .IndexError, cs) else
      let r := s.getone k cs.tail
      (r.1, (cs.head?.getD 0) :: r.2)
  | .shadowSlice s ix v, k, cs =>
    match inSlice k (.slice ix) (some s.len) with
    | .error e => (.error e, cs)
    | .ok true =>
      match indexNoCheck k ix (some s.len) with
      | .error e => (.error e, cs)
      | .ok i =>
        let r := readRepl v i (cs.head?.getD 0)
        (r.1, r.2 :: cs.tail)
    | .ok false =>
      if k ≥ s.len || k < -s.len then (.error .IndexError, cs) else
      let r := s.getone k cs.tail
      (r.1, (cs.head?.getD 0) :: r.2)

/-- collections.py:783-791 `__iter__` consumed completely by `make_output` (fup.py:108-112): items `j, j+1, ..., n-1`.
A StopIteration escaping inside the generator becomes RuntimeError (PEP 479). -/
def Seq.collect (s : Seq α) : Nat → Nat → List Nat → Res (List α)
  | _, 0, _ => .ok []
  | j, m + 1, cs =>
    match s.getone j cs with
    | (.error .StopIteration, _) => .error .RuntimeError
    | (.error e, _) => .error e
    | (.ok a, cs') =>
      match s.collect (j + 1) m cs' with
      | .ok l => .ok (a :: l)
      | .error e => .error e

/-- One update: an index with its new item, or a slice with its replacement. -/
inductive Upd (α : Type u) where
  | int (k : Int) (a : α)
  | slice (s : Slice) (v : Repl α)

/-- collections.py:767-781 `ShadowedSequence.__init__` -/
def shadow (s : Seq α) : Upd α → Res (Seq α)
  | .int k a => .ok (.shadowInt s k a)
  | .slice sl (.item _) => .error .TypeError
  | .slice sl v => .ok (.shadowSlice s sl v)

/-- fup.py:115-117: stack up the shadows left to right -/
def shadows (s : Seq α) : List (Upd α) → Res (Seq α)
  | [] => .ok s
  | u :: us => match shadow s u with
    | .ok s' => shadows s' us
    | .error e => .error e

/-- fup.py:105-118 `fupdate` of a sequence; a single index/value pair is the one-element list.
How indices and values are passed and paired is in `Model/FupCall.lean`. -/
def fupdate (l : List α) (us : List (Upd α)) : Res (List α) :=
  match shadows (.base l) us with
  | .error e => .error e
  | .ok s => s.collect 0 s.len []

end Unpy.Slices
