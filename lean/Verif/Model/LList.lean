import Verif.Model.Fold
/-!
# Model of `unpythonic/llist.py`

A Python object is an atom (anything that is not a cons cell or `nil`), `nil`, or a cons cell.  Cons
cells are immutable (llist.py:216-222), so a cell is modelled as a pair; object identity is not modelled
(see `Obj.eq`).
-/
namespace Unpy.LList
open Unpy.It Unpy.Fold
universe u
variable {α : Type u}

/-- Python objects as seen by llist.py: `Nil` (llist.py:37-46), `cons` (llist.py:210-218). -/
inductive Obj (α : Type u) where
  | atom (a : α)
  | nil
  | cons (car cdr : Obj α)
  deriving DecidableEq, Repr

namespace Obj
def isCons : Obj α → Bool
  | .cons _ _ => true
  | _ => false
end Obj

/-! ## Iterators -/

/-- The walker of `LinkedListIterator` (llist.py:78-88), started at a cell or `nil`. -/
def walkList : Obj α → Gen (Obj α)
  | .nil => ⟨[], none⟩
  | .atom _ => ⟨[], some .TypeError⟩      -- only reached as the cdr of a cell just yielded
  | .cons a d => let r := walkList d; ⟨a :: r.items, r.exc⟩

/-- `LinkedListIterator(x)` (llist.py:75-89): `ConsIterator.__init__` rejects anything but a cons
(llist.py:64-67). -/
def linkedListIterator (x : Obj α) : Res (Gen (Obj α)) :=
  if x.isCons then .ok (walkList x) else .error .TypeError

/-- Iterating an object with `iter(x)`: a cons uses `LinkedListOrCellIterator` (llist.py:101-121,
223-225), `nil` yields nothing (llist.py:40-43).  Atoms are assumed not iterable. -/
def iterObj : Obj α → Gen (Obj α)
  | .nil => ⟨[], none⟩
  | .atom _ => ⟨[], some .TypeError⟩
  | .cons a (.atom d) => ⟨[a, .atom d], none⟩         -- `elif cell is head: yield cell.cdr; break`
  | .cons a d => let r := walkList d; ⟨a :: r.items, r.exc⟩

/-- The walker of `TailIterator` (llist.py:123-139). -/
def walkTails : Obj α → Gen (Obj α)
  | .nil => ⟨[], none⟩
  | .atom _ => ⟨[], some .TypeError⟩
  | .cons a d => let r := walkTails d; ⟨.cons a d :: r.items, r.exc⟩

/-- `TailIterator(x)` (llist.py:123-139) -/
def tailIterator (x : Obj α) : Res (Gen (Obj α)) :=
  if x.isCons then .ok (walkTails x) else .error .TypeError

/-- Number of cells, for termination. -/
def cells : Obj α → Nat
  | .cons a d => 1 + cells a + cells d
  | _ => 0

/-- The `while stack:` loop of `BinaryTreeIterator` (llist.py:141-164) and, with `dropNil`, of
`JackOfAllTradesIterator` (llist.py:166-208; the two loops differ only in the test before `yield d`).
The stack holds cons cells, top first; `car`/`cdr` are stored to keep that in the type. -/
def walkTree (dropNil : Bool) : List (Obj α × Obj α) → List (Obj α)
  | [] => []
  | (a, d) :: stack =>
    let out1 := if a.isCons then [] else [a]
    let out2 := if d.isCons then [] else
      match dropNil, d with
      | true, .nil => []
      | _, _ => [d]
    let stack1 := match d with | .cons x y => (x, y) :: stack | _ => stack
    let stack2 := match a with | .cons x y => (x, y) :: stack1 | _ => stack1
    out1 ++ out2 ++ walkTree dropNil stack2
  termination_by s => (s.map (fun p => 1 + cells p.1 + cells p.2)).sum
  decreasing_by
    cases a <;> cases d <;> simp [cells] <;> omega

/-- `BinaryTreeIterator(x)`. -/
def binaryTreeIterator : Obj α → Res (List (Obj α))
  | .cons a d => .ok (walkTree false [(a, d)])
  | _ => .error .TypeError

/-- `JackOfAllTradesIterator(x)`. -/
def jackIterator : Obj α → Res (List (Obj α))
  | .cons a d => .ok (walkTree true [(a, d)])
  | _ => .error .TypeError

/-! ## Equality and hash -/

mutual
/-- `a == b`.  `cons.__eq__` is llist.py:251-264; `nil` compares by identity (it is a singleton); atoms
compare by a parameter.  Simplification: the shortcut `if other is self: return True` is left out (for
a reflexive `==` on atoms it makes no difference, see `C30_refl`), and comparing atoms does not raise.
A cons never equals an atom or `nil`. -/
def eq (eqA : α → α → Bool) : Obj α → Obj α → Bool
  | .atom a, .atom b => eqA a b
  | .nil, .nil => true
  | .cons a d, .cons a' d' =>
    match eqWalk eqA (.cons a d) (.cons a' d') with
    | some b => b
    | none => eq eqA a a' && eq eqA d d'       -- `except TypeError:` (llist.py:262-263)
  | _, _ => false
  termination_by x => (sizeOf x, 1)
/-- The loop over `zip_longest(ia, ib, fillvalue=fill)` (llist.py:256-261); the arguments are the cells
the two iterators point at.  `none`: one of the iterators raised TypeError (not a linked list). -/
def eqWalk (eqA : α → α → Bool) : Obj α → Obj α → Option Bool
  | .atom _, _ => none
  | .nil, .nil => some true
  | .nil, .atom _ => none
  | .nil, .cons _ _ => some false           -- `fill != b`
  | .cons _ _, .nil => some false
  | .cons _ _, .atom _ => none
  | .cons a d, .cons a' d' => if eq eqA a a' then eqWalk eqA d d' else some false
  termination_by x => (sizeOf x, 0)
end

/-- `hash(x)`: `cons.__hash__` (llist.py:265-270) hashes the tuple of list items, or `(car, cdr)` for a
structure that is not a linked list.  The builtin `hash` on tuples is a function of the hashes of the
items. -/
def pyhash (hashA : α → Int) (hashNil : Int) (hashTuple : List Int → Int) : Obj α → Int
  | .atom a => hashA a
  | .nil => hashNil
  | .cons a d =>
    let ha := pyhash hashA hashNil hashTuple a
    match hashItems hashA hashNil hashTuple d with
    | some hs => hashTuple (ha :: hs)
    | none => hashTuple [ha, pyhash hashA hashNil hashTuple d]
where
  /-- `tuple(LinkedListIterator(x))`, with every item hashed; `none` if that raises TypeError. -/
  hashItems (hashA : α → Int) (hashNil : Int) (hashTuple : List Int → Int) : Obj α → Option (List Int)
    | .nil => some []
    | .atom _ => none
    | .cons a d => (hashItems hashA hashNil hashTuple d).map (pyhash hashA hashNil hashTuple a :: ·)

/-! ## Construction -/

/-- `cons` as a fold procedure: `cons(elt, acc)`. -/
def consProc : List (Obj α) → Res (Obj α)
  | [x, acc] => .ok (.cons x acc)
  | _ => .error .TypeError

/-- Unwrap the result of a fold with an initial value (never `None`). -/
def noneToErr : Res (Option (Obj α)) → Res (Obj α)
  | .ok (some x) => .ok x
  | .ok none => .error .TypeError
  | .error e => .error e

/-- The iterables that can be passed in: something with a given sequence of items (list, tuple,
generator), a cons or `nil`, or the object returned by `reversed(linked list)`, that is, a
`LinkedListReverseIterator` (llist.py:91-99) with its stored list and current position. -/
inductive Src (α : Type u) where
  | items (xs : List (Obj α))
  | obj (x : Obj α)
  | revIter (data : Obj α) (cur : Obj α)

/-- Iterate a source (from where it is now). -/
def Src.iter : Src α → Gen (Obj α)
  | .items xs => ⟨xs, none⟩
  | .obj x => iterObj x
  | .revIter _ cur => walkList cur

/-- `lreverse(iterable)` (llist.py:363-369): `foldl(cons, nil, iterable)`. -/
def lreverse (s : Src α) : Res (Obj α) :=
  match s.iter with
  | ⟨xs, none⟩ => noneToErr (foldl consProc .nil xs [] false .nil)
  | ⟨_, some e⟩ => .error e

/-- `LinkedListReverseIterator(head)` = `reversed(head)` (llist.py:91-99, 226-228).  Its
`ConsIterator.__init__` requires the reversed list to be a cons. -/
def reversedObj (x : Obj α) : Res (Src α) :=
  match x with
  | .cons _ _ =>
    match lreverse (.obj x) with
    | .ok data => if data.isCons then .ok (.revIter data data) else .error .TypeError
    | .error e => .error e
  | _ => .error .TypeError           -- `nil` and atoms have no `__reversed__`

/-- `next()` on a source that is a reverse iterator; the other kinds are not needed. -/
def Src.next : Src α → Option (Obj α × Src α)
  | .revIter data (.cons a d) => some (a, .revIter data d)
  | _ => none

/-- `rev(iterable)` (it.py:40-58) on a source. -/
def revSrc (s : Src α) : Res (Src α) :=
  let viaTuple : Res (Src α) := match s.iter with
    | ⟨xs, none⟩ => .ok (.items xs.reverse)
    | ⟨_, some e⟩ => .error e
  match s with
  | .obj x => match reversedObj x with
    | .ok r => .ok r
    | .error _ => viaTuple
  | _ => viaTuple

/-- `llist(iterable)` (llist.py:337-361). -/
def llist (s : Src α) : Res (Obj α) :=
  match s with
  | .revIter data _ => .ok data
  | _ => match revSrc s with
    | .ok r => lreverse r
    | .error e => .error e

/-- `ll(*elts)` (llist.py:323-335). -/
def ll (elts : List (Obj α)) : Res (Obj α) := llist (.items elts)

/-- `lappend_two(l1, l2)` (llist.py:373-374): `foldr(cons, l2, l1)`. -/
def lappendTwo : List (Obj α) → Res (Obj α)
  | [l1, l2] =>
    match iterObj l1 with
    | ⟨xs, none⟩ => noneToErr (foldr consProc l2 xs [] false .nil)
    | ⟨_, some e⟩ => .error e
  | _ => .error .TypeError

/-- `lappend(*ls)` (llist.py:371-375). -/
def lappend (ls : List (Obj α)) : Res (Obj α) :=
  noneToErr (foldr lappendTwo .nil ls [] false .nil)

/-- `member(x, l)` (llist.py:377-386); `none` is `False`. -/
def member (eqA : α → α → Bool) (x : Obj α) (l : Obj α) : Res (Option (Obj α)) :=
  match l with
  | .cons _ _ => loop l
  | _ => .error .TypeError
where
  loop : Obj α → Res (Option (Obj α))
    | .nil => .ok none
    | .atom _ => .error .TypeError
    | .cons a d => if eq eqA a x then .ok (some (.cons a d)) else loop d

/-- Builtin `map`/`zip` over iterators that may raise.  Complete rounds are as for `zip`.  In the first
incomplete round the iterators are asked in order, so the first one that is out of items decides: it
either ends the whole thing or raises. -/
def zipGens (gs : List (Gen (Obj α))) : Gen (List (Obj α)) :=
  let rows := pyzip (gs.map Gen.items)
  ⟨rows, (gs.find? (fun g => g.items.length = rows.length)).bind Gen.exc⟩

/-- `lzip(*ls)` (llist.py:388-393): `llist(map(ll, *ls))`. -/
def lzip (ls : List (Obj α)) : Res (Obj α) :=
  if ls.isEmpty then .error .TypeError else          -- `map(ll)` needs an iterable
  match zipGens (ls.map iterObj) with
  | ⟨_, some e⟩ => .error e
  | ⟨rows, none⟩ =>
    match rows.mapM ll with
    | .error e => .error e
    | .ok rows => llist (.items rows)

/-! ## Accessors -/

/-- `_car`, `_cdr` with `_typecheck` (llist.py:272-279). -/
def step (c : Char) : Obj α → Res (Obj α)
  | .cons a d => if c = 'a' then .ok a else .ok d
  | _ => .error .TypeError

/-- `_build_accessor(name)` (llist.py:280-283), with the letters between the `c` and the `r`; composed
right to left. -/
def accessor (spec : List Char) (x : Obj α) : Res (Obj α) :=
  spec.foldr (fun c r => match r with | .ok y => step c y | .error e => .error e) (.ok x)

end Unpy.LList
