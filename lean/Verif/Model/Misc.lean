import Verif.Model.Py
/-!
# Model of parts of `unpythonic/misc.py` and `unpythonic/timeutil.py`

Times are exact rationals (an `int` is one); rounding of `float`s is not modelled.
-/
namespace Unpy.Misc
open Unpy

variable {α : Type}

/-! ## timeutil.py -/

/-- `seconds_to_human(s)` (timeutil.py:11-19). -/
def secondsToHuman (s : Rat) : Int × Int × Int × Rat :=
  let d := (s / 86400).floor
  let s := s - d * 86400
  let h := (s / 3600).floor
  let s := s - h * 3600
  let m := (s / 60).floor
  let s := s - m * 60
  (d, h, m, s)

/-- `int(s)` truncates. -/
def truncate (s : Rat) : Int := if s < 0 then -((-s).floor) else s.floor

/-- `f"{n:02d}"`; the sign counts as a character. -/
def pad2 (n : Int) : String :=
  if 0 ≤ n ∧ n < 10 then "0" ++ toString n else toString n

/-- `format_human_time(s)` (timeutil.py:22-48). -/
def formatHumanTime (s : Rat) : String :=
  let (d, h, m, s) := secondsToHuman s
  if d = 0 ∧ h = 0 ∧ m = 0 then
    let plural := if truncate s ≠ 1 then "s" else ""
    toString (truncate s) ++ " second" ++ plural
  else
    let days := if 0 < d then toString d ++ " day" ++ (if 1 < d then "s" else "") ++ " " else ""
    let hours := if 0 < d ∨ 0 < h then pad2 h ++ ":" else ""
    let minutes := pad2 m ++ ":"
    let seconds := pad2 (truncate s)
    days ++ hours ++ minutes ++ seconds

/-- An `ETAEstimator` (timeutil.py:51-127). -/
structure Eta where
  t1 : Rat
  t0 : Rat
  total : Int
  completed : Nat
  que : List Rat
  maxlen : Option Nat

/-- `ETAEstimator(total, keep_last)`, at time `now` (timeutil.py:72-77). -/
def Eta.init (total : Int) (keepLast : Option Nat) (now : Rat) : Eta := ⟨now, now, total, 0, [], keepLast⟩

/-- `tick()`, at time `now` (timeutil.py:79-85); a `deque` with `maxlen` drops from the left. -/
def Eta.tick (e : Eta) (now : Rat) : Eta :=
  let dt := now - e.t1
  let que := e.que ++ [dt]
  { e with
    completed := e.completed + 1
    t1 := now
    que := match e.maxlen with
      | none => que
      | some n => que.drop (que.length - n) }

/-- `estimate` (timeutil.py:87-110). -/
def Eta.estimate (e : Eta) : Except PyErr (Option Rat) :=
  if e.completed = 0 then .ok none else
  let remaining := e.total - e.completed
  if remaining ≤ 0 then .ok (some 0)
  else if e.que.length = 0 then .error .ZeroDivisionError
  else .ok (some (remaining * (e.que.sum / e.que.length)))

/-- `elapsed` (timeutil.py:112-113). -/
def Eta.elapsed (e : Eta) (now : Rat) : Rat := now - e.t0

/-! ## Popper -/

/-- `Popper.__next__` (misc.py:244-247) on the contents of the container; `none` is `StopIteration`. -/
def popNext (seq : List α) : Option α × List α :=
  match seq with
  | [] => (none, [])
  | x :: rest => (some x, rest)

/-- `for x in Popper(seq): body(x)`, where the body may change the container; at most `fuel` iterations.  Returns the
items in order, what is left in the container, and whether the loop has ended by itself. -/
def popLoop (body : α → List α → List α) : Nat → List α → List α × List α × Bool
  | 0, seq => ([], seq, false)
  | fuel + 1, seq =>
    match popNext seq with
    | (none, seq') => ([], seq', true)
    | (some x, seq') =>
      let (xs, rest, ended) := popLoop body fuel (body x seq')
      (x :: xs, rest, ended)

/-- What may happen to a container that is being iterated over. -/
inductive PopOp (α : Type) where
  | next
  | append (x : α)
  | appendleft (x : α)

/-- A history; returns what the `next`s return, and the final contents. -/
def popRun : List (PopOp α) → List α → List (Option α) × List α
  | [], seq => ([], seq)
  | .next :: ops, seq =>
    let (r, seq') := popNext seq
    let (rs, fin) := popRun ops seq'
    (r :: rs, fin)
  | .append x :: ops, seq => popRun ops (seq ++ [x])
  | .appendleft x :: ops, seq => popRun ops (x :: seq)

/-! ## CountingIterator, slurp -/

/-- A `CountingIterator` (misc.py:250-266): the underlying iterator, by the items it will yet yield, and the count. -/
structure Counting (α : Type) where
  it : List α
  count : Nat

/-- `CountingIterator.__next__` (misc.py:263-266). -/
def Counting.next (c : Counting α) : Option α × Counting α :=
  match c.it with
  | [] => (none, c)
  | x :: rest => (some x, ⟨rest, c.count + 1⟩)

/-- `n` calls of `next`. -/
def Counting.nexts : Nat → Counting α → List (Option α) × Counting α
  | 0, c => ([], c)
  | n + 1, c =>
    let (r, c') := c.next
    let (rs, c'') := Counting.nexts n c'
    (r :: rs, c'')

/-- `slurp(queue)` (misc.py:268-286), on the contents of the queue, when no other thread interferes; `none`: not within
`fuel` steps. -/
def slurp : Nat → List α → List α → Option (List α × List α)
  | 0, _, _ => none
  | fuel + 1, out, queue =>
    match queue with
    | [] => some (out, [])
    | x :: rest => slurp fuel (out ++ [x]) rest

/-! ## getattrrec, setattrrec -/

/-- Objects and their attribute of a fixed name, if they have it. -/
abbrev Heap := Nat → Option Nat

/-- The loop of `getattrrec` (misc.py:165-167). -/
def followAttr (h : Heap) : Nat → Nat → Option Nat
  | 0, _ => none
  | fuel + 1, o =>
    match h o with
    | some o' => followAttr h fuel o'
    | none => some o

/-- `getattrrec(object, name, *default)` (misc.py:155-167); `none`: not within `fuel` steps. -/
def getattrrec (h : Heap) (fuel : Nat) (object : Nat) (default : Option Nat) : Option (Except PyErr Nat) :=
  match h object with
  | some o => (followAttr h fuel o).map .ok
  | none =>
    match default with
    | none => some (.error .AttributeError)
    | some d => (followAttr h fuel d).map .ok

/-- The loop of `setattrrec` (misc.py:174-176). -/
def innermost (h : Heap) : Nat → Nat → Option Nat
  | 0, _ => none
  | fuel + 1, o =>
    match h o with
    | some o' => if (h o').isSome then innermost h fuel o' else some o
    | none => some o

/-- `setattrrec(object, name, value)` (misc.py:169-178). -/
def setattrrec (h : Heap) (fuel : Nat) (object value : Nat) : Option Heap :=
  (innermost h fuel object).map (fun o => fun x => if x = o then some value else h x)

end Unpy.Misc
