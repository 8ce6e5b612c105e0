import Verif.Model.Py
/-!
# Model of `unpythonic.dynassign` (dynassign.py:12-292)

Dynamic scopes are dicts with identity: a child thread copies the *list* of the main thread's scopes
(dynassign.py:28-29), not the dicts.  So scopes live in a heap and stacks hold references; reference 0
is the dict `_global_dynvars` (dynassign.py:12).

Simplifications: the observers of `_DynLiveView` (dynassign.py:32-35, 53-77) only refresh a view and
are not modelled; an `_EnvBlock` object is used in one `with` only; a lock-protected region
(dynassign.py:28, 212) is one step.
-/
namespace Unpy.Dyn
universe u
variable {V : Type u}

/-- A Python dict with string keys, in insertion order. -/
abbrev Dict (V : Type u) := List (String × V)

def Dict.get (d : Dict V) (x : String) : Option V := (d.find? (fun e => e.1 = x)).map Prod.snd
def Dict.has (d : Dict V) (x : String) : Bool := (d.get x).isSome
/-- `d[x] = v` -/
def Dict.set (d : Dict V) (x : String) (v : V) : Dict V :=
  if d.has x then d.map (fun e => if e.1 = x then (x, v) else e) else d ++ [(x, v)]

structure St (V : Type u) where
  heap : List (Dict V)             -- all scope dicts; index 0 is `_global_dynvars`
  stacks : Nat → Option (List Nat) -- per thread, innermost scope first; `none`: `_L._stack` not yet made

/-- dynassign.py:18-30 `_getstack`; thread 0 is the main thread. -/
def getstack (st : St V) (th : Nat) : List Nat :=
  match st.stacks th with
  | some s => s
  | none => (st.stacks 0).getD []

/-- the side effect of `_getstack`: a thread's first use of `dyn` makes its copy (dynassign.py:28-29) -/
def touch (st : St V) (th : Nat) : St V :=
  { st with stacks := fun t => if t = th then some (getstack st th) else st.stacks t }

def deref (st : St V) (r : Nat) : Dict V := (st.heap[r]?).getD []

/-- dynassign.py:146-154 `_resolve`: the scope in which the name is bound. -/
def resolve (st : St V) (th : Nat) (x : String) : Res Nat :=
  match (getstack st th).find? (fun r => (deref st r).has x) with
  | some r => .ok r
  | none => if (deref st 0).has x then .ok 0 else .error .AttributeError

/-- dynassign.py:156-159 `__getattr__` -/
def getattr (st : St V) (th : Nat) (x : String) : Res V :=
  match resolve st th x with
  | .error e => .error e
  | .ok r => match (deref st r).get x with
    | some v => .ok v
    | none => .error .KeyError       -- unreachable

def setScope (st : St V) (r : Nat) (x : String) (v : V) : St V :=
  { st with heap := st.heap.modify r (fun d => Dict.set d x v) }

/-- dynassign.py:161-174 `__setattr__` -/
def setattr (st : St V) (th : Nat) (x : String) (v : V) : Res (St V) :=
  match resolve st th x with
  | .error e => .error e
  | .ok r => .ok (setScope st r x v)

/-- dynassign.py:40-44 `_EnvBlock.__enter__` -/
def enter (st : St V) (th : Nat) (bs : Dict V) : St V :=
  if bs.isEmpty then st
  else { heap := st.heap ++ [bs],
         stacks := fun t => if t = th then some (st.heap.length :: getstack st th) else st.stacks t }

/-- dynassign.py:45-49 `_EnvBlock.__exit__` -/
def exit (st : St V) (th : Nat) (bs : Dict V) : St V :=
  if bs.isEmpty then st
  else { st with stacks := fun t => if t = th then some (getstack st th).tail else st.stacks t }

/-- dynassign.py:205: the dict comprehension `{k: self._resolve(k) for k in bindings}` -/
def resolveAll (st : St V) (th : Nat) : Dict V → Res (List (Nat × String × V))
  | [] => .ok []
  | (x, v) :: bs =>
    match resolve st th x with
    | .error e => .error e
    | .ok r => match resolveAll st th bs with
      | .error e => .error e
      | .ok rs => .ok ((r, x, v) :: rs)

/-- dynassign.py:204-216, the body of `update` -/
def update (st : St V) (th : Nat) (bs : Dict V) : Res Unit × St V :=
  match resolveAll st th bs with
  | .error e => (.error e, st)
  | .ok rs => (.ok (), rs.foldl (fun st (r, x, v) => setScope st r x v) st)

/-- dynassign.py:268-292 `make_dynvar` -/
def makeDynvar (st : St V) (bs : Dict V) : St V :=
  bs.foldl (fun st (x, v) => setScope st 0 x v) st

/-- Reading `dyn.x` or `getattr(dyn, x)`: Python finds attributes of the class (`cls`: `let`, `update`, `items`,
`asdict`, ...) first, and calls `__getattr__` (dynassign.py:156-159) for other names only. -/
def readAttr (cls : String → Option V) (st : St V) (th : Nat) (x : String) : Res V :=
  match cls x with
  | some m => .ok m
  | none => getattr st th x

/-- The call `dyn.let(**bs)` (dynassign.py:176-190): a binding called `self` clashes with the parameter. -/
def letCall (bs : Dict V) : Res (Dict V) := if Dict.has bs "self" then .error .TypeError else .ok bs

/-- The call `dyn.update(**bs)` (dynassign.py:192-216), likewise. -/
def updateCall (st : St V) (th : Nat) (bs : Dict V) : Res Unit × St V :=
  if Dict.has bs "self" then (.error .TypeError, st) else update st th bs

/-- dynassign.py:219-224 `__contains__` -/
def contains (cls : String → Option V) (st : St V) (th : Nat) (x : String) : Bool :=
  match readAttr cls st th x with
  | .ok _ => true
  | .error _ => false

/-- Fresh interpreter in which `make_dynvar(**defaults)` has been called. -/
def init (defaults : Dict V) : St V :=
  makeDynvar ⟨[[]], fun t => if t = 0 then some [] else none⟩ defaults

/-- A program using `dyn` in one thread.  `read x k` reads `dyn.x` and goes on as `k` says, depending on
the value; `block bs body rest` is `with dyn.let(**bs): body` followed by `rest`; `attempt body rest`
is `try: body; except Exception: pass` followed by `rest`. -/
inductive Prog (V : Type u) where
  | done
  | raise
  | read (x : String) (k : V → Prog V)
  | assign (x : String) (v : V) (rest : Prog V)
  | update (bs : Dict V) (rest : Prog V)
  | block (bs : Dict V) (body rest : Prog V)
  | attempt (body rest : Prog V)

/-- Run a program in thread `th`: the values read, whether it raised, and the final state.  The `with`
statement calls `__exit__` on every way out.  `cls` gives the attributes of the class of `dyn`. -/
def exec (cls : String → Option V) (th : Nat) : Prog V → St V → List V × Bool × St V
  | .done, st => ([], false, st)
  | .raise, st => ([], true, st)
  | .read x k, st =>
    match readAttr cls st th x with
    | .error _ => ([], true, st)
    | .ok v => let (vs, r, st') := exec cls th (k v) st; (v :: vs, r, st')
  | .assign x v rest, st =>
    match setattr st th x v with
    | .error _ => ([], true, st)
    | .ok st' => exec cls th rest st'
  | .update bs rest, st =>
    match updateCall st th bs with
    | (.error _, st') => ([], true, st')
    | (.ok _, st') => exec cls th rest st'
  | .block bs body rest, st =>
    match letCall bs with
    | .error _ => ([], true, st)
    | .ok bs =>
      let (vs, r, st') := exec cls th body (enter st th bs)
      let st'' := exit st' th bs
      if r then (vs, true, st'')
      else let (ws, r', st3) := exec cls th rest st''; (vs ++ ws, r', st3)
  | .attempt body rest, st =>
    let (vs, _, st') := exec cls th body st
    let (ws, r', st3) := exec cls th rest st'
    (vs ++ ws, r', st3)

/-! Several threads, one operation at a time. -/

inductive Event (V : Type u) where
  | spawn (th : Nat)               -- `Thread.start()`: does not touch `dyn`
  | enter (th : Nat) (bs : Dict V)
  | exit (th : Nat) (bs : Dict V)
  | assign (th : Nat) (x : String) (v : V)
  | read (th : Nat) (x : String)

def Event.thread : Event V → Nat
  | .spawn th => th
  | .enter th _ => th
  | .exit th _ => th
  | .assign th _ _ => th
  | .read th _ => th

/-- One operation of one thread; every operation goes through `_getstack`. -/
def step (st : St V) (e : Event V) : St V :=
  match e with
  | .spawn _ => st
  | .enter th bs => if bs.isEmpty then st else enter (touch st th) th bs
  | .exit th bs => if bs.isEmpty then st else exit (touch st th) th bs
  | .assign th x v =>
    match setattr (touch st th) th x v with
    | .ok st' => st'
    | .error _ => touch st th
  | .read th _ => touch st th

def run (st : St V) (evs : List (Event V)) : St V := evs.foldl step st

end Unpy.Dyn
