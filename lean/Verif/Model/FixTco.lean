import Verif.Model.Py
/-!
# Model of `fixtco` (`unpythonic/fix.py`)

As `Model/Fix`, but a body may also end in a jump (`return jump(g, ...)`), where `g` is `@fixtco`'d.  A jump strips the
decorator from its target (tco.py:167), so the key of a jump target in `visited` is not that of an entry with the same
arguments.
-/
namespace Unpy.FixTco
open Unpy

variable {F A V E : Type}

/-- What a call returns or raises. -/
abbrev Out (E V : Type) := Except E V

/-- The code of a function body. -/
inductive Prog (F A E V : Type) where
  | ret (v : V)
  | raise (e : E)
  | jump (f : F) (args : A)
  | call (f : F) (args : A) (k : Out E V → Prog F A E V)

/-- A member of `visited`: the function as entered by a call (`f_fix`) or by a jump (`f`), and its arguments. -/
structure Key (F A : Type) where
  tail : Bool
  f : F
  args : A
  deriving DecidableEq

/-- `visited`, and the memos of all functions. -/
structure St (F A E V : Type) where
  visited : List (Key F A)
  memo : List ((F × A) × Out E V)

/-- The decorated functions.  `bottom o f a` is the bottom given in the decorator of `o`, called with the name of `f` and
the arguments `a`. -/
structure Defs (F A E V : Type) where
  body : F → A → Prog F A E V
  memo : F → Bool
  bottom : F → F → A → Out E V
  keyError : E

/-- How a body ends. -/
inductive End (F A E V : Type) where
  | out (r : Out E V)
  | jump (f : F) (args : A)

/-- Run a body, given how calls are done. -/
def run (call : F → A → St F A E V → Option (Out E V × St F A E V)) :
    Prog F A E V → St F A E V → Option (End F A E V × St F A E V)
  | .ret v, st => some (.out (.ok v), st)
  | .raise e, st => some (.out (.error e), st)
  | .jump f a, st => some (.jump f a, st)
  | .call f a k, st =>
    match call f a st with
    | none => none
    | some (r, st') => run call (k r) st'

/-- `memo[k]` -/
def lookup [DecidableEq F] [DecidableEq A] (memo : List ((F × A) × Out E V)) (k : F × A) : Option (Out E V) :=
  (memo.find? (fun e => e.1 = k)).map Prod.snd

/-- `for target in t.cleanup: e.visited.remove(target)` (fix.py:263-264, 273-274); `none` for `KeyError`.  The order in
which a set is traversed does not matter. -/
def removeAll [DecidableEq F] [DecidableEq A] : List (Key F A) → List (Key F A) → Option (List (Key F A))
  | [], vis => some vis
  | k :: c, vis => if k ∈ vis then removeAll c (vis.erase k) else none

/-- The part of a call that is going on: the call itself, or the trampoline started by a call of `owner`, with the next
target, its arguments, and `t.cleanup`. -/
inductive Task (F A : Type) where
  | call (f : F) (a : A)
  | tramp (owner : F) (f : F) (a : A) (cleanup : List (Key F A))

/-- `f_fix(*args, **kwargs)` for `@fixtco` (fix.py:216-230), and `trampolined(spy)` (fix.py:254-276, tco.py:235-250).
Calls are nested, and jumps chained, at most `fuel` deep (`none` otherwise). -/
def go [DecidableEq F] [DecidableEq A] (d : Defs F A E V) :
    Nat → Task F A → St F A E V → Option (Out E V × St F A E V)
  | 0, _, _ => none
  | fuel + 1, .call f a, st =>
    let me : Key F A := ⟨false, f, a⟩
    let mrproper := st.visited.isEmpty
    if me ∉ st.visited then
      let st1 := { st with visited := me :: st.visited }
      let res :=
        if d.memo f then
          match lookup st.memo (f, a) with
          | some r => some (r, st1)
          | none =>
            match go d fuel (.tramp f f a []) st1 with
            | none => none
            | some (r, st') => some (r, { st' with memo := ((f, a), r) :: st'.memo })
        else go d fuel (.tramp f f a []) st1
      match res with
      | none => none
      | some (r, st') =>
        if mrproper then some (r, { st' with visited := [] })
        else if me ∈ st'.visited then some (r, { st' with visited := st'.visited.erase me })
        else some (.error d.keyError, st')
    else some (d.bottom f f a, st)
  | fuel + 1, .tramp owner f a cleanup, st =>
    match run (fun g b => go d fuel (.call g b)) (d.body f a) st with
    | none => none
    | some (.out (.error e), st') => some (.error e, st')
    | some (.out (.ok v), st') =>
      match removeAll cleanup st'.visited with
      | none => some (.error d.keyError, st')
      | some vis => some (.ok v, { st' with visited := vis })
    | some (.jump g b, st') =>
      let you : Key F A := ⟨true, g, b⟩
      if you ∈ st'.visited then
        match removeAll cleanup st'.visited with
        | none => some (.error d.keyError, st')
        | some vis => some (d.bottom owner g a, { st' with visited := vis })
      else go d fuel (.tramp owner g b (you :: cleanup)) { st' with visited := you :: st'.visited }

/-- The initial state of a thread. -/
def init : St F A E V := ⟨[], []⟩

end Unpy.FixTco
