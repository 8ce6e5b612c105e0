import Verif.Model.Py
/-!
# Model of `fixtco` with functions that return jumps made earlier (`unpythonic/fix.py`, `unpythonic/tco.py`)

`Verif.Model.FixTco` takes jumps as values.  They are objects, though, and `fixtco` changes the ones it meets (fix.py:271); this matters if a function returns the same one again, as it does when it is
memoized: `@fixtco() @memoize def f(...): ... return jump(g, ...)`.

Here a body ends in a value or a jump at once; there are no calls other than jumps, and no exceptions.
-/
namespace Unpy.FixShared
open Unpy
variable {F A V : Type}

/-- What may be called: a function, without its `fixtco` (`_entrypoint`); or `spy` (fix.py:254) -/
inductive Target (F : Type) where
  | fn (f : F)
  | spy
  deriving DecidableEq, Repr

/-- How a body ends -/
inductive Body (F A V : Type) where
  | ret (v : V)
  | jump (f : F) (a : A)

/-- The functions, and which of them are memoized, under the `fixtco` -/
structure Defs (F A V : Type) where
  body : F → A → Body F A V
  memoized : F → Bool
  bottom : V

/-- What a call returns: a value, or the jump object with that number -/
inductive Ret (V : Type) where
  | value (v : V)
  | jump (n : Nat)
  deriving DecidableEq, Repr

/-- `visited`, with entries by call (`f_fix`, fix.py:218) apart from targets of jumps (fix.py:260); `t.target` and `t.cleanup` (fix.py:223) of the one chain; all jump objects; the memos of the memoized functions; the
memo of the results of `f_fix` (fix.py:285) -/
structure St (F A V : Type) where
  entered : List (F × A) := []
  visited : List (Target F × A) := []
  target : Target F := .spy
  cleanup : List (Target F × A) := []
  jumps : List (Target F × A) := []
  memo : List ((F × A) × Ret V) := []
  results : List ((F × A) × V) := []

variable [DecidableEq F] [DecidableEq A]

/-- The function itself: it returns a value or a new jump object (tco.py:165-170); if it is memoized, the same one as before (fun.py:75-98) -/
def callFn (d : Defs F A V) (f : F) (a : A) (st : St F A V) : Ret V × St F A V :=
  match if d.memoized f then (st.memo.find? (fun e => e.1 = (f, a))).map Prod.snd else none with
  | some r => (r, st)
  | none =>
    match d.body f a with
    | .ret v => (.value v, { st with memo := ((f, a), .value v) :: st.memo })
    | .jump g b => (.jump st.jumps.length, { st with jumps := st.jumps ++ [(.fn g, b)], memo := ((f, a), .jump st.jumps.length) :: st.memo })

/-- `spy(*args)` (fix.py:254-276), nested at most so deep -/
def spy (d : Defs F A V) : Nat → A → St F A V → Option (Ret V × St F A V)
  | 0, _, _ => none
  | fuel + 1, a, st =>
    match (match st.target with
      | .fn f => some (callFn d f a st)
      | .spy => spy d fuel a st) with
    | none => none
    | some (.value v, st) => some (.value v, { st with visited := st.visited.filter (· ∉ st.cleanup) })
    | some (.jump n, st) =>
      match st.jumps[n]? with
      | none => none          -- does not happen
      | some you =>
        if you ∈ st.visited then some (.value d.bottom, { st with visited := st.visited.filter (· ∉ st.cleanup) })
        else some (.jump n, { st with visited := you :: st.visited, cleanup := you :: st.cleanup, target := you.1, jumps := st.jumps.set n (.spy, you.2) })

/-- The loop of `trampolined(spy)` (tco.py:246-261).  All jumps that arrive here lead to `spy` (fix.py:271). -/
def trampoline (d : Defs F A V) : Nat → A → St F A V → Option (V × St F A V)
  | 0, _, _ => none
  | fuel + 1, a, st =>
    match spy d fuel a st with
    | none => none
    | some (.value v, st) => some (v, st)
    | some (.jump n, st) =>
      match st.jumps[n]? with
      | none => none
      | some (_, b) => trampoline d fuel b st

/-- The call `f_fix(*args)` by the user (fix.py:216-230), and its memo (fix.py:285) -/
def call (d : Defs F A V) (fuel : Nat) (f : F) (a : A) (st : St F A V) : Option (V × St F A V) :=
  match st.results.find? (fun e => e.1 = (f, a)) with
  | some (_, v) => some (v, st)
  | none =>
    match trampoline d fuel a { st with entered := [(f, a)], target := .fn f, cleanup := [] } with
    | none => none
    | some (v, st) => some (v, { st with entered := [], visited := [], results := ((f, a), v) :: st.results })

/-- Several calls, one after another -/
def calls (d : Defs F A V) (fuel : Nat) : List (F × A) → St F A V → Option (List V × St F A V)
  | [], st => some ([], st)
  | (f, a) :: cs, st =>
    match call d fuel f a st with
    | none => none
    | some (v, st) =>
      match calls d fuel cs st with
      | none => none
      | some (vs, st) => some (v :: vs, st)

end Unpy.FixShared
