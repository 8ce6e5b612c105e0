import Verif.Model.Py
/-!
# Model of `unpythonic/fix.py`

A pure function is given by what its body does: return, raise, or call a `@fix`'d function (itself or another) and go on
with the outcome, which it may catch.  A call is identified by the function and its arguments (`resolve_bindings` and
`tuplify_bindings` are modelled in `Arity`).  One thread; `visited` is thread-local.
-/
namespace Unpy.Fix
open Unpy

variable {F A V E : Type}

/-- What a call returns or raises. -/
abbrev Out (E V : Type) := Except E V

/-- The code of a function body. -/
inductive Prog (F A E V : Type) where
  | ret (v : V)
  | raise (e : E)
  | call (f : F) (args : A) (k : Out E V → Prog F A E V)

/-- `visited`, and the memos of all functions (fun.py:73-74). -/
structure St (F A E V : Type) where
  visited : List (F × A)
  memo : List ((F × A) × Out E V)

/-- The decorated functions: bodies, the `memo` flags, and `bottom`, which may be callable and may raise; and the
`KeyError` that `set.remove` raises. -/
structure Defs (F A E V : Type) where
  body : F → A → Prog F A E V
  memo : F → Bool
  bottom : F → A → Out E V
  keyError : E

/-- Run a body, given how calls are done. -/
def run (call : F → A → St F A E V → Option (Out E V × St F A E V)) :
    Prog F A E V → St F A E V → Option (Out E V × St F A E V)
  | .ret v, st => some (.ok v, st)
  | .raise e, st => some (.error e, st)
  | .call f a k, st =>
    match call f a st with
    | none => none
    | some (r, st') => run call (k r) st'

/-- `memo[k]` -/
def lookup [DecidableEq F] [DecidableEq A] (memo : List ((F × A) × Out E V)) (k : F × A) : Option (Out E V) :=
  (memo.find? (fun e => e.1 = k)).map Prod.snd

/-- `f_memo(*args, **kwargs)` (fix.py:283-284, fun.py:76-96): results and exceptions are remembered. -/
def callMemo [DecidableEq F] [DecidableEq A] (d : Defs F A E V)
    (call : F → A → St F A E V → Option (Out E V × St F A E V)) (f : F) (a : A) (st : St F A E V) :
    Option (Out E V × St F A E V) :=
  if d.memo f then
    match lookup st.memo (f, a) with
    | some r => some (r, st)
    | none =>
      match run call (d.body f a) st with
      | none => none
      | some (r, st') => some (r, { st' with memo := ((f, a), r) :: st'.memo })
  else run call (d.body f a) st

/-- `f_fix(*args, **kwargs)` for `@fix` (fix.py:216-230), with calls nested at most `fuel` deep (`none` otherwise). -/
def callFix [DecidableEq F] [DecidableEq A] (d : Defs F A E V) :
    Nat → F → A → St F A E V → Option (Out E V × St F A E V)
  | 0, _, _, _ => none
  | fuel + 1, f, a, st =>
    let mrproper := st.visited.isEmpty
    if (f, a) ∉ st.visited then
      match callMemo d (callFix d fuel) f a { st with visited := (f, a) :: st.visited } with
      | none => none
      | some (r, st') =>
        if mrproper then some (r, { st' with visited := [] })
        else if (f, a) ∈ st'.visited then some (r, { st' with visited := st'.visited.erase (f, a) })
        else some (.error d.keyError, st')
    else some (d.bottom f a, st)

/-- The initial state of a thread (fix.py:72). -/
def init : St F A E V := ⟨[], []⟩

end Unpy.Fix
