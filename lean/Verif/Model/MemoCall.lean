import Verif.Model.Arity
import Verif.Model.Fold
/-!
# Model of calls of memoized functions (`unpythonic/fun.py`, `memoize`)

`Verif.Model.Memo` has threads and recursion, and starts from the keys.  Here it is one call after the other, with their arguments.

Simplified: nothing is lazy, all arguments are passed on as they are (see `Model/ForceArgs.lean` and C133), and the function is pure: what it returns or raises depends on its arguments only.
-/
namespace Unpy.MemoCall
open Unpy Unpy.Arity Unpy.Fold
variable {V R ε : Type}

/-- What Python says of values: whether one is found in a dict under another (`is` or `==`, and then the hashes are also the same), and whether they can be hashed -/
structure World (V : Type) where
  eq : V → V → Bool
  hashable : V → Bool

/-- Tuples are compared item by item. -/
def eqAll {α : Type} (eq : α → α → Bool) : List α → List α → Bool
  | [], [] => true
  | a :: as, b :: bs => eq a b && eqAll eq as bs
  | _, _ => false

/-- What is bound to a parameter; `**kwargs` is a tuple of its items (arity.py:451-457) -/
def eqB (w : World V) : BVal V → BVal V → Bool
  | .val a, .val b => w.eq a b
  | .tuple as, .tuple bs => eqAll w.eq as bs
  | .dict as, .dict bs => eqAll (fun a b => a.1 == b.1 && w.eq a.2 b.2) as bs
  | _, _ => false

/-- Keys are tuples of parameter names and what is bound to them (arity.py:424-461) -/
def eqKey (w : World V) (k l : List (String × BVal V)) : Bool := eqAll (fun a b => a.1 == b.1 && eqB w a.2 b.2) k l

def hashableB (w : World V) : BVal V → Bool
  | .val a => w.hashable a
  | .tuple as => as.all w.hashable
  | .dict as => as.all (fun kv => w.hashable kv.2)

def hashableKey (w : World V) (k : List (String × BVal V)) : Bool := k.all (fun b => hashableB w b.2)

/-- The dict `memo` (fun.py:73), the latest entry first, and, for the theorems, the calls that were made of the original, the latest first -/
structure St (V R ε : Type) where
  memo : List (List (String × BVal V) × Except (Err ε) R)
  ran : List (List V × PyDict String V)

/-- `memo[k]`; none for KeyError -/
def lookup (w : World V) (k : List (String × BVal V)) : List (List (String × BVal V) × Except (Err ε) R) → Option (Except (Err ε) R)
  | [] => none
  | e :: es => if eqKey w e.1 k then some e.2 else lookup w k es

/-- `maybe_force_args(f, *args, **kwargs)` (lazyutil.py:113-125), without laziness: `f` is the name of its own first parameter. -/
def callThrough (f : List V → PyDict String V → Except (Err ε) R) (args : List V) (kwargs : PyDict String V) : Except (Err ε) R × Bool :=
  if PyDict.has kwargs "f" then (.error (.py .TypeError), false) else (f args kwargs, true)

/-- `memoized(*args, **kwargs)` (fun.py:75-96), where `sig` is the signature of `f` -/
def memoized (w : World V) (sig : Sig V) (f : List V → PyDict String V → Except (Err ε) R) (st : St V R ε) (args : List V) (kwargs : PyDict String V) : Except (Err ε) R × St V R ε :=
  match key sig args kwargs with
  | .error e => (.error (.py e), st)
  | .ok k =>
    if hashableKey w k then
      match lookup w k st.memo with
      | some out => (out, st)
      | none =>
        let r := callThrough f args kwargs
        (r.1, ⟨(k, r.1) :: st.memo, if r.2 then (args, kwargs) :: st.ran else st.ran⟩)
    else (.error (.py .TypeError), st)   -- `memo[k]` raises TypeError, and not KeyError

/-- Some calls of the memoized function, one after the other: what they return or raise, and the state in the end -/
def calls (w : World V) (sig : Sig V) (f : List V → PyDict String V → Except (Err ε) R) (st : St V R ε) : List (List V × PyDict String V) → List (Except (Err ε) R) × St V R ε
  | [] => ([], st)
  | c :: cs =>
    let r := memoized w sig f st c.1 c.2
    let rs := calls w sig f r.2 cs
    (r.1 :: rs.1, rs.2)

/-- `memoize(f)`, and then the calls -/
def session (w : World V) (sig : Sig V) (f : List V → PyDict String V → Except (Err ε) R) (cs : List (List V × PyDict String V)) : List (Except (Err ε) R) × St V R ε :=
  calls w sig f ⟨[], []⟩ cs

end Unpy.MemoCall
