import Verif.Model.Fold
/-!
# Model of `unpythonic/ec.py`: `throw`, `catch`, `call_ec`

A thread of a Python program that uses these is written as a program tree, in which any function of results
so far may stand, so that every run that ends is a run of some tree.

Simplifications: one thread; a user tag is never equal to the `id(anchor)` that `call_ec` makes its tag
(ec.py:241-242); user code does not catch `BaseException`, of which `Escape` (ec.py:62) is a subclass.
-/
namespace Unpy.Ec
open Unpy.Fold (Err)
variable {σ ε T V : Type}

/-- A tag: one given by the user, or one made by `call_ec`. -/
inductive Tag (T : Type) where
  | user (t : T)
  | uid (n : Nat)
  deriving DecidableEq

/-- What can be propagating: an ordinary exception, or an `Escape` (ec.py:60-73). -/
inductive Exc (ε T V : Type) where
  | err (e : Err ε)
  | escape (value : V) (tag : Option (Tag T)) (allow_catchall : Bool)

/-- A program, from some point on. -/
inductive Prog (σ ε T V : Type) where
  /-- finish with a value -/
  | ret (v : V)
  /-- `raise e` -/
  | raise (e : Err ε)
  /-- look at the world -/
  | look (k : σ → Prog σ ε T V)
  /-- change the world -/
  | put (s : σ) (k : Prog σ ε T V)
  /-- `throw(v, tag, allow_catchall)` -/
  | throw (v : V) (tag : Option T) (allow_catchall : Bool)
  /-- call a function decorated with `@catch(tags, catch_untagged)`, whose body is `p`; go on with its value -/
  | catch (tags : Option (List T)) (catch_untagged : Bool) (p : Prog σ ε T V) (k : V → Prog σ ε T V)
  /-- call a plain function -/
  | seq (p : Prog σ ε T V) (k : V → Prog σ ε T V)
  /-- `try: p except Exception as e: h(e)`, then `k` -/
  | tryExcept (p : Prog σ ε T V) (h : Err ε → Prog σ ε T V) (k : V → Prog σ ε T V)
  /-- `try: p finally: q`, then `k` -/
  | tryFinally (p q : Prog σ ε T V) (k : V → Prog σ ε T V)
  /-- `call_ec(f)`; the `ec` passed to `f` is named by a number -/
  | callEc (f : Nat → Prog σ ε T V) (k : V → Prog σ ε T V)
  /-- `ec(v)` for the `ec` of that number -/
  | ec (n : Nat) (v : V)

/-- The state: the world, a source of unique ids, and the flags `ec_valid` (ec.py:251, 267). -/
structure St (σ : Type) where
  world : σ
  next : Nat
  valid : Nat → Bool

/-- `shouldcatch` (ec.py:185-188). -/
def shouldcatch [DecidableEq T] (tags : Option (List (Tag T))) (catch_untagged : Bool) (tag : Option (Tag T))
    (allow_catchall : Bool) : Bool :=
  (tags.isNone && allow_catchall) ||
  (catch_untagged && tag.isNone) ||
  (match tags, tag with
    | some ts, some t => decide (t ∈ ts)
    | _, _ => false)

/-- `catchpoint` (ec.py:191-199): what becomes of the outcome of the decorated function. -/
def catchpoint [DecidableEq T] (tags : Option (List (Tag T))) (catch_untagged : Bool) :
    Except (Exc ε T V) V → Except (Exc ε T V) V
  | .ok v => .ok v
  | .error (.escape v tag a) =>
    if shouldcatch tags catch_untagged tag a then .ok v else .error (.escape v tag a)
  | .error (.err e) => .error (.err e)

/-- Go on after an outcome. -/
def andThen (out : Except (Exc ε T V) V × St σ) (k : V → St σ → Except (Exc ε T V) V × St σ) :
    Except (Exc ε T V) V × St σ :=
  match out with
  | (.ok v, st) => k v st
  | (.error e, st) => (.error e, st)

/-- Run a program. -/
def eval [DecidableEq T] : Prog σ ε T V → St σ → Except (Exc ε T V) V × St σ
  | .ret v, st => (.ok v, st)
  | .raise e, st => (.error (.err e), st)
  | .look k, st => eval (k st.world) st
  | .put s k, st => eval k { st with world := s }
  -- throw (ec.py:34-58)
  | .throw v tag a, st => (.error (.escape v (tag.map .user) a), st)
  | .catch tags cu p k, st =>
    let out := eval p st
    andThen (catchpoint (tags.map (·.map .user)) cu out.1, out.2) (fun v st => eval (k v) st)
  | .seq p k, st => andThen (eval p st) (fun v st => eval (k v) st)
  | .tryExcept p h k, st =>
    andThen (match eval p st with
      | (.error (.err e), st') => eval (h e) st'
      | out => out) (fun v st => eval (k v) st)
  | .tryFinally p q k, st =>
    let out := eval p st
    andThen (match eval q out.2 with
      | (.ok _, st'') => (out.1, st'')
      | (.error e, st'') => (.error e, st'')) (fun v st => eval (k v) st)
  -- call_ec (ec.py:241-277): the catch point for our own tag only; finally, ec_valid = False
  | .callEc f k, st =>
    let n := st.next
    let out := eval (f n) { st with next := n + 1, valid := fun i => if i = n then true else st.valid i }
    andThen (catchpoint (some [.uid n]) false out.1,
        { out.2 with valid := fun i => if i = n then false else out.2.valid i })
      (fun v st => eval (k v) st)
  -- ec (ec.py:253-257)
  | .ec n v, st =>
    if !st.valid n then (.error (.err (.py .RuntimeError)), st)
    else (.error (.escape v (some (.uid n)) false), st)

end Unpy.Ec
