import Verif.Model.Fploop
/-!
# Loops as folds

A *tail* body decides, after its effects, what to do with the current item; the meaning of a loop over it is
a fold that can stop early.
-/
namespace Unpy.Spec.Fploop
open Unpy Unpy.Eff Unpy.Fploop
open Unpy.Fold (Err Vals)
variable {σ ε V : Type}

/-- The last action of a body. -/
inductive Act (V : Type) where
  /-- `return loop(*args, **kw)` -/
  | loop (args : List V) (kw : Kw V)
  /-- `return cnt(*args, **kw)` -/
  | cnt (args : List V) (kw : Kw V)
  /-- `return v` -/
  | exit (v : V)
  /-- `brk(v)` -/
  | brk (v : V)

abbrev Decide (σ ε V : Type) := V → V → List V → Kw V → Eff σ (Err ε) (Act V)

/-- The body that does what `dec` says. -/
def tailBody (dec : Decide σ ε V) : BodyFn σ ε V := fun x acc rest kw =>
  .look fun s =>
    match dec x acc rest kw s with
    | (.error e, s') => .put s' (.raise e)
    | (.ok (.loop a k), s') => .put s' (.loop a k .ret)
    | (.ok (.cnt a k), s') => .put s' (.cnt a k .ret)
    | (.ok (.exit v), s') => .put s' (.ret (.val v))
    | (.ok (.brk v), s') => .put s' (.brk v)

/-- The meaning: a left fold; `exit` and `brk` stop it. -/
def foldLoop (dec : Decide σ ε V) : List V → V → List V → Kw V → Eff σ (Err ε) V
  | [], acc, _, _ => ret acc
  | x :: xs, acc, rest, kw => bind (dec x acc rest kw) fun d =>
      match d with
      | .loop [] k => foldLoop dec xs acc [] k
      | .loop (a :: as) k => foldLoop dec xs a as k
      | .cnt as k => foldLoop dec xs acc as k
      | .exit v => ret v
      | .brk v => ret v

/-- The meaning of `looped`: call the body again as long as it returns `loop(...)`. -/
inductive Iter (body : Args V → Eff σ (Err ε) (Step ε V)) : Args V → σ → Except (Err ε) V → σ → Prop where
  | raises {a s e s'} : body a s = (.error e, s') → Iter body a s (.error e) s'
  | value {a s v s'} : body a s = (.ok (.val v), s') → Iter body a s (.ok v) s'
  | brk {a s v s'} : body a s = (.ok (.brk v), s') → Iter body a s (.ok v) s'
  | again {a s a' s' r s''} : body a s = (.ok (.loop a'), s') → Iter body a' s' r s'' → Iter body a s r s''

/-- How many times a call of the body has called `loop` or `cnt`. -/
def calls (cur : V) : Body σ ε V → LoopSt V → σ → Nat
  | .look k, st, s => calls cur (k s) st s
  | .put s' k, st, _ => calls cur k st s'
  | .loop args kw k, st, s => let r := loopFn args kw st; 1 + calls cur (k r.1) r.2 s
  | .cnt args kw k, st, s => let r := loopFn (cur :: args) kw st; 1 + calls cur (k r.1) r.2 s
  | _, _, _ => 0

end Unpy.Spec.Fploop
