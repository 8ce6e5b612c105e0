import Verif.Model.Fun
/-!
# Model of `unpythonic/seq.py` (begin and pipe families)

Simplifications: arguments are not `Lazy` promises, and contain nothing that `force` does not leave as it is (see `Model/ForceArgs.lean` and C133), and functions are
not curried (no curry context is opened, seq.py:332-336).  Names of values are assumed different from
`_funcs`, the internal keyword of `lazy_piped` (seq.py:434), and from `self`: no `Values` can have a value of
this name (`mkValues`), and `piped(self=...)` is a TypeError, too.
-/
namespace Unpy.Seq
open Unpy.Eff Unpy.Fun
open Unpy.Fold (Err Vals)
universe u v w p q
variable {σ : Type u} {ε : Type v} {V : Type w}

/-! ## begin -/

/-- `begin(*vals)` (seq.py:21-33). -/
def begin (pyNone : V) (vals : List V) : V := match vals.getLast? with | some v => v | none => pyNone
/-- `begin0(*vals)` (seq.py:36-49). -/
def begin0 (pyNone : V) (vals : List V) : V := match vals with | v :: _ => v | [] => pyNone

/-- Run thunks one after the other, ignoring their values (`for body in rest: body()`). -/
def runAll : List (Eff σ (Err ε) V) → Eff σ (Err ε) Unit
  | [] => ret ()
  | b :: bs => bind b (fun _ => runAll bs)

/-- `lazy_begin(*bodys)` (seq.py:51-74). -/
def lazy_begin (pyNone : V) (bodys : List (Eff σ (Err ε) V)) : Eff σ (Err ε) V :=
  match bodys with
  | [] => ret pyNone
  | [b] => b
  | b :: bs =>
    match (b :: bs).getLast? with
    | some last => bind (runAll (b :: bs).dropLast) (fun _ => last)
    | none => ret pyNone              -- unreachable

/-- `lazy_begin0(*bodys)` (seq.py:76-100). -/
def lazy_begin0 (pyNone : V) (bodys : List (Eff σ (Err ε) V)) : Eff σ (Err ε) V :=
  match bodys with
  | [] => ret pyNone
  | [b] => b
  | first :: rest => bind first (fun out => bind (runAll rest) (fun _ => ret out))

/-! ## One-argument pipes -/

/-- `pipe1(value0, *bodys)` (seq.py:103-160). -/
def pipe1 (x : V) : List (Fn1 σ ε V) → Eff σ (Err ε) V
  | [] => ret x
  | update :: bodys => bind (update x) (fun x => pipe1 x bodys)

/-- The right-hand side of `|`: a function or the sentinel `exitpipe` (seq.py:163). -/
inductive Item (F : Type u) where
  | fn (f : F)
  | exitpipe

/-- The value of a `|` expression: a pipe, or (after `exitpipe`) a value. -/
inductive OrRes (P : Type p) (R : Type w) where
  | pipe (p : P)
  | value (r : R)

/-- `piped1.__or__` (seq.py:174-205); the pipe is its current value. -/
def piped1Or (x : V) : Item (Fn1 σ ε V) → Eff σ (Err ε) (OrRes V V)
  | .exitpipe => ret (.value x)
  | .fn f => bind (f x) (fun y => ret (.pipe y))

/-- `lazy_piped1` (seq.py:206-276): initial value and planned functions. -/
structure LazyPiped1 (σ : Type u) (ε : Type v) (V : Type w) where
  x : V
  funcs : List (Fn1 σ ε V)

/-- `lazy_piped1(x)` (seq.py:222-228). -/
def lazy_piped1 (x : V) : LazyPiped1 σ ε V := ⟨x, []⟩

/-- `lazy_piped1.__or__` (seq.py:233-274). -/
def lazyPiped1Or (p : LazyPiped1 σ ε V) : Item (Fn1 σ ε V) → Eff σ (Err ε) (OrRes (LazyPiped1 σ ε V) V)
  | .exitpipe => bind (run p.x p.funcs) (fun v => ret (.value v))
  | .fn f => ret (.pipe ⟨p.x, p.funcs ++ [f]⟩)
where
  /-- `for g in self._funcs: v = g(v)` (seq.py:257-259) -/
  run (v : V) : List (Fn1 σ ε V) → Eff σ (Err ε) V
    | [] => ret v
    | g :: gs => bind (g v) (fun v => run v gs)

/-! ## Pipes with any number of values -/

/-- `return xs if xs.kwrets or len(xs.rets) > 1 else xs[0]` for a `Values`, otherwise the value itself
(seq.py:343-345, 395, 469-472). -/
def unwrap : Ret V → Eff σ (Err ε) (Ret V)
  | .one v => ret (.one v)
  | .many vs =>
    if !vs.kwrets.isEmpty || vs.rets.length > 1 then ret (.many vs)
    else match vs.rets with
      | x :: _ => ret (.one x)
      | [] => raise (.py .IndexError)

/-- `pipe(values0, *bodys)` (seq.py:278-345). -/
def pipe (values0 : Ret V) (bodys : List (Fn σ ε V)) : Eff σ (Err ε) (Ret V) :=
  bind (loop values0 bodys) unwrap
where
  loop (xs : Ret V) : List (Fn σ ε V) → Eff σ (Err ε) (Ret V)
    | [] => ret xs
    | update :: rest =>
      bind (match xs with
        | .many vs => maybeForceArgs update ⟨vs.rets, vs.kwrets⟩
        | .one v => maybeForceArgs update ⟨[v], []⟩) (fun xs => loop xs rest)

/-- `piped.__or__` (seq.py:379-404); the pipe is its `Values`. -/
def pipedOr (xs : Vals V) : Item (Fn σ ε V) → Eff σ (Err ε) (OrRes (Vals V) (Ret V))
  | .exitpipe => bind (unwrap (.many xs)) (fun r => ret (.value r))
  | .fn f => bind (maybeForceArgs f ⟨xs.rets, xs.kwrets⟩) (fun newxs =>
      match newxs with
      | .many vs => ret (.pipe ⟨vs.rets, vs.kwrets⟩)
      | .one v => ret (.pipe ⟨[v], []⟩))

/-- `lazy_piped` (seq.py:408-481): initial values and planned functions. -/
structure LazyPiped (σ : Type u) (ε : Type v) (V : Type w) where
  xs : Vals V
  funcs : List (Fn σ ε V)

/-- `lazy_piped(*xs, **kws)` (seq.py:434-442). -/
def lazy_piped (xs : Vals V) : LazyPiped σ ε V := ⟨xs, []⟩

/-- `lazy_piped.__or__` (seq.py:443-479). -/
def lazyPipedOr (p : LazyPiped σ ε V) : Item (Fn σ ε V) → Eff σ (Err ε) (OrRes (LazyPiped σ ε V) (Ret V))
  | .exitpipe => bind (bind (run (.many p.xs) p.funcs) unwrap) (fun r => ret (.value r))
  | .fn f => ret (.pipe ⟨p.xs, p.funcs ++ [f]⟩)
where
  /-- the `for g in self._funcs` loop (seq.py:459-464) -/
  run (vs : Ret V) : List (Fn σ ε V) → Eff σ (Err ε) (Ret V)
    | [] => ret vs
    | g :: gs => bind (match vs with
        | .many vs => maybeForceArgs g ⟨vs.rets, vs.kwrets⟩
        | .one v => maybeForceArgs g ⟨[v], []⟩) (fun vs => run vs gs)

/-- Python evaluates `p | i1 | i2 | ... | exitpipe` from left to right.  `chain` runs the `|` operators
with the given functions and then `exitpipe`. -/
def chain {P : Type p} {F : Type q} {R : Type w}
    (or : P → Item F → Eff σ (Err ε) (OrRes P R)) (p : P) : List F → Eff σ (Err ε) (Option R)
  | [] => bind (or p .exitpipe) (fun r => match r with | .value v => ret (some v) | .pipe _ => ret none)
  | f :: fs => bind (or p (.fn f)) (fun r => match r with | .pipe p => chain or p fs | .value _ => ret none)

end Unpy.Seq
