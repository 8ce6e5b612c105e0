import Verif.Model.Eff
/-!
# Model of `unpythonic/fploop.py`

A loop body is a Python function that may compute, look at and change the world, and call the magic functions
it was given.  It is written here as a program tree (`Body`), so that a body may call `loop` in any way it
likes: several times, without returning the result, and so on.

Simplifications: the body does not keep the magic functions for use after the loop has ended, and does not catch
the exception by which `brk` escapes; the check of the body's arity (fploop.py:115-119, 249-253) is not
modelled here (see Model/Arity.lean for `arity_includes`).
-/
namespace Unpy.Fploop
open Unpy.Eff
open Unpy.Fold (Err Vals)
variable {σ ε V : Type}

abbrev Kw (V : Type) := List (String × V)

/-- A value that a body can get hold of: an ordinary value, or a jump back to the body with the new implicit
arguments and the rest (the `_jump` objects made by `loop`). -/
inductive LV (V : Type) where
  | val (v : V)
  | jump (x acc : V) (rest : List V) (kw : Kw V)

/-- A loop body, from some point on. -/
inductive Body (σ ε V : Type) where
  /-- `return r` -/
  | ret (r : LV V)
  /-- `raise e` -/
  | raise (e : Err ε)
  /-- look at the world -/
  | look (k : σ → Body σ ε V)
  /-- change the world -/
  | put (s : σ) (k : Body σ ε V)
  /-- `r = loop(*args, **kw)`, go on with `r` -/
  | loop (args : List V) (kw : Kw V) (k : LV V → Body σ ε V)
  /-- `r = cnt(*args, **kw)`, go on with `r` -/
  | cnt (args : List V) (kw : Kw V) (k : LV V → Body σ ε V)
  /-- `brk(v)` -/
  | brk (v : V)

/-- The variables that `loop` shares between its calls: the iterator and `oldacc` (fploop.py:233-234). -/
structure LoopSt (V : Type) where
  it : List V
  oldacc : V

/-- `loop(*args, **kwargs)` (fploop.py:251-260, 321-331). -/
def loopFn (args : List V) (kw : Kw V) (st : LoopSt V) : LV V × LoopSt V :=
  let newacc := match args with
    | a :: _ => a
    | [] => st.oldacc
  match st.it with
  | [] => (.val newacc, ⟨[], newacc⟩)
  | newx :: it => (.jump newx newacc (if args.length ≥ 2 then args.drop 1 else []) kw, ⟨it, newacc⟩)

/-- How a call of the body ends: it returns, raises, or escapes by `brk`. -/
inductive Out (ε V : Type) where
  | ret (r : LV V)
  | raise (e : Err ε)
  | brk (v : V)

/-- Run the body; `cur` is the accumulator that its `cnt` has been given (`cnt = partial(loop, oldacc)`,
fploop.py:323, 336). -/
def exec (cur : V) : Body σ ε V → LoopSt V → σ → Out ε V × LoopSt V × σ
  | .ret r, st, s => (.ret r, st, s)
  | .raise e, st, s => (.raise e, st, s)
  | .look k, st, s => exec cur (k s) st s
  | .put s' k, st, _ => exec cur k st s'
  | .loop args kw k, st, s => let r := loopFn args kw st; exec cur (k r.1) r.2 s
  | .cnt args kw k, st, s => let r := loopFn (cur :: args) kw st; exec cur (k r.1) r.2 s
  | .brk v, st, s => (.brk v, st, s)

/-- A loop body: its implicit arguments `x`, `acc`, then the other arguments. -/
abbrev BodyFn (σ ε V : Type) := V → V → List V → Kw V → Body σ ε V

/-- The trampoline running the body (fploop.py:259-260, 335-336; tco.py:248-268); `none`: not finished after
so many rounds. -/
def run (body : BodyFn σ ε V) : Nat → V → V → List V → Kw V → LoopSt V → σ → Option (Except (Err ε) V × σ)
  | 0, _, _, _, _, _, _ => none
  | n + 1, x, acc, rest, kw, st, s =>
    match exec acc (body x acc rest kw) st s with
    | (.raise e, _, s') => some (.error e, s')
    | (.brk v, _, s') => some (.ok v, s')
    | (.ret (.val v), _, s') => some (.ok v, s')
    | (.ret (.jump x' acc' rest' kw'), st', s') => run body n x' acc' rest' kw' st' s'

/-- `looped_over(iterable, acc)(body)` (fploop.py:231-261) and `breakably_looped_over(iterable, acc)(body)`
(fploop.py:309-338; `call_ec` turns `brk(v)` into the value of the loop). -/
def loopedOver (n : Nat) (iterable : List V) (acc : V) (body : BodyFn σ ε V) (s : σ) :
    Option (Except (Err ε) V × σ) :=
  match iterable with
  | [] => some (.ok acc, s)
  | x0 :: it => run body n x0 acc [] [] ⟨it, acc⟩ s

/-! `looped` and `breakably_looped` -/

/-- What the body of `looped` returns: a value or `loop(*args, **kwargs)`, or `brk(v)`. -/
inductive Step (ε V : Type) where
  | val (v : V)
  | loop (args : Args V)
  | brk (v : V)

/-- `looped(body)` and `breakably_looped(body)` (fploop.py:114-126, 162-176): the body is called with no
arguments besides the magic ones, and again with `args` after `return loop(*args)`. -/
def looped (body : Args V → Eff σ (Err ε) (Step ε V)) : Nat → Args V → σ → Option (Except (Err ε) V × σ)
  | 0, _, _ => none
  | n + 1, args, s =>
    match body args s with
    | (.error e, s') => some (.error e, s')
    | (.ok (.val v), s') => some (.ok v, s')
    | (.ok (.brk v), s') => some (.ok v, s')
    | (.ok (.loop a), s') => looped body n a s'

end Unpy.Fploop
