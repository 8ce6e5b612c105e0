import Verif.Model.LazyCalls
/-!
# Model of the pipes in lazy code (`unpythonic/seq.py`)

In a `with lazify` block, each call is made by `maybe_force_args`, and arguments may be promises.

Simplified: positional arguments only, promises are not inside of containers, and functions are not curried.  `multi` is true for `pipe`,
`piped` and `lazy_piped`, and false for `pipe1`, `piped1` and `lazy_piped1`.
-/
namespace Unpy.LazyPipe
open Unpy.Eff Unpy.LazyCalls
open Unpy.LazyCompose (Arg forceAll)
variable {σ ε V P : Type}

/-- As for other calls; and which values are `Values`, of what -/
structure Pipes (σ ε V P : Type) extends World σ ε V P where
  rets : V → Option (List V)

/-- What comes out of a pipe: one item, or a `Values` of any other number -/
inductive Result (V P : Type) where
  | item (a : Arg V P)
  | values (as : List (Arg V P))

/-- What the next function gets (seq.py:341-344, 402-404, 462-465) -/
def spread (W : Pipes σ ε V P) (multi : Bool) (x : V) : List (Arg V P) :=
  if multi then match W.rets x with
    | some vs => vs.map .val
    | none => [.val x]
  else [.val x]

/-- `xs if len(xs.rets) > 1 else xs[0]` (seq.py:346, 399, 467) of the contents of a pipe -/
def unwrap (W : Pipes σ ε V P) : List (Arg V P) → Eff σ ε (Result V P)
  | [] => raise W.indexError
  | [a] => ret (.item a)
  | a :: b :: as => ret (.values (a :: b :: as))

/-- The loop of `pipe1` (seq.py:165-168) and `pipe` (seq.py:330-347); functions may be promises. -/
def pipeLoop (W : Pipes σ ε V P) (multi : Bool) (x : V) : List (Arg V P) → Eff σ ε (Result V P)
  | [] => if multi then match W.rets x with
      | some vs => unwrap W (vs.map .val)
      | none => ret (.item (.val x))
    else ret (.item (.val x))
  | b :: bodys => bind (force1 W.toWorld b) fun update => bind (maybeForce W.toWorld update (spread W multi x)) fun x => pipeLoop W multi x bodys

/-- `pipe1(value0, *bodys)` and `pipe(values0, *bodys)` (seq.py:103-168, 278-347) -/
def pipe (W : Pipes σ ε V P) (multi : Bool) (value0 : Arg V P) (bodys : List (Arg V P)) : Eff σ ε (Result V P) :=
  bind (force1 W.toWorld value0) fun x => pipeLoop W multi x bodys

/-- `p | f1 | ... | exitpipe` of a `piped1` or `piped` with these contents (seq.py:173-207, 364-406) -/
def piped (W : Pipes σ ε V P) (multi : Bool) (xs : List (Arg V P)) : List (Arg V P) → Eff σ ε (Result V P)
  | [] => unwrap W xs
  | f :: fs => bind (force1 W.toWorld f) fun f => bind (maybeForce W.toWorld f xs) fun x => piped W multi (spread W multi x) fs

/-- The functions of `p | f1 | ...` of a `lazy_piped1` or `lazy_piped` (seq.py:261-274, 458-479): nothing is called. -/
def plan (W : Pipes σ ε V P) (funcs : List V) : List (Arg V P) → Eff σ ε (List V)
  | [] => ret funcs
  | f :: fs => bind (force1 W.toWorld f) fun f => plan W (funcs ++ [f]) fs

/-- The loop at the exit from `lazy_piped1` (seq.py:263-265) and `lazy_piped` (seq.py:460-465) -/
def lazyLoop (W : Pipes σ ε V P) (multi : Bool) (xs : List (Arg V P)) : List V → Eff σ ε (List (Arg V P))
  | [] => ret xs
  | g :: gs => bind (maybeForce W.toWorld g xs) fun x => lazyLoop W multi (spread W multi x) gs

/-- `force(ret)` at the exit from a lazy pipe (seq.py:266-271, 466-476) -/
def forceResult (W : Pipes σ ε V P) : Result V P → Eff σ ε (Result V P)
  | .item a => bind (force1 W.toWorld a) fun v => ret (.item (.val v))
  | .values as => bind (forceAll W.forceP as) fun as => ret (.values as)

/-- `p | exitpipe` of a lazy pipe with these contents and functions (seq.py:261-271, 458-476) -/
def exitLazy (W : Pipes σ ε V P) (multi : Bool) (xs : List (Arg V P)) (funcs : List V) : Eff σ ε (Result V P) :=
  bind (lazyLoop W multi xs funcs) fun xs => bind (unwrap W xs) (forceResult W)

/-- `lazy_piped(*xs) | f1 | ... | exitpipe`, and the same of `lazy_piped1(x)` -/
def lazyPiped (W : Pipes σ ε V P) (multi : Bool) (xs : List (Arg V P)) (fs : List (Arg V P)) : Eff σ ε (Result V P) :=
  bind (plan W [] fs) (exitLazy W multi xs)

end Unpy.LazyPipe
