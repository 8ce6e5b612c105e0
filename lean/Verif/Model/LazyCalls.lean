import Verif.Model.LazyCompose
/-!
# Model of the functions of the library that call other functions, in lazy code (`unpythonic/fun.py`, `unpythonic/funutil.py`)

In a `with lazify` block, each call is made by `maybe_force_args`, and arguments may be promises.

Simplified: positional arguments only; promises are arguments themselves, or items of a list that is written as the last argument of
`apply`.  What a function returns is one value.  For composing and flipping see `Model/LazyCompose.lean`, for currying
`Model/CurryLazy.lean`.
-/
namespace Unpy.LazyCalls
open Unpy.Eff
open Unpy.LazyCompose (Arg forceAll)
variable {σ ε V P : Type}

/-- A function: whether it is marked, and what it does -/
structure Fn (σ ε V P : Type) where
  lazy : Bool
  call : List (Arg V P) → Eff σ ε V

/-- Which values are functions; the items of the values that can be iterated over; truth; and exceptions -/
structure World (σ ε V P : Type) where
  fns : V → Option (Fn σ ε V P)
  items : V → Option (List V)
  truthy : V → Bool
  ofBool : Bool → V
  forceP : P → Eff σ ε V
  typeError : ε
  indexError : ε

/-- `force1(x)`, and `force(x)` of what is not a container (lazyutil.py:78-98) -/
def force1 (W : World σ ε V P) : Arg V P → Eff σ ε V
  | .val v => ret v
  | .promise p => W.forceP p

/-- `maybe_force_args(f, *args)` (lazyutil.py:113-124), `f` a function other than `jump` -/
def callFn (W : World σ ε V P) (f : Fn σ ε V P) (args : List (Arg V P)) : Eff σ ε V :=
  if f.lazy then f.call args else bind (forceAll W.forceP args) f.call

/-- `maybe_force_args(f, *args)` (lazyutil.py:113-124), `f` any value: if it is not a function, it has no mark, and the arguments are
forced before there is the exception. -/
def maybeForce (W : World σ ε V P) (f : V) (args : List (Arg V P)) : Eff σ ε V :=
  match W.fns f with
  | some F => callFn W F args
  | none => bind (forceAll W.forceP args) fun _ => raise W.typeError

/-- `call(f, *args)` (funutil.py:26-96) -/
def call (W : World σ ε V P) (f : Arg V P) (args : List (Arg V P)) : Eff σ ε V :=
  bind (force1 W f) fun f => maybeForce W f args

/-- `callwith(*args)(f)` (funutil.py:98-197): `callwith` is marked, the function it returns is not. -/
def callwith (W : World σ ε V P) (args : List (Arg V P)) (f : Arg V P) : Eff σ ε V :=
  bind (forceAll W.forceP [f]) fun fs => match fs with
    | [f] => bind (force1 W f) fun f => maybeForce W f args
    | _ => raise W.typeError

/-- The last argument of `apply`: a list that is written there (its items are delayed, see `Model/Lazyrec.lean`), or any other argument -/
inductive Last (V P : Type) where
  | literal (items : List (Arg V P))
  | other (arg : Arg V P)

/-- `tuple(lst)` in `apply` (fun.py:640-643): a promise cannot be iterated over. -/
def tupleOf (W : World σ ε V P) : Last V P → Eff σ ε (List (Arg V P))
  | .literal items => ret items
  | .other (.val v) => match W.items v with
    | some vs => ret (vs.map .val)
    | none => raise W.typeError
  | .other (.promise _) => raise W.typeError

/-- `apply(f, *args, lst)` (fun.py:622-644) -/
def apply (W : World σ ε V P) (f : Arg V P) (args : List (Arg V P)) (lst : Last V P) : Eff σ ε V :=
  bind (force1 W f) fun f => bind (tupleOf W lst) fun items => maybeForce W f (args ++ items)

/-- `notf(f)` (fun.py:714-726) -/
def notf (W : World σ ε V P) (f : Fn σ ε V P) : Fn σ ε V P where
  lazy := f.lazy
  call args := bind (callFn W f args) fun v => ret (W.ofBool !W.truthy v)

/-- The loop of `conjoined` (fun.py:745-750), with `b` so far -/
def conjLoop (W : World σ ε V P) (args : List (Arg V P)) (b : V) : List (Fn σ ε V P) → Eff σ ε V
  | [] => ret b
  | f :: fs => bind (if W.truthy b then callFn W f args else ret b) fun b =>
    if W.truthy b then conjLoop W args b fs else ret (W.ofBool false)

/-- `andf(*fs)` (fun.py:728-751) -/
def andf (W : World σ ε V P) (fs : List (Fn σ ε V P)) : Fn σ ε V P where
  lazy := true
  call args := conjLoop W args (W.ofBool true) fs

/-- The loop of `disjoined` (fun.py:772-777), with `b` so far -/
def disjLoop (W : World σ ε V P) (args : List (Arg V P)) (b : V) : List (Fn σ ε V P) → Eff σ ε V
  | [] => ret (W.ofBool false)
  | f :: fs => bind (if W.truthy b then ret b else callFn W f args) fun b =>
    if W.truthy b then ret b else disjLoop W args b fs

/-- `orf(*fs)` (fun.py:753-778) -/
def orf (W : World σ ε V P) (fs : List (Fn σ ε V P)) : Fn σ ε V P where
  lazy := true
  call args := disjLoop W args (W.ofBool false) fs

/-- `rotate(k)(f)` (fun.py:589-618) -/
def rotate (W : World σ ε V P) (k : Int) (f : Fn σ ε V P) : Fn σ ε V P where
  lazy := f.lazy
  call args :=
    if args.length = 0 then raise W.typeError
    else if ¬ (-(args.length : Int) < k ∧ k < args.length) then raise W.indexError
    else
      let j := (-k % args.length).toNat
      callFn W f (args.drop (args.length - j) ++ args.take (args.length - j))

/-- What `tokth(k, f)` does with its arguments (fun.py:985-998); it returns a `Values` of what is here the list. -/
def tokthBody (W : World σ ε V P) (k : Int) (f : Fn σ ε V P) (args : List (Arg V P)) : Eff σ ε (List (Arg V P)) :=
  if args.length = 0 then raise W.typeError
  else if ¬ (-(args.length : Int) < k ∧ k < args.length) then raise W.indexError
  else
    let j := (k % args.length).toNat
    match args[j]? with
    | some a => bind (callFn W f [a]) fun v => ret (args.take j ++ .val v :: args.drop (j + 1))
    | none => raise W.indexError

/-- Calling `tokth(k, f)` in lazy code (fun.py:976-1001): it is marked if `f` is. -/
def tokth (W : World σ ε V P) (k : Int) (f : Fn σ ε V P) (args : List (Arg V P)) : Eff σ ε (List (Arg V P)) :=
  if f.lazy then tokthBody W k f args else bind (forceAll W.forceP args) (tokthBody W k f)

/-- `withself(f)` (fun.py:1046-1075); `self` is the value that is the function made. -/
def withself (W : World σ ε V P) (self : V) (f : Fn σ ε V P) : Fn σ ε V P where
  lazy := f.lazy
  call args := callFn W f (.val self :: args)

end Unpy.LazyCalls
