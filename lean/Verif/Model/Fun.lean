import Verif.Model.Eff
import Verif.Model.PySlice
import Verif.Model.PyDict
/-!
# Model of the function combinators in `unpythonic/fun.py` and of `unpythonic/funutil.py:Values`

Simplifications: arguments are not `Lazy` promises, and contain nothing that `maybe_force_args(f, ...)` does not pass on as it is (views of
mappings and others, see `Model/ForceArgs.lean` and C133); functions
are not curried, so compose opens no curry context (fun.py:892-896).
-/
namespace Unpy.Fun
open Unpy.Eff
open Unpy.Fold (Err Vals)
universe u v w
variable {σ : Type u} {ε : Type v} {V : Type w}

/-- `maybe_force_args(f, *thunks, **kwthunks)` (lazyutil.py:113-124) without promises.  Its own first parameter
is called `f`: Python raises TypeError ("got multiple values for argument 'f'") if a named argument has the
same name. -/
def maybeForceArgs {R : Type w} (f : Args V → Eff σ (Err ε) R) : Args V → Eff σ (Err ε) R := fun args =>
  if PyDict.has args.kwrets "f" then raise (.py .TypeError) else f args

/-- `Values(*rets, **kwrets)` (funutil.py:298-305).  The first parameter of `__init__` is called `self`, so a
named value of this name is a TypeError. -/
def mkValues (vs : Vals V) : Res (Vals V) :=
  if PyDict.has vs.kwrets "self" then .error .TypeError else .ok vs

/-- A result of Python's own, as a computation. -/
def lift {R : Type w} (r : Res R) : Eff σ (Err ε) R :=
  match r with
  | .ok v => ret v
  | .error e => raise (.py e)

/-- A callable object.  Builtin functions do not accept new attributes (`settable = false`); functions
written in Python do. -/
structure Callable (F : Type u) where
  call : F
  settable : Bool := true

/-- `passthrough_lazy_args(f)` (lazyutil.py:126-177) sets an attribute; `none` is Python's `None`. -/
def passthroughLazyArgs {F : Type u} (f : Option (Callable F)) : Res (Callable F) :=
  match f with
  | none => .error .AttributeError
  | some f => if f.settable then .ok f else .error .AttributeError

/-- `compose1_two(f, g)` (fun.py:801-803). -/
def compose1Two (f g : Callable (Fn1 σ ε V)) : Callable (Fn1 σ ε V) :=
  ⟨fun x => bind (g.call x) f.call, true⟩

/-- `compose_two(f, g)` (fun.py:882-902): a `Values` result is unpacked into the arguments. -/
def composeTwo (f g : Callable (Fn σ ε V)) : Callable (Fn σ ε V) :=
  ⟨fun args => bind (maybeForceArgs g.call args) (fun a =>
      match a with
      | .many vs => maybeForceArgs f.call ⟨vs.rets, vs.kwrets⟩
      | .one v => maybeForceArgs f.call ⟨[v], []⟩), true⟩

/-- A two-argument function as a procedure for `reducel`, flipped if `right` (fun.py:804-805, 901-902). -/
def asProc {F : Type u} (two : F → F → F) (right : Bool) : List F → Res F
  | [elt, acc] => .ok (if right then two acc elt else two elt acc)
  | _ => .error .TypeError

/-- `compose1(fs)` (fun.py:805-829): `passthrough_lazy_args(reducel(compose1_two, fs))`. -/
def compose1 (right : Bool) (fs : List (Callable (Fn1 σ ε V))) : Res (Callable (Fn1 σ ε V)) :=
  match Fold.reducel (asProc compose1Two right) fs none with
  | .ok r => passthroughLazyArgs r
  | .error e => .error e

/-- `compose(fs)` (fun.py:903-913). -/
def compose (right : Bool) (fs : List (Callable (Fn σ ε V))) : Res (Callable (Fn σ ε V)) :=
  match Fold.reducel (asProc composeTwo right) fs none with
  | .ok r => passthroughLazyArgs r
  | .error e => .error e

/-- `composer1`, `composer1i` (fun.py:832-842, 856-858). -/
def composer1 (fs : List (Callable (Fn1 σ ε V))) := compose1 true fs
/-- `composel1`, `composel1i` (fun.py:844-854, 860-862). -/
def composel1 (fs : List (Callable (Fn1 σ ε V))) := compose1 false fs
/-- `composer`, `composeri` (fun.py:921-931, 940-942). -/
def composer (fs : List (Callable (Fn σ ε V))) := compose true fs
/-- `composel`, `composeli` (fun.py:932-938, 944-946). -/
def composel (fs : List (Callable (Fn σ ε V))) := compose false fs

/-! ## Argument shuffling -/

/-- `flip` (fun.py:580-587). -/
def pyflip (f : Fn σ ε V) : Fn σ ε V := fun args =>
  maybeForceArgs f ⟨args.rets.reverse, args.kwrets⟩

/-- `rotate(k)` (fun.py:589-618). `args[-j:] + args[:-j]` with Python's slicing. -/
def rotate (k : Int) (f : Fn σ ε V) : Fn σ ε V := fun args =>
  let n : Int := args.rets.length
  if n = 0 then raise (.py .TypeError) else
  if ¬ (-n < k ∧ k < n) then raise (.py .IndexError) else
  let j := (-k) % n
  maybeForceArgs f
    ⟨pySlice args.rets ⟨some (-j), none, none⟩ ++ pySlice args.rets ⟨none, some (-j), none⟩, args.kwrets⟩

/-- `tokth(k, f)` (fun.py:976-1001); `f` gets one argument.  Its result is put into the argument list as
it is. -/
def tokth (k : Int) (f : Fn1 σ ε V) : Fn σ ε V := fun args =>
  let n : Int := args.rets.length
  if n = 0 then raise (.py .TypeError) else
  if ¬ (-n < k ∧ k < n) then raise (.py .IndexError) else
  let j := (k % n).toNat
  let m := j + 1
  match args.rets[j]? with
  | none => raise (.py .IndexError)          -- unreachable
  | some x => bind (f x) (fun y =>
      let out := args.rets.take j ++ [y]
      let out := if n > m then out ++ args.rets.drop m else out
      bind (lift (mkValues ⟨out, args.kwrets⟩)) (fun vs => ret (.many vs)))

/-- `to1st`, `to2nd`, `tolast` (fun.py:1003-1024). -/
def to1st (f : Fn1 σ ε V) : Fn σ ε V := tokth 0 f
def to2nd (f : Fn1 σ ε V) : Fn σ ε V := tokth 1 f
def tolast (f : Fn1 σ ε V) : Fn σ ε V := tokth (-1) f

/-- `to(*specs)` (fun.py:1026-1040). -/
def to (specs : List (Int × Fn1 σ ε V)) : Res (Callable (Fn σ ε V)) :=
  composel (specs.map (fun p => ⟨tokth p.1 p.2, true⟩))

/-! ## Simple combinators -/

/-- A single argument to `apply`: a value, or a list to unpack. -/
inductive ApplyArg (V : Type w) where
  | plain (v : V)
  | list (vs : List V)

/-- `apply(f, arg0, *more, **kwargs)` (fun.py:622-643).  A list in a position other than the last is one
value; `asValue` says which.  The last argument must be iterable, else TypeError; named arguments called `f` or
`arg0`, like the parameters of `apply` itself, are a TypeError as well. -/
def apply (asValue : List V → V) (f : Fn σ ε V) (arg0 : ApplyArg V) (more : List (ApplyArg V))
    (kwargs : List (String × V)) : Eff σ (Err ε) (Ret V) :=
  let val : ApplyArg V → V := fun a => match a with | .plain v => v | .list vs => asValue vs
  if PyDict.has kwargs "f" || PyDict.has kwargs "arg0" then raise (.py .TypeError) else
  match more.getLast? with
  | none =>
    match arg0 with
    | .list lst => maybeForceArgs f ⟨lst, kwargs⟩
    | .plain _ => raise (.py .TypeError)
  | some l =>
    match l with
    | .list lst => maybeForceArgs f ⟨(val arg0 :: more.dropLast.map val) ++ lst, kwargs⟩
    | .plain _ => raise (.py .TypeError)

/-- `identity(*args, **kwargs)` (fun.py:650-675); `pyNone` is Python's `None`. -/
def identity (pyNone : V) (args : Args V) : Res (Ret V) :=
  if args.rets.isEmpty && args.kwrets.isEmpty then .ok (.one pyNone)
  else if !args.kwrets.isEmpty || args.rets.length > 1 then
    (mkValues ⟨args.rets, args.kwrets⟩).map .many
  else match args.rets with
    | x :: _ => .ok (.one x)
    | [] => .ok (.one pyNone)            -- unreachable

/-- `const(*args, **kwargs)` (fun.py:678-710). -/
def const (pyNone : V) (args : Args V) : Res (Fn σ ε V) :=
  let r : Res (Ret V) :=
    if args.rets.isEmpty && args.kwrets.isEmpty then .ok (.one pyNone)
    else if !args.kwrets.isEmpty || args.rets.length > 1 then
      (mkValues ⟨args.rets, args.kwrets⟩).map .many
    else match args.rets with
      | x :: _ => .ok (.one x)
      | [] => .ok (.one pyNone)          -- unreachable
  r.map (fun r => fun _ => ret r)

/-! ## Logic -/

/-- A predicate: a function of any arguments whose result is looked at by truth value. -/
abbrev Pred (σ : Type u) (ε : Type v) (V : Type w) := Args V → Eff σ (Err ε) V

/-- `notf(f)` (fun.py:714-725); `tt`, `ff` are Python's `True` and `False`. -/
def notf (truthy : V → Bool) (tt ff : V) (f : Pred σ ε V) : Pred σ ε V := fun args =>
  bind (maybeForceArgs f args) (fun v => ret (if truthy v then ff else tt))

/-- `andf(*fs)` (fun.py:727-752): the loop with its variable `b`. -/
def andf (truthy : V → Bool) (tt ff : V) (fs : List (Pred σ ε V)) : Pred σ ε V := fun args =>
  loop args tt fs
where
  loop (args : Args V) (b : V) : List (Pred σ ε V) → Eff σ (Err ε) V
    | [] => ret b
    | f :: fs =>
      -- `b = b and f(...)`
      bind (if truthy b then maybeForceArgs f args else ret b) (fun b =>
        if !truthy b then ret ff else loop args b fs)

/-- `orf(*fs)` (fun.py:754-778). -/
def orf (truthy : V → Bool) (ff : V) (fs : List (Pred σ ε V)) : Pred σ ε V := fun args =>
  loop args ff fs
where
  loop (args : Args V) (b : V) : List (Pred σ ε V) → Eff σ (Err ε) V
    | [] => ret ff
    | f :: fs =>
      -- `b = b or f(...)`
      bind (if truthy b then ret b else maybeForceArgs f args) (fun b =>
        if truthy b then ret b else loop args b fs)

/-! ## Values (funutil.py) -/

namespace Values
/-- `Values.__iter__` (funutil.py:313-329). -/
def iter (v : Vals V) : Res (List V) :=
  if !v.kwrets.isEmpty then .error .ValueError else .ok v.rets

/-- A subscript: `int`, `slice`, `str` or something else. -/
inductive Idx where
  | int (i : Int)
  | slice (s : Slice)
  | str (k : String)
  | other

/-- What a subscript gives. -/
inductive Got (V : Type w) where
  | item (v : V)
  | tuple (vs : List V)
  deriving DecidableEq

/-- `Values.__getitem__` (funutil.py:331-345), with tuple and mapping indexing. -/
def getitem (v : Vals V) : Idx → Res (Got V)
  | .int i =>
    let j := normIdx i v.rets.length
    if j < 0 then .error .IndexError
    else match v.rets[j.toNat]? with
      | some x => .ok (.item x)
      | none => .error .IndexError
  | .slice s => if s.by = 0 then .error .ValueError else .ok (.tuple (pySlice v.rets s))
  | .str k => match PyDict.get? v.kwrets k with
    | some x => .ok (.item x)
    | none => .error .KeyError
  | .other => .error .TypeError

/-- `Values.ret` (funutil.py:307-311). -/
def ret (v : Vals V) : Res V :=
  match v.rets with
  | x :: _ => .ok x
  | [] => .error .IndexError

/-- `Values.__contains__` (funutil.py:347-349). -/
def contains (v : Vals V) (k : String) : Bool := PyDict.has v.kwrets k

/-- `Values.get` (funutil.py:361-363): `self[k] if k in self else default`. -/
def get (v : Vals V) (k : String) (default : V) : Res (Got V) :=
  if contains v k then getitem v (.str k) else .ok (.item default)

/-- Equality of two dicts: the same keys with equal values (in any order). -/
def dictEq [DecidableEq V] (a b : PyDict String V) : Bool :=
  a.length == b.length && a.all (fun p => PyDict.get? b p.1 == some p.2)

/-- `Values.__eq__` (funutil.py:366-373) with another `Values` (anything else is unequal). -/
def eq [DecidableEq V] (a b : Vals V) : Bool :=
  decide (b.rets = a.rets) && dictEq b.kwrets a.kwrets
end Values

/-- What a function decorated with `valuify` returned: a plain tuple or something else. -/
inductive RawRet (V : Type w) where
  | tuple (vs : List V)
  | other (r : Ret V)

/-- `valuify` (funutil.py:392-406) on the result of the function. -/
def valuify : RawRet V → Ret V
  | .tuple vs => .many ⟨vs, []⟩
  | .other r => r

end Unpy.Fun
