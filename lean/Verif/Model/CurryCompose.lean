import Verif.Model.Curry
/-!
# Model of the compositions that curry their functions (`composelc`, `composerc`, fun.py:948-971) and of `pipec` (seq.py:350-362)

As in `Model/Curry.lean`.  Simplification: each call has the same depth of the stack left.
-/
namespace Unpy.Curry
open Unpy Unpy.Eff
open Unpy.Fold (Err Vals)
variable {σ ε A : Type}

/-- `curry(f)` without arguments (fun.py:197-328, 441-451) is an object; see `curry`. -/
def curry1 (fs : Funcs σ ε A) : Obj A → Obj A
  | .atom a => if (fs a).isSome then .curried a [] [] else .atom a
  | .curried f args kwargs => .curried f args kwargs

/-- What `compose` works on: objects, and the closures `composed` (fun.py:889-900) of two functions; `g` is applied first. -/
inductive CFn (A : Type) where
  | obj (o : Obj A)
  | composed (f g : CFn A)

/-- `iscurried(f)` (fun.py:191-193); the closures are not. -/
def isCurried : CFn A → Bool
  | .obj (.curried _ _ _) => true
  | _ => false

/-- `maybe_force_args(g, *args, **kwargs)` (lazyutil.py:113-149) for a call `m` of `g` with these named arguments: one called
`f` clashes with its parameter. -/
def calling {V R : Type} (kwargs : PyDict String V) (m : Eff σ (Err ε) R) : Eff σ (Err ε) R :=
  if PyDict.has kwargs "f" then raise (.py .TypeError) else m

/-- Calling a composition in a curry context that is empty or not (fun.py:889-900) -/
def callC (fs : Funcs σ ε A) (depth : Nat) : Bool → CFn A → List (Obj A) → PyDict String (Obj A) → Eff σ (Err ε) (Ret (Obj A))
  | ctx, .obj o, args, kwargs => callObj fs depth ctx (.one o) args kwargs
  | ctx, .composed f g, args, kwargs =>
    bind (calling kwargs (callC fs depth (ctx || isCurried f) g args kwargs)) fun a => match a with
      | .many vs => calling vs.kwrets (callC fs depth ctx f vs.rets vs.kwrets)
      | .one v => callC fs depth ctx f [v] []

/-- `compose(fs)` (fun.py:903-913) of objects, by `reducel`; that of nothing is None, on which no attribute can be set -/
def composeC (right : Bool) : List (Obj A) → Res (CFn A)
  | [] => .error .AttributeError
  | f :: rest => .ok (rest.foldl (fun acc elt => if right then .composed acc (.obj elt) else .composed (.obj elt) acc) (.obj f))

/-- `composerc`, `composerci` (fun.py:948-959, 965-967) -/
def composerc (fs : Funcs σ ε A) (l : List (Obj A)) : Res (CFn A) := composeC true (l.map (curry1 fs))
/-- `composelc`, `composelci` (fun.py:961-963, 969-971) -/
def composelc (fs : Funcs σ ε A) (l : List (Obj A)) : Res (CFn A) := composeC false (l.map (curry1 fs))

/-- The loop of `pipe` (seq.py:331-344) -/
def pipeLoop (fs : Funcs σ ε A) (depth : Nat) (ctx : Bool) : Ret (Obj A) → List (Obj A) → Eff σ (Err ε) (Ret (Obj A))
  | xs, [] => ret xs
  | xs, update :: rest =>
    let islast := rest.isEmpty
    let ctx' := ctx || (isCurried (.obj update) && !islast)
    bind (match xs with
      | .many vs => calling vs.kwrets (callObj fs depth ctx' (.one update) vs.rets vs.kwrets)
      | .one v => callObj fs depth ctx' (.one update) [v] []) fun xs => pipeLoop fs depth ctx xs rest

/-- The end of `pipe` (seq.py:345-347); `xs[0]` of an empty `Values` is an IndexError. -/
def unwrap : Ret (Obj A) → Eff σ (Err ε) (Ret (Obj A))
  | .one v => ret (.one v)
  | .many ⟨rets, kwrets⟩ =>
    if !kwrets.isEmpty || rets.length > 1 then ret (.many ⟨rets, kwrets⟩)
    else match rets with
      | v :: _ => ret (.one v)
      | [] => raise (.py .IndexError)

/-- `pipec(values0, *bodys)` (seq.py:350-362) -/
def pipec (fs : Funcs σ ε A) (depth : Nat) (ctx : Bool) (values0 : Ret (Obj A)) (bodys : List (Obj A)) : Eff σ (Err ε) (Ret (Obj A)) :=
  bind (pipeLoop fs depth ctx values0 (bodys.map (curry1 fs))) unwrap

end Unpy.Curry
