import Verif.Model.Eff
/-!
# Model of `unpythonic/amb.py`

Simplifications: iterables are finite, and iterating over them has no effects and does not fail; subclasses of
`MonadicList` are not considered.
-/
namespace Unpy.Amb
open Unpy.Fold (Err)
open Unpy.Eff

/-- Objects: the `nil` of `llist`, a `MonadicList` by its items, another iterable by its items, anything else. -/
inductive Obj (α : Type) where
  | nil
  | ml (xs : List (Obj α))
  | iter (xs : List (Obj α))
  | atom (a : α)

variable {σ ε α : Type}

/-- `elts[0] is nil`. -/
def Obj.isNil : Obj α → Bool
  | .nil => true
  | _ => false

/-- `MonadicList(*elts)` (amb.py:222-233): the items of the new list. -/
def mk (elts : List (Obj α)) : List (Obj α) :=
  match elts with
  | [x] => if x.isNil then [] else [x]
  | _ => elts

/-- Run a function over a list, as a generator being consumed. -/
def mapE (f : Obj α → Eff σ (Err ε) (Obj α)) : List (Obj α) → Eff σ (Err ε) (List (Obj α))
  | [] => ret []
  | x :: xs => bind (f x) fun y => bind (mapE f xs) fun ys => ret (y :: ys)

/-- `MonadicList.from_iterable(gen)` for a generator (amb.py:317-327): if consuming it raises TypeError, it is
consumed again; being finished, it then gives nothing. -/
def fromGen (gen : Eff σ (Err ε) (List (Obj α))) : Eff σ (Err ε) (List (Obj α)) := fun s =>
  match gen s with
  | (.ok ys, s') => (.ok (mk ys), s')
  | (.error (.py .TypeError), s') => (.ok (mk []), s')
  | (.error e, s') => (.error e, s')

/-- `fmap` (amb.py:343-351). -/
def fmap (m : List (Obj α)) (f : Obj α → Eff σ (Err ε) (Obj α)) : Eff σ (Err ε) (List (Obj α)) :=
  fromGen (mapE f m)

/-- The `MonadicList`s among the items, if all are. -/
def asMLs : List (Obj α) → Option (List (List (Obj α)))
  | [] => some []
  | .ml xs :: rest => (asMLs rest).map (xs :: ·)
  | _ :: _ => none

/-- `join` (amb.py:353-363). -/
def join (m : List (Obj α)) : Eff σ (Err ε) (List (Obj α)) :=
  match asMLs m with
  | none => raise (.py .TypeError)
  | some mss => ret (mk mss.flatten)

/-- `__rshift__`, bind (amb.py:235-251). -/
def mbind (m : List (Obj α)) (f : Obj α → Eff σ (Err ε) (Obj α)) : Eff σ (Err ε) (List (Obj α)) :=
  bind (fmap m f) join

/-- `then` (amb.py:252-264). -/
def andThen (m : List (Obj α)) (f : Obj α) : Eff σ (Err ε) (List (Obj α)) :=
  match f with
  | .ml xs => mbind m (fun _ => ret (.ml xs))
  | _ => raise (.py .TypeError)

/-- `guard` (amb.py:266-289), given the truth value of its argument; `tt` is `True`. -/
def guard (tt : α) (b : Bool) : List (Obj α) := if b then mk [.atom tt] else mk []

/-- `__add__` (amb.py:306-311), on a `MonadicList`. -/
def add (m : List (Obj α)) (other : Obj α) : Eff σ (Err ε) (List (Obj α)) :=
  match other with
  | .ml ys => ret (mk (m ++ ys))
  | _ => raise (.py .TypeError)

/-- `copy` (amb.py:329-332). -/
def copy (m : List (Obj α)) : List (Obj α) := mk m

/-- `lift(f)` (amb.py:334-341). -/
def lift (f : Obj α → Eff σ (Err ε) (Obj α)) : Obj α → Eff σ (Err ε) (Obj α) := fun x =>
  bind (f x) fun y => ret (.ml (mk [y]))

/-- `monadify(value, unpack)` (amb.py:205-218). -/
def monadify (v : Obj α) (unpack : Bool) : List (Obj α) :=
  match v with
  | .ml xs => xs
  | .iter xs => if unpack then mk xs else mk [.iter xs]
  | .nil => if unpack then mk [] else mk [.nil]
  | .atom a => mk [.atom a]

/-! ## forall -/

/-- A line: the name, if it is a `choice`, and the body, as a function of the environment (a body that is not
callable ignores it).  Bodies read the environment, return or raise; they have no other effects. -/
structure Line (ε α : Type) where
  name : Option String
  body : (String → Option (Obj α)) → Except (Err ε) (Obj α)

/-- The object `e` (amb.py:119-132).  Simplification: the names are none of `e`, `begin`, `bodys`, `monadify` (used
by the generated code), `names`, `assign`, `close_over` (used by the object) and no keywords. -/
structure Env (α : Type) where
  names : List String
  attrs : String → Option (Obj α)

/-- `e.assign` (amb.py:121-123). -/
def assign (k : String) (v : Obj α) : Eff (Env α) (Err ε) Unit := fun e =>
  (.ok (), ⟨k :: e.names, fun j => if j = k then some v else e.attrs j⟩)

/-- `delattr` for each of some names. -/
def delattrs : List String → (String → Option (Obj α)) → Except (Err ε) (String → Option (Obj α))
  | [], a => .ok a
  | k :: ks, a => if (a k).isSome then delattrs ks (fun j => if j = k then none else a j) else
    .error (.py .AttributeError)

/-- `e.close_over(freevars)` (amb.py:126-130). -/
def closeOver (freevars : List String) : Eff (Env α) (Err ε) Unit := fun e =>
  match delattrs ((e.names.filter (fun k => !freevars.contains k)).eraseDups) e.attrs with
  | .ok a => (.ok (), ⟨freevars, a⟩)
  | .error err => (.error err, e)

/-- `bodys[j](e)`. -/
def callBody (l : Line ε α) : Eff (Env α) (Err ε) (Obj α) := fun e => (l.body e.attrs, e)

/-- The generated code (amb.py:141-191), run: the lines from some line on, `names` being the names of the lines
before.  The argument of `.then` is evaluated before the call. -/
def code (first : Bool) (names : List String) : List (Line ε α) → Eff (Env α) (Err ε) (List (Obj α))
  | [] => raise (.py .SyntaxError)
  | [l] => bind (callBody l) fun v => ret (monadify v false)
  | l :: rest => bind (callBody l) fun v =>
    let m := monadify v true
    match l.name with
    | some k => mbind m fun x =>
        bind (closeOver names) fun _ => bind (assign k x) fun _ =>
        bind (code false (k :: names) rest) fun ys => ret (.ml ys)
    | none =>
      if first then mbind m fun _ =>
        bind (closeOver []) fun _ => bind (code false names rest) fun ys => ret (.ml ys)
      else bind (code false names rest) fun ys => andThen m (.ml ys)

/-- `forall(*lines)` (amb.py:58-200). -/
def forall_ (lines : List (Line ε α)) : Except (Err ε) (List (Obj α)) :=
  (code true [] lines ⟨[], fun _ => none⟩).1

end Unpy.Amb
