import Verif.Model.Forall
/-!
# What `forall[...]` should do: nested loops
-/
namespace Unpy.Spec.Forall
open Unpy Unpy.Amb Unpy.Forall
open Unpy.Fold (Err)
variable {σ ε α : Type}

/-- How nested loops end: in an exception (`error (some e)`), with their results, or in a case about which nothing is said (`error none`). -/
abbrev Out (σ ε α : Type) := Except (Option (Err ε)) (List (Obj α)) × σ

/-- What a line ranges over: the items of an iterable, or the one object. -/
def range : Obj α → List (Obj α)
  | .ml xs => xs
  | .iter xs => xs
  | .nil => []
  | .atom a => [.atom a]

/-- What the last line contributes: the object as one item, except that a `MonadicList` contributes its items. -/
def result : Obj α → List (Obj α)
  | .ml xs => xs
  | v => [v]

/-- Just the one item `nil`. -/
def onlyNil : List (Obj α) → Bool
  | [.nil] => true
  | _ => false

def isTypeError : Err ε → Bool
  | .py .TypeError => true
  | _ => false

/-- The results of a loop over some items, in order; the first exception ends it. -/
def each (g : Obj α → σ → Out σ ε α) : List (Obj α) → σ → Out σ ε α
  | [], s => (.ok [], s)
  | x :: xs, s => match g x s with
    | (.error e, s) => (.error e, s)
    | (.ok ys, s) => match each g xs s with
      | (.error e, s) => (.error e, s)
      | (.ok zs, s) => (.ok (ys ++ zs), s)

/-- The variables after a line: its name, if it has one, is the item. -/
def seen (name : Option String) (x : Obj α) (vars : Vars α) : Vars α :=
  match name with
  | some k => fun j => if j = k then some x else vars j
  | none => vars

/-- Each line is evaluated with the variables of the lines before it, and looped over; its name, if it has one, is the current item in
the lines after it.  The last line is a result.

With `careful`, the loops end in `error none` if a line other than the first raises TypeError (`inner` tells whether the lines are such), or
if a line has just the one item `nil` to loop over, or as its result. -/
def loops (careful inner : Bool) (vars : Vars α) : List (Line σ ε α) → σ → Out σ ε α
  | [], s => (.ok [], s)
  | l :: rest, s => match l.body vars s with
    | (.error e, s) => (.error (if careful && inner && isTypeError e then none else some e), s)
    | (.ok v, s) =>
      let xs := match rest with
        | [] => result v
        | _ :: _ => range v
      if careful && onlyNil xs then (.error none, s) else
      match rest with
      | [] => (.ok xs, s)
      | _ :: _ => each (fun x => loops careful true (seen l.name x vars) rest) xs s

/-- The line does not use this variable. -/
def Unaware (k : String) (l : Line σ ε α) : Prop := ∀ vars vars' : Vars α, (∀ j, j ≠ k → vars j = vars' j) → l.body vars = l.body vars'

/-- What a run of code is, seen as the end of nested loops. -/
def asOut (r : Except (Err ε) (List (Obj α)) × σ) : Out σ ε α := (match r.1 with
  | .ok ys => .ok ys
  | .error e => .error (some e), r.2)

end Unpy.Spec.Forall
