import Verif.Model.Amb
/-!
# Nested loops, and the list monad on plain lists
-/
namespace Unpy.Spec.Amb
open Unpy Unpy.Amb
open Unpy.Fold (Err)
variable {ε α : Type}

/-- What a line ranges over: the items of an iterable or a `MonadicList`, or the one object. -/
def items : Obj α → List (Obj α)
  | .ml xs => xs
  | .iter xs => xs
  | .nil => []
  | .atom a => [.atom a]

/-- What the last line contributes: the object as one item, except that a `MonadicList` contributes its items. -/
def results : Obj α → List (Obj α)
  | .ml xs => xs
  | v => [v]

/-- `[y for x in xs for y in g(x)]` -/
def collect (g : Obj α → Except (Err ε) (List (Obj α))) : List (Obj α) → Except (Err ε) (List (Obj α))
  | [] => .ok []
  | x :: xs => match g x with
    | .error e => .error e
    | .ok ys => match collect g xs with
      | .error e => .error e
      | .ok zs => .ok (ys ++ zs)

/-- The nested loops: each line, evaluated with the names of the lines before it, is looped over, the item being
bound to the line's name in the lines after it. -/
def loops (env : String → Option (Obj α)) : List (Line ε α) → Except (Err ε) (List (Obj α))
  | [] => .ok []
  | [l] => match l.body env with
    | .error e => .error e
    | .ok v => .ok (results v)
  | l :: rest => match l.body env with
    | .error e => .error e
    | .ok v => collect (fun x => loops (match l.name with
        | some k => fun j => if j = k then some x else env j
        | none => env) rest) (items v)

/-- A list of items as a `MonadicList` can hold it: not the single item `nil`, with which the constructor makes an
empty list. -/
def Holds (xs : List (Obj α)) : Prop := xs ≠ [.nil]

end Unpy.Spec.Amb
