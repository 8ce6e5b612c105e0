import Verif.Model.Nb
/-! # Specification of a notebook: it prints the value of each expression that is not None, and keeps the last one in `_`. -/
namespace Unpy.Spec.Nb
open Unpy.Nb
variable {V W E : Type}

/-- The notebook; `prt` prints a value -/
def notebook [DecidableEq V] (none : V) (prt : V → Comp V W E Unit) : List (Stmt V W E) → Comp V W E Unit
  | [], s => (.ok (), s)
  | .expr e :: rest, s => match e s with
    | (.error err, s) => (.error err, s)
    | (.ok v, s) =>
      let s : St V W := { s with vars := fun y => if y = "_" then some v else s.vars y }
      if v = none then notebook none prt rest s
      else match prt v s with
        | (.ok (), s) => notebook none prt rest s
        | (.error err, s) => (.error err, s)
  | .test e :: rest, s => match e s with
    | (.ok _, s) => notebook none prt rest s
    | (.error err, s) => (.error err, s)
  | .other c :: rest, s => match c s with
    | (.ok (), s) => notebook none prt rest s
    | (.error err, s) => (.error err, s)

/-- A computation does not assign to the variable. -/
def Leaves {A : Type} (x : String) (c : Comp V W E A) : Prop := ∀ s, (c s).2.vars x = s.vars x

def LeavesStmt (x : String) : Stmt V W E → Prop
  | .expr e => Leaves x e
  | .test e => Leaves x e
  | .other c => Leaves x c

end Unpy.Spec.Nb
