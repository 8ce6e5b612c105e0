import Verif.Model.Dyn
/-!
# Textbook semantics of dynamic scoping

The environment says, for each name, in which block activation it is bound; it is an argument of the
evaluator, so that leaving a block, in whatever way, restores it by construction.  Values are kept in a
store indexed by activation and name.  Only the program syntax is shared with the model.
-/
namespace Unpy.Spec.Dyn
open Unpy.Dyn (Prog)
universe u
variable {V : Type u}

/-- value of a name in a list of bindings -/
def bound : List (String × V) → String → Option V
  | [], _ => none
  | (y, v) :: bs, x => if y = x then some v else bound bs x

structure Store (V : Type u) where
  next : Nat
  val : Nat → String → Option V

abbrev Env := String → Option Nat

def Store.write (s : Store V) (a : Nat) (x : String) (v : V) : Store V :=
  { s with val := fun a' x' => if a' = a ∧ x' = x then some v else s.val a' x' }

/-- assign all of `bs` in order; `none` if one of the names is unbound -/
def writeAll (env : Env) : List (String × V) → Store V → Option (Store V)
  | [], s => some s
  | (x, v) :: bs, s =>
    match env x with
    | none => none
    | some a => writeAll env bs (s.write a x v)

/-- values read, whether it raised, final store -/
def eval : Prog V → Env → Store V → List V × Bool × Store V
  | .done, _, s => ([], false, s)
  | .raise, _, s => ([], true, s)
  | .read x k, env, s =>
    match (env x).bind (fun a => s.val a x) with
    | none => ([], true, s)
    | some v => let (vs, r, s') := eval (k v) env s; (v :: vs, r, s')
  | .assign x v rest, env, s =>
    match env x with
    | none => ([], true, s)
    | some a => eval rest env (s.write a x v)
  | .update bs rest, env, s =>
    match writeAll env bs s with
    | none => ([], true, s)
    | some s' => eval rest env s'
  | .block bs body rest, env, s =>
    let a := s.next
    let (vs, r, s') := eval body (fun x => if (bound bs x).isSome then some a else env x)
      ⟨a + 1, fun a' x => if a' = a then bound bs x else s.val a' x⟩
    if r then (vs, true, s')
    else let (ws, r', s'') := eval rest env s'; (vs ++ ws, r', s'')
  | .attempt body rest, env, s =>
    let (vs, _, s') := eval body env s
    let (ws, r', s'') := eval rest env s'
    (vs ++ ws, r', s'')

/-- the program started where only the defaults are bound (activation 0); of several defaults for a
name the latest counts -/
def start (defaults : List (String × V)) : Env × Store V :=
  (fun x => if (bound defaults.reverse x).isSome then some 0 else none,
   ⟨1, fun a x => if a = 0 then bound defaults.reverse x else none⟩)

/-- The program may assign to a binding of `x` that exists outside the program: it contains an
assignment to `x` that is not inside a block (of the program) binding `x`. -/
def AssignsOutside (x : String) : Prog V → Prop
  | .done => False
  | .raise => False
  | .read _ k => ∃ v, AssignsOutside x (k v)
  | .assign y _ rest => y = x ∨ AssignsOutside x rest
  | .update bs rest => (bound bs x).isSome ∨ AssignsOutside x rest
  | .block bs body rest => ((bound bs x) = none ∧ AssignsOutside x body) ∨ AssignsOutside x rest
  | .attempt body rest => AssignsOutside x body ∨ AssignsOutside x rest

/-- The program reads no attribute of the class of `dyn` (`special`), and binds or updates no name `self`. -/
def Ordinary (special : String → Prop) : Prog V → Prop
  | .done => True
  | .raise => True
  | .read x k => ¬ special x ∧ ∀ v, Ordinary special (k v)
  | .assign _ _ rest => Ordinary special rest
  | .update bs rest => (∀ b ∈ bs, b.1 ≠ "self") ∧ Ordinary special rest
  | .block bs body rest => (∀ b ∈ bs, b.1 ≠ "self") ∧ Ordinary special body ∧ Ordinary special rest
  | .attempt body rest => Ordinary special body ∧ Ordinary special rest

/-! One thread's scopes, by value (innermost first). -/

/-- change the value of `x` in the innermost scope that binds it -/
def assignScopes (x : String) (v : V) : List (List (String × V)) → List (List (String × V))
  | [] => []
  | d :: ds => if (bound d x).isSome then d.map (fun e => if e.1 = x then (x, v) else e) :: ds
      else d :: assignScopes x v ds

/-- the value of `x` in the innermost scope that binds it, else in `globals` -/
def readScopes (x : String) (globals : List (String × V)) : List (List (String × V)) → Option V
  | [] => bound globals x
  | d :: ds => match bound d x with
    | some v => some v
    | none => readScopes x globals ds

end Unpy.Spec.Dyn
