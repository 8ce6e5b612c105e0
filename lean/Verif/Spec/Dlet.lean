import Verif.Model.Dlet
/-!
# What a function with `let` variables should do

The evaluation of programs as they are written.  At each place, some of the let variables can be seen: all of them, except those that are hidden by
parameters and `global` names, and by local variables from the next statement on after their creation, until they are deleted.  Everything else is as in
Python.
-/
namespace Unpy.Spec.Dlet
open Unpy Unpy.Dlet Unpy.Eff

/-- What is kept with a function: whether it is inside of the decorated one, and the let variables that can be seen at its beginning. -/
structure Seen where
  inside : Bool
  vis : List String

def without (xs ys : List String) : List String := xs.filter (fun x => !ys.contains x)

/-- In both. -/
def both (xs ys : List String) : List String := xs.filter (fun x => ys.contains x)

mutual
/-- The let variables that can be seen after a statement; `base` are those at the beginning of the function.  After a compound statement, a let variable can be
seen if it can be seen at the end of each of its blocks. -/
def after (base vis : List String) : S → List String
  | .assign x _ => without vis [x]
  | .fdef g _ _ _ _ => without vis [g]
  | .del x => if x ∈ base then x :: vis else vis
  | .ite _ t e => both (afters base vis t) (afters base vis e)
  | .while _ b => both vis (afters base vis b)
  | .expr _ | .ret _ => vis
def afters (base vis : List String) : Ss → List String
  | .nil => vis
  | .cons s ss => afters base (after base vis s) ss
end

mutual
/-- The Python variables an expression binds: `x := e` binds one, unless the let variable can be seen. -/
def bindsE (vis : List String) : E → List String
  | .int _ | .var _ | .lam .. | .envget _ => []
  | .sub a b => bindsE vis a ++ bindsE vis b
  | .show e => bindsE vis e
  | .walrus x e => if x ∈ vis then bindsE vis e else x :: bindsE vis e
  | .call f args => bindsE vis f ++ bindsEs vis args
  | .envset _ v => bindsE vis v
def bindsEs (vis : List String) : Es → List String
  | .nil => []
  | .cons e es => bindsE vis e ++ bindsEs vis es
end

mutual
/-- The Python variables a statement binds or deletes. -/
def bindsS (base vis : List String) : S → List String
  | .assign x e => x :: bindsE vis e
  | .del x => [x]
  | .expr e | .ret e => bindsE vis e
  | .ite c t e => bindsE vis c ++ bindsSs base vis t ++ bindsSs base vis e
  | .while c b => bindsE vis c ++ bindsSs base vis b
  | .fdef g _ ds _ _ => g :: bindsEs vis ds
def bindsSs (base vis : List String) : Ss → List String
  | .nil => []
  | .cons s ss => bindsS base vis s ++ bindsSs base (after base vis s) ss
end

abbrev Val := V Seen
abbrev Run (α : Type) := M Seen α

mutual
/-- Evaluate an expression where these let variables can be seen. -/
def evalE : Nat → Bool → List String → List Nat → E → Run Val
  | 0, _, _, _, _ => raise .fuel
  | _ + 1, _, _, _, .int n => ret (.int n)
  | _ + 1, k, vis, chain, .var x => if x ∈ vis then (if k then envGet x else raise .noenv) else lookup x chain
  | n + 1, k, vis, chain, .sub a b => bind (evalE n k vis chain a) fun v => bind (evalE n k vis chain b) fun w => subtract v w
  | n + 1, k, vis, chain, .show e => bind (evalE n k vis chain e) output
  | n + 1, k, vis, chain, .walrus x e =>
    if x ∈ vis then (if k then bind (evalE n k vis chain e) fun v => envSet x v else raise .noenv)
    else bind (evalE n k vis chain e) fun v => bind (store x v chain) fun _ => ret v
  | _ + 1, k, vis, chain, .lam ps e => ret (.fn ps [] [] (.cons (.ret e) .nil) chain ⟨k, without vis ps⟩)
  | n + 1, k, vis, chain, .call f args => bind (evalE n k vis chain f) fun f => bind (evalEs n k vis chain args) fun args => call n f args
  | _ + 1, k, _, _, .envget x => if k then envGet x else raise .noenv
  | n + 1, k, vis, chain, .envset x e => if k then bind (evalE n k vis chain e) fun v => envSet x v else raise .noenv
termination_by structural n => n
def evalEs : Nat → Bool → List String → List Nat → Es → Run (List Val)
  | 0, _, _, _, _ => raise .fuel
  | _ + 1, _, _, _, .nil => ret []
  | n + 1, k, vis, chain, .cons e es => bind (evalE n k vis chain e) fun v => bind (evalEs n k vis chain es) fun vs => ret (v :: vs)
termination_by structural n => n
/-- Call a function. -/
def call : Nat → Val → List Val → Run Val
  | 0, _, _ => raise .fuel
  | n + 1, .fn ps ds gl body chain k, args => match bindArgs ps ds args with
    | none => raise .type
    | some vars =>
      bind (push ⟨(ps ++ bindsSs k.vis k.vis body).filter (fun x => !gl.contains x), gl, fun x => find x vars⟩) fun i =>
      bind (exec n k.inside k.vis k.vis (i :: chain) body) fun r => ret (r.getD (.int 0))
  | _ + 1, .int _, _ => raise .type
termination_by structural n => n
/-- Execute statements. -/
def exec : Nat → Bool → List String → List String → List Nat → Ss → Run (Option Val)
  | 0, _, _, _, _, _ => raise .fuel
  | _ + 1, _, _, _, _, .nil => ret none
  | n + 1, k, base, vis, chain, .cons s ss => bind (execS n k base vis chain s) fun r => match r with
    | some v => ret (some v)
    | none => exec n k base (after base vis s) chain ss
termination_by structural n => n
def execS : Nat → Bool → List String → List String → List Nat → S → Run (Option Val)
  | 0, _, _, _, _, _ => raise .fuel
  | n + 1, k, _, vis, chain, .assign x e => bind (evalE n k vis chain e) fun v => bind (store x v chain) fun _ => ret none
  | _ + 1, _, _, _, chain, .del x => bind (delete x chain) fun _ => ret none
  | n + 1, k, _, vis, chain, .expr e => bind (evalE n k vis chain e) fun _ => ret none
  | n + 1, k, _, vis, chain, .ret e => bind (evalE n k vis chain e) fun v => ret (some v)
  | n + 1, k, base, vis, chain, .ite c t e => bind (evalE n k vis chain c) fun v => exec n k base vis chain (if truthy v then t else e)
  | n + 1, k, base, vis, chain, .while c b => bind (evalE n k vis chain c) fun v =>
    if truthy v then bind (exec n k base vis chain b) fun r => match r with
      | some v => ret (some v)
      | none => execS n k base vis chain (.while c b)
    else ret none
  | n + 1, k, _, vis, chain, .fdef g ps ds gl body => bind (evalEs n k vis chain ds) fun ds =>
    bind (store g (.fn ps ds gl body chain ⟨k, without vis (g :: ps ++ gl)⟩) chain) fun _ => ret none
termination_by structural n => n
end

/-! ## The whole module -/

/-- The values of the bindings of a `let`, which do not see each other. -/
def evalBindings (n : Nat) : List (String × E) → Run (List (String × Val))
  | [] => ret []
  | (x, e) :: rest => bind (evalE n false [] [] e) fun v => bind (evalBindings n rest) fun vs => ret ((x, v) :: vs)

/-- A new let variable. -/
def newVar (x : String) (v : Val) : Run Unit := fun s => match s.env x with
  | some _ => (.error (.rebind x), s)
  | none => (.ok (), { s with env := put s.env x (some v) })

/-- At first, there are no let variables. -/
def noVars : Run Unit := fun s => (.ok (), { s with env := fun _ => none })

def newVars : List (String × Val) → Run Unit
  | [] => ret ()
  | (x, v) :: rest => bind (newVar x v) fun _ => newVars rest

/-- The bindings of a `letrec`: each sees all let variables; it is an error to use one before it has a value.  They are in a scope of their own. -/
def letrec (n : Nat) (lets : List String) : List (String × E) → Run Unit
  | [] => ret ()
  | (x, e) :: rest => fun s => match s.env x with
    | some _ => (.error (.rebind x), s)
    | none => bind (call n (.fn [] [] [] (.cons (.ret e) .nil) [] ⟨true, lets⟩) []) (fun v => bind (newVar x v) fun _ =>
        letrec n lets rest) s

/-- The let variables are made, and then the function, with everything in it, and its defaults, can see them.  The function, or, with `block`, what it returns, is
assigned to its name. -/
def decorate (n : Nat) (p : Prog) : Run Unit :=
  let lets := p.bindings.map (·.1)
  bind (if p.recursive then bind noVars fun _ => letrec n lets p.bindings
    else bind (evalBindings n p.bindings) fun vs => bind noVars fun _ => newVars vs) fun _ =>
  bind (evalEs n true lets [] p.defaults) fun ds =>
  let f := V.fn p.params ds p.globals p.body [] ⟨true, without lets (p.name :: p.params ++ p.globals)⟩
  if p.block then bind (call n f []) fun v => store p.name v [] else store p.name f []

/-- Run a module. -/
def run (n : Nat) (p : Prog) : Except Err Unit × List Int :=
  let r := (bind (exec n false [] [] [] p.before) fun _ => bind (decorate n p) fun _ => bind (exec n false [] [] [] p.after) fun _ => ret ())
    ⟨fun _ => none, [], fun _ => none, []⟩
  (r.1, r.2.out)

/-! ## Where the code does this -/

mutual
/-- Nothing of this is assigned or deleted by a statement in the block of a compound statement, at any depth (but functions count for themselves). -/
def Keeps (lets : List String) : S → Prop
  | .assign x _ => x ∉ lets
  | .del x => x ∉ lets
  | .ite _ t e => KeepsAll lets t ∧ KeepsAll lets e
  | .while _ b => KeepsAll lets b
  | .fdef .. | .expr _ | .ret _ => True
def KeepsAll (lets : List String) : Ss → Prop
  | .nil => True
  | .cons s ss => Keeps lets s ∧ KeepsAll lets ss
end

mutual
/-- A function is defined by the statement, or in it. -/
def defines : S → Bool
  | .fdef .. => true
  | .ite _ t e => definesAny t || definesAny e
  | .while _ b => definesAny b
  | .assign .. | .del _ | .expr _ | .ret _ => false
def definesAny : Ss → Bool
  | .nil => false
  | .cons s ss => defines s || definesAny ss
end

mutual
/-- A statement of a function, `nested` if it is inside of the decorated one, for which the code does as it should: blocks of compound statements do not assign or
delete let variables; functions in functions have other names than the let variables, and so have their parameters; they do not delete let variables; a function
that declares a let variable `global` has no functions in it. -/
def Calm (lets : List String) (nested : Bool) : S → Prop
  | .assign .. | .expr _ | .ret _ => True
  | .del x => nested = true → x ∉ lets
  | .ite _ t e => KeepsAll lets t ∧ KeepsAll lets e ∧ CalmAll lets nested t ∧ CalmAll lets nested e
  | .while _ b => KeepsAll lets b ∧ CalmAll lets nested b
  | .fdef g ps _ gl body => g ∉ lets ∧ (∀ p ∈ ps, p ∉ lets) ∧ (definesAny body = true → ∀ x ∈ gl, x ∉ lets) ∧ CalmAll lets true body
def CalmAll (lets : List String) (nested : Bool) : Ss → Prop
  | .nil => True
  | .cons s ss => Calm lets nested s ∧ CalmAll lets nested ss
end

mutual
/-- An expression without these variables, and without lambdas and calls. -/
def Simple (lets : List String) : E → Prop
  | .int _ => True
  | .var x => x ∉ lets
  | .sub a b => Simple lets a ∧ Simple lets b
  | .show e => Simple lets e
  | .walrus x e => x ∉ lets ∧ Simple lets e
  | .lam .. | .call .. | .envget _ | .envset .. => False
def SimpleAll (lets : List String) : Es → Prop
  | .nil => True
  | .cons e es => Simple lets e ∧ SimpleAll lets es
end

/-- The same for a whole program.  The defaults of the decorated function do not use let variables, lambdas or calls; in a `letrec`, or if a let variable is bound
twice, there are none. -/
def CalmProg (p : Prog) : Prop :=
  let lets := p.bindings.map (·.1)
  CalmAll lets false p.body ∧ (definesAny p.body = true → ∀ x ∈ p.globals, x ∉ lets) ∧
    SimpleAll lets p.defaults ∧ (p.defaults = .nil ∨ p.recursive = false ∧ lets.Nodup)

end Unpy.Spec.Dlet
