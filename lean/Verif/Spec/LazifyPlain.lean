import Verif.Spec.Lazify
/-!
# Plain Python for purely functional programs

Function definitions whose bodies consist of `return` and `if`, and an expression.  Arguments are evaluated before the call, from
left to right; a name means the parameter, or else the function defined under it.

The evaluator stops (`unmodelled`) at anything else: assignments, loops, `*e`, `lazy[...]`, defaults, calls of functions with the
name of some container's constructor, and `e[i]` where `e` is not a reference and not a call of one.
-/
namespace Unpy.Lazify.Plain
open Unpy.Lazify
open Unpy.PyExpr (M ret raise bind Err)

/-- Values. -/
inductive Val (β : Type) where
  | base (b : β)
  | non
  | tup (vs : List (Val β))
  | clo (ps : List String) (body : List (St β)) (ρ : String → Option (Val β))

/-- A function definition: the name, the parameters, the body. -/
structure Fun (β : Type) where
  name : String
  params : List String
  body : List (St β)

/-- Parameters. -/
abbrev Env (β : Type) := String → Option (Val β)

section
variable {β ω ε : Type}

abbrev Mo (ε α : Type) := M Unit ε α

def empty : Env β := fun _ => none

def extend (ρ : Env β) : List String → List (Val β) → Env β
  | p :: ps, v :: vs => fun x => if x = p then some v else extend ρ ps vs x
  | _, _ => ρ

def lookup (G : List (Fun β)) (x : String) : Option (Val β) :=
  (G.find? (·.name == x)).map fun f => .clo f.params f.body empty

def truthy (P : World β ω ε) : Val β → Bool
  | .base b => P.truthy b
  | .non => false
  | .tup vs => !vs.isEmpty
  | .clo .. => true

mutual
def same (P : World β ω ε) : Val β → Val β → Option Bool
  | .base a, .base b => some (P.eq a b)
  | .non, .non => some true
  | .tup vs, .tup ws => sames P vs ws
  | .clo .., .clo .. => none
  | _, _ => some false

def sames (P : World β ω ε) : List (Val β) → List (Val β) → Option Bool
  | [], [] => some true
  | v :: vs, w :: ws => match same P v w with
    | some true => sames P vs ws
    | r => r
  | _, _ => some false
end

def bases : List (Val β) → Option (List β)
  | [] => some []
  | .base b :: vs => (bases vs).map (b :: ·)
  | _ :: _ => none

/-- An operator, on constants. -/
def binop (P : World β ω ε) (n : Nat) (vs : List (Val β)) : Mo ε (Val β) :=
  match bases vs with
  | none => raise .unmodelled
  | some bs => match P.op n bs with
    | .ok b => ret (.base b)
    | .error e => raise e

/-- `v[i]` -/
def pick (P : World β ω ε) : Val β → Val β → Mo ε (Val β)
  | .tup vs, .base b => match P.index b with
    | some k => match vs[k]? with
      | some v => ret v
      | none => raise (.py .IndexError)
    | none => raise (.py .TypeError)
  | _, _ => raise (.py .TypeError)

/-- A reference, or a call of one. -/
def refLike : Ex β → Bool
  | .name _ | .sub .. => true
  | .call f _ => refLike f
  | _ => false

mutual
/-- Evaluate an expression; `ap` calls a function. -/
def eval (P : World β ω ε) (G : List (Fun β)) (ap : Val β → List (Val β) → Mo ε (Val β)) (ρ : Env β) :
    Ex β → Mo ε (Val β)
  | .cst c => ret (.base c)
  | .non => ret .non
  | .name x => match ρ x with
    | some v => ret v
    | none => match lookup G x with
      | some v => ret v
      | none => raise .nameError
  | .op n es => bind (evals P G ap ρ es) fun vs => binop P n vs
  | .eq a b => bind (eval P G ap ρ a) fun v => bind (eval P G ap ρ b) fun w => match same P v w with
    | some r => ret (.base (P.ofBool r))
    | none => raise .unmodelled
  | .ife c t e => bind (eval P G ap ρ c) fun v => if truthy P v then eval P G ap ρ t else eval P G ap ρ e
  | .tup es => bind (evals P G ap ρ es) fun vs => ret (.tup vs)
  | .sub e i => if refLike e then
      bind (eval P G ap ρ e) fun v => bind (eval P G ap ρ i) fun w => pick P v w
    else raise .unmodelled
  | .lam ps none [] b => ret (.clo ps [.ret b] ρ)
  | .call f args => if Spec.reserved f then raise .unmodelled else
      bind (eval P G ap ρ f) fun fv => bind (evals P G ap ρ args) fun vs => ap fv vs
  | .lam .. => raise .unmodelled
  | .callS .. => raise .unmodelled
  | .lazy _ => raise .unmodelled

def evals (P : World β ω ε) (G : List (Fun β)) (ap : Val β → List (Val β) → Mo ε (Val β)) (ρ : Env β) :
    List (Ex β) → Mo ε (List (Val β))
  | [] => ret []
  | e :: es => bind (eval P G ap ρ e) fun v => bind (evals P G ap ρ es) fun vs => ret (v :: vs)
end

mutual
/-- Execute a statement: `some v` if it returns. -/
def exec (P : World β ω ε) (G : List (Fun β)) (ap : Val β → List (Val β) → Mo ε (Val β)) (ρ : Env β) :
    St β → Mo ε (Option (Val β))
  | .ret e => bind (eval P G ap ρ e) fun v => ret (some v)
  | .ite c b₁ b₂ => bind (eval P G ap ρ c) fun v =>
      if truthy P v then execs P G ap ρ b₁ else execs P G ap ρ b₂
  | _ => raise .unmodelled

def execs (P : World β ω ε) (G : List (Fun β)) (ap : Val β → List (Val β) → Mo ε (Val β)) (ρ : Env β) :
    List (St β) → Mo ε (Option (Val β))
  | [] => ret none
  | s :: ss => bind (exec P G ap ρ s) fun r => match r with
    | some v => ret (some v)
    | none => execs P G ap ρ ss
end

mutual
/-- The statement consists of `return` and `if`. -/
def flatS : St β → Bool
  | .ret _ => true
  | .ite _ b₁ b₂ => flatSs b₁ && flatSs b₂
  | _ => false

def flatSs : List (St β) → Bool
  | [] => true
  | s :: ss => flatS s && flatSs ss
end

/-- Call a function; `ap` for the calls in its body. -/
def callFun (P : World β ω ε) (G : List (Fun β)) (ap : Val β → List (Val β) → Mo ε (Val β)) :
    Val β → List (Val β) → Mo ε (Val β)
  | .clo ps b ρ, args =>
    if flatSs b then
      if args.length = ps.length then bind (execs P G ap (extend ρ ps args) b) fun r => ret (r.getD .non)
      else raise (.py .TypeError)
    else raise .unmodelled
  | _, _ => raise (.py .TypeError)

/-- Calls, nesting at most so deep. -/
def apply (P : World β ω ε) (G : List (Fun β)) : Nat → Val β → List (Val β) → Mo ε (Val β)
  | 0 => fun _ _ _ => none
  | d + 1 => callFun P G (apply P G d)

/-- The value of an expression, after these function definitions, with calls nesting at most so deep; `none` if that is not enough,
or if an exception is raised. -/
def value (P : World β ω ε) (G : List (Fun β)) (d : Nat) (e : Ex β) : Option (Val β) :=
  match eval P G (apply P G d) empty e () with
  | some (.ok v, _) => some v
  | _ => none

/-- The program: the function definitions, then `x = e`. -/
def program (G : List (Fun β)) (x : String) (e : Ex β) : List (St β) :=
  G.map (fun f => .defn f.name f.params none [] f.body) ++ [.assign x e]

mutual
def obs : Val β → Spec.Obs β
  | .base b => .base b
  | .non => .non
  | .tup vs => .tup (obss vs)
  | .clo .. => .function

def obss : List (Val β) → List (Spec.Obs β)
  | [] => []
  | v :: vs => obs v :: obss vs
end

end

end Unpy.Lazify.Plain
