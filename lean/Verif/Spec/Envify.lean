import Verif.Model.Envify
/-!
# What `with envify` should do

A reference interpreter for source programs: Python, in which moreover `x := v` assigns to the parameter `x` of the function that it
is in or of an enclosing function, if there is one (lambdatools.py:214-233).

Each call has a record with its parameters (if any), and a frame with its other local variables.

With `careful`, the interpreter stops (`unmodelled`) at things that the macro is known to do otherwise.
-/
namespace Unpy.Envify.Spec
open Unpy.Envify
open Unpy.PyExpr (M ret raise bind Err)
open Unpy.Conts (Flow whileLoop)

/-- Where a variable is: a parameter in a record, or another variable in a frame. -/
inductive Loc where
  | par (r : Nat)
  | loc (k : Nat)

/-- A scope: the variables that can be seen. -/
abbrev Scope := String → Option Loc

/-- Values. -/
inductive Val (β : Type) where
  | base (b : β)
  | non
  | tup (vs : List (Val β))
  | ext (n : Nat)
  | clo (sg : Sig) (ds : List (Val β)) (body : List (St β)) (ρ : Scope)

section
variable {β ω ε : Type}

/-- `envs` has the records. -/
abbrev Mo (β ω ε α : Type) := M (State (Val β) ω) ε α

/-- The interpreter stops. -/
def stopIf (b : Bool) : Mo β ω ε Unit := if b then raise .unmodelled else ret ()

def truthy (P : World β ω ε) : Val β → Bool
  | .base b => P.truthy b
  | .non => false
  | .tup vs => !vs.isEmpty
  | _ => true

def bases : List (Val β) → Option (List β)
  | [] => some []
  | .base b :: vs => (bases vs).map (b :: ·)
  | _ :: _ => none

def binop (P : World β ω ε) (n : Nat) (vs : List (Val β)) : Mo β ω ε (Val β) :=
  match bases vs with
  | none => raise .unmodelled
  | some bs => match P.op n bs with
    | .ok b => ret (.base b)
    | .error e => raise e

/-- The value of a parameter, unless it has been deleted. -/
def loadPar (careful : Bool) (r : Nat) (x : String) : Mo β ω ε (Val β) := fun s =>
  match s.envs[r]?.bind (·.lookup x) with
  | some v => some (.ok v, s)
  | none => some (.error (if careful then .unmodelled else .nameError), s)

/-- Assign to a parameter, which may have been deleted. -/
def storePar (careful : Bool) (r : Nat) (x : String) (v : Val β) : Mo β ω ε Unit := fun s =>
  match s.envs[r]? with
  | some f => if (f.lookup x).isSome then some (.ok (), { s with envs := s.envs.set r (put x v f) })
    else if careful then some (.error .unmodelled, s)
    else some (.ok (), { s with envs := s.envs.set r ((x, v) :: f) })
  | none => some (.error .unmodelled, s)

/-- `del` of a parameter. -/
def delPar (r : Nat) (x : String) : Mo β ω ε Unit := fun s =>
  match s.envs[r]? with
  | some f => if (f.lookup x).isSome then some (.ok (), { s with envs := s.envs.set r (f.filter (·.1 != x)) })
    else some (.error .nameError, s)
  | none => some (.error .unmodelled, s)

def load (careful : Bool) (ρ : Scope) (x : String) : Mo β ω ε (Val β) :=
  match ρ x with
  | some (.par r) => loadPar careful r x
  | some (.loc k) => loadVar k x
  | none => raise .nameError

def store (careful : Bool) (ρ : Scope) (x : String) (v : Val β) : Mo β ω ε Unit :=
  match ρ x with
  | some (.par r) => storePar careful r x v
  | some (.loc k) => storeVar k x v
  | none => raise .unmodelled

def delete (ρ : Scope) (x : String) : Mo β ω ε Unit :=
  match ρ x with
  | some (.par r) => delPar r x
  | some (.loc k) => delVar k x
  | none => raise .unmodelled

/-- Is this a parameter of a function? -/
def isPar (ρ : Scope) (x : String) : Bool :=
  match ρ x with
  | some (.par _) => true
  | _ => false

/-- The names of parameters that the macro does not get right. -/
def badName (x : String) : Bool :=
  x == "self" || x == "cls" || x.startsWith "__" ||
    ["_env", "_finalized", "_direct_write", "_reserved_names", "_set", "set", "clear", "finalize", "items", "keys", "values", "get",
      "pop", "popitem", "update", "setdefault"].contains x

def evalD (careful : Bool) (ρ : Scope) : Dflt β → Mo β ω ε (Val β)
  | .cst c => ret (.base c)
  | .name x => load careful ρ x

def evalDs (careful : Bool) (ρ : Scope) : List (Dflt β) → Mo β ω ε (List (Val β))
  | [] => ret []
  | d :: ds => bind (evalD careful ρ d) fun v => bind (evalDs careful ρ ds) fun vs => ret (v :: vs)

/-- A default is the value of a variable with the name of a parameter. -/
def ownDefault (ps : List String) (ds : List (Dflt β)) : Bool :=
  ds.any fun d => match d with
    | .cst _ => false
    | .name x => ps.contains x

def items : Val β → Mo β ω ε (List (Val β))
  | .tup vs => ret vs
  | _ => raise (.py .TypeError)

/-- The variable of a comprehension. -/
def withVar (ρ : Scope) (x : String) (k : Nat) : Scope := fun y => if y = x then some (.loc k) else ρ y

mutual
def eval (careful : Bool) (P : World β ω ε) (ap : Val β → List String → List (Val β) → Mo β ω ε (Val β)) (ρ : Scope) :
    Ex β → Mo β ω ε (Val β)
  | .cst c => ret (.base c)
  | .non => ret .non
  | .name x => load careful ρ x
  | .op n es => bind (evals careful P ap ρ es) fun vs => binop P n vs
  | .asg x e => bind (eval careful P ap ρ e) fun v => bind (store careful ρ x v) fun _ => ret v
  | .ife c t e => bind (eval careful P ap ρ c) fun v =>
      if truthy P v then eval careful P ap ρ t else eval careful P ap ρ e
  | .tup es => bind (evals careful P ap ρ es) fun vs => ret (.tup vs)
  | .comp x e it => bind (stopIf (careful && isPar ρ x)) fun _ => bind (eval careful P ap ρ it) fun v =>
      bind (items v) fun vs => bind (newFrame [(x, none)]) fun k =>
      bind (forEach (fun v => bind (storeVar k x v) fun _ => eval careful P ap (withVar ρ x k) e) vs) fun ws => ret (.tup ws)
  | .lam sg ds b => bind (stopIf (careful && ownDefault sg.names ds)) fun _ => bind (evalDs careful ρ ds) fun vs =>
      ret (.clo sg vs [.ret b] ρ)
  | .call f ks args => bind (eval careful P ap ρ f) fun fv => bind (evals careful P ap ρ args) fun vs => ap fv ks vs

def evals (careful : Bool) (P : World β ω ε) (ap : Val β → List String → List (Val β) → Mo β ω ε (Val β)) (ρ : Scope) :
    List (Ex β) → Mo β ω ε (List (Val β))
  | [] => ret []
  | e :: es => bind (eval careful P ap ρ e) fun v => bind (evals careful P ap ρ es) fun vs => ret (v :: vs)
end

mutual
def exec (careful : Bool) (P : World β ω ε) (N : Nat) (ap : Val β → List String → List (Val β) → Mo β ω ε (Val β)) (ρ : Scope) :
    St β → Mo β ω ε (Flow (Val β))
  | .ret e => bind (eval careful P ap ρ e) fun v => ret (.ret v)
  | .expr e => bind (eval careful P ap ρ e) fun _ => ret .next
  | .assign x e => bind (eval careful P ap ρ e) fun v => bind (store careful ρ x v) fun _ => ret .next
  | .aug x n e => bind (load careful ρ x) fun v => bind (eval careful P ap ρ e) fun w => bind (binop P n [v, w]) fun r =>
      bind (store careful ρ x r) fun _ => ret .next
  | .ite c b₁ b₂ => bind (eval careful P ap ρ c) fun v =>
      if truthy P v then execs careful P N ap ρ b₁ else execs careful P N ap ρ b₂
  | .while c b => whileLoop (bind (eval careful P ap ρ c) fun v => ret (truthy P v)) (execs careful P N ap ρ b) N
  | .loop x it b => bind (eval careful P ap ρ it) fun v => bind (items v) fun vs =>
      forLoop (fun v => bind (store careful ρ x v) fun _ => execs careful P N ap ρ b) vs
  | .del x => bind (stopIf (careful && isPar ρ x)) fun _ => bind (delete ρ x) fun _ => ret .next
  | .attempt b₁ b₂ => attempt (execs careful P N ap ρ b₁) (execs careful P N ap ρ b₂)
  | .defn x sg ds b => bind (stopIf (careful && (isPar ρ x || ownDefault sg.names ds))) fun _ =>
      bind (evalDs careful ρ ds) fun vs => bind (store careful ρ x (.clo sg vs b ρ)) fun _ => ret .next
  | .nonlocal _ => ret .next

def execs (careful : Bool) (P : World β ω ε) (N : Nat) (ap : Val β → List String → List (Val β) → Mo β ω ε (Val β)) (ρ : Scope) :
    List (St β) → Mo β ω ε (Flow (Val β))
  | [] => ret .next
  | t :: ts => bind (exec careful P N ap ρ t) fun fl => match fl with
    | .next => execs careful P N ap ρ ts
    | .ret v => ret (.ret v)
end

mutual
/-- The targets of `:=`, outside of lambdas. -/
def walrus : Ex β → List String
  | .asg x e => x :: walrus e
  | .op _ es => walruses es
  | .ife c t e => walrus c ++ walrus t ++ walrus e
  | .tup es => walruses es
  | .comp _ e it => walrus e ++ walrus it
  | .call f _ args => walrus f ++ walruses args
  | _ => []

def walruses : List (Ex β) → List String
  | [] => []
  | e :: es => walrus e ++ walruses es
end

/-- How a name is assigned to: by a statement, or by `:=`. -/
inductive How where
  | stmt
  | walrus

mutual
/-- The names assigned to by a statement, outside of functions defined there. -/
def assignedS : St β → List (How × String)
  | .ret e => (walrus e).map (.walrus, ·)
  | .expr e => (walrus e).map (.walrus, ·)
  | .assign x e => (.stmt, x) :: (walrus e).map (.walrus, ·)
  | .aug x _ e => (.stmt, x) :: (walrus e).map (.walrus, ·)
  | .ite c b₁ b₂ => (walrus c).map (.walrus, ·) ++ assignedSs b₁ ++ assignedSs b₂
  | .while c b => (walrus c).map (.walrus, ·) ++ assignedSs b
  | .loop x it b => (.stmt, x) :: (walrus it).map (.walrus, ·) ++ assignedSs b
  | .del x => [(.stmt, x)]
  | .attempt b₁ b₂ => assignedSs b₁ ++ assignedSs b₂
  | .defn x _ _ _ => [(.stmt, x)]
  | .nonlocal _ => []

def assignedSs : List (St β) → List (How × String)
  | [] => []
  | s :: ss => assignedS s ++ assignedSs ss
end

mutual
def nonlocalS : St β → List String
  | .nonlocal xs => xs
  | .ite _ b₁ b₂ => nonlocalSs b₁ ++ nonlocalSs b₂
  | .while _ b => nonlocalSs b
  | .loop _ _ b => nonlocalSs b
  | .attempt b₁ b₂ => nonlocalSs b₁ ++ nonlocalSs b₂
  | _ => []

def nonlocalSs : List (St β) → List String
  | [] => []
  | s :: ss => nonlocalS s ++ nonlocalSs ss
end

/-- Does this assignment (or `del`), in the body of a function with parameters `ps`, make a local variable?  Not if the name is nonlocal or that
of a parameter; and not for `:=`, if it is the name of a parameter of an enclosing function. -/
def makesLocal (ρ : Scope) (ps nl : List String) : How × String → Bool
  | (.stmt, x) => !nl.contains x && !ps.contains x
  | (.walrus, x) => !nl.contains x && !ps.contains x && !isPar ρ x

/-- The local variables of a function other than its parameters. -/
def locals (ρ : Scope) (ps : List String) (b : List (St β)) : List String :=
  ((assignedSs b).filter (makesLocal ρ ps (nonlocalSs b))).map (·.2)

/-- Variables of a call. -/
def enter (ρ : Scope) (ps : List String) (r : Nat) (ls : List String) (k : Nat) : Scope := fun x =>
  if ps.contains x then some (.par r) else if ls.contains x then some (.loc k) else ρ x

/-- A record for the parameters, if there are any. -/
def newRec (xs : List (String × Val β)) : Mo β ω ε Nat := if xs.isEmpty then ret 0 else newEnv xs

def callEntry (careful : Bool) (P : World β ω ε) (N : Nat) (ap : Val β → List String → List (Val β) → Mo β ω ε (Val β)) :
    Val β → List String → List (Val β) → Mo β ω ε (Val β)
  | .clo sg ds b ρ, ks, args => match bindArgs .tup sg ds ks args with
    | some xs =>
      bind (stopIf (careful && (sg.names.any badName || (locals ρ sg.names b).any (isPar ρ)))) fun _ =>
      bind (newFrame ((locals ρ sg.names b).map fun x => (x, none))) fun k =>
      bind (newRec xs) fun r =>
      bind (execs careful P N ap (enter ρ sg.names r (locals ρ sg.names b) k) b) fun fl => match fl with
        | .next => ret .non
        | .ret v => ret v
    | none => raise (.py .TypeError)
  | .ext n, [], args => match bases args with
    | some bs => bind (callExt P n bs) fun b => ret (.base b)
    | none => raise .unmodelled
  | .ext _, _ :: _, _ => raise .unmodelled
  | .base _, _, _ => raise (.py .TypeError)
  | .non, _, _ => raise (.py .TypeError)
  | .tup _, _, _ => raise (.py .TypeError)

def apply (careful : Bool) (P : World β ω ε) (N : Nat) : Nat → Val β → List String → List (Val β) → Mo β ω ε (Val β)
  | 0 => fun _ _ _ _ => none
  | d + 1 => callEntry careful P N (apply careful P N d)

/-- Run the block; `vars`: its variables, all in frame 0. -/
def run (careful : Bool) (P : World β ω ε) (N d : Nat) (vars : List String) (b : List (St β)) : Mo β ω ε (Flow (Val β)) :=
  execs careful P N (apply careful P N d) (fun x => if vars.contains x then some (.loc 0) else none) b

end

/-! ## What can be seen of an outcome -/

/-- Values as seen from outside: functions are not told apart. -/
inductive Obs (β : Type) where
  | base (b : β)
  | non
  | tup (vs : List (Obs β))
  | ext (n : Nat)
  | function
  | other

section
variable {β ω ε : Type}

mutual
def obs : Val β → Obs β
  | .base b => .base b
  | .non => .non
  | .tup vs => .tup (obss vs)
  | .ext n => .ext n
  | .clo .. => .function

def obss : List (Val β) → List (Obs β)
  | [] => []
  | v :: vs => obs v :: obss vs
end

mutual
def obsI : Envify.Val β → Obs β
  | .base b => .base b
  | .non => .non
  | .tup vs => .tup (obssI vs)
  | .ext n => .ext n
  | .clo .. => .function
  | .meth _ => .other

def obssI : List (Envify.Val β) → List (Obs β)
  | [] => []
  | v :: vs => obsI v :: obssI vs
end

mutual
/-- Written as in Python. -/
def Obs.show : Obs Nat → String
  | .base b => b.repr
  | .non => "None"
  | .tup vs => "(" ++ ", ".intercalate (Obs.shows vs) ++ ")"
  | .ext _ => "<built-in function>"
  | .function => "<function>"
  | .other => "<bound method>"

def Obs.shows : List (Obs Nat) → List String
  | [] => []
  | v :: vs => Obs.show v :: Obs.shows vs
end

/-- A variable of the block: no such variable; not assigned to; a value. -/
def look {V : Type} (ob : V → Obs β) (s : State V ω) (x : String) : Option (Option (Obs β)) :=
  (s.frames[0]?.bind (·.lookup x)).map (Option.map ob)

/-- The same end of a program: both raise the same, or both return something that looks the same, or neither; each variable of the
block is unassigned in both, or holds values that look the same; and the external functions have seen the same calls. -/
def Same (r : Except (Err ε) (Flow (Val β)) × State (Val β) ω)
    (r' : Except (Err ε) (Flow (Envify.Val β)) × State (Envify.Val β) ω) : Prop :=
  (match r.1, r'.1 with
    | .ok .next, .ok .next => True
    | .ok (.ret v), .ok (.ret v') => obs v = obsI v'
    | .error e, .error e' => e = e'
    | _, _ => False) ∧
  (∀ x c, look obs r.2 x = some c → look obsI r'.2 x = some c) ∧ r.2.ext = r'.2.ext

/-- The interpreter stopped; or something happened that is not modelled. -/
def Stopped (r : Option (Except (Err ε) (Flow (Val β)) × State (Val β) ω)) : Prop := ∃ s, r = some (.error .unmodelled, s)

/-- What variables hold to begin with. -/
inductive Init (β : Type) where
  | base (b : β)
  | non
  | ext (n : Nat)

def Init.val : Init β → Val β
  | .base b => .base b
  | .non => .non
  | .ext n => .ext n

def Init.valI : Init β → Envify.Val β
  | .base b => .base b
  | .non => .non
  | .ext n => .ext n

/-- The state to begin with, for the reference interpreter and for the expanded code. -/
def start (h : List (String × Option (Init β))) (w : ω) : State (Val β) ω :=
  ⟨[h.map fun p => (p.1, p.2.map Init.val)], [], w⟩
def startI (h : List (String × Option (Init β))) (w : ω) : State (Envify.Val β) ω :=
  ⟨[h.map fun p => (p.1, p.2.map Init.valI)], [], w⟩

end

end Unpy.Envify.Spec
