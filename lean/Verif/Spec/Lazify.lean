import Verif.Model.Lazify
/-!
# What `with lazify` should do

A reference interpreter for source programs, after the documentation (lazify.py:85-424): call by need.

* The arguments of a call are bound without being evaluated, unless the function is an external one, which is strict.  An argument
  is evaluated when it is first used, and at most once.
* An argument that is a bare reference is resolved, but what it refers to is not used by that.  In a tuple, each item is bound
  like this by itself.
* To use a name is to evaluate all of what it refers to; in `e[i]`, to evaluate the tuple but not its items, other than the one
  taken.

With `careful`, the interpreter stops (`unmodelled`) at things that the macro is known to do otherwise:

* `*x` and `x += e`, when `x` is an argument that has not been evaluated;
* defaults other than constants;
* a promise within what a promise evaluates to;
* `e[i]` where `e` is not a reference and not a call of one;
* calls of functions with the name of a constructor of some container.
-/
namespace Unpy.Lazify.Spec
open Unpy.Lazify
open Unpy.PyExpr (M ret raise bind Err)
open Unpy.Conts (Env State Flow load store alloc frame whileLoop)

/-- Values; `prom`: an argument, or a `lazy[...]`, by its number. -/
inductive Val (β : Type) where
  | base (b : β)
  | non
  | tup (vs : List (Val β))
  | ext (n : Nat)
  | clo (ps : List String) (va : Option String) (ds : List (Val β)) (body : List (St β)) (ρ : Env)
  | prom (a : Nat)

/-- How far a value is needed: all of it; or, of a tuple, the tuple itself. -/
inductive Depth where
  | deep
  | shallow

section
variable {β ω ε : Type}

abbrev Sta (β ω ε : Type) := State (Val β) (Mem (Ex β) (Val β) ω ε)
abbrev Mo (β ω ε α : Type) := M (Sta β ω ε) ε α

/-- Stop here. -/
def stopIf (b : Bool) : Mo β ω ε Unit := if b then raise .unmodelled else ret ()

def isProm : Val β → Bool
  | .prom _ => true
  | _ => false

mutual
/-- Something in it has not been evaluated, or is a `lazy[...]`. -/
def hasProm : Val β → Bool
  | .prom _ => true
  | .tup vs => hasProms vs
  | _ => false

def hasProms : List (Val β) → Bool
  | [] => false
  | v :: vs => hasProm v || hasProms vs
end

def truthy (P : World β ω ε) : Val β → Bool
  | .base b => P.truthy b
  | .non => false
  | .tup vs => !vs.isEmpty
  | _ => true

mutual
/-- Equality of evaluated values; that of functions is not modelled. -/
def same (P : World β ω ε) : Val β → Val β → Option Bool
  | .base a, .base b => some (P.eq a b)
  | .non, .non => some true
  | .tup vs, .tup ws => sames P vs ws
  | .prom a, .prom b => some (a == b)
  | .ext m, .ext n => some (m == n)
  | .clo .., .clo .. => none
  | _, _ => some false

def sames (P : World β ω ε) : List (Val β) → List (Val β) → Option Bool
  | [], [] => some true
  | v :: vs, w :: ws => match same P v w with
    | some true => sames P vs ws
    | r => r
  | _, _ => some false
end

def operands : List (Val β) → Except (Err ε) (List β)
  | [] => .ok []
  | .base b :: vs => match operands vs with
    | .ok bs => .ok (b :: bs)
    | .error e => .error e
  | .tup _ :: _ => .error .unmodelled
  | _ :: _ => .error (.py .TypeError)

def binop (P : World β ω ε) (n : Nat) (vs : List (Val β)) : Mo β ω ε (Val β) :=
  match operands vs with
  | .error e => raise e
  | .ok bs => match P.op n bs with
    | .ok b => ret (.base b)
    | .error e => raise e

def pick (P : World β ω ε) : Val β → Val β → Mo β ω ε (Val β)
  | .tup vs, .base b => match P.index b with
    | some k => match vs[k]? with
      | some v => ret v
      | none => raise (.py .IndexError)
    | none => raise (.py .TypeError)
  | _, _ => raise (.py .TypeError)

def bases : List (Val β) → Option (List β)
  | [] => some []
  | .base b :: vs => (bases vs).map (b :: ·)
  | _ :: _ => none

def callExt (P : World β ω ε) (n : Nat) (args : List (Val β)) : Mo β ω ε (Val β) := fun s =>
  match bases args with
  | some bs => match P.call n bs s.world.ext with
    | (.ok b, w) => some (.ok (.base b), { s with world := { s.world with ext := w } })
    | (.error e, w) => some (.error e, { s with world := { s.world with ext := w } })
  | none => some (.error .unmodelled, s)

/-- To be evaluated later, if at all. -/
def later (e : Ex β) (ρ : Env) : Mo β ω ε (Val β) := fun s =>
  some (.ok (.prom s.world.proms.length), { s with world := { s.world with proms := s.world.proms ++ [.susp e ρ] } })

/-- What nests: calls of functions; the evaluation of what was put off; and, if that gives something that again is not all
evaluated, the evaluation of that. -/
structure Calls (β ω ε : Type) where
  ap : Val β → List (Val β) → Mo β ω ε (Val β)
  eval : Ex β → Env → Mo β ω ε (Val β)
  again : Depth → Val β → Mo β ω ε (Val β)

def record (a : Nat) (p : Prom (Ex β) (Val β) ε) (s : Sta β ω ε) : Sta β ω ε :=
  { s with world := { s.world with proms := s.world.proms.set a p } }

/-- The value of something put off: evaluated now, if it is not already. -/
def valueOf (C : Calls β ω ε) (a : Nat) : Mo β ω ε (Val β) := fun s =>
  match s.world.proms[a]? with
  | some (.done v) => some (.ok v, s)
  | some (.failed x) => some (.error x, s)
  | some (.susp e ρ) => match C.eval e ρ s with
    | some (.ok v, s') => some (.ok v, record a (.done v) s')
    | some (.error .unmodelled, s') => some (.error .unmodelled, s')
    | some (.error x, s') => some (.error x, record a (.failed x) s')
    | none => none
  | none => some (.error .unmodelled, s)

/-- Not all that is needed of this value is there. -/
def lacking : Depth → Val β → Bool
  | .deep, v => hasProm v
  | .shallow, v => isProm v

mutual
/-- What is needed of a value. -/
def need (careful : Bool) (C : Calls β ω ε) (d : Depth) : Val β → Mo β ω ε (Val β)
  | .prom a => bind (valueOf C a) fun v =>
      if lacking d v then bind (stopIf careful) fun _ => C.again d v else ret v
  | .tup vs => match d with
    | .deep => bind (needs careful C vs) fun ws => ret (.tup ws)
    | .shallow => ret (.tup vs)
  | v => ret v

/-- All of these, in order. -/
def needs (careful : Bool) (C : Calls β ω ε) : List (Val β) → Mo β ω ε (List (Val β))
  | [] => ret []
  | v :: vs => bind (need careful C .deep v) fun w => bind (needs careful C vs) fun ws => ret (w :: ws)
end

/-- Call a function: one of the program gets its arguments as they are; they are evaluated for anything else. -/
def call (careful : Bool) (C : Calls β ω ε) (f : Val β) (vs : List (Val β)) : Mo β ω ε (Val β) :=
  match f with
  | .clo .. => C.ap f vs
  | f => bind (needs careful C vs) fun ws => C.ap f ws

def unpack : Val β → Mo β ω ε (List (Val β))
  | .tup vs => ret vs
  | _ => raise (.py .TypeError)

/-- The name of a constructor, or some other name that the macro treats specially. -/
def reserved : Ex β → Bool
  | .name s => ["frozendict", "dict", "list", "tuple", "set", "frozenset", "box", "ThreadLocalBox", "Some", "cons", "llist", "ll",
      "Lazy", "_autoref_resolve", "Values"].contains s
  | _ => false

mutual
/-- An argument that is not a bare reference; an item in a tuple. -/
def delay (careful : Bool) (ρ : Env) : Ex β → Mo β ω ε (Val β)
  | .tup es => bind (delays careful ρ es) fun vs => ret (.tup vs)
  | .lazy e => later e ρ
  | .call f args => bind (stopIf (careful && reserved f)) fun _ => later (.call f args) ρ
  | .callS f args e => bind (stopIf (careful && reserved f)) fun _ => later (.callS f args e) ρ
  | e => later e ρ

def delays (careful : Bool) (ρ : Env) : List (Ex β) → Mo β ω ε (List (Val β))
  | [] => ret []
  | e :: es => bind (delay careful ρ e) fun v => bind (delays careful ρ es) fun vs => ret (v :: vs)
end

def isConst : Ex β → Bool
  | .cst _ | .non => true
  | _ => false

def isShallow : Depth → Bool
  | .deep => false
  | .shallow => true

mutual
/-- The value of an expression, as far as it is needed.  For `*e` the tuple itself is needed, but not its items. -/
def eval (careful : Bool) (P : World β ω ε) (C : Calls β ω ε) (ρ : Env) (d : Depth) : Ex β → Mo β ω ε (Val β)
  | .name x => bind (load ρ x) fun v => need careful C d v
  | .sub e i => bind (eval careful P C ρ .shallow e) fun v => bind (eval careful P C ρ .deep i) fun w =>
      bind (pick P v w) fun r => need careful C d r
  | .call f args => bind (stopIf (careful && reserved f)) fun _ => bind (eval careful P C ρ d f) fun fv =>
      bind (bound careful P C ρ args) fun vs => call careful C fv vs
  | .callS f args e => bind (stopIf (careful && reserved f)) fun _ => bind (eval careful P C ρ d f) fun fv =>
      bind (bound careful P C ρ args) fun vs =>
      bind (match e with
        | .name x => bind (load ρ x) fun v => bind (stopIf (careful && isProm v)) fun _ => need careful C .shallow v
        | .sub e i => bind (bind (eval careful P C ρ .shallow e) fun v => bind (eval careful P C ρ .deep i) fun w =>
            pick P v w) fun v => bind (stopIf (careful && isProm v)) fun _ => need careful C .shallow v
        | .tup es => delay careful ρ (.tup es)
        | e => eval careful P C ρ .deep e) fun v =>
      bind (unpack v) fun ws => call careful C fv (vs ++ ws)
  | .cst c => bind (stopIf (careful && isShallow d)) fun _ => ret (.base c)
  | .non => bind (stopIf (careful && isShallow d)) fun _ => ret .non
  | .op n es => bind (stopIf (careful && isShallow d)) fun _ => bind (evals careful P C ρ es) fun vs => binop P n vs
  | .eq a b => bind (stopIf (careful && isShallow d)) fun _ => bind (eval careful P C ρ .deep a) fun v =>
      bind (eval careful P C ρ .deep b) fun w => match same P v w with
      | some r => ret (.base (P.ofBool r))
      | none => raise .unmodelled
  | .ife c t e => bind (stopIf (careful && isShallow d)) fun _ => bind (eval careful P C ρ .deep c) fun v =>
      if truthy P v then eval careful P C ρ d t else eval careful P C ρ d e
  | .tup es => bind (stopIf (careful && isShallow d)) fun _ => bind (evals careful P C ρ es) fun vs => ret (.tup vs)
  | .lam ps va ds b => bind (stopIf (careful && (isShallow d || !ds.all isConst))) fun _ =>
      bind (evals careful P C ρ ds) fun vs => ret (.clo ps va vs [.ret b] ρ)
  | .lazy e => bind (stopIf (careful && isShallow d)) fun _ => later e ρ

/-- The values of expressions, in order. -/
def evals (careful : Bool) (P : World β ω ε) (C : Calls β ω ε) (ρ : Env) : List (Ex β) → Mo β ω ε (List (Val β))
  | [] => ret []
  | e :: es => bind (eval careful P C ρ .deep e) fun v => bind (evals careful P C ρ es) fun vs => ret (v :: vs)

/-- The arguments of a call. -/
def bound (careful : Bool) (P : World β ω ε) (C : Calls β ω ε) (ρ : Env) : List (Ex β) → Mo β ω ε (List (Val β))
  | [] => ret []
  | .name x :: es => bind (load ρ x) fun v => bind (bound careful P C ρ es) fun vs => ret (v :: vs)
  | .sub e i :: es => bind (bind (eval careful P C ρ .shallow e) fun v => bind (eval careful P C ρ .deep i) fun w =>
      pick P v w) fun v => bind (bound careful P C ρ es) fun vs => ret (v :: vs)
  | e :: es => bind (delay careful ρ e) fun v => bind (bound careful P C ρ es) fun vs => ret (v :: vs)
end

mutual
/-- Execute a statement. -/
def exec (careful : Bool) (P : World β ω ε) (N : Nat) (C : Calls β ω ε) (ρ : Env) : St β → Mo β ω ε (Flow (Val β))
  | .ret e => bind (eval careful P C ρ .deep e) fun v => ret (.ret v)
  | .expr e => bind (eval careful P C ρ .deep e) fun _ => ret .next
  | .assign x e => bind (eval careful P C ρ .deep e) fun v => bind (store ρ x v) fun _ => ret .next
  | .aug x n e => bind (load ρ x) fun v => bind (stopIf (careful && hasProm v)) fun _ => bind (need careful C .deep v) fun v =>
      bind (eval careful P C ρ .deep e) fun w => bind (binop P n [v, w]) fun r => bind (store ρ x r) fun _ => ret .next
  | .ite c b₁ b₂ => bind (eval careful P C ρ .deep c) fun v =>
      if truthy P v then execs careful P N C ρ b₁ else execs careful P N C ρ b₂
  | .while c b => whileLoop (bind (eval careful P C ρ .deep c) fun v => ret (truthy P v)) (execs careful P N C ρ b) N
  | .defn x ps va ds b => bind (stopIf (careful && !ds.all isConst)) fun _ => bind (evals careful P C ρ ds) fun vs =>
      bind (store ρ x (.clo ps va vs b ρ)) fun _ => ret .next
  | .nonlocal _ => ret .next

def execs (careful : Bool) (P : World β ω ε) (N : Nat) (C : Calls β ω ε) (ρ : Env) :
    List (St β) → Mo β ω ε (Flow (Val β))
  | [] => ret .next
  | t :: ts => bind (exec careful P N C ρ t) fun fl => match fl with
    | .next => execs careful P N C ρ ts
    | .ret v => ret (.ret v)
end

mutual
/-- The names assigned to. -/
def assignedS : St β → List String
  | .assign x _ => [x]
  | .aug x _ _ => [x]
  | .defn x _ _ _ _ => [x]
  | .ite _ b₁ b₂ => assignedSs b₁ ++ assignedSs b₂
  | .while _ b => assignedSs b
  | _ => []

def assignedSs : List (St β) → List String
  | [] => []
  | s :: ss => assignedS s ++ assignedSs ss
end

mutual
/-- The names declared `nonlocal`. -/
def nonlocalS : St β → List String
  | .nonlocal xs => xs
  | .ite _ b₁ b₂ => nonlocalSs b₁ ++ nonlocalSs b₂
  | .while _ b => nonlocalSs b
  | _ => []

def nonlocalSs : List (St β) → List String
  | [] => []
  | s :: ss => nonlocalS s ++ nonlocalSs ss
end

/-- The local variables of a function; parameters come first. -/
def locals (b : List (St β)) : List String := (assignedSs b).filter (fun x => !(nonlocalSs b).contains x)

/-- What the parameters are: the arguments; the defaults, for those that are missing; a tuple of those left over. -/
def params (ps : List String) (va : Option String) (ds args : List (Val β)) : Option (List (String × Val β)) :=
  let missing := ps.length - args.length
  if ds.length < missing then none
  else
    let given := ps.zip (args.take ps.length ++ ds.drop (ds.length - missing))
    match va with
    | none => if args.length ≤ ps.length then some given else none
    | some x => some (given ++ [(x, .tup (args.drop ps.length))])

/-- Call a function. -/
def callEntry (careful : Bool) (P : World β ω ε) (N : Nat) (C : Calls β ω ε) : Val β → List (Val β) → Mo β ω ε (Val β)
  | .clo ps va ds b ρ, args => match params ps va ds args with
    | some xs =>
      bind (alloc ((xs.map (·.2)).map some ++ (locals b).map (fun _ => none))) fun a =>
      bind (execs careful P N C (frame ρ (xs.map (·.1) ++ locals b) a) b) fun fl => match fl with
        | .next => ret .non
        | .ret v => ret v
    | none => raise (.py .TypeError)
  | .ext n, args => callExt P n args
  | _, _ => raise (.py .TypeError)

/-- With nesting at most so deep. -/
def calls (careful : Bool) (P : World β ω ε) (N : Nat) : Nat → Calls β ω ε
  | 0 => ⟨fun _ _ _ => none, fun _ _ _ => none, fun _ _ _ => none⟩
  | d + 1 => ⟨callEntry careful P N (calls careful P N d), fun e ρ => eval careful P (calls careful P N d) ρ .deep e,
      need careful (calls careful P N d)⟩

/-- Run the block. -/
def run (careful : Bool) (P : World β ω ε) (N d : Nat) (ρ : Env) (b : List (St β)) : Mo β ω ε (Flow (Val β)) :=
  execs careful P N (calls careful P N d) ρ b

end

/-! ## What can be seen of an outcome -/

/-- Values as seen from outside: functions are not told apart. -/
inductive Obs (β : Type) where
  | base (b : β)
  | non
  | tup (vs : List (Obs β))
  | ext (n : Nat)
  | function
  | prom (a : Nat)

section
variable {β ω ε : Type}

mutual
def obs : Val β → Obs β
  | .base b => .base b
  | .non => .non
  | .tup vs => .tup (obss vs)
  | .ext n => .ext n
  | .clo .. => .function
  | .prom a => .prom a

def obss : List (Val β) → List (Obs β)
  | [] => []
  | v :: vs => obs v :: obss vs
end

mutual
def obsI : Lazify.Val β → Obs β
  | .base b => .base b
  | .non => .non
  | .tup vs => .tup (obssI vs)
  | .ext n => .ext n
  | .clo .. => .function
  | .prom a => .prom a

def obssI : List (Lazify.Val β) → List (Obs β)
  | [] => []
  | v :: vs => obsI v :: obssI vs
end

mutual
/-- Written as in Python. -/
def Obs.show : Obs Nat → String
  | .base b => b.repr
  | .non => "None"
  | .tup vs => "(" ++ ", ".intercalate (Obs.shows vs) ++ ")"
  | .ext _ => "<built-in function>"
  | .function => "<function>"
  | .prom _ => "<Lazy>"

def Obs.shows : List (Obs Nat) → List String
  | [] => []
  | v :: vs => Obs.show v :: Obs.shows vs
end

/-- What is known of a promise: not evaluated, or its value or exception. -/
inductive PromObs (β ε : Type) where
  | susp
  | done (v : Obs β)
  | failed (x : Err ε)

def promObs : Prom (Ex β) (Val β) ε → PromObs β ε
  | .susp _ _ => .susp
  | .done v => .done (obs v)
  | .failed x => .failed x

def promObsI : Prom (Out.Ex β) (Lazify.Val β) ε → PromObs β ε
  | .susp _ _ => .susp
  | .done v => .done (obsI v)
  | .failed x => .failed x

/-- The same end of a program: both raise the same, or both return something that looks the same, or neither; the variables hold
values that look the same; the same arguments have been evaluated, with values that look the same; and the external functions have
seen the same calls. -/
def Same (r : Except (Err ε) (Flow (Val β)) × Sta β ω ε) (r' : Except (Err ε) (Flow (Lazify.Val β)) × Lazify.Sta β ω ε) : Prop :=
  (match r.1, r'.1 with
    | .ok .next, .ok .next => True
    | .ok (.ret v), .ok (.ret v') => obs v = obsI v'
    | .error e, .error e' => e = e'
    | _, _ => False) ∧
  r.2.heap.map (Option.map obs) = r'.2.heap.map (Option.map obsI) ∧
  r.2.world.proms.map promObs = r'.2.world.proms.map promObsI ∧ r.2.world.ext = r'.2.world.ext

/-- The interpreter stopped; or something happened that is not modelled. -/
def Stopped (r : Option (Except (Err ε) (Flow (Val β)) × Sta β ω ε)) : Prop := ∃ s, r = some (.error .unmodelled, s)

/-- What variables hold to begin with. -/
inductive Init (β : Type) where
  | base (b : β)
  | non
  | ext (n : Nat)

def Init.val : Init β → Val β
  | .base b => .base b
  | .non => .non
  | .ext n => .ext n

def Init.valI : Init β → Lazify.Val β
  | .base b => .base b
  | .non => .non
  | .ext n => .ext n

/-- The state to begin with, for the reference interpreter and for the expanded code. -/
def start (h : List (Option (Init β))) (w : ω) : Sta β ω ε := ⟨h.map (Option.map Init.val), ⟨[], w⟩⟩
def startI (h : List (Option (Init β))) (w : ω) : Lazify.Sta β ω ε := ⟨h.map (Option.map Init.valI), ⟨[], w⟩⟩

end

end Unpy.Lazify.Spec
