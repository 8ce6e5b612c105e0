import Verif.Model.Conts
/-!
# What `with continuations` should do

A reference interpreter for source programs, after the documentation (tailtools.py:229-672).

* Every function has a parameter `cc`, what is to be done with its result; `identity`: nothing, the result is that of the call.
* A call that is not in tail position has `cc=identity`.
* `return v` calls `cc` with `v`; `return f(...)` calls `f`, passing `cc` on.
* `x = call_cc[f(...)]` calls `f` with `cc` the rest of the function, as a function of `x`.
* What follows that rest (its parent continuation) is what would have followed the function that the `call_cc` is in.
* Where there is both a parent continuation and a `cc`, the former goes first.

With `careful`, the interpreter stops (`unmodelled`) at things that the macro is known to do otherwise.
-/
namespace Unpy.Conts.Spec
open Unpy.Conts
open Unpy.PyExpr (M ret raise bind Err)

/-- Values. -/
inductive Val (β : Type) where
  | base (b : β)
  | non
  | tup (vs : List (Val β))
  | vals (vs : List (Val β))
  | ext (n : Nat)
  | ident
  | getcc
  /-- a function -/
  | clo (ps : List String) (body : List (St β)) (ρ : Env)
  /-- the rest of a function, or of the block (`blk`), from a `call_cc` on; and what follows it -/
  | kont (targets : List String) (star : Option String) (body : List (St β)) (ρ : Env) (blk : Bool) (parent : Val β)
  /-- `a`, then `b` with the result -/
  | comp (a b : Val β)

/-- The outcome of a function: a value, or a call yet to be made, possibly with `cc=...`. -/
inductive Tail (β : Type) where
  | val (v : Val β)
  | call (f : Val β) (args : List (Val β)) (cc : Option (Val β))

section
variable {β ω ε : Type}

def isIdent : Val β → Bool
  | .ident => true
  | _ => false

def isComp : Val β → Bool
  | .comp .. => true
  | _ => false

def isNon : Val β → Bool
  | .non => true
  | _ => false

def callable : Val β → Bool
  | .ext _ | .ident | .getcc | .clo .. | .kont .. | .comp .. => true
  | _ => false

def truthy (P : World β ω ε) : Val β → Bool
  | .base b => P.truthy b
  | .non => false
  | .tup vs => !vs.isEmpty
  | _ => true

/-- First `a`, then `b`. -/
def andThen (a b : Val β) : Val β := if isIdent a then b else .comp a b

/-- The arguments that a value is passed as: a `Values` is unpacked. -/
def unpack : Val β → List (Val β)
  | .vals vs => vs
  | v => [v]

/-- The value that arguments are returned as. -/
def pack : List (Val β) → Val β
  | [] => .non
  | [v] => v
  | vs => .vals vs

/-- Return a value to what follows: the parent continuation, if there is one, and then `cc`. -/
def deliver (parent cc v : Val β) : Tail β :=
  if isIdent parent then .call cc (unpack v) none else .call parent (unpack v) (some cc)

/-- Which variables a continuation assigns to, and what.  Without any, one value may be passed, and is ignored. -/
def receive (targets : List String) (star : Option String) (args : List (Val β)) : Option (List (String × Val β)) :=
  match star, targets with
  | some x, _ =>
    if args.length < targets.length then none
    else some (targets.zip args ++ [(x, .tup (args.drop targets.length))])
  | none, [] => if 1 < args.length then none else some []
  | none, _ => if args.length = targets.length then some (targets.zip args) else none

def bases : List (Val β) → Option (List β)
  | [] => some []
  | .base b :: vs => (bases vs).map (b :: ·)
  | _ :: _ => none

/-- Call an external function. -/
def callExt (P : World β ω ε) (n : Nat) (args : List (Val β)) : M (State (Val β) ω) ε (Val β) := fun s =>
  match bases args with
  | some bs => match P.call n bs s.world with
    | (.ok b, w) => some (.ok (.base b), { s with world := w })
    | (.error e, w) => some (.error e, { s with world := w })
  | none => some (.error .unmodelled, s)

abbrev Ap (β ω ε : Type) := Val β → List (Val β) → Option (Val β) → M (State (Val β) ω) ε (Val β)

/-- Stop here. -/
def stopIf (b : Bool) : M (State (Val β) ω) ε Unit := if b then raise .unmodelled else ret ()

mutual
/-- Evaluate an expression that is not in tail position. -/
def eval (P : World β ω ε) (ap : Ap β ω ε) (ρ : Env) : Ex β → M (State (Val β) ω) ε (Val β)
  | .cst c => ret (.base c)
  | .non => ret .non
  | .name x => load ρ x
  | .call f args => bind (eval P ap ρ f) fun fv => bind (evals P ap ρ args) fun vs => ap fv vs none
  | .callK f args k => bind (eval P ap ρ f) fun fv => bind (evals P ap ρ args) fun vs =>
      bind (eval P ap ρ k) fun kv => ap fv vs (some kv)
  | .lam ps b => ret (.clo ps [.ret (some b)] ρ)
  | .ife c t e => bind (eval P ap ρ c) fun v => if truthy P v then eval P ap ρ t else eval P ap ρ e
  | .tup es => bind (evals P ap ρ es) fun vs => ret (.tup vs)
  | .values es => bind (evals P ap ρ es) fun vs => ret (.vals vs)
  | .bool true a b => bind (eval P ap ρ a) fun v => if truthy P v then ret v else eval P ap ρ b
  | .bool false a b => bind (eval P ap ρ a) fun v => if truthy P v then eval P ap ρ b else ret v
  | .doe a b => bind (eval P ap ρ a) fun _ => eval P ap ρ b
  | .letx x a b => bind (eval P ap ρ a) fun v => bind (stopIf (x == "cc")) fun _ =>
      bind (alloc [some v]) fun c => eval P ap (frame ρ [x] c) b

def evals (P : World β ω ε) (ap : Ap β ω ε) (ρ : Env) : List (Ex β) → M (State (Val β) ω) ε (List (Val β))
  | [] => ret []
  | e :: es => bind (eval P ap ρ e) fun v => bind (evals P ap ρ es) fun vs => ret (v :: vs)
end

/-- Whether a value is `False`. -/
def isFalse (P : World β ω ε) : Val β → Bool
  | .base b => P.isFf b
  | _ => false

/-- Whether something is in tail position in an expression that is returned: all but constants, names, functions and tuples. -/
def hasTail : Ex β → Bool
  | .cst _ | .non | .name _ | .lam .. | .tup _ => false
  | _ => true

/-- Return an expression, in a function with this parent continuation.  Of `a or b` and `a and b`, only `b` is in tail position.
What the macro does otherwise (C89_and_refuted): `a and b` is `False` if `a` is false. -/
def tailEval (careful : Bool) (P : World β ω ε) (ap : Ap β ω ε) (ρ : Env) (parent : Val β) : Ex β → M (State (Val β) ω) ε (Tail β)
  | .call f args => bind (eval P ap ρ f) fun fv => bind (evals P ap ρ args) fun vs =>
      bind (load ρ "cc") fun c => ret (.call fv vs (some (andThen parent c)))
  | .callK f args k => bind (eval P ap ρ f) fun fv => bind (evals P ap ρ args) fun vs =>
      bind (eval P ap ρ k) fun kv => ret (.call fv vs (some (andThen parent kv)))
  | .ife c t e => bind (eval P ap ρ c) fun v =>
      if truthy P v then tailEval careful P ap ρ parent t else tailEval careful P ap ρ parent e
  | .bool true a b =>
    if hasTail b then bind (eval P ap ρ a) fun v =>
      if truthy P v then bind (load ρ "cc") fun c => ret (deliver parent c v) else tailEval careful P ap ρ parent b
    else bind (load ρ "cc") fun c => bind (eval P ap ρ (.bool true a b)) fun v => ret (deliver parent c v)
  | .bool false a b =>
    if hasTail b then bind (eval P ap ρ a) fun v =>
      if truthy P v then tailEval careful P ap ρ parent b
      else bind (stopIf (careful && !isFalse P v)) fun _ => bind (load ρ "cc") fun c => ret (deliver parent c v)
    else bind (load ρ "cc") fun c => bind (eval P ap ρ (.bool false a b)) fun v => ret (deliver parent c v)
  | .doe a b => bind (eval P ap ρ a) fun _ => tailEval careful P ap ρ parent b
  | .letx x a b => bind (eval P ap ρ a) fun v => bind (stopIf (x == "cc")) fun _ =>
      bind (alloc [some v]) fun c => tailEval careful P ap (frame ρ [x] c) parent b
  | e => bind (load ρ "cc") fun c => bind (eval P ap ρ e) fun v => ret (deliver parent c v)

mutual
/-- Execute a statement; `parent`: none at the top level of the block, where there must be no `return`. -/
def exec (careful : Bool) (P : World β ω ε) (N : Nat) (ap : Ap β ω ε) (ρ : Env) (parent : Option (Val β)) :
    St β → M (State (Val β) ω) ε (Flow (Tail β))
  | .ret e => match parent with
    | none => raise .unmodelled
    | some p => bind (tailEval careful P ap ρ p (e.getD .non)) fun t => ret (.ret t)
  | .expr e => bind (eval P ap ρ e) fun _ => ret .next
  | .assign x e => bind (eval P ap ρ e) fun v => bind (store ρ x v) fun _ => ret .next
  | .ite c b₁ b₂ => bind (eval P ap ρ c) fun v =>
      if truthy P v then execs careful P N ap ρ parent b₁ else execs careful P N ap ρ parent b₂
  | .while c b => whileLoop (bind (eval P ap ρ c) fun v => ret (truthy P v)) (execs careful P N ap ρ parent b) N
  | .defn x ps b => bind (store ρ x (.clo ps b ρ)) fun _ => ret .next
  | .nonlocal _ => ret .next
  | .callcc .. => raise .unmodelled

def execs (careful : Bool) (P : World β ω ε) (N : Nat) (ap : Ap β ω ε) (ρ : Env) (parent : Option (Val β)) :
    List (St β) → M (State (Val β) ω) ε (Flow (Tail β))
  | [] => ret .next
  | t :: ts => bind (exec careful P N ap ρ parent t) fun fl => match fl with
    | .next => execs careful P N ap ρ parent ts
    | .ret v => ret (.ret v)
end

/-- How many `None`s are passed to a continuation by `call_cc[None]`. -/
def nones (targets : List String) (star : Option String) : Nat := if targets = [] ∧ star = none then 1 else targets.length

/-- The call made by `call_cc`: of a function, with `cc` the continuation; or of the continuation itself. -/
def theCall (careful : Bool) (P : World β ω ε) (ap : Ap β ω ε) (ρ : Env) (k : Val β) (n : Nat) :
    CallCc β → M (State (Val β) ω) ε (Tail β)
  | .call f args => bind (eval P ap ρ f) fun fv => bind (evals P ap ρ args) fun vs => ret (.call fv vs (some k))
  | .skip => bind (load ρ "cc") fun c => bind (stopIf (careful && !isIdent c)) fun _ =>
      ret (.call k (List.replicate n .non) (some .ident))

/-- The same, for either form. -/
def choose (careful : Bool) (P : World β ω ε) (ap : Ap β ω ε) (ρ : Env) (k : Val β) (n : Nat) (cond : Option (Ex β))
    (thecall altcall : CallCc β) : M (State (Val β) ω) ε (Tail β) :=
  match cond with
  | none => theCall careful P ap ρ k n thecall
  | some c => bind (eval P ap ρ c) fun v =>
      if truthy P v then theCall careful P ap ρ k n thecall else theCall careful P ap ρ k n altcall

/-- Run the body of a function, or of the rest of one; of the rest of the block (`blk`), at the end of which nothing follows.
(A `call_cc` at the end of the block is not allowed.) -/
def body (careful : Bool) (P : World β ω ε) (N : Nat) (ap : Ap β ω ε) (ρ : Env) (blk : Bool) (parent : Val β) :
    List (St β) → M (State (Val β) ω) ε (Tail β)
  | [] => if blk then ret (.val .non) else bind (load ρ "cc") fun c => ret (deliver parent c .non)
  | .callcc targets star cond thecall altcall :: after =>
    bind (stopIf (blk && after.isEmpty)) fun _ =>
    bind (load ρ "cc") fun c =>
    bind (stopIf (careful && !isIdent parent)) fun _ =>
    choose careful P ap ρ (.kont targets star after ρ blk (andThen parent c)) (nones targets star) cond thecall altcall
  | t :: ts => bind (exec careful P N ap ρ (some parent) t) fun fl => match fl with
    | .next => body careful P N ap ρ blk parent ts
    | .ret r => ret r

mutual
/-- The names assigned to. -/
def assignedS : St β → List String
  | .assign x _ => [x]
  | .defn x _ _ => [x]
  | .ite _ b₁ b₂ => assignedSs b₁ ++ assignedSs b₂
  | .while _ b => assignedSs b
  | _ => []

def assignedSs : List (St β) → List String
  | [] => []
  | s :: ss => assignedS s ++ assignedSs ss
end

mutual
/-- The names declared `nonlocal`. -/
def nonlocalS : St β → List String
  | .nonlocal xs => xs
  | .ite _ b₁ b₂ => nonlocalSs b₁ ++ nonlocalSs b₂
  | .while _ b => nonlocalSs b
  | _ => []

def nonlocalSs : List (St β) → List String
  | [] => []
  | s :: ss => nonlocalS s ++ nonlocalSs ss
end

/-- A continuation is a scope of its own: what a function does before its first `call_cc`. -/
def before : List (St β) → List (St β)
  | [] => []
  | .callcc .. :: _ => []
  | s :: ss => s :: before ss

/-- The local variables of a function other than its parameters. -/
def locals (b : List (St β)) : List String :=
  (assignedSs (before b)).filter (fun x => !(nonlocalSs (before b)).contains x)

/-- Run the body of a function, in a new scope. -/
def enter (careful : Bool) (P : World β ω ε) (N : Nat) (ap : Ap β ω ε) (args : List (String × Val β)) (cc : Val β)
    (b : List (St β)) (ρ : Env) (blk : Bool) (parent : Val β) : M (State (Val β) ω) ε (Tail β) :=
  bind (alloc ((args.map (·.2) ++ [cc]).map some ++ (locals b).map (fun _ => none))) fun a =>
  body careful P N ap (frame ρ (args.map (·.1) ++ ["cc"] ++ locals b) a) blk parent b

/-- Call an object, up to a call in tail position. -/
def callEntry (careful : Bool) (P : World β ω ε) (N : Nat) (ap : Ap β ω ε) :
    Val β → List (Val β) → Option (Val β) → M (State (Val β) ω) ε (Tail β)
  | .clo ps b ρ, args, k =>
    if args.length = ps.length then enter careful P N ap (ps.zip args) (k.getD .ident) b ρ false .ident
    else raise (.py .TypeError)
  | .kont ts star b ρ blk parent, args, k =>
    bind (stopIf (careful && isNon parent)) fun _ =>
    match receive ts star args with
    | some xs => enter careful P N ap xs (k.getD .ident) b ρ blk parent
    | none => raise (.py .TypeError)
  | .ext n, args, none => bind (callExt P n args) fun v => ret (.val v)
  | .ident, args, none => ret (.val (pack args))
  | .ident, args, some c => bind (stopIf careful) fun _ => ret (.call c args none)
  | .getcc, args, some k => ret (.call k (k :: args) none)
  | .comp a b, args, none => ret (.call a args (some b))
  | .comp a b, args, some c => bind (stopIf careful) fun _ => ret (.call a args (some (andThen b c)))
  | _, _, _ => raise (.py .TypeError)

/-- Calls in tail position are made one after another.  (What is called must be callable; the trampoline says RuntimeError.) -/
def loop (careful : Bool) (P : World β ω ε) (N : Nat) (ap : Ap β ω ε) : Nat → Ap β ω ε
  | 0, _, _, _ => fun _ => none
  | n + 1, f, args, k => bind (callEntry careful P N ap f args k) fun t => match t with
    | .val v => ret v
    | .call g as k => if callable g then loop careful P N ap n g as k else raise (.py .RuntimeError)

/-- Call an object, with calls that are not in tail position nesting at most so deep. -/
def apply (careful : Bool) (P : World β ω ε) (N : Nat) : Nat → Ap β ω ε
  | 0 => fun _ _ _ _ => none
  | d + 1 => fun f args k =>
    bind (stopIf (careful && isComp f)) fun _ => loop careful P N (apply careful P N d) N f args k

/-- Run the block, from some statement on. -/
def block (careful : Bool) (P : World β ω ε) (N : Nat) (ap : Ap β ω ε) (ρ : Env) :
    List (St β) → M (State (Val β) ω) ε Unit
  | [] => ret ()
  | .callcc targets star cond thecall altcall :: after =>
    bind (stopIf after.isEmpty) fun _ =>
    bind (load ρ "cc") fun c =>
    bind (choose careful P ap ρ (.kont targets star after ρ true c) (nones targets star) cond thecall altcall) fun t =>
      match t with
      | .val _ => ret ()
      | .call f args k => bind (ap f args k) fun _ => ret ()
  | t :: ts => bind (exec careful P N ap ρ none t) fun fl => match fl with
    | .next => block careful P N ap ρ ts
    | .ret _ => raise .unmodelled

/-- Run the block. -/
def run (careful : Bool) (P : World β ω ε) (N d : Nat) (ρ : Env) (b : List (St β)) : M (State (Val β) ω) ε Unit :=
  bind (store ρ "cc" .ident) fun _ => block careful P N (apply careful P N d) ρ b

end

/-! ## Where `call_cc` may be -/

section
variable {β : Type}

mutual
/-- No `call_cc` other than at the top level of functions. -/
def legalS : St β → Bool
  | .ite _ b₁ b₂ => legalSs b₁ && legalSs b₂
  | .while _ b => legalSs b
  | .defn _ _ b => legalTop b
  | .callcc .. => false
  | _ => true

def legalSs : List (St β) → Bool
  | [] => true
  | s :: ss => legalS s && legalSs ss

/-- The same for the top level of a function. -/
def legalTop : List (St β) → Bool
  | [] => true
  | .callcc .. :: ss => legalTop ss
  | s :: ss => legalS s && legalTop ss
end

def isCallcc : St β → Bool
  | .callcc .. => true
  | _ => false

def isReturn : St β → Bool
  | .ret _ => true
  | _ => false

/-- A block: no `return` at the top level, and something after each `call_cc`. -/
def legal (b : List (St β)) : Bool :=
  legalTop b && b.all (fun s => !isReturn s) && !(b.getLast?.any isCallcc)

end

/-! ## What can be seen of an outcome -/

/-- Values as seen from outside: functions are not told apart. -/
inductive Obs (β : Type) where
  | base (b : β)
  | non
  | tup (vs : List (Obs β))
  | vals (vs : List (Obs β))
  | valsK (vs : List (Obs β)) (k : Obs β)
  | ext (n : Nat)
  | ident
  | function
  | jump

section
variable {β ω ε : Type}

mutual
def obs : Val β → Obs β
  | .base b => .base b
  | .non => .non
  | .tup vs => .tup (obss vs)
  | .vals vs => .vals (obss vs)
  | .ext n => .ext n
  | .ident => .ident
  | .getcc | .clo .. | .kont .. | .comp .. => .function

def obss : List (Val β) → List (Obs β)
  | [] => []
  | v :: vs => obs v :: obss vs
end

mutual
def obsI : Conts.Val β → Obs β
  | .base b => .base b
  | .non => .non
  | .tup vs => .tup (obssI vs)
  | .vals vs => .vals (obssI vs)
  | .valsK vs k => .valsK (obssI vs) (obsI k)
  | .ext n => .ext n
  | .ident => .ident
  | .getcc | .clo .. | .kont .. | .chain .. => .function
  | .jmp .. | .jmpK .. => .jump

def obssI : List (Conts.Val β) → List (Obs β)
  | [] => []
  | v :: vs => obsI v :: obssI vs
end

mutual
/-- Written as in Python. -/
def Obs.show : Obs Nat → String
  | .base b => b.repr
  | .non => "None"
  | .tup vs => "(" ++ ", ".intercalate (Obs.shows vs) ++ ")"
  | .vals vs => "Values(" ++ ", ".intercalate (Obs.shows vs) ++ ")"
  | .valsK vs k => "Values(" ++ ", ".intercalate (Obs.shows vs ++ ["cc=" ++ Obs.show k]) ++ ")"
  | .ext _ => "<built-in function>"
  | .ident => "identity"
  | .function => "<function>"
  | .jump => "<jump>"

def Obs.shows : List (Obs Nat) → List String
  | [] => []
  | v :: vs => Obs.show v :: Obs.shows vs
end

/-- The same end of a program: both raise the same, or neither does; the variables hold values that look the same; and the
external functions have seen the same calls. -/
def Same (r : Except (Err ε) Unit × State (Val β) ω) (r' : Except (Err ε) (Flow (Conts.Val β)) × State (Conts.Val β) ω) :
    Prop :=
  (match r.1, r'.1 with
    | .ok _, .ok .next => True
    | .error e, .error e' => e = e'
    | _, _ => False) ∧
  r.2.heap.map (Option.map obs) = r'.2.heap.map (Option.map obsI) ∧ r.2.world = r'.2.world

/-- The interpreter stopped; or something happened that is not modelled. -/
def Stopped (r : Option (Except (Err ε) Unit × State (Val β) ω)) : Prop := ∃ s, r = some (.error .unmodelled, s)

/-- What variables hold to begin with. -/
inductive Init (β : Type) where
  | base (b : β)
  | non
  | ext (n : Nat)
  | ident
  | getcc

def Init.val : Init β → Val β
  | .base b => .base b
  | .non => .non
  | .ext n => .ext n
  | .ident => .ident
  | .getcc => .getcc

def Init.valI : Init β → Conts.Val β
  | .base b => .base b
  | .non => .non
  | .ext n => .ext n
  | .ident => .ident
  | .getcc => .getcc

/-- The state to begin with, for the reference interpreter and for the expanded code. -/
def start (h : List (Option (Init β))) (w : ω) : State (Val β) ω := ⟨h.map (Option.map Init.val), w⟩
def startI (h : List (Option (Init β))) (w : ω) : State (Conts.Val β) ω := ⟨h.map (Option.map Init.valI), w⟩

end

end Unpy.Conts.Spec
