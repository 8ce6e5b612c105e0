import Verif.Model.PyStmt
/-!
# What `with tco` should do

Python without trampolines (`plain`); Python with proper tail calls (`proper`), in which a call in tail position replaces the
call that is running; and the programs for which `with tco` is meant.
-/
namespace Unpy.Tail.Spec
open Unpy.Tail
open Unpy.PyExpr (M ret raise bind Err)
variable {β ω ε : Type}

/-! ## Python as it is -/

/-- Call an object, with calls nesting at most so deep.  (Trampolines are ignored: the programs have none.) -/
def plain (P : World β ω ε) (N : Nat) : Nat → Ap β ω ε
  | 0 => fun _ _ _ => none
  | d + 1 => callEntry P N (plain P N d)

/-- Run a program. -/
def plainRun (P : World β ω ε) (N d : Nat) (ρ : Env β) (b : List (St β)) : M (State β ω) ε (Flow (Val β)) :=
  execs P N (plain P N d) ρ b

/-! ## Proper tail calls -/

/-- The outcome of an expression in tail position: a value, or a call yet to be made. -/
inductive TailRes (β : Type) where
  | val (v : Val β)
  | tail (f : Val β) (args : List (Val β))

/-- Evaluate an expression in tail position.  Tail positions: the whole expression; both branches of `a if p else b`; the last
operand of `and`, `or`; the body of a `let`; the last item of a `do`. -/
def tailEval (P : World β ω ε) (ap : Ap β ω ε) (ρ : Env β) : Ex β → M (State β ω) ε (TailRes β)
  | .call f args => bind (eval P ap ρ f) fun fv => bind (evals P ap ρ args) fun vs => ret (.tail fv vs)
  | .ife c t e => bind (eval P ap ρ c) fun v => if truthy P v then tailEval P ap ρ t else tailEval P ap ρ e
  | .bool isOr a b => bind (eval P ap ρ a) fun v => if truthy P v = isOr then ret (.val v) else tailEval P ap ρ b
  | .letx x v b => bind (eval P ap ρ v) fun v => bind (alloc [some v]) fun a => tailEval P ap (frame ρ [x] a) b
  | .doe a b => bind (eval P ap ρ a) fun _ => tailEval P ap ρ b
  | e => bind (eval P ap ρ e) fun v => ret (.val v)

mutual
/-- Execute a statement.  `tl`: the value of a `return` is in tail position.  It is not in the body of a `try`, nor anywhere
before a `finally`. -/
def tailExec (P : World β ω ε) (N : Nat) (ap : Ap β ω ε) (ρ : Env β) (tl : Bool) : St β → M (State β ω) ε (Flow (TailRes β))
  | .ret none => ret (.ret (.val .non))
  | .ret (some e) =>
    if tl then bind (tailEval P ap ρ e) fun r => ret (.ret r)
    else bind (eval P ap ρ e) fun v => ret (.ret (.val v))
  | .expr e => bind (eval P ap ρ e) fun _ => ret .next
  | .assign x e => bind (eval P ap ρ e) fun v => bind (store ρ x v) fun _ => ret .next
  | .ite c b₁ b₂ => bind (eval P ap ρ c) fun v =>
      if truthy P v then tailExecs P N ap ρ tl b₁ else tailExecs P N ap ρ tl b₂
  | .while c b => whileLoop P (eval P ap ρ c) (tailExecs P N ap ρ tl b) N
  | .defn tr x ps ls b => bind (store ρ x (.clo tr ps ls b ρ)) fun _ => ret .next
  | .tryx b hh h o f =>
    tryFinally (tryExcept hh (tailExecs P N ap ρ false b) (tailExecs P N ap ρ (tl && f.isEmpty) h)
      (tailExecs P N ap ρ (tl && f.isEmpty) o)) (tailExecs P N ap ρ tl f)

def tailExecs (P : World β ω ε) (N : Nat) (ap : Ap β ω ε) (ρ : Env β) (tl : Bool) :
    List (St β) → M (State β ω) ε (Flow (TailRes β))
  | [] => ret .next
  | t :: ts => bind (tailExec P N ap ρ tl t) fun fl => match fl with
    | .next => tailExecs P N ap ρ tl ts
    | .ret v => ret (.ret v)
end

/-- Call an object, up to a call in tail position. -/
def tailCall (P : World β ω ε) (N : Nat) (ap : Ap β ω ε) : Val β → List (Val β) → M (State β ω) ε (TailRes β)
  | .clo _ ps ls b ρ, args =>
    if args.length = ps.length then
      bind (alloc (args.map some ++ ls.map (fun _ => none))) fun a =>
      bind (tailExecs P N ap (frame ρ (ps ++ ls) a) true b) fun fl => match fl with
        | .next => ret (.val .non)
        | .ret r => ret r
    else raise (.py .TypeError)
  | .ext k, args => bind (callExt P k args) fun v => ret (.val v)
  | _, _ => raise (.py .TypeError)

/-- Calls in tail position are made one after another, at the same depth. -/
def tailLoop (P : World β ω ε) (N : Nat) (ap : Ap β ω ε) : Nat → Ap β ω ε
  | 0, _, _ => fun _ => none
  | n + 1, f, args => bind (tailCall P N ap f args) fun r => match r with
    | .val v => ret v
    | .tail g as => if callable g then tailLoop P N ap n g as else raise (.py .TypeError)

/-- Call an object, with calls that are not in tail position nesting at most so deep. -/
def proper (P : World β ω ε) (N : Nat) : Nat → Ap β ω ε
  | 0 => fun _ _ _ => none
  | d + 1 => tailLoop P N (proper P N d) N

/-- Run a program. -/
def properRun (P : World β ω ε) (N d : Nat) (ρ : Env β) (b : List (St β)) : M (State β ω) ε (Flow (Val β)) :=
  execs P N (proper P N d) ρ b

/-! ## The programs -/

/-- A call in tail position occurs. -/
def hasTailCall : Ex β → Bool
  | .call .. => true
  | .ife _ t e => hasTailCall t || hasTailCall e
  | .bool _ _ b => hasTailCall b
  | .letx _ _ b => hasTailCall b
  | .doe _ b => hasTailCall b
  | _ => false

/-- Calls, conditional expressions, `and`, `or`, `let`, `do`. -/
def isCompound : Ex β → Bool
  | .call .. | .ife .. | .bool .. | .letx .. | .doe .. => true
  | _ => false

def isList : Ex β → Bool
  | .lst _ => true
  | _ => false

mutual
/-- A source expression that does not use the name `it`, does not call one of `ecs`, `jump`, `loop`, `Values`,
and has no `or` in tail position whose
first operand is a list display (and whose last one is not just data).  `tl`: in tail position. -/
def okE (ecs : List String) (tl : Bool) : Ex β → Bool
  | .cst _ | .non | .ff => true
  | .name x => x != "it"
  | .call f args => !(match f with | .name x => decide (x ∈ ecs ++ ["jump", "loop", "Values"]) | _ => false) && okE ecs false f && okEs ecs args
  | .lam tr ps b => !tr && !(ps.contains "it") && okE ecs true b
  | .ife c t e => okE ecs false c && okE ecs tl t && okE ecs tl e
  | .bool isOr a b => okE ecs false a && okE ecs tl b && !(tl && isOr && isCompound b && isList a)
  | .lst ts => okEs ecs ts
  | .letx x v b => x != "it" && okE ecs false v && okE ecs tl b
  | .doe a b => okE ecs false a && okE ecs tl b
  | .assign x v => x != "it" && okE ecs false v
  | .aif .. | .jump .. | .bad => false

def okEs (ecs : List String) : List (Ex β) → Bool
  | [] => true
  | t :: ts => okE ecs false t && okEs ecs ts
end

/-- Where a statement is: at the top level of the block; in a function; in a function, in a `try`, so that something
may remain to be done after a `return`. -/
inductive Place where
  | block | function | guarded
  deriving DecidableEq

def Place.inTry : Place → Place
  | .block => .block
  | _ => .guarded

mutual
/-- The same for statements.  No `return` at the top level, and no `return` with a call in tail position within a `try`. -/
def okS (ecs : List String) (pl : Place) : St β → Bool
  | .ret none => pl != .block
  | .ret (some e) => pl != .block && okE ecs true e && !(pl == .guarded && hasTailCall e)
  | .expr e => okE ecs false e
  | .assign x e => x != "it" && okE ecs false e
  | .ite c b₁ b₂ => okE ecs false c && okSs ecs pl b₁ && okSs ecs pl b₂
  | .while c b => okE ecs false c && okSs ecs pl b
  | .defn tr x ps ls b => !tr && x != "it" && !((ps ++ ls).contains "it") && okSs ecs .function b
  | .tryx b _ h o f => okSs ecs pl.inTry b && okSs ecs (if f.isEmpty then pl else pl.inTry) h &&
      okSs ecs (if f.isEmpty then pl else pl.inTry) o && okSs ecs pl f

def okSs (ecs : List String) (pl : Place) : List (St β) → Bool
  | [] => true
  | t :: ts => okS ecs pl t && okSs ecs pl ts
end

mutual
/-- How many lambdas are nested in each other. -/
def nestE : Ex β → Nat
  | .call f args => max (nestE f) (nestEs args)
  | .lam _ _ b => nestE b + 1
  | .ife c t e => max (nestE c) (max (nestE t) (nestE e))
  | .bool _ a b => max (nestE a) (nestE b)
  | .lst ts => nestEs ts
  | .letx _ v b => max (nestE v) (nestE b)
  | .doe a b => max (nestE a) (nestE b)
  | .assign _ v => nestE v
  | _ => 0

def nestEs : List (Ex β) → Nat
  | [] => 0
  | t :: ts => max (nestE t) (nestEs ts)
end

mutual
def nestS : St β → Nat
  | .ret none => 0
  | .ret (some e) => nestE e
  | .expr e => nestE e
  | .assign _ e => nestE e
  | .ite c b₁ b₂ => max (nestE c) (max (nestSs b₁) (nestSs b₂))
  | .while c b => max (nestE c) (nestSs b)
  | .defn _ _ _ _ b => nestSs b
  | .tryx b _ h o f => max (max (nestSs b) (nestSs h)) (max (nestSs o) (nestSs f))

def nestSs : List (St β) → Nat
  | [] => 0
  | t :: ts => max (nestS t) (nestSs ts)
end

/-! ## `and` -/

mutual
/-- Each `others and last` in tail position becomes `last if others else False`, if `last` is not just data. -/
def andE (tl : Bool) : Ex β → Ex β
  | .call f args => .call (andE false f) (andEs args)
  | .lam tr ps b => .lam tr ps (andE true b)
  | .ife c t e => .ife (andE false c) (andE tl t) (andE tl e)
  | .bool isOr a b =>
    if tl && !isOr && isCompound b then .ife (andE false a) (andE tl b) .ff
    else .bool isOr (andE false a) (andE tl b)
  | .lst ts => .lst (andEs ts)
  | .letx x v b => .letx x (andE false v) (andE tl b)
  | .doe a b => .doe (andE false a) (andE tl b)
  | .assign x v => .assign x (andE false v)
  | t => t

def andEs : List (Ex β) → List (Ex β)
  | [] => []
  | t :: ts => andE false t :: andEs ts
end

mutual
def andS : St β → St β
  | .ret none => .ret none
  | .ret (some e) => .ret (some (andE true e))
  | .expr e => .expr (andE false e)
  | .assign x e => .assign x (andE false e)
  | .ite c b₁ b₂ => .ite (andE false c) (andSs b₁) (andSs b₂)
  | .while c b => .while (andE false c) (andSs b)
  | .defn tr x ps ls b => .defn tr x ps ls (andSs b)
  | .tryx b hh h o f => .tryx (andSs b) hh (andSs h) (andSs o) (andSs f)

def andSs : List (St β) → List (St β)
  | [] => []
  | t :: ts => andS t :: andSs ts
end

/-! ## What can be seen of an outcome -/

/-- Values as seen from outside: functions are not told apart. -/
inductive Obs (β : Type) where
  | base (b : β)
  | non
  | ff
  | ext (k : Nat)
  | lst (vs : List (Obs β))
  | function
  | jump

mutual
def obs : Val β → Obs β
  | .base b => .base b
  | .non => .non
  | .ff => .ff
  | .ext k => .ext k
  | .lst vs => .lst (obss vs)
  | .clo .. => .function
  | .jmp .. => .jump

def obss : List (Val β) → List (Obs β)
  | [] => []
  | v :: vs => obs v :: obss vs
end

/-- The same exception; except that calling something that is not callable is a RuntimeError if done by a trampoline. -/
def sameErr (e e' : Err ε) : Prop := e = e' ∨ (e = .py .TypeError ∧ e' = .py .RuntimeError)

/-- The same end of a program: both raise, or neither does; the variables hold values that look the same; and the external
functions have seen the same calls. -/
def Same (r r' : Except (Err ε) (Flow (Val β)) × State β ω) : Prop :=
  (match r.1, r'.1 with
    | .ok .next, .ok .next => True
    | .error e, .error e' => sameErr e e'
    | _, _ => False) ∧
  r.2.heap.map (Option.map obs) = r'.2.heap.map (Option.map obs) ∧ r.2.world = r'.2.world

/-- A scope and a state to begin with: variables are cells; they hold constants and external functions. -/
def Simple : Val β → Prop
  | .base _ | .non | .ff | .ext _ => True
  | _ => False

def Start (ρ : Env β) (s : State β ω) : Prop :=
  (∀ x, ∀ v, ρ x ≠ some (.inr v)) ∧ (∀ c ∈ s.heap, ∀ v, c = some v → Simple v)

/-- A program ends so, given enough stack and enough rounds of each loop. -/
def Ends (run : Nat → Nat → M (State β ω) ε (Flow (Val β))) (s : State β ω) (r : Except (Err ε) (Flow (Val β)) × State β ω) :
    Prop := ∃ N d, run N d s = some r

end Unpy.Tail.Spec
