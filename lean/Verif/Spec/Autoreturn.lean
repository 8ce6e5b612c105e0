import Verif.Spec.TcoMacro
/-!
# What `with autoreturn` should do

Python in which the body of a function has a value: that of the last statement executed, if it is an expression in tail
position.
-/
namespace Unpy.Tail.Spec
open Unpy.Tail
open Unpy.PyExpr (M ret raise bind Err)
variable {β ω ε : Type}

mutual
/-- Execute a statement in tail position.  An expression: its value is returned.  A function definition: the function is
returned.  `if`: the branches are in tail position.  `try`: the handler is in tail position, and so is the `else` or, if
there is none, the body.  Any other statement (a loop, an assignment): as always. -/
def valExec (P : World β ω ε) (N : Nat) (ap : Ap β ω ε) (ρ : Env β) : St β → M (State β ω) ε (Flow (Val β))
  | .expr e => bind (eval P ap ρ e) fun v => ret (.ret v)
  | .defn tr x ps ls b => bind (store ρ x (.clo tr ps ls b ρ)) fun _ => bind (load ρ x) fun v => ret (.ret v)
  | .ite c b₁ b₂ => bind (eval P ap ρ c) fun v => if truthy P v then valExecs P N ap ρ b₁ else valExecs P N ap ρ b₂
  | .tryx b hh h o f =>
    tryFinally (tryExcept hh (if o.isEmpty then valExecs P N ap ρ b else execs P N ap ρ b)
      (valExecs P N ap ρ h) (valExecs P N ap ρ o)) (execs P N ap ρ f)
  | t => exec P N ap ρ t

/-- The last of several statements is in tail position. -/
def valExecs (P : World β ω ε) (N : Nat) (ap : Ap β ω ε) (ρ : Env β) : List (St β) → M (State β ω) ε (Flow (Val β))
  | [] => ret .next
  | [t] => valExec P N ap ρ t
  | t :: ts => bind (exec P N ap ρ t) fun fl => match fl with
    | .next => valExecs P N ap ρ ts
    | .ret v => ret (.ret v)
end

/-- Call an object: the body of a function is in tail position. -/
def valCall (P : World β ω ε) (N : Nat) : Nat → Ap β ω ε
  | 0 => fun _ _ _ => none
  | d + 1 => fun f args => match f with
    | .clo _ ps ls b ρ => enter (valExecs P N (valCall P N d)) ps ls b ρ args
    | .ext k => callExt P k args
    | _ => raise (.py .TypeError)

/-- Run a program; its top level is not in tail position. -/
def valRun (P : World β ω ε) (N d : Nat) (ρ : Env β) (b : List (St β)) : M (State β ω) ε (Flow (Val β)) :=
  execs P N (valCall P N d) ρ b

/-- The places of a statement. -/
inductive TailPos where
  /-- not in tail position -/
  | no
  /-- the last statement of a function -/
  | last
  /-- in tail position, within an `if` or a `try` -/
  | branch
  deriving DecidableEq

def TailPos.inside : TailPos → TailPos
  | .no => .no
  | _ => .branch

mutual
/-- No function definition is in tail position within an `if` or a `try`. -/
def noBranchDef (pos : TailPos) : St β → Bool
  | .defn _ _ _ _ b => pos != .branch && noBranchDefs .last b
  | .ite _ b₁ b₂ => noBranchDefs pos.inside b₁ && noBranchDefs pos.inside b₂
  | .while _ b => noBranchDefs .no b
  | .tryx b _ h o f => noBranchDefs (if o.isEmpty then pos.inside else .no) b && noBranchDefs pos.inside h &&
      noBranchDefs pos.inside o && noBranchDefs .no f
  | _ => true

def noBranchDefs (pos : TailPos) : List (St β) → Bool
  | [] => true
  | [t] => noBranchDef pos t
  | t :: ts => noBranchDef .no t && noBranchDefs pos ts
end

mutual
/-- No function of the program ends without a `return`: this is code that does not need the macro. -/
def explicitReturns : St β → Bool
  | .defn _ _ _ _ b => (match b.getLast? with | some (.ret _) => true | _ => false) && explicitReturnss b
  | .ite _ b₁ b₂ => explicitReturnss b₁ && explicitReturnss b₂
  | .while _ b => explicitReturnss b
  | .tryx b _ h o f => explicitReturnss b && explicitReturnss h && explicitReturnss o && explicitReturnss f
  | _ => true

def explicitReturnss : List (St β) → Bool
  | [] => true
  | t :: ts => explicitReturns t && explicitReturnss ts
end

/-- The same outcome of two runs: neither ends within the bounds; or both end, with the same exception or with results that
look the same, the variables hold values that look the same, and the external functions have seen the same calls. -/
def SameEnd : Option (Except (Err ε) (Flow (Val β)) × State β ω) → Option (Except (Err ε) (Flow (Val β)) × State β ω) → Prop
  | none, none => True
  | some (o, s), some (o', s') =>
    (match o, o' with
      | .ok .next, .ok .next => True
      | .ok (.ret v), .ok (.ret v') => obs v = obs v'
      | .error e, .error e' => e = e'
      | _, _ => False) ∧
    s.heap.map (Option.map obs) = s'.heap.map (Option.map obs) ∧ s.world = s'.world
  | _, _ => False

end Unpy.Tail.Spec
