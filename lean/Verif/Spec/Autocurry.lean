import Verif.Model.Autocurry
/-!
# What `autocurry` should do

Programs are run as they are written.  Without `autocurry`, they are plain Python.  With it, inside the block, all functions are curried when
they are made and also when they are called: a curried function takes its arguments one at a time; it waits for more if some are missing that
have no default, and if there are more than it has parameters, its result is called with the others, as a curried function.

The error `call` is the TypeError for a call of something that is no function, or with a wrong number of arguments.
-/
namespace Unpy.Autocurry.Spec
open Unpy.Autocurry

/-- Values.  A function remembers whether it was made inside the block. -/
inductive RV where
  | int (n : Int)
  | tuple (vs : List RV)
  | values (vs : List RV)
  | show
  | fn (c inside : Bool) (x : Option String) (ps : List String) (ds : List RV) (e : E) (env : List (String × RV)) (pend : List RV)

def yes : RV → Bool
  | .int n => n ≠ 0
  | .tuple [] => false
  | _ => true

/-- Variables of a function's body: its arguments, then the defaults of its last parameters, then itself, then those around it. -/
def scope (auto inside : Bool) (x : Option String) (ps : List String) (ds : List RV) (e : E) (env : List (String × RV)) (args : List RV) :
    List (String × RV) :=
  ps.zip args ++ ((ps.drop (ps.length - ds.length)).zip ds ++ (match x with
    | some y => (y, .fn (auto && inside) inside x ps ds e env []) :: env
    | none => env))

/-- Give arguments one at a time to a function with `k` parameters: those it has then, and those left over. -/
def give (k : Nat) (has : List RV) : List RV → List RV × List RV
  | [] => (has, [])
  | v :: vs => if has.length = k then (has, v :: vs) else give k (has ++ [v]) vs

/-- `curry(f)`: a builtin cannot be curried; what is no function stays as it is. -/
def curry : RV → M RV
  | .show => M.fail .value
  | .fn _ i x ps ds e env pend => M.pure (.fn true i x ps ds e env pend)
  | v => M.pure v

/-- A call of the builtin. -/
def showIt : List RV → M RV
  | [.int n] => (M.emit n).bind fun _ => M.pure (.int n)
  | _ => M.fail .type

/-- Who is called with the arguments left over: a function that was returned, or the first of several values; the other values are
arguments, too. -/
def next (r : RV) (rest : List RV) : RV × List RV :=
  match r with
  | .values (v :: vs) => (v, vs ++ rest)
  | r => (r, rest)

/-- A curried function that has got some arguments, and those left over: it waits if it has fewer than it needs; else it is run, and if
there are arguments left over, its result is called with them. -/
def feed (run : List RV → M RV) (again : RV → List RV → M RV) (wait : List RV → RV) (needs : Nat) : List RV × List RV → M RV
  | (has, []) => if has.length < needs then M.pure (wait has) else run has
  | (has, rest) => (run has).bind fun r => match next r rest with
    | (.show, _) => M.fail .value
    | (.fn c i x ps ds e env pend, args) => again (.fn c i x ps ds e env pend) args
    | _ => M.fail .call

mutual
/-- Evaluate an expression, without or with `autocurry`, outside or inside the block. -/
def eval (auto : Bool) : Nat → Bool → List (String × RV) → E → M RV
  | 0, _, _, _ => M.fail .recursion
  | _ + 1, _, _, .int n => M.pure (.int n)
  | _ + 1, _, env, .name x => match find x env with
    | some v => M.pure v
    | none => M.fail .name
  | n + 1, i, env, .sub a b => (eval auto n i env a).bind fun v => (eval auto n i env b).bind fun w => match v, w with
    | .int v, .int w => M.pure (.int (v - w))
    | _, _ => M.fail .type
  | n + 1, i, env, .ite b t e => (eval auto n i env t).bind fun v => if yes v then eval auto n i env b else eval auto n i env e
  | n + 1, i, env, .lam ps ds e => (evalAll auto n i env ds).bind fun ds => M.pure (.fn (auto && i) i none ps ds e env [])
  | n + 1, i, env, .call f args => (eval auto n i env f).bind fun f => (evalAll auto n i env args).bind fun vs =>
    apply auto n (auto && i) f vs
  | n + 1, i, env, .tuple es => (evalAll auto n i env es).bind fun vs => M.pure (.tuple vs)
  | n + 1, i, env, .values es => (evalAll auto n i env es).bind fun vs => M.pure (.values vs)
  | _ + 1, _, _, .show => M.pure .show
  | n + 1, i, env, .curry e => (eval auto n i env e).bind curry
  | n + 1, i, env, .fdef x ps ds e rest => (evalAll auto n i env ds).bind fun ds =>
    eval auto n i ((x, .fn (auto && i) i (some x) ps ds e env []) :: env) rest
  | n + 1, _, env, .leave e => eval auto n false env e
termination_by structural n => n
def evalAll (auto : Bool) : Nat → Bool → List (String × RV) → Es → M (List RV)
  | 0, _, _, _ => M.fail .recursion
  | _ + 1, _, _, .nil => M.pure []
  | n + 1, i, env, .cons e es => (eval auto n i env e).bind fun v => (evalAll auto n i env es).bind fun vs => M.pure (v :: vs)
termination_by structural n => n
/-- Call, with `c` as a curried function in any case. -/
def apply (auto : Bool) : Nat → Bool → RV → List RV → M RV
  | 0, _, _, _ => M.fail .recursion
  | n + 1, c, .fn c' i x ps ds e env pend, vs =>
    if c || c' then
      feed (fun args => eval auto n i (scope auto i x ps ds e env args) e) (fun f args => apply auto n true f args)
        (fun args => .fn true i x ps ds e env args) (ps.length - ds.length) (give ps.length pend vs)
    else if ps.length ≤ vs.length + ds.length ∧ vs.length ≤ ps.length then eval auto n i (scope auto i x ps ds e env vs) e
    else M.fail .call
  | _ + 1, _, .show, vs => showIt vs
  | _ + 1, _, _, _ => M.fail .call
termination_by structural n => n
end

/-- What can be seen of a value: functions are only seen by what they do when they are called. -/
inductive Seen where
  | int (n : Int)
  | tuple (vs : List Seen)
  | values (vs : List Seen)
  | fn

mutual
def seenV : V → Seen
  | .int n => .int n
  | .tuple vs => .tuple (seenVs vs)
  | .values vs => .values (seenVs vs)
  | .show | .fn .. => .fn
def seenVs : List V → List Seen
  | [] => []
  | v :: vs => seenV v :: seenVs vs
end

mutual
def seenRV : RV → Seen
  | .int n => .int n
  | .tuple vs => .tuple (seenRVs vs)
  | .values vs => .values (seenRVs vs)
  | .show | .fn .. => .fn
def seenRVs : List RV → List Seen
  | [] => []
  | v :: vs => seenRV v :: seenRVs vs
end

mutual
/-- Nothing that `autocurry` would change. -/
def Bare : E → Prop
  | .int _ | .name _ | .show => True
  | .sub a b => Bare a ∧ Bare b
  | .ite b t e => Bare b ∧ Bare t ∧ Bare e
  | .lam .. | .call .. | .fdef .. => False
  | .tuple es | .values es => BareAll es
  | .curry e => Bare e
  | .leave _ => True
def BareAll : Es → Prop
  | .nil => True
  | .cons e es => Bare e ∧ BareAll es
end

/-- For calls with one argument around a lambda: whether one of them is `curry(...)` or `curry(...)(...)`. -/
def decorated : E → Option Bool
  | .lam .. => some false
  | .curry e => (decorated e).map fun _ => true
  | .call (.curry _) (.cons e .nil) => (decorated e).map fun _ => true
  | .call _ (.cons e .nil) | .values (.cons e .nil) => decorated e
  | _ => none

mutual
/-- There is no lambda in a function decorated with a `curry` of the user (`inCurry`), apart from the one that is curried directly; and no call,
lambda or definition in a default of a lambda. -/
def Fine (inCurry : Bool) : E → Prop
  | .int _ | .name _ | .show => True
  | .sub a b => Fine inCurry a ∧ Fine inCurry b
  | .ite b t e => Fine inCurry b ∧ Fine inCurry t ∧ Fine inCurry e
  | .lam _ ds e => inCurry = false ∧ BareAll ds ∧ Fine false e
  | .call f args => Fine (inCurry || decorated (.call f args) == some true) f ∧ FineAll (inCurry || decorated (.call f args) == some true) args
  | .tuple es | .values es => FineAll inCurry es
  | .curry (.lam _ ds e) => FineAll true ds ∧ Fine true e
  | .curry e => Fine (inCurry || decorated (.curry e) == some true) e
  | .fdef _ _ ds e rest => FineAll inCurry ds ∧ Fine inCurry e ∧ Fine inCurry rest
  | .leave _ => True
def FineAll (inCurry : Bool) : Es → Prop
  | .nil => True
  | .cons e es => Fine inCurry e ∧ FineAll inCurry es
end

end Unpy.Autocurry.Spec
