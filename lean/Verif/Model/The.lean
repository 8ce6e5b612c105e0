import Verif.Model.Eff
/-!
# Model of the macros `test[...]`, `with test:`, `test_raises[...]`, `with test_raises[...]:` and `the[...]` (`unpythonic/syntax/testingtools.py`)

Expressions and blocks of statements with tests in them, what the macros make of them, and what the result does when it runs.

Simplifications.  The functions and the comparisons of the program, its outer variables and the truth of values are given by a `World`; they may have
any effects.  The tests are in a testset: a test that does not pass is put on a log, and the program goes on (for the test framework around, and for
conditions, see `Model/Fixtures.lean`).  Names made by `gensym` are numbers here; a test has the number of tests around it, so that tests around
each other have different ones.  Sources are the trees; how they are shown is up to the `World`, too.
-/
namespace Unpy.The
open Unpy.Eff

/-! ## Programs -/

mutual
/-- Expressions. -/
inductive E (V : Type) where
  | lit (v : V)
  | none
  | true
  | name (x : String)
  | call (f : String) (args : Es V)
  /-- `a < b <= c`, … -/
  | cmp (left : E V) (rest : Cs V)
  | and (a b : E V)
  | or (a b : E V)
  | ite (c a b : E V)
  /-- `all(e for x in it)` -/
  | all (e : E V) (x : String) (it : E V)
  | tuple (es : Es V)
  /-- `the[e]` -/
  | the (e : E V)
  /-- `test[e]` -/
  | test (e : E V)
  /-- `test_raises[t, e, msg]`; if there is no message, it is `none`. -/
  | raises (t e msg : E V)
  /-- `_record_value(env, source, e)`, in expanded programs -/
  | record (env : Nat) (source e : E V)
  /-- `unpythonic_assert(source, lambda env: e, message=msg)`, in expanded programs -/
  | assert (env : Nat) (source e msg : E V)
  /-- `unpythonic_assert_raises(t, source, lambda: e, message=msg)`, in expanded programs -/
  | assertRaises (t source e msg : E V)
inductive Es (V : Type) where
  | nil
  | cons (e : E V) (es : Es V)
/-- The rest of a comparison. -/
inductive Cs (V : Type) where
  | nil
  | cons (op : String) (e : E V) (cs : Cs V)
end

mutual
/-- Statements. -/
inductive S (V : Type) where
  | expr (e : E V)
  | assign (x : String) (e : E V)
  | ret (e : E V)
  | ite (c : E V) (t e : Ss V)
  /-- `with test[msg]: body`; if there is no message, it is `none`. -/
  | test (msg : E V) (body : Ss V)
  /-- `with test_raises[t, msg]: body`; if there is no message, it is `none`. -/
  | raises (t msg : E V) (body : Ss V)
  /-- `def testblock(env): body`, `unpythonic_assert(source, testblock, message=msg)`, in expanded programs -/
  | assert (env : Nat) (source : Ss V) (body : Ss V) (msg : E V)
  /-- `def testblock(): body`, `unpythonic_assert_raises(t, source, testblock, message=msg)`, in expanded programs -/
  | assertRaises (t : E V) (source : Ss V) (body : Ss V) (msg : E V)
inductive Ss (V : Type) where
  | nil
  | cons (s : S V) (ss : Ss V)
end

variable {V : Type}

/-! ## The macros -/

mutual
/-- `_transform_important_subexpr` (testingtools.py:871-895).  Nested `test[...]`s and `test_raises[...]`s are left as they are (testingtools.py:475-483, 880-881).  The source is taken of the expression in
which nested marks have been transformed already (lines 889-890). -/
def transform (env : Nat) : E V → E V
  | .lit v => .lit v
  | .none => .none
  | .true => .true
  | .name x => .name x
  | .call f args => .call f (transformEs env args)
  | .cmp l cs => .cmp (transform env l) (transformCs env cs)
  | .and a b => .and (transform env a) (transform env b)
  | .or a b => .or (transform env a) (transform env b)
  | .ite c a b => .ite (transform env c) (transform env a) (transform env b)
  | .all e x it => .all (transform env e) x (transform env it)
  | .tuple es => .tuple (transformEs env es)
  | .the e => .record env (transform env e) (transform env e)
  | .test e => .test e
  | .raises t e msg => .raises t e msg
  | .record env' src e => .record env' src (transform env e)
  | .assert env' src e msg => .assert env' src (transform env e) (transform env msg)
  | .assertRaises t src e msg => .assertRaises (transform env t) src (transform env e) (transform env msg)
def transformEs (env : Nat) : Es V → Es V
  | .nil => .nil
  | .cons e es => .cons (transform env e) (transformEs env es)
def transformCs (env : Nat) : Cs V → Cs V
  | .nil => .nil
  | .cons op e cs => .cons op (transform env e) (transformCs env cs)
end

mutual
/-- Whether anything is collected by `_transform_important_subexpr` (testingtools.py:887). -/
def marked : E V → Bool
  | .lit _ | .none | .true | .name _ | .test _ | .raises .. => false
  | .call _ args => markedEs args
  | .cmp l cs => marked l || markedCs cs
  | .and a b | .or a b => marked a || marked b
  | .ite c a b => marked c || marked a || marked b
  | .all e _ it => marked e || marked it
  | .tuple es => markedEs es
  | .the _ => true
  | .record _ _ e => marked e
  | .assert _ _ e msg => marked e || marked msg
  | .assertRaises t _ e msg => marked t || marked e || marked msg
def markedEs : Es V → Bool
  | .nil => false
  | .cons e es => marked e || markedEs es
def markedCs : Cs V → Bool
  | .nil => false
  | .cons _ e cs => marked e || markedCs cs
end

mutual
/-- `_transform_important_subexpr` (testingtools.py:871-895) for statements.  The `test[msg]` in `with test[msg]:` is left as it is, but the block is not; and so for `test_raises[t, msg]`. -/
def transformS (env : Nat) : S V → S V
  | .expr e => .expr (transform env e)
  | .assign x e => .assign x (transform env e)
  | .ret e => .ret (transform env e)
  | .ite c t e => .ite (transform env c) (transformSs env t) (transformSs env e)
  | .test msg body => .test msg (transformSs env body)
  | .raises t msg body => .raises t msg (transformSs env body)
  | .assert env' src body msg => .assert env' src (transformSs env body) (transform env msg)
  | .assertRaises t src body msg => .assertRaises (transform env t) src (transformSs env body) (transform env msg)
def transformSs (env : Nat) : Ss V → Ss V
  | .nil => .nil
  | .cons s ss => .cons (transformS env s) (transformSs env ss)
end

mutual
def markedS : S V → Bool
  | .expr e | .assign _ e | .ret e => marked e
  | .ite c t e => marked c || markedSs t || markedSs e
  | .test _ body => markedSs body
  | .raises _ _ body => markedSs body
  | .assert _ _ body msg => markedSs body || marked msg
  | .assertRaises t _ body msg => marked t || markedSs body || marked msg
def markedSs : Ss V → Bool
  | .nil => false
  | .cons s ss => markedS s || markedSs ss
end

/-- The implicit mark on the left of a comparison, if there are no other marks (testingtools.py:832-833, 987-989). -/
def implicit (env : Nat) (marks : Bool) : E V → E V
  | .cmp l cs => if marks then .cmp l cs else .cmp (.record env l l) cs
  | e => e

/-- The `return` at the top level of a block, the first one if there are several, gets its implicit mark; if there is none, `return True` is added
(testingtools.py:984-997). -/
def finish (env : Nat) (marks : Bool) : Ss V → Ss V
  | .nil => .cons (.ret .true) .nil
  | .cons (.ret e) ss => .cons (.ret (implicit env marks e)) ss
  | .cons s ss => .cons s (finish env marks ss)

mutual
/-- Macro expansion, from the outside in: `_test_expr` (testingtools.py:801-854), `_test_expr_raises` (testingtools.py:900-928), and then what is inside.  `d` is the number of tests around.  The first
argument is a bound for the depth of the recursion. -/
def expand : Nat → Nat → E V → E V
  | 0, _, e => e
  | _ + 1, _, .lit v => .lit v
  | _ + 1, _, .none => .none
  | _ + 1, _, .true => .true
  | _ + 1, _, .name x => .name x
  | n + 1, d, .call f args => .call f (expandEs n d args)
  | n + 1, d, .cmp l cs => .cmp (expand n d l) (expandCs n d cs)
  | n + 1, d, .and a b => .and (expand n d a) (expand n d b)
  | n + 1, d, .or a b => .or (expand n d a) (expand n d b)
  | n + 1, d, .ite c a b => .ite (expand n d c) (expand n d a) (expand n d b)
  | n + 1, d, .all e x it => .all (expand n d e) x (expand n d it)
  | n + 1, d, .tuple es => .tuple (expandEs n d es)
  | n + 1, d, .the e => .the (expand n d e)
  | n + 1, d, .test (.tuple (.cons e (.cons msg .nil))) =>
    .assert d e (expand n (d + 1) (implicit d (marked e) (transform d e))) (expand n d msg)
  | n + 1, d, .test e => .assert d e (expand n (d + 1) (implicit d (marked e) (transform d e))) .none
  | n + 1, d, .raises t e msg => .assertRaises (expand n d t) e (expand n d e) (expand n d msg)
  | n + 1, d, .record env src e => .record env src (expand n d e)
  | n + 1, d, .assert env src e msg => .assert env src (expand n d e) (expand n d msg)
  | n + 1, d, .assertRaises t src e msg => .assertRaises (expand n d t) src (expand n d e) (expand n d msg)
def expandEs : Nat → Nat → Es V → Es V
  | 0, _, es => es
  | _ + 1, _, .nil => .nil
  | n + 1, d, .cons e es => .cons (expand n d e) (expandEs n d es)
def expandCs : Nat → Nat → Cs V → Cs V
  | 0, _, cs => cs
  | _ + 1, _, .nil => .nil
  | n + 1, d, .cons op e cs => .cons op (expand n d e) (expandCs n d cs)
end

mutual
/-- Macro expansion of statements: `_test_block` (testingtools.py:935-999), `_test_block_raises` (testingtools.py:1004-1043). -/
def expandS : Nat → Nat → S V → S V
  | 0, _, s => s
  | n + 1, d, .expr e => .expr (expand n d e)
  | n + 1, d, .assign x e => .assign x (expand n d e)
  | n + 1, d, .ret e => .ret (expand n d e)
  | n + 1, d, .ite c t e => .ite (expand n d c) (expandSs n d t) (expandSs n d e)
  | n + 1, d, .test msg body =>
    .assert d body (expandSs n (d + 1) (finish d (markedSs body) (transformSs d body))) (expand n d msg)
  | n + 1, d, .raises t msg body => .assertRaises (expand n d t) body (expandSs n d body) (expand n d msg)
  | n + 1, d, .assert env src body msg => .assert env src (expandSs n d body) (expand n d msg)
  | n + 1, d, .assertRaises t src body msg => .assertRaises (expand n d t) src (expandSs n d body) (expand n d msg)
def expandSs : Nat → Nat → Ss V → Ss V
  | 0, _, ss => ss
  | _ + 1, _, .nil => .nil
  | n + 1, d, .cons s ss => .cons (expandS n d s) (expandSs n d ss)
end

/-! ## Running -/

variable {σ X τ : Type}

/-- What the program does not say itself. -/
structure World (V σ X τ : Type) where
  truthy : V → Bool
  none : V
  true : V
  false : V
  tuple : List V → V
  call : String → List V → Eff σ X V
  cmp : String → V → V → Eff σ X V
  /-- iterating over a value -/
  items : V → Eff σ X (List V)
  /-- a variable from outside -/
  outer : String → Eff σ X V
  /-- UnboundLocalError -/
  unbound : String → X
  /-- SyntaxError: a macro that is not expanded -/
  unexpanded : X
  /-- `isinstance(x, Exception)` -/
  isException : X → Bool
  /-- `isinstance(x, t)` -/
  isInstance : X → V → Eff σ X Bool
  unparse : E V → τ
  unparseBlock : Ss V → τ

/-- How the code of a test ended. -/
inductive Outcome (V X : Type) where
  | completed (v : V)
  | raised (x : X)

/-- What is known about a test that did not pass (testingtools.py:709-711). -/
structure Report (V X τ : Type) where
  source : τ
  captured : List (τ × V)
  outcome : Outcome V X
  message : V

/-- Everything that can change: what belongs to the program; the `captured_values` of each test that is running; the tests run, and the tests not passed. -/
structure St (V σ X τ : Type) where
  user : σ
  captured : Nat → List (τ × V)
  run : Nat
  log : List (Report V X τ)

abbrev M (V σ X τ : Type) (α : Type) := Eff (St V σ X τ) X α

/-- Something the program does. -/
def lift {α : Type} (m : Eff σ X α) : M V σ X τ α := fun s => let r := m s.user; (r.1, { s with user := r.2 })

/-- A variable seen from a place in the program. -/
inductive Slot (V : Type) where
  | outer
  | unbound
  | val (v : V)

abbrev Vars (V : Type) := String → Slot V

def Vars.set (vars : Vars V) (x : String) (v : V) : Vars V := fun y => if y = x then .val v else vars y

def read (W : World V σ X τ) (vars : Vars V) (x : String) : M V σ X τ V := match vars x with
  | .outer => lift (W.outer x)
  | .unbound => raise (W.unbound x)
  | .val v => ret v

/-- `_record_value` (testingtools.py:863-865) -/
def recordValue (env : Nat) (source : τ) (v : V) : M V σ X τ V := fun s =>
  (.ok v, { s with captured := fun i => if i = env then s.captured i ++ [(source, v)] else s.captured i })

/-- `unpythonic_assert(source, func, message=msg)` (testingtools.py:542-711) and `_observe` (testingtools.py:503-539), with a handler around that logs and proceeds.
(What was in `captured` for this number is of no use any more; it is put back.) -/
def assertFunc (W : World V σ X τ) (env : Nat) (source : τ) (func : M V σ X τ V) (msg : V) : M V σ X τ V := fun s =>
  let r := func { s with captured := fun i => if i = env then [] else s.captured i }
  let back := { r.2 with captured := fun i => if i = env then s.captured i else r.2.captured i }
  match r.1 with
  | .ok v =>
    if W.truthy v then (.ok W.none, { back with run := back.run + 1 })
    else (.ok W.none, { back with run := back.run + 1, log := back.log ++ [⟨source, r.2.captured env, .completed v, msg⟩] })
  | .error x =>
    if W.isException x then (.ok W.none, { back with run := back.run + 1, log := back.log ++ [⟨source, r.2.captured env, .raised x, msg⟩] })
    else (.error x, back)

/-- `unpythonic_assert_raises(t, source, func, message=msg)` (testingtools.py:748-781), with a handler around that logs and proceeds. -/
def assertRaisesFunc (W : World V σ X τ) (t : V) (source : τ) (func : M V σ X τ V) (msg : V) : M V σ X τ V := fun s =>
  let r := func s
  match r.1 with
  | .ok v => (.ok W.none, { r.2 with run := r.2.run + 1, log := r.2.log ++ [⟨source, [], .completed v, msg⟩] })
  | .error x =>
    if W.isException x then
      bind (lift (W.isInstance x t)) (fun b => if b then ret W.none
        else fun s => (.ok W.none, { s with log := s.log ++ [⟨source, [], .raised x, msg⟩] })) { r.2 with run := r.2.run + 1 }
    else (.error x, r.2)

/-- `all(...)`, each item being handled by `f` -/
def allLoop (W : World V σ X τ) (f : V → M V σ X τ V) : List V → M V σ X τ V
  | [] => ret W.true
  | v :: vs => bind (f v) fun r => if W.truthy r then allLoop W f vs else ret W.false

mutual
/-- Evaluate an expanded expression. -/
def evalE (W : World V σ X τ) (vars : Vars V) : E V → M V σ X τ V
  | .lit v => ret v
  | .none => ret W.none
  | .true => ret W.true
  | .name x => read W vars x
  | .call f args => bind (evalEs W vars args) fun args => lift (W.call f args)
  | .cmp l cs => bind (evalE W vars l) fun v => evalCs W vars v cs
  | .and a b => bind (evalE W vars a) fun v => if W.truthy v then evalE W vars b else ret v
  | .or a b => bind (evalE W vars a) fun v => if W.truthy v then ret v else evalE W vars b
  | .ite c a b => bind (evalE W vars c) fun v => if W.truthy v then evalE W vars a else evalE W vars b
  | .all e x it => bind (evalE W vars it) fun v => bind (lift (W.items v)) fun vs => allLoop W (fun v => evalE W (vars.set x v) e) vs
  | .tuple es => bind (evalEs W vars es) fun vs => ret (W.tuple vs)
  | .the _ | .test _ | .raises .. => raise W.unexpanded
  | .record env src e => bind (evalE W vars e) fun v => recordValue env (W.unparse src) v
  | .assert env src e msg => bind (evalE W vars msg) fun m => assertFunc W env (W.unparse src) (evalE W vars e) m
  | .assertRaises t src e msg => bind (evalE W vars t) fun t => bind (evalE W vars msg) fun m => assertRaisesFunc W t (W.unparse src) (evalE W vars e) m
def evalEs (W : World V σ X τ) (vars : Vars V) : Es V → M V σ X τ (List V)
  | .nil => ret []
  | .cons e es => bind (evalE W vars e) fun v => bind (evalEs W vars es) fun vs => ret (v :: vs)
/-- The rest of a comparison; `v` is the value on the left. -/
def evalCs (W : World V σ X τ) (vars : Vars V) (v : V) : Cs V → M V σ X τ V
  | .nil => ret v
  | .cons op e .nil => bind (evalE W vars e) fun w => lift (W.cmp op v w)
  | .cons op e cs => bind (evalE W vars e) fun w => bind (lift (W.cmp op v w)) fun r => if W.truthy r then evalCs W vars w cs else ret r
end

mutual
/-- The names assigned in a block. -/
def assigned : S V → List String
  | .assign x _ => [x]
  | .ite _ t e => assigneds t ++ assigneds e
  | .expr _ | .ret _ | .test .. | .raises .. | .assert .. | .assertRaises .. => []
def assigneds : Ss V → List String
  | .nil => []
  | .cons s ss => assigned s ++ assigneds ss
end

/-- The variables at the beginning of a function with this body. -/
def enter (vars : Vars V) (body : Ss V) : Vars V := fun x => if x ∈ assigneds body then .unbound else vars x

mutual
/-- Execute an expanded statement: the variables afterwards, and what has been returned, if anything. -/
def execS (W : World V σ X τ) (vars : Vars V) : S V → M V σ X τ (Vars V × Option V)
  | .expr e => bind (evalE W vars e) fun _ => ret (vars, .none)
  | .assign x e => bind (evalE W vars e) fun v => ret (vars.set x v, .none)
  | .ret e => bind (evalE W vars e) fun v => ret (vars, some v)
  | .ite c t e => bind (evalE W vars c) fun v => if W.truthy v then exec W vars t else exec W vars e
  | .test .. | .raises .. => raise W.unexpanded
  | .assert env src body msg => bind (evalE W vars msg) fun m =>
    bind (assertFunc W env (W.unparseBlock src) (bind (exec W (enter vars body) body) fun r => ret (r.2.getD W.none)) m) fun _ => ret (vars, .none)
  | .assertRaises t src body msg => bind (evalE W vars t) fun t => bind (evalE W vars msg) fun m =>
    bind (assertRaisesFunc W t (W.unparseBlock src) (bind (exec W (enter vars body) body) fun r => ret (r.2.getD W.none)) m) fun _ => ret (vars, .none)
def exec (W : World V σ X τ) (vars : Vars V) : Ss V → M V σ X τ (Vars V × Option V)
  | .nil => ret (vars, .none)
  | .cons s ss => bind (execS W vars s) fun r => match r.2 with
    | some v => ret (r.1, some v)
    | .none => exec W r.1 ss
end

/-! ## The message -/

/-- The values shown in the message of a test that failed (testingtools.py:590-631), with `repr` for the values.  The ones to be left out are those where the source is the
same as `repr(repr(v))`, which is a string; `literal` is for string literals. -/
def shown (literal : E V → Option String) (repr : V → String) (captured : List (E V × V)) : List (E V × String) :=
  (captured.map fun p => (p.1, repr p.2)).filter fun p => literal p.1 != some p.2

end Unpy.The
