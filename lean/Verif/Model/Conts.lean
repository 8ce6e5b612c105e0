import Verif.Model.PyExpr
/-!
# Model of the block macro `continuations` (`unpythonic/syntax/tailtools.py`)

Source programs (`Ex`, `St`), the expanded code (`Out.Ex`, `Out.St`), the expansion, and Python's semantics for expanded code.

Expressions: constants, names, calls with positional arguments and possibly `cc=...`, lambdas, `a if p else b`, tuples,
`Values(...)`, `and`, `or`, `do[a, b]`, `let[[x, a] in b]`.  Statements: `return`, assignment, `if`, `while`, `def`, `nonlocal`, `call_cc[...]`.  Every function takes `cc`
as a parameter by name, whether or not the program declares it.

Not modelled: assignment to variables of `let`, and variables of `do`; names taken for escape
continuations, calls of `jump` and `loop`; parameters with defaults, other named arguments and named return values;
exceptions caught by the program; decorators; classes, generators, `async`.  Programs do not use the names `_pcc` and `it`, nor
`cc` for a variable of `let`.
-/
namespace Unpy.Conts
open Unpy.PyExpr (M ret raise bind Err)

/-- Expressions of the source program. -/
inductive Ex (β : Type) where
  | cst (c : β)
  | non
  | name (x : String)
  | call (f : Ex β) (args : List (Ex β))
  /-- `f(*args, cc=k)` -/
  | callK (f : Ex β) (args : List (Ex β)) (k : Ex β)
  | lam (ps : List String) (body : Ex β)
  | ife (c t e : Ex β)
  | tup (es : List (Ex β))
  /-- `Values(*es)` -/
  | values (es : List (Ex β))
  /-- `a or b`, `a and b`; with more operands, the operands but the last are `a` -/
  | bool (isOr : Bool) (a b : Ex β)
  /-- `do[a, b]` -/
  | doe (a b : Ex β)
  /-- `let[[x, a] in b]` -/
  | letx (x : String) (a b : Ex β)

/-- What is called by `call_cc[...]`: a call, or `None`. -/
inductive CallCc (β : Type) where
  | call (f : Ex β) (args : List (Ex β))
  | skip

/-- Statements of the source program. -/
inductive St (β : Type) where
  | ret (e : Option (Ex β))
  | expr (e : Ex β)
  | assign (x : String) (e : Ex β)
  | ite (c : Ex β) (body orelse : List (St β))
  | while (c : Ex β) (body : List (St β))
  | defn (x : String) (ps : List String) (body : List (St β))
  | nonlocal (xs : List String)
  /-- `targets..., *star = call_cc[thecall]` or `... = call_cc[thecall if cond else altcall]` -/
  | callcc (targets : List String) (star : Option String) (cond : Option (Ex β)) (thecall altcall : CallCc β)

namespace Out

/-- Expressions of expanded code. -/
inductive Ex (β : Type) where
  | cst (c : β)
  | non
  /-- `identity` -/
  | ident
  | name (x : String)
  | call (f : Ex β) (args : List (Ex β))
  | callK (f : Ex β) (args : List (Ex β)) (k : Ex β)
  /-- `trampolined(lambda *ps, cc=identity, _pcc=None: body)` -/
  | lam (ps : List String) (body : Ex β)
  | ife (c t e : Ex β)
  | tup (es : List (Ex β))
  | values (es : List (Ex β))
  /-- `jump(f, *args, cc=k)` -/
  | jump (f : Ex β) (args : List (Ex β)) (k : Ex β)
  /-- `chain_conts(_pcc, e, with_star=True)` -/
  | chain (e : Ex β)
  /-- `chain_conts(_pcc, cc)(e)` -/
  | data (e : Ex β)
  /-- `False` -/
  | ff
  | bool (isOr : Bool) (a b : Ex β)
  | doe (a b : Ex β)
  | letx (x : String) (a b : Ex β)
  /-- `aif[a, chain_conts(_pcc, cc)(it), b]` -/
  | aif (a b : Ex β)

/-- Statements of expanded code. -/
inductive St (β : Type) where
  | ret (e : Ex β)
  | expr (e : Ex β)
  | assign (x : String) (e : Ex β)
  | ite (c : Ex β) (body orelse : List (St β))
  | while (c : Ex β) (body : List (St β))
  /-- `@trampolined def x(*ps, cc=identity, _pcc=None): body` -/
  | defn (x : String) (ps : List String) (body : List (St β))
  | nonlocal (xs : List String)
  /-- `@trampolined def f_cont(*targets, *star, cc=identity, _pcc=(cc if cc is not identity else None)): body`, where `f_cont`
  is a new name, which the following statement refers to -/
  | defk (targets : List String) (star : Option String) (body : List (St β))
  /-- `return jump(f, *args, cc=f_cont)` -/
  | retk (f : Ex β) (args : List (Ex β))
  /-- `return jump(f_cont, None, ..., None, cc=cc)` -/
  | retkSkip (n : Nat)
  /-- `f(*args, cc=f_cont)` -/
  | exprk (f : Ex β) (args : List (Ex β))
  /-- `f_cont(None, ..., None, cc=cc)` -/
  | exprkSkip (n : Nat)
  /-- expansion fails with SyntaxError -/
  | stray

end Out

/-! ## The expansion -/

section
variable {β : Type}

/-- `type(tree.values[-1]) in (Call, IfExp, BoolOp)` (tailtools.py:1621); expanded `let` and `do` are calls. -/
def compound : Ex β → Bool
  | .call .. | .callK .. | .values .. | .doe .. | .letx .. | .ife .. | .bool .. => true
  | .cst _ | .non | .name _ | .lam .. | .tup _ => false

mutual
/-- Transform the lambdas in an expression (`_tco_transform_lambda`, tailtools.py:1519-1544). -/
def tr : Ex β → Out.Ex β
  | .cst c => .cst c
  | .non => .non
  | .name x => .name x
  | .call f args => .call (tr f) (trs args)
  | .callK f args k => .callK (tr f) (trs args) (tr k)
  | .lam ps b => .lam ps (trTail b)
  | .ife c t e => .ife (tr c) (tr t) (tr e)
  | .tup es => .tup (trs es)
  | .values es => .values (trs es)
  | .bool o a b => .bool o (tr a) (tr b)
  | .doe a b => .doe (tr a) (tr b)
  | .letx x a b => .letx x (tr a) (tr b)

def trs : List (Ex β) → List (Out.Ex β)
  | [] => []
  | e :: es => tr e :: trs es

/-- `_transform_retexpr` (tailtools.py:1550-1644) with the callbacks `call_cb` and `data_cb` (869-884), followed by the
transformation of lambdas in it.  (The code makes these in separate passes.) -/
def trTail : Ex β → Out.Ex β
  | .call f args => .jump (tr f) (trs args) (.chain (.name "cc"))
  | .callK f args k => .jump (tr f) (trs args) (.chain (tr k))
  | .ife c t e => .ife (tr c) (trTail t) (trTail e)
  | .cst c => .data (.cst c)
  | .non => .data .non
  | .name x => .data (.name x)
  | .lam ps b => .data (.lam ps (trTail b))
  | .tup es => .data (.tup (trs es))
  | .values es => .data (.values (trs es))
  | .bool true a b => if compound b then .aif (tr a) (trTail b) else .data (.bool true (tr a) (tr b))
  | .bool false a b => if compound b then .ife (tr a) (trTail b) (.data .ff) else .data (.bool false (tr a) (tr b))
  | .doe a b => .doe (tr a) (trTail b)
  | .letx x a b => .letx x (tr a) (trTail b)
end

/-- `type(stmt) is Return` -/
def isRet : St β → Bool
  | .ret _ => true
  | _ => false

/-- The number of arguments for a continuation that is entered directly (tailtools.py:1062-1066, 1090). -/
def skipArgs (targets : List String) (star : Option String) : Nat :=
  if targets.isEmpty && star.isNone then 1 else targets.length

/-- The call in the output of `make_continuation` (tailtools.py:1086-1094, 1132-1150); `owner`: inside a function. -/
def prepareCall (owner : Bool) (n : Nat) : CallCc β → Out.St β
  | .call f args => if owner then .retk (tr f) (trs args) else .exprk (tr f) (trs args)
  | .skip => if owner then .retkSkip n else .exprkSkip n

/-- `make_continuation` (tailtools.py:1056-1151), with the body of the continuation already transformed. -/
def makeContinuation (owner : Bool) (targets : List String) (star : Option String) (cond : Option (Ex β))
    (thecall altcall : CallCc β) (contbody : List (Out.St β)) : List (Out.St β) :=
  let n := skipArgs targets star
  .defk targets star contbody :: match cond with
    | none => [prepareCall owner n thecall]
    | some c => [.ite (tr c) [prepareCall owner n thecall] [prepareCall owner n altcall]]

mutual
/-- The passes of `_continuations` (tailtools.py:1198-1250) on a statement: implicit bare returns (1211-1219), return
statements (1222-1224), `call_cc` (1227-1231), functions (1239-1246).  A `call_cc` in a place like this is an error
(1170-1179). -/
def trS : St β → Out.St β
  | .ret none => .ret (.data .non)
  | .ret (some e) => .ret (trTail e)
  | .expr e => .expr (tr e)
  | .assign x e => .assign x (tr e)
  | .ite c b₁ b₂ => .ite (tr c) (trSs b₁) (trSs b₂)
  | .while c b => .while (tr c) (trSs b)
  | .defn x ps b => .defn x ps (trBody true true false b)
  | .nonlocal xs => .nonlocal xs
  | .callcc .. => .stray

def trSs : List (St β) → List (Out.St β)
  | [] => []
  | s :: ss => trS s :: trSs ss

/-- The same on the body of a function (`fn`) or of the block, where `call_cc` may appear: `transform_callcc` and
`split_at_callcc` (tailtools.py:898-913, 1160-1168).  A bare `return` is added at the end of a function unless its last
statement is a `return` (`last`).  `owner`: inside a function or inside a continuation. -/
def trBody (fn owner last : Bool) : List (St β) → List (Out.St β)
  | [] => if fn && !last then [.ret (.data .non)] else []
  | .callcc targets star cond thecall altcall :: after =>
    if !fn && after.isEmpty then [.stray]
    else makeContinuation owner targets star cond thecall altcall (trBody fn true false after)
  | s :: ss => trS s :: trBody fn owner (isRet s) ss
end

mutual
/-- `StrayCallccChecker` (tailtools.py:1170-1179), and the error for a `call_cc` at the end (907-908). -/
def strayS : Out.St β → Bool
  | .stray => true
  | .ite _ b₁ b₂ => straySs b₁ || straySs b₂
  | .while _ b => straySs b
  | .defn _ _ b => straySs b
  | .defk _ _ b => straySs b
  | _ => false

def straySs : List (Out.St β) → Bool
  | [] => false
  | s :: ss => strayS s || straySs ss
end

/-- `_continuations(block_body)` (tailtools.py:797-1250); `none`: SyntaxError.  A `return` at the top level is one (1201-1203).
The block begins with `cc = identity` (1235-1236). -/
def expand (block : List (St β)) : Option (List (Out.St β)) :=
  if block.any isRet then none
  else
    let b := trBody false false false block
    if straySs b then none else some (.assign "cc" .ident :: b)

end

/-! ## Python -/

/-- Scopes: variables are cells in the heap. -/
abbrev Env := String → Option Nat

/-- The state: the cells (empty, before the first assignment), the state of the external functions. -/
structure State (V ω : Type) where
  heap : List (Option V)
  world : ω

/-- What is not fixed by the code: truth of the constants, which one is `False`, the external functions (on constants, with side
effects). -/
structure World (β ω ε : Type) where
  truthy : β → Bool
  ff : β
  isFf : β → Bool
  isFf_ff : ∀ b, isFf b = true ↔ b = ff
  call : Nat → List β → ω → Except (Err ε) β × ω

/-- How a statement ends, if it does not raise. -/
inductive Flow (α : Type) where
  | next
  | ret (v : α)

section
variable {V ω ε α σ : Type}

/-- Read a variable; one that has not been assigned to is a NameError (UnboundLocalError). -/
def load (ρ : Env) (x : String) : M (State V ω) ε V := fun s =>
  match ρ x with
  | some a => match s.heap[a]? with
    | some (some v) => some (.ok v, s)
    | some none => some (.error .nameError, s)
    | none => some (.error .unmodelled, s)
  | none => some (.error .nameError, s)

/-- Assign to a variable. -/
def store (ρ : Env) (x : String) (v : V) : M (State V ω) ε Unit := fun s =>
  match ρ x with
  | some a => some (.ok (), { s with heap := s.heap.set a (some v) })
  | none => some (.error .unmodelled, s)

/-- Make new variables; the address of the first one. -/
def alloc (vs : List (Option V)) : M (State V ω) ε Nat := fun s =>
  some (.ok s.heap.length, { s with heap := s.heap ++ vs })

/-- The scope with these new variables, in consecutive cells. -/
def frame (ρ : Env) : List String → Nat → Env
  | [], _ => ρ
  | x :: xs, a => fun y => if y = x then some a else frame ρ xs (a + 1) y

/-- `while`, for at most so many rounds. -/
def whileLoop (test : M σ ε Bool) (body : M σ ε (Flow α)) : Nat → M σ ε (Flow α)
  | 0 => fun _ => none
  | n + 1 => bind test fun b =>
      if b then bind body fun fl => match fl with
        | .next => whileLoop test body n
        | .ret v => ret (.ret v)
      else ret .next

/-- The parameters of a continuation and their values (tailtools.py:1059-1066, 1112-1117); a single argument of a continuation
without parameters is ignored. -/
def bindTargets (tup : List V → V) (targets : List String) (star : Option String) (args : List V) :
    Option (List String × List V) :=
  match star with
  | some x => if targets.length ≤ args.length then
      some (targets ++ [x], args.take targets.length ++ [tup (args.drop targets.length)]) else none
  | none =>
    if targets.isEmpty then (if args.length ≤ 1 then some ([], []) else none)
    else if args.length = targets.length then some (targets, args) else none
end

/-- Objects. -/
inductive Val (β : Type) where
  | base (b : β)
  | non
  | tup (vs : List (Val β))
  /-- `Values(*vs)` -/
  | vals (vs : List (Val β))
  /-- `Values(*vs, cc=k)` -/
  | valsK (vs : List (Val β)) (k : Val β)
  /-- an external function -/
  | ext (n : Nat)
  /-- `identity` -/
  | ident
  /-- `get_cc` -/
  | getcc
  /-- a function of the program -/
  | clo (ps : List String) (body : List (Out.St β)) (ρ : Env)
  /-- a continuation, with the default of its parameter `_pcc` -/
  | kont (targets : List String) (star : Option String) (body : List (Out.St β)) (ρ : Env) (pcc : Val β)
  /-- the function made by `chain_conts(cc1, cc2, with_star=True)` -/
  | chain (cc1 cc2 : Val β)
  /-- the object made by `jump(f, *args)` -/
  | jmp (f : Val β) (args : List (Val β))
  /-- the object made by `jump(f, *args, cc=k)` -/
  | jmpK (f : Val β) (args : List (Val β)) (k : Val β)

section
variable {β ω ε : Type}

/-- `bool(v)` -/
def truthy (P : World β ω ε) : Val β → Bool
  | .base b => P.truthy b
  | .non => false
  | .tup vs => !vs.isEmpty
  | _ => true

def bases : List (Val β) → Option (List β)
  | [] => some []
  | .base b :: vs => (bases vs).map (b :: ·)
  | _ :: _ => none

/-- Call an external function. -/
def callExt (P : World β ω ε) (n : Nat) (args : List (Val β)) : M (State (Val β) ω) ε (Val β) := fun s =>
  match bases args with
  | some bs => match P.call n bs s.world with
    | (.ok b, w) => some (.ok (.base b), { s with world := w })
    | (.error e, w) => some (.error e, { s with world := w })
  | none => some (.error .unmodelled, s)

def callable : Val β → Bool
  | .ext _ | .ident | .getcc | .clo .. | .kont .. | .chain .. => true
  | _ => false

/-- `chain_conts(cc1, cc2, with_star=True)` (tailtools.py:763-772) -/
def chainStar (cc1 cc2 : Val β) : Val β :=
  match cc1 with
  | .non => cc2
  | cc1 => .chain cc1 cc2

/-- `chain_conts(cc1, cc2)(return_value)` (tailtools.py:773-785).  With `cc` among the named return values and again as an
argument, the call of `jump` is a TypeError. -/
def chainData (cc1 cc2 value : Val β) : M (State (Val β) ω) ε (Val β) :=
  match cc1 with
  | .non => match value with
    | .vals vs => ret (.jmp cc2 vs)
    | .valsK vs k => ret (.jmpK cc2 vs k)
    | v => ret (.jmp cc2 [v])
  | cc1 => match value with
    | .vals vs => ret (.jmpK cc1 vs cc2)
    | .valsK _ _ => raise (.py .TypeError)
    | v => ret (.jmpK cc1 [v] cc2)

/-- `cc if cc is not identity else None` (tailtools.py:1109-1111) -/
def maybeCapture : Val β → Val β
  | .ident => .non
  | c => c

/-- `identity(*args)` (fun.py:650-675) -/
def pack : List (Val β) → Val β
  | [] => .non
  | [v] => v
  | vs => .vals vs

abbrev Ap (β ω ε : Type) := Val β → List (Val β) → Option (Val β) → M (State (Val β) ω) ε (Val β)

mutual
/-- Evaluate an expression; `ap` calls an object, with `cc=...` or without.  `pcc` is the value of the parameter `_pcc` of the
function that the expression is in, if it is in one. -/
def eval (P : World β ω ε) (ap : Ap β ω ε) (ρ : Env) (pcc : Option (Val β)) : Out.Ex β → M (State (Val β) ω) ε (Val β)
  | .cst c => ret (.base c)
  | .non => ret .non
  | .ident => ret .ident
  | .name x => load ρ x
  | .call f args => bind (eval P ap ρ pcc f) fun fv => bind (evals P ap ρ pcc args) fun vs => ap fv vs none
  | .callK f args k => bind (eval P ap ρ pcc f) fun fv => bind (evals P ap ρ pcc args) fun vs =>
      bind (eval P ap ρ pcc k) fun kv => ap fv vs (some kv)
  | .lam ps b => ret (.clo ps [.ret b] ρ)
  | .ife c t e => bind (eval P ap ρ pcc c) fun v => if truthy P v then eval P ap ρ pcc t else eval P ap ρ pcc e
  | .tup es => bind (evals P ap ρ pcc es) fun vs => ret (.tup vs)
  | .values es => bind (evals P ap ρ pcc es) fun vs => ret (.vals vs)
  | .jump f args k => bind (eval P ap ρ pcc f) fun fv => bind (evals P ap ρ pcc args) fun vs =>
      bind (eval P ap ρ pcc k) fun kv => ret (.jmpK fv vs kv)
  | .chain e => match pcc with
    | none => raise .nameError
    | some p => bind (eval P ap ρ pcc e) fun v => ret (chainStar p v)
  | .data e => match pcc with
    | none => raise .nameError
    | some p => bind (load ρ "cc") fun c => bind (eval P ap ρ pcc e) fun v => chainData p c v
  | .ff => ret (.base P.ff)
  | .bool o a b => bind (eval P ap ρ pcc a) fun v => if truthy P v = o then ret v else eval P ap ρ pcc b
  | .doe a b => bind (eval P ap ρ pcc a) fun _ => eval P ap ρ pcc b
  | .letx x a b => bind (eval P ap ρ pcc a) fun v => bind (alloc [some v]) fun c => eval P ap (frame ρ [x] c) pcc b
  | .aif a b => bind (eval P ap ρ pcc a) fun v =>
      if truthy P v then match pcc with
        | none => raise .nameError
        | some p => bind (load ρ "cc") fun c => chainData p c v
      else eval P ap ρ pcc b

def evals (P : World β ω ε) (ap : Ap β ω ε) (ρ : Env) (pcc : Option (Val β)) :
    List (Out.Ex β) → M (State (Val β) ω) ε (List (Val β))
  | [] => ret []
  | e :: es => bind (eval P ap ρ pcc e) fun v => bind (evals P ap ρ pcc es) fun vs => ret (v :: vs)
end

mutual
/-- Execute a statement; `kn` is the continuation that was defined just before. -/
def exec (P : World β ω ε) (N : Nat) (ap : Ap β ω ε) (ρ : Env) (pcc kn : Option (Val β)) :
    Out.St β → M (State (Val β) ω) ε (Flow (Val β))
  | .ret e => bind (eval P ap ρ pcc e) fun v => ret (.ret v)
  | .expr e => bind (eval P ap ρ pcc e) fun _ => ret .next
  | .assign x e => bind (eval P ap ρ pcc e) fun v => bind (store ρ x v) fun _ => ret .next
  | .ite c b₁ b₂ => bind (eval P ap ρ pcc c) fun v =>
      if truthy P v then execs P N ap ρ pcc kn b₁ else execs P N ap ρ pcc kn b₂
  | .while c b => whileLoop (bind (eval P ap ρ pcc c) fun v => ret (truthy P v)) (execs P N ap ρ pcc kn b) N
  | .defn x ps b => bind (store ρ x (.clo ps b ρ)) fun _ => ret .next
  | .nonlocal _ => ret .next
  | .defk .. => raise .unmodelled
  | .retk f args => match kn with
    | some k => bind (eval P ap ρ pcc f) fun fv => bind (evals P ap ρ pcc args) fun vs => ret (.ret (.jmpK fv vs k))
    | none => raise .unmodelled
  | .retkSkip n => match kn with
    | some k => bind (load ρ "cc") fun c => ret (.ret (.jmpK k (List.replicate n .non) c))
    | none => raise .unmodelled
  | .exprk f args => match kn with
    | some k => bind (eval P ap ρ pcc f) fun fv => bind (evals P ap ρ pcc args) fun vs =>
        bind (ap fv vs (some k)) fun _ => ret .next
    | none => raise .unmodelled
  | .exprkSkip n => match kn with
    | some k => bind (load ρ "cc") fun c => bind (ap k (List.replicate n .non) (some c)) fun _ => ret .next
    | none => raise .unmodelled
  | .stray => raise .unmodelled

/-- The definition of a continuation evaluates the default of `_pcc`. -/
def execs (P : World β ω ε) (N : Nat) (ap : Ap β ω ε) (ρ : Env) (pcc kn : Option (Val β)) :
    List (Out.St β) → M (State (Val β) ω) ε (Flow (Val β))
  | [] => ret .next
  | .defk targets star body :: ts =>
    bind (load ρ "cc") fun c => execs P N ap ρ pcc (some (.kont targets star body ρ (maybeCapture c))) ts
  | t :: ts => bind (exec P N ap ρ pcc kn t) fun fl => match fl with
    | .next => execs P N ap ρ pcc kn ts
    | .ret v => ret (.ret v)
end

mutual
/-- The names that are assigned to in the body of a function. -/
def assignedS : Out.St β → List String
  | .assign x _ => [x]
  | .defn x _ _ => [x]
  | .ite _ b₁ b₂ => assignedSs b₁ ++ assignedSs b₂
  | .while _ b => assignedSs b
  | _ => []

def assignedSs : List (Out.St β) → List String
  | [] => []
  | s :: ss => assignedS s ++ assignedSs ss
end

mutual
/-- The names that are declared `nonlocal` in the body of a function. -/
def nonlocalS : Out.St β → List String
  | .nonlocal xs => xs
  | .ite _ b₁ b₂ => nonlocalSs b₁ ++ nonlocalSs b₂
  | .while _ b => nonlocalSs b
  | _ => []

def nonlocalSs : List (Out.St β) → List String
  | [] => []
  | s :: ss => nonlocalS s ++ nonlocalSs ss
end

/-- The local variables of a function other than its parameters. -/
def locals (b : List (Out.St β)) : List String := (assignedSs b).filter (fun x => !(nonlocalSs b).contains x)

/-- Run the body of a function, with the parameter `cc` after the others. -/
def enter (run : Env → List (Out.St β) → M (State (Val β) ω) ε (Flow (Val β))) (names : List String) (vals : List (Val β))
    (cc : Val β) (b : List (Out.St β)) (ρ : Env) : M (State (Val β) ω) ε (Val β) :=
  bind (alloc (vals.map some ++ some cc :: (locals b).map (fun _ => none))) fun a =>
  bind (run (frame ρ (names ++ "cc" :: locals b) a) b) fun fl => match fl with
    | .next => ret .non
    | .ret v => ret v

/-- Call an object, ignoring its trampoline if it has one.  The function made by `chain_conts` passes named arguments on, so
that `cc=...` would be given to `jump` twice (tailtools.py:765-766).  `get_cc`: tailtools.py:1263-1264, 1468. -/
def callEntry (P : World β ω ε) (N : Nat) (ap : Ap β ω ε) : Ap β ω ε
  | .clo ps b ρ, args, k =>
    if args.length = ps.length then enter (fun ρ b => execs P N ap ρ (some .non) none b) ps args (k.getD .ident) b ρ
    else raise (.py .TypeError)
  | .kont ts star b ρ pcc, args, k => match bindTargets .tup ts star args with
    | some (names, vals) => enter (fun ρ b => execs P N ap ρ (some pcc) none b) names vals (k.getD .ident) b ρ
    | none => raise (.py .TypeError)
  | .ext n, args, none => callExt P n args
  | .ident, args, none => ret (pack args)
  | .ident, args, some k => ret (.valsK args k)
  | .getcc, args, some k => ret (.jmp k (k :: args))
  | .chain a b, args, none => ret (.jmpK a args b)
  | _, _, _ => raise (.py .TypeError)

/-- The loop of a trampoline, for at most so many rounds (tco.py:248-261).  A jump goes to the function itself, not to its
trampoline (tco.py:167). -/
def trampoline (P : World β ω ε) (N : Nat) (ap : Ap β ω ε) : Nat → Ap β ω ε
  | 0, _, _, _ => fun _ => none
  | n + 1, f, args, k => bind (callEntry P N ap f args k) fun v => match v with
    | .jmp g as => if callable g then trampoline P N ap n g as none else raise (.py .RuntimeError)
    | .jmpK g as k => if callable g then trampoline P N ap n g as (some k) else raise (.py .RuntimeError)
    | v => ret v

/-- Functions with a trampoline: those of the program, continuations, `get_cc`; not those made by `chain_conts`. -/
def trampolined : Val β → Bool
  | .clo .. | .kont .. | .getcc => true
  | _ => false

/-- Call an object, with calls nesting at most so deep; `N` bounds the rounds of each loop. -/
def apply (P : World β ω ε) (N : Nat) : Nat → Ap β ω ε
  | 0 => fun _ _ _ _ => none
  | d + 1 => fun f args k =>
    if trampolined f then trampoline P N (apply P N d) N f args k else callEntry P N (apply P N d) f args k

/-- Run an expanded block. -/
def run (P : World β ω ε) (N d : Nat) (ρ : Env) (b : List (Out.St β)) : M (State (Val β) ω) ε (Flow (Val β)) :=
  execs P N (apply P N d) ρ none none b

end

end Unpy.Conts
