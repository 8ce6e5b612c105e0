import Verif.Model.PyExpr
/-!
# A fragment of Python with statements, for the macros that look for tail positions

Expressions: names, calls with positional arguments, lambdas, `a if p else b`, `and`, `or`, list displays, `x := v`; and,
as one node each, the macros `let[x := v][b]` and `do[e₁, e₂]`, whose expansions are the subject of C87.  Statements:
`return`, assignment, `if`, `while`, `def`, `try`.  A `def` carries the list of its local variables, which Python computes
from its body; names declared `nonlocal` or `global` are not in it.

Further nodes appear in expanded code only: `jump(f, ...)`, `aif[...]`, and functions with `@trampolined`.

Not modelled: other statements and expressions, named arguments, defaults, generators, classes, decorators other than
`trampolined`, deletion of variables.  A bare `except:` stands for all handlers.
-/
namespace Unpy.Tail
open Unpy.PyExpr (M ret raise bind Err)

/-- Expressions. -/
inductive Ex (β : Type) where
  | cst (c : β)
  /-- `None` -/
  | non
  /-- `False` -/
  | ff
  | name (x : String)
  | call (f : Ex β) (args : List (Ex β))
  /-- `lambda ps: body`; with `tramp`, `trampolined(lambda ps: body)` -/
  | lam (tramp : Bool) (ps : List String) (body : Ex β)
  | ife (c t e : Ex β)
  /-- `or`, `and`; the operands before the last are one expression, `a or b or c` being `(a or b) or c` -/
  | bool (isOr : Bool) (others last : Ex β)
  | lst (ts : List (Ex β))
  /-- `let[x := v][b]` -/
  | letx (x : String) (v b : Ex β)
  /-- `do[e₁, e₂]` -/
  | doe (e₁ e₂ : Ex β)
  /-- `x := v` -/
  | assign (x : String) (v : Ex β)
  /-- `aif[test, it, tail]` -/
  | aif (test tail : Ex β)
  /-- `jump(f, *args)` -/
  | jump (f : Ex β) (args : List (Ex β))
  /-- macro expansion of this part of the program raises an exception -/
  | bad

/-- Statements. -/
inductive St (β : Type) where
  | ret (e : Option (Ex β))
  | expr (e : Ex β)
  | assign (x : String) (e : Ex β)
  | ite (c : Ex β) (body orelse : List (St β))
  | while (c : Ex β) (body : List (St β))
  /-- with `tramp`, decorated with `@trampolined` -/
  | defn (tramp : Bool) (x : String) (ps locals : List String) (body : List (St β))
  | tryx (body : List (St β)) (hasHandler : Bool) (handler orelse final : List (St β))

/-- Objects.  A variable of a closure is a cell in the heap, or (the `it` of an `aif`) a value. -/
inductive Val (β : Type) where
  | base (b : β)
  | non
  | ff
  /-- an external function -/
  | ext (k : Nat)
  | lst (vs : List (Val β))
  | clo (tramp : Bool) (ps locals : List String) (body : List (St β)) (ρ : String → Option (Nat ⊕ Val β))
  /-- the object made by `jump(f, *args)` -/
  | jmp (f : Val β) (args : List (Val β))

abbrev Env (β : Type) := String → Option (Nat ⊕ Val β)

/-- The state: the cells (empty, before the first assignment), the state of the external functions. -/
structure State (β ω : Type) where
  heap : List (Option (Val β))
  world : ω

/-- What is not fixed by the code: truth of the constants, the external functions (on constants, with side effects). -/
structure World (β ω ε : Type) where
  truthy : β → Bool
  call : Nat → List β → ω → Except (Err ε) β × ω

/-- How a statement ends, if it does not raise. -/
inductive Flow (α : Type) where
  | next
  | ret (v : α)

variable {β ω ε : Type}

/-- `bool(v)` -/
def truthy (P : World β ω ε) : Val β → Bool
  | .base b => P.truthy b
  | .non => false
  | .ff => false
  | .lst vs => !vs.isEmpty
  | _ => true

/-- The constants among the arguments of an external function. -/
def bases : List (Val β) → Option (List β)
  | [] => some []
  | .base b :: vs => (bases vs).map (b :: ·)
  | _ :: _ => none

def callable : Val β → Bool
  | .ext _ => true
  | .clo .. => true
  | _ => false

/-- Read a variable; one that has not been assigned to is a NameError (UnboundLocalError). -/
def load (ρ : Env β) (x : String) : M (State β ω) ε (Val β) := fun s =>
  match ρ x with
  | some (.inr v) => some (.ok v, s)
  | some (.inl a) => match s.heap[a]? with
    | some (some v) => some (.ok v, s)
    | some none => some (.error .nameError, s)
    | none => some (.error .unmodelled, s)
  | none => some (.error .nameError, s)

/-- Assign to a variable. -/
def store (ρ : Env β) (x : String) (v : Val β) : M (State β ω) ε Unit := fun s =>
  match ρ x with
  | some (.inl a) => some (.ok (), { s with heap := s.heap.set a (some v) })
  | _ => some (.error .unmodelled, s)

/-- Make new variables; the address of the first one. -/
def alloc (vs : List (Option (Val β))) : M (State β ω) ε Nat := fun s =>
  some (.ok s.heap.length, { s with heap := s.heap ++ vs })

/-- The scope with these new variables, in consecutive cells. -/
def frame (ρ : Env β) : List String → Nat → Env β
  | [], _ => ρ
  | x :: xs, a => fun y => if y = x then some (.inl a) else frame ρ xs (a + 1) y

/-- Call an external function. -/
def callExt (P : World β ω ε) (k : Nat) (args : List (Val β)) : M (State β ω) ε (Val β) := fun s =>
  match bases args with
  | some bs => match P.call k bs s.world with
    | (.ok b, w) => some (.ok (.base b), { s with world := w })
    | (.error e, w) => some (.error e, { s with world := w })
  | none => some (.error .unmodelled, s)

abbrev Ap (β ω ε : Type) := Val β → List (Val β) → M (State β ω) ε (Val β)

mutual
/-- Evaluate an expression; `ap` calls an object. -/
def eval (P : World β ω ε) (ap : Ap β ω ε) (ρ : Env β) : Ex β → M (State β ω) ε (Val β)
  | .cst c => ret (.base c)
  | .non => ret .non
  | .ff => ret .ff
  | .name x => load ρ x
  | .call f args => bind (eval P ap ρ f) fun fv => bind (evals P ap ρ args) fun vs => ap fv vs
  | .lam tr ps b => ret (.clo tr ps [] [.ret (some b)] ρ)
  | .ife c t e => bind (eval P ap ρ c) fun v => if truthy P v then eval P ap ρ t else eval P ap ρ e
  | .bool isOr a b => bind (eval P ap ρ a) fun v => if truthy P v = isOr then ret v else eval P ap ρ b
  | .lst ts => bind (evals P ap ρ ts) fun vs => ret (.lst vs)
  | .letx x v b => bind (eval P ap ρ v) fun v => bind (alloc [some v]) fun a => eval P ap (frame ρ [x] a) b
  | .doe a b => bind (eval P ap ρ a) fun _ => eval P ap ρ b
  | .assign x v => bind (eval P ap ρ v) fun v => bind (store ρ x v) fun _ => ret v
  | .aif t b => bind (eval P ap ρ t) fun v => if truthy P v then ret v else
      eval P ap (fun y => if y = "it" then some (.inr v) else ρ y) b
  | .jump f args => bind (eval P ap ρ f) fun fv => bind (evals P ap ρ args) fun vs => ret (.jmp fv vs)
  | .bad => raise .unmodelled

def evals (P : World β ω ε) (ap : Ap β ω ε) (ρ : Env β) : List (Ex β) → M (State β ω) ε (List (Val β))
  | [] => ret []
  | t :: ts => bind (eval P ap ρ t) fun v => bind (evals P ap ρ ts) fun vs => ret (v :: vs)
end

/-- `while`, for at most so many rounds. -/
def whileLoop {α : Type} (P : World β ω ε) (test : M (State β ω) ε (Val β)) (body : M (State β ω) ε (Flow α)) :
    Nat → M (State β ω) ε (Flow α)
  | 0 => fun _ => none
  | n + 1 => bind test fun v =>
      if truthy P v then bind body fun fl => match fl with
        | .next => whileLoop P test body n
        | .ret v => ret (.ret v)
      else ret .next

/-- `except:` catches everything (but not the marker for what is outside the model). -/
def catches : Err ε → Bool
  | .unmodelled => false
  | _ => true

/-- `try ... except: ... else: ...` -/
def tryExcept {σ α : Type} (hasHandler : Bool) (body handler orelse : M σ ε (Flow α)) : M σ ε (Flow α) := fun s =>
  match body s with
  | none => none
  | some (.error e, s) => if hasHandler && catches e then handler s else some (.error e, s)
  | some (.ok .next, s) => orelse s
  | some (.ok (.ret v), s) => some (.ok (.ret v), s)

/-- `try: ... finally: ...` -/
def tryFinally {σ α : Type} (body final : M σ ε (Flow α)) : M σ ε (Flow α) := fun s =>
  match body s with
  | none => none
  | some (o, s) => match final s with
    | none => none
    | some (.ok .next, s) => some (o, s)
    | r => r

mutual
/-- Execute a statement. -/
def exec (P : World β ω ε) (N : Nat) (ap : Ap β ω ε) (ρ : Env β) : St β → M (State β ω) ε (Flow (Val β))
  | .ret none => ret (.ret .non)
  | .ret (some e) => bind (eval P ap ρ e) fun v => ret (.ret v)
  | .expr e => bind (eval P ap ρ e) fun _ => ret .next
  | .assign x e => bind (eval P ap ρ e) fun v => bind (store ρ x v) fun _ => ret .next
  | .ite c b₁ b₂ => bind (eval P ap ρ c) fun v => if truthy P v then execs P N ap ρ b₁ else execs P N ap ρ b₂
  | .while c b => whileLoop P (eval P ap ρ c) (execs P N ap ρ b) N
  | .defn tr x ps ls b => bind (store ρ x (.clo tr ps ls b ρ)) fun _ => ret .next
  | .tryx b hh h o f =>
    tryFinally (tryExcept hh (execs P N ap ρ b) (execs P N ap ρ h) (execs P N ap ρ o)) (execs P N ap ρ f)

def execs (P : World β ω ε) (N : Nat) (ap : Ap β ω ε) (ρ : Env β) : List (St β) → M (State β ω) ε (Flow (Val β))
  | [] => ret .next
  | t :: ts => bind (exec P N ap ρ t) fun fl => match fl with
    | .next => execs P N ap ρ ts
    | .ret v => ret (.ret v)
end

/-- Run the body of a function; `run` executes statements. -/
def enter (run : Env β → List (St β) → M (State β ω) ε (Flow (Val β))) (ps ls : List String) (b : List (St β)) (ρ : Env β)
    (args : List (Val β)) : M (State β ω) ε (Val β) :=
  if args.length = ps.length then
    bind (alloc (args.map some ++ ls.map (fun _ => none))) fun a =>
    bind (run (frame ρ (ps ++ ls) a) b) fun fl => match fl with
      | .next => ret .non
      | .ret v => ret v
  else raise (.py .TypeError)

/-- Call an object, ignoring its trampoline if it has one. -/
def callEntry (P : World β ω ε) (N : Nat) (ap : Ap β ω ε) : Ap β ω ε
  | .clo _ ps ls b ρ, args => enter (execs P N ap) ps ls b ρ args
  | .ext k, args => callExt P k args
  | _, _ => raise (.py .TypeError)

/-- The loop of a trampoline, for at most so many rounds (tco.py:248-261).  A jump goes to the function itself, not to its
trampoline (tco.py:167). -/
def trampoline (P : World β ω ε) (N : Nat) (ap : Ap β ω ε) : Nat → Ap β ω ε
  | 0, _, _ => fun _ => none
  | n + 1, f, args => bind (callEntry P N ap f args) fun v => match v with
    | .jmp g as => if callable g then trampoline P N ap n g as else raise (.py .RuntimeError)
    | v => ret v

/-- Call an object; `ap₁` for calls from one level deeper, `ap₂` for calls from two levels deeper. -/
def callWith (P : World β ω ε) (N : Nat) (ap₁ : Ap β ω ε) (ap₂ : Option (Ap β ω ε)) : Ap β ω ε
  | .clo true ps ls b ρ, args => match ap₂ with
    | some ap => trampoline P N ap N (.clo true ps ls b ρ) args
    | none => fun _ => none
  | f, args => callEntry P N ap₁ f args

/-- Call an object, with calls nesting at most so deep; a trampoline takes a level of its own.  `N` bounds the rounds of
each loop. -/
def apply (P : World β ω ε) (N : Nat) : Nat → Ap β ω ε
  | 0 => fun _ _ _ => none
  | 1 => callWith P N (fun _ _ _ => none) none
  | d + 2 => callWith P N (apply P N (d + 1)) (some (apply P N d))

/-- Run a program. -/
def run (P : World β ω ε) (N d : Nat) (ρ : Env β) (b : List (St β)) : M (State β ω) ε (Flow (Val β)) :=
  execs P N (apply P N d) ρ b

end Unpy.Tail
