import Verif.Model.Py
/-!
# Model of functions, `let` and `letrec` in lazy code (`unpythonic/syntax/lazify.py`, `unpythonic/lazyutil.py`, `unpythonic/lispylet.py`)

In a `with lazify` block the `let[]` expressions are expanded first; `lazify` then edits the calls, those of `_let` among them, and
the lambdas.

Simplified: expressions are constants, names bound by `let`, `letrec` or a lambda, operators with two operands, `a if c else b`, `let`
and `letrec` expressions, lambdas with any number of parameters (no defaults), and calls with any number of positional arguments, to
any depth; there are no containers, no assignments, and no functions defined outside of the block.  Names are given by the number of
`let`s and lambdas between, and the name.
-/
namespace Unpy.LazyFun
variable {β ω ε : Type}

mutual
/-- Expressions, after `let[]` (letdo.py) and before `lazify` -/
inductive Ex (β ω : Type) where
  | cst (b : β)
  /-- the name `x` of the `i`-th `let` or lambda around this expression -/
  | ref (i : Nat) (x : String)
  | op (o : ω) (a b : Ex β ω)
  | ife (c a b : Ex β ω)
  /-- `let[...][body]`, or `letrec[...][body]` -/
  | letter (rec : Bool) (bs : Bs β ω) (body : Ex β ω)
  | lam (xs : List String) (body : Ex β ω)
  | app (f : Ex β ω) (as : As β ω)
/-- The bindings of a `let` -/
inductive Bs (β ω : Type) where
  | nil
  | cons (x : String) (e : Ex β ω) (bs : Bs β ω)
/-- The arguments of a call -/
inductive As (β ω : Type) where
  | nil
  | cons (e : Ex β ω) (as : As β ω)
end

mutual
/-- The code that `lazify` makes -/
inductive Code (β ω : Type) where
  | cst (b : β)
  | ref (i : Nat) (x : String)
  /-- `force(c)` -/
  | force (c : Code β ω)
  /-- `Lazy(lambda: c)` -/
  | lazy (c : Code β ω)
  | op (o : ω) (a b : Code β ω)
  | ife (c a b : Code β ω)
  | letter (rec : Bool) (bs : CBs β ω) (body : Code β ω)
  /-- `passthrough_lazy_args(lambda *xs: body)` -/
  | lam (xs : List String) (body : Code β ω)
  /-- `maybe_force_args(f, *as)` -/
  | app (f : Code β ω) (as : CAs β ω)
/-- The bindings in it -/
inductive CBs (β ω : Type) where
  | nil
  | cons (x : String) (c : Code β ω) (bs : CBs β ω)
/-- The arguments in it -/
inductive CAs (β ω : Type) where
  | nil
  | cons (c : Code β ω) (as : CAs β ω)
end

mutual
/-- What `lazify` does to an expression: the names are forced where they are used (lazify.py:817-843), the bindings and the body of
a `let` are transformed (lazify.py:707-721), lambdas are marked (lazify.py:662-668), and calls are made by `maybe_force_args`
(lazify.py:764-790). -/
def tr : Ex β ω → Code β ω
  | .cst b => .cst b
  | .ref i x => .force (.ref i x)
  | .op o a b => .op o (tr a) (tr b)
  | .ife c a b => .ife (tr c) (tr a) (tr b)
  | .letter r bs body => .letter r (trBs bs) (tr body)
  | .lam xs body => .lam xs (tr body)
  | .app f as => .app (tr f) (trAs as)
/-- `transform_arg` on each of the bindings (lazify.py:689-697): a reference is left as it is, other expressions become promises. -/
def trBs : Bs β ω → CBs β ω
  | .nil => .nil
  | .cons x e bs => .cons x (match e with | .ref i y => .ref i y | _ => .lazy (tr e)) (trBs bs)
/-- `transform_arg` on each of the arguments of a call (lazify.py:689-697, 768-774) -/
def trAs : As β ω → CAs β ω
  | .nil => .nil
  | .cons e as => .cons (match e with | .ref i y => .ref i y | _ => .lazy (tr e)) (trAs as)
end

/-- A value, which may be a function, or a promise -/
inductive Obj (β ω : Type) where
  | con (b : β)
  | clo (ρ : List Nat) (xs : List String) (c : Code β ω)
  | promise (p : Nat)

/-- A promise (lazyutil.py:32-74): the code and the environments it refers to, or the value or the exception once it has been forced -/
inductive Pr (β ω ε : Type) where
  | todo (ρ : List Nat) (c : Code β ω)
  | done (o : Obj β ω)
  | failed (e : ε)

/-- All the promises and all the environments there are; an environment is made by a `let` or a call.  `runs` is not in the code, it is
there for the theorems: the promises whose code was run, in that order. -/
structure St (β ω ε : Type) where
  prs : List (Pr β ω ε)
  envs : List (List (String × Obj β ω))
  runs : List Nat

/-- The operators, which may raise; truth; and the exceptions -/
structure World (β ω ε : Type) where
  op : ω → β → β → Except ε β
  truth : β → Bool
  attributeError : ε
  typeError : ε

/-- What an evaluation comes to; `none` if it has not come to an end yet -/
abbrev Res (β ω ε α : Type) := Option (Except ε α × St β ω ε)

/-- Running code in some environments -/
abbrev Run (β ω ε : Type) := List Nat → Code β ω → St β ω ε → Res β ω ε (Obj β ω)

/-- `Lazy.force` (lazyutil.py:54-74); `call` runs the code of the promise. -/
def forceP (W : World β ω ε) (call : Run β ω ε) (p : Nat) (s : St β ω ε) : Res β ω ε (Obj β ω) :=
  match s.prs[p]? with
  | none => some (.error W.typeError, s)
  | some (.done o) => some (.ok o, s)
  | some (.failed e) => some (.error e, s)
  | some (.todo ρ c) => match call ρ c { s with runs := s.runs ++ [p] } with
    | none => none
    | some (.ok o, s) => some (.ok o, { s with prs := s.prs.set p (.done o) })
    | some (.error e, s) => some (.error e, { s with prs := s.prs.set p (.failed e) })

/-- `force(x)` (lazyutil.py:94-104), of a value that is not a container -/
def forceObj (W : World β ω ε) (call : Run β ω ε) (o : Obj β ω) (s : St β ω ε) : Res β ω ε (Obj β ω) :=
  match o with
  | .promise p => forceP W call p s
  | o => some (.ok o, s)

/-- The name `x` in the environment that is the `i`-th from inside (env.py:88-95) -/
def getattr (ρ : List Nat) (i : Nat) (x : String) (s : St β ω ε) : Option (Obj β ω) :=
  match ρ[i]? with
  | none => none
  | some k => match s.envs[k]? with
    | none => none
    | some env => env.lookup x

/-- `a o b`.  A promise or a function is not an operand that the operators know: TypeError. -/
def binop (W : World β ω ε) (o : ω) : Obj β ω → Obj β ω → Except ε (Obj β ω)
  | .con x, .con y => match W.op o x y with
    | .ok z => .ok (.con z)
    | .error e => .error e
  | _, _ => .error W.typeError

/-- Functions and promises are true. -/
def truthy (W : World β ω ε) : Obj β ω → Bool
  | .con b => W.truth b
  | _ => true

/-- `maybe_force_args(f, *args)` (lazyutil.py:113-124): the functions are marked, they get the arguments as they are. -/
def invoke (W : World β ω ε) (call : Run β ω ε) (f : Obj β ω) (args : List (Obj β ω)) (s : St β ω ε) : Res β ω ε (Obj β ω) :=
  match f with
  | .clo ρ xs c => if xs.length = args.length then call (s.envs.length :: ρ) c { s with envs := s.envs ++ [xs.zip args] } else some (.error W.typeError, s)
  | _ => some (.error W.typeError, s)

mutual
/-- Running the code.  `call` runs the code of promises and of functions. -/
def evalC (W : World β ω ε) (call : Run β ω ε) : Code β ω → List Nat → St β ω ε → Res β ω ε (Obj β ω)
  | .cst b, _, s => some (.ok (.con b), s)
  | .ref i x, ρ, s => match getattr ρ i x s with
    | some o => some (.ok o, s)
    | none => some (.error W.attributeError, s)
  | .force c, ρ, s => match evalC W call c ρ s with
    | none => none
    | some (.error e, s) => some (.error e, s)
    | some (.ok o, s) => forceObj W call o s
  | .lazy c, ρ, s => some (.ok (.promise s.prs.length), { s with prs := s.prs ++ [.todo ρ c] })
  | .op o a b, ρ, s => match evalC W call a ρ s with
    | none => none
    | some (.error e, s) => some (.error e, s)
    | some (.ok x, s) => match evalC W call b ρ s with
      | none => none
      | some (.error e, s) => some (.error e, s)
      | some (.ok y, s) => some (binop W o x y, s)
  | .ife c a b, ρ, s => match evalC W call c ρ s with
    | none => none
    | some (.error e, s) => some (.error e, s)
    | some (.ok x, s) => if truthy W x then evalC W call a ρ s else evalC W call b ρ s
  | .letter r bs body, ρ, s =>      -- a new environment, empty at first (lispylet.py:224)
    let k := s.envs.length
    match fill W call r k bs ρ { s with envs := s.envs ++ [[]] } with
    | none => none
    | some (.error e, s) => some (.error e, s)
    | some (.ok (), s) => evalC W call body (k :: ρ) s
  | .lam xs body, ρ, s => some (.ok (.clo ρ xs body), s)
  | .app f as, ρ, s => match evalC W call f ρ s with
    | none => none
    | some (.error e, s) => some (.error e, s)
    | some (.ok f, s) => match evalAs W call as ρ s with
      | none => none
      | some (.error e, s) => some (.error e, s)
      | some (.ok args, s) => invoke W call f args s
/-- The loop of `_let` (lispylet.py:239-250) that puts the bindings into environment `k`: a name must not be there yet; in a `letrec`,
the code of the binding refers to the environment.  In a `let`, the code of all the bindings is run before the loop; here, it is in the
loop. -/
def fill (W : World β ω ε) (call : Run β ω ε) (r : Bool) (k : Nat) : CBs β ω → List Nat → St β ω ε → Res β ω ε Unit
  | .nil, _, s => some (.ok (), s)
  | .cons x c bs, ρ, s =>
    if (((s.envs[k]?).getD []).lookup x).isSome then some (.error W.attributeError, s)
    else match evalC W call c (if r then k :: ρ else ρ) s with
      | none => none
      | some (.error e, s) => some (.error e, s)
      | some (.ok o, s) => fill W call r k bs ρ { s with envs := s.envs.modify k (· ++ [(x, o)]) }
/-- The arguments of a call, from left to right -/
def evalAs (W : World β ω ε) (call : Run β ω ε) : CAs β ω → List Nat → St β ω ε → Res β ω ε (List (Obj β ω))
  | .nil, _, s => some (.ok [], s)
  | .cons c as, ρ, s => match evalC W call c ρ s with
    | none => none
    | some (.error e, s) => some (.error e, s)
    | some (.ok o, s) => match evalAs W call as ρ s with
      | none => none
      | some (.error e, s) => some (.error e, s)
      | some (.ok os, s) => some (.ok (o :: os), s)
end

/-- Running the code, with promises and calls inside of promises and calls less than `n` deep -/
def eval (W : World β ω ε) : Nat → Run β ω ε
  | 0 => fun _ _ _ => none
  | n + 1 => fun ρ c s => evalC W (eval W n) c ρ s

/-- Running an expression of a lazy block, where there are no promises or environments before -/
def run (W : World β ω ε) (n : Nat) (e : Ex β ω) : Res β ω ε (Obj β ω) := eval W n [] (tr e) ⟨[], [], []⟩

end Unpy.LazyFun
