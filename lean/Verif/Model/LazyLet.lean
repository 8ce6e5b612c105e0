import Verif.Model.Py
/-!
# Model of `let` and `letrec` expressions in lazy code (`unpythonic/syntax/lazify.py`, `unpythonic/lispylet.py`)

In a `with lazify` block the `let[]` expressions are expanded first; `lazify` then edits the calls to `_let` that come out of it, and
the names have become attributes of the environments.

Simplified: expressions are constants, names bound by `let` or `letrec`, operators with two operands, `a if c else b`, and `let` and
`letrec` expressions, to any depth; there are no functions, no containers, and no assignments.  Names bound by a `let` are given by the
number of `let`s between, and the name, as the `let[]` macro has resolved them.
-/
namespace Unpy.LazyLet
variable {β ω ε : Type}

mutual
/-- Expressions, after `let[]` (letdo.py) and before `lazify` -/
inductive Ex (β ω : Type) where
  | cst (b : β)
  /-- the name `x` of the `i`-th `let` around this expression -/
  | ref (i : Nat) (x : String)
  | op (o : ω) (a b : Ex β ω)
  | ife (c a b : Ex β ω)
  /-- `let[...][body]`, or `letrec[...][body]` -/
  | letter (rec : Bool) (bs : Bs β ω) (body : Ex β ω)
/-- The bindings of a `let` -/
inductive Bs (β ω : Type) where
  | nil
  | cons (x : String) (e : Ex β ω) (bs : Bs β ω)
end

mutual
/-- The code that `lazify` makes -/
inductive Code (β ω : Type) where
  | cst (b : β)
  | ref (i : Nat) (x : String)
  /-- `force(c)` -/
  | force (c : Code β ω)
  /-- `Lazy(lambda: c)` -/
  | lazy (c : Code β ω)
  | op (o : ω) (a b : Code β ω)
  | ife (c a b : Code β ω)
  | letter (rec : Bool) (bs : CBs β ω) (body : Code β ω)
/-- The bindings in it -/
inductive CBs (β ω : Type) where
  | nil
  | cons (x : String) (c : Code β ω) (bs : CBs β ω)
end

mutual
/-- What `lazify` does to an expression: the names are forced where they are used (lazify.py:817-843), the bindings and the body of
a `let` are transformed (lazify.py:707-721). -/
def tr : Ex β ω → Code β ω
  | .cst b => .cst b
  | .ref i x => .force (.ref i x)
  | .op o a b => .op o (tr a) (tr b)
  | .ife c a b => .ife (tr c) (tr a) (tr b)
  | .letter r bs body => .letter r (trBs bs) (tr body)
/-- `transform_arg` on each of the bindings (lazify.py:689-697): a reference is left as it is, other expressions become promises. -/
def trBs : Bs β ω → CBs β ω
  | .nil => .nil
  | .cons x e bs => .cons x (match e with | .ref i y => .ref i y | _ => .lazy (tr e)) (trBs bs)
end

/-- A value, or a promise -/
inductive Obj (β : Type) where
  | con (b : β)
  | promise (p : Nat)

/-- A promise (lazyutil.py:32-74): the code and the environments it refers to, or the value or the exception once it has been forced -/
inductive Pr (β ω ε : Type) where
  | todo (ρ : List Nat) (c : Code β ω)
  | done (o : Obj β)
  | failed (e : ε)

/-- All the promises and all the environments there are.  `runs` is not in the code, it is there for the theorems: the promises whose
code was run, in that order. -/
structure St (β ω ε : Type) where
  prs : List (Pr β ω ε)
  envs : List (List (String × Obj β))
  runs : List Nat

/-- The operators, which may raise; truth; and the exceptions -/
structure World (β ω ε : Type) where
  op : ω → β → β → Except ε β
  truth : β → Bool
  attributeError : ε
  typeError : ε

/-- What an evaluation comes to; `none` if it has not come to an end yet -/
abbrev Res (β ω ε α : Type) := Option (Except ε α × St β ω ε)

/-- `Lazy.force` (lazyutil.py:54-74); `call` runs the code of the promise. -/
def forceP (W : World β ω ε) (call : List Nat → Code β ω → St β ω ε → Res β ω ε (Obj β)) (p : Nat) (s : St β ω ε) : Res β ω ε (Obj β) :=
  match s.prs[p]? with
  | none => some (.error W.typeError, s)
  | some (.done o) => some (.ok o, s)
  | some (.failed e) => some (.error e, s)
  | some (.todo ρ c) => match call ρ c { s with runs := s.runs ++ [p] } with
    | none => none
    | some (.ok o, s) => some (.ok o, { s with prs := s.prs.set p (.done o) })
    | some (.error e, s) => some (.error e, { s with prs := s.prs.set p (.failed e) })

/-- `force(x)` (lazyutil.py:94-104), of a value that is not a container -/
def forceObj (W : World β ω ε) (call : List Nat → Code β ω → St β ω ε → Res β ω ε (Obj β)) (o : Obj β) (s : St β ω ε) : Res β ω ε (Obj β) :=
  match o with
  | .con b => some (.ok (.con b), s)
  | .promise p => forceP W call p s

/-- The attribute `x` of the environment that is the `i`-th from inside (env.py:88-95) -/
def getattr (ρ : List Nat) (i : Nat) (x : String) (s : St β ω ε) : Option (Obj β) :=
  match ρ[i]? with
  | none => none
  | some k => match s.envs[k]? with
    | none => none
    | some env => env.lookup x

mutual
/-- Running the code.  `call` runs the code of promises.  A promise is not an operand an operator knows: TypeError. -/
def evalC (W : World β ω ε) (call : List Nat → Code β ω → St β ω ε → Res β ω ε (Obj β)) :
    Code β ω → List Nat → St β ω ε → Res β ω ε (Obj β)
  | .cst b, _, s => some (.ok (.con b), s)
  | .ref i x, ρ, s => match getattr ρ i x s with
    | some o => some (.ok o, s)
    | none => some (.error W.attributeError, s)
  | .force c, ρ, s => match evalC W call c ρ s with
    | none => none
    | some (.error e, s) => some (.error e, s)
    | some (.ok o, s) => forceObj W call o s
  | .lazy c, ρ, s => some (.ok (.promise s.prs.length), { s with prs := s.prs ++ [.todo ρ c] })
  | .op o a b, ρ, s => match evalC W call a ρ s with
    | none => none
    | some (.error e, s) => some (.error e, s)
    | some (.ok x, s) => match evalC W call b ρ s with
      | none => none
      | some (.error e, s) => some (.error e, s)
      | some (.ok y, s) => match x, y with
        | .con x, .con y => match W.op o x y with
          | .ok z => some (.ok (.con z), s)
          | .error e => some (.error e, s)
        | _, _ => some (.error W.typeError, s)
  | .ife c a b, ρ, s => match evalC W call c ρ s with
    | none => none
    | some (.error e, s) => some (.error e, s)
    | some (.ok (.con x), s) => if W.truth x then evalC W call a ρ s else evalC W call b ρ s
    | some (.ok (.promise _), s) => evalC W call a ρ s
  | .letter r bs body, ρ, s =>      -- a new environment, empty at first (lispylet.py:224)
    let k := s.envs.length
    match fill W call r k bs ρ { s with envs := s.envs ++ [[]] } with
    | none => none
    | some (.error e, s) => some (.error e, s)
    | some (.ok (), s) => evalC W call body (k :: ρ) s
/-- The loop of `_let` (lispylet.py:239-250) that puts the bindings into environment `k`: a name must not be there yet; in a `letrec`,
the code of the binding refers to the environment.  In a `let`, the code of all the bindings is run before the loop; here, it is in the
loop. -/
def fill (W : World β ω ε) (call : List Nat → Code β ω → St β ω ε → Res β ω ε (Obj β)) (r : Bool) (k : Nat) :
    CBs β ω → List Nat → St β ω ε → Res β ω ε Unit
  | .nil, _, s => some (.ok (), s)
  | .cons x c bs, ρ, s =>
    if (((s.envs[k]?).getD []).lookup x).isSome then some (.error W.attributeError, s)
    else match evalC W call c (if r then k :: ρ else ρ) s with
      | none => none
      | some (.error e, s) => some (.error e, s)
      | some (.ok o, s) => fill W call r k bs ρ { s with envs := s.envs.modify k (· ++ [(x, o)]) }
end

/-- Running the code, with promises forced inside of promises less than `n` deep -/
def eval (W : World β ω ε) : Nat → List Nat → Code β ω → St β ω ε → Res β ω ε (Obj β)
  | 0 => fun _ _ _ => none
  | n + 1 => fun ρ c s => evalC W (eval W n) c ρ s

/-- Running an expression of a lazy block, where there are no promises or environments before -/
def run (W : World β ω ε) (n : Nat) (e : Ex β ω) : Res β ω ε (Obj β) := eval W n [] (tr e) ⟨[], [], []⟩

end Unpy.LazyLet
