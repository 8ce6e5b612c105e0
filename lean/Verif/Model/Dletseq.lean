/-!
# Model of `dletseq` and `bletseq`

What the macro makes of a function with a sequence of bindings: nested functions, each with one `let` decorator; and what the result does when it is defined and called.

Simplifications.  Values are integers; bodies are sequences of statements, without branches and loops.  The decorated function is defined at the top level of a module; its parameters have
no defaults.  In the body, `:=` is only used for let variables, and `=` only for other names: what the scope analyzer does with other programs is in `Model/Dlet.lean`.  The environments are numbered
in the order in which the macro generates their names (`gensym`).  Decorators other than the `let` are known by name only; that one of them is applied is an event.
-/
namespace Unpy.Dletseq

/-- Expressions; the last two are there only in expanded programs. -/
inductive E where
  | int (n : Int)
  | var (x : String)
  | add (a b : E)
  /-- print a number; it is the value, too -/
  | show (e : E)
  /-- `x := e`, for a let variable -/
  | set (x : String) (e : E)
  /-- `e.x`, for the environment with this number -/
  | envget (i : Nat) (x : String)
  /-- `e.set('x', v)` -/
  | envset (i : Nat) (x : String) (v : E)
  deriving DecidableEq, Repr

/-- Statements -/
inductive S where
  | assign (x : String) (e : E)
  | expr (e : E)
  | ret (e : E)
  deriving DecidableEq, Repr

/-! ## The macro -/

mutual
/-- A function definition; `letb`: the `let` decorator, with the number of its environment -/
inductive Fn where
  | mk (params : List String) (decos : List String) (letb : Option (Nat × String × E)) (body : Body)
/-- A body: that of the user; or an inner definition and a `return`, of what it returns when called, or (`false`) of what it is bound to -/
inductive Body where
  | user (ss : List S)
  | inner (f : Fn) (call : Bool)
end

/-- `_letlike_transform` for one name (syntax/letdo.py:417-486), on expressions -/
def transE (i : Nat) (x : String) : E → E
  | .int n => .int n
  | .var y => if y = x then .envget i x else .var y
  | .add a b => .add (transE i x a) (transE i x b)
  | .show e => .show (transE i x e)
  | .set y e => if y = x then .envset i x (transE i x e) else .set y (transE i x e)
  | .envget j y => .envget j y
  | .envset j y e => .envset j y (transE i x e)

def transS (i : Nat) (x : String) : S → S
  | .assign y e => .assign y (transE i x e)
  | .expr e => .expr (transE i x e)
  | .ret e => .ret (transE i x e)

mutual
/-- `_letlike_transform` for one name on a function, by the scope analyzer: the decorators are transformed, and the body (syntax/scopeanalyzer.py:125-158), where a parameter of this name would stop it -/
def transFn (i : Nat) (x : String) : Fn → Fn
  | .mk ps ds lb b => .mk ps ds (lb.map fun (j, y, e) => (j, y, transE i x e)) (if x ∈ ps then b else transBody i x b)
def transBody (i : Nat) (x : String) : Body → Body
  | .user ss => .user (ss.map (transS i x))
  | .inner f c => .inner (transFn i x f) c
end

/-- `_let_decorator_impl` for one binding (syntax/letdo.py:516-557): the body is transformed, and the `let` becomes the innermost decorator.  The function has no other `let` decorator yet. -/
def dlet (i : Nat) (x : String) (v : E) : Fn → Fn
  | .mk ps ds _ b => match transFn i x (.mk ps ds none b) with
    | .mk ps ds _ b => .mk ps ds (some (i, x, v)) b

/-- `innerdef.args = userargs` -/
def withParams (ps : List String) : Fn → Fn
  | .mk _ ds lb b => .mk ps ds lb b

def paramsOf : Fn → List String
  | .mk ps _ _ _ => ps

/-- `_dletseq_impl` (syntax/letdo.py:559-624).  The bindings are given from the last to the first; `call`: for `dletseq`, where the outer function calls the inner one. -/
def dletseqImpl (call : Bool) : Nat → List (String × E) → Fn → Fn
  | _, [], f => f
  | i, (x, v) :: rest, f =>
    let inner := dlet i x v (withParams [] f)
    match rest with
    | [] => withParams (paramsOf f) inner
    | _ :: _ => dletseqImpl call (i + 1) rest (.mk (paramsOf f) [] none (.inner inner call))

/-- `dletseq`, `bletseq` (syntax/letdo.py:241-259, 300-316, 500-501, 509-510) -/
def expand (call : Bool) (bindings : List (String × E)) (params decos : List String) (body : List S) : Fn :=
  dletseqImpl call 0 bindings.reverse (.mk params decos none (.user body))

/-! ## Running -/

inductive Err where
  | name | unboundLocal | type
  deriving DecidableEq, Repr

inductive Event where
  | shown (n : Int)
  | applied (deco : String)
  deriving DecidableEq, Repr

/-- The environments that have been made (each with its one variable), and what has happened -/
structure St where
  heap : List Int := []
  trace : List Event := []
  deriving DecidableEq, Repr

abbrev R (α : Type) := Except Err α × St

/-- What a name can mean: the global variables; the parameters of the functions around; the local variables, each with its value if it has one; the environments, with where they are -/
structure Scope where
  globals : String → Option Int
  outer : List (String × Int) := []
  locals : List (String × Option Int) := []
  envs : List (Nat × Nat) := []

/-- A name that the macro has left as it is -/
def Scope.name (sc : Scope) (x : String) : Except Err Int := match sc.locals.lookup x with
  | some (some v) => .ok v
  | some none => .error .unboundLocal
  | none => match sc.outer.lookup x with
    | some v => .ok v
    | none => match sc.globals x with
      | some v => .ok v
      | none => .error .name

def eval (sc : Scope) : E → St → R Int
  | .int n, s => (.ok n, s)
  | .var x, s => (sc.name x, s)
  | .add a b, s => match eval sc a s with
    | (.error e, s) => (.error e, s)
    | (.ok m, s) => match eval sc b s with
      | (.error e, s) => (.error e, s)
      | (.ok n, s) => (.ok (m + n), s)
  | .show e, s => match eval sc e s with
    | (.error e, s) => (.error e, s)
    | (.ok n, s) => (.ok n, { s with trace := s.trace ++ [.shown n] })
  | .set _ _, s => (.error .name, s)
  | .envget i _, s => match sc.envs.lookup i with
    | none => (.error .name, s)
    | some a => match s.heap[a]? with
      | some v => (.ok v, s)
      | none => (.error .name, s)
  | .envset i _ e, s => match eval sc e s with
    | (.error e, s) => (.error e, s)
    | (.ok n, s) => match sc.envs.lookup i with
      | none => (.error .name, s)
      | some a => (.ok n, { s with heap := s.heap.set a n })

/-- `x = v` -/
def assign (x : String) (v : Int) : List (String × Option Int) → List (String × Option Int)
  | [] => []
  | (y, w) :: ls => if y = x then (y, some v) :: ls else (y, w) :: assign x v ls

/-- The statements of a body; none is returned at its end -/
def exec (sc : Scope) : List S → St → R (Option Int)
  | [], s => (.ok none, s)
  | .assign x e :: ss, s => match eval sc e s with
    | (.error e, s) => (.error e, s)
    | (.ok v, s) => exec { sc with locals := assign x v sc.locals } ss s
  | .expr e :: ss, s => match eval sc e s with
    | (.error e, s) => (.error e, s)
    | (.ok _, s) => exec sc ss s
  | .ret e :: _, s => match eval sc e s with
    | (.error e, s) => (.error e, s)
    | (.ok v, s) => (.ok (some v), s)

/-- The names that a body assigns to -/
def stores : List S → List String
  | [] => []
  | .assign x _ :: ss => x :: stores ss
  | _ :: ss => stores ss

/-- The definition of a function with its decorators, up to the `let`: the environment is made when the definition is executed (lispylet.py:252-265).  Gives the environments that the function sees. -/
def define (sc : Scope) (lb : Option (Nat × String × E)) (s : St) : R (List (Nat × Nat)) := match lb with
  | none => (.ok sc.envs, s)
  | some (i, _, v) => match eval sc v s with
    | (.error e, s) => (.error e, s)
    | (.ok n, s) => (.ok ((i, s.heap.length) :: sc.envs), { s with heap := s.heap ++ [n] })

/-- The other decorators are applied, from the last to the first. -/
def decorate (ds : List String) (s : St) : St := { s with trace := s.trace ++ ds.reverse.map .applied }

mutual
/-- A call of a function that was defined in this scope, with these environments -/
def call (sc : Scope) : Fn → List Int → St → R (Option Int)
  | .mk ps _ _ b, args, s =>
    if ps.length = args.length then callBody sc (ps.zip args) b s else (.error .type, s)
/-- The body of a function with these arguments.  `call`: the inner function is defined, with its decorators, and called; otherwise its `let` decorator calls it at once (lispylet.py:267-271). -/
def callBody (sc : Scope) (args : List (String × Int)) : Body → St → R (Option Int)
  | .user ss, s => exec { sc with locals := args.map (fun (x, v) => (x, some v)) ++ ((stores ss).filter (fun x => !(args.map Prod.fst).contains x)).map (fun x => (x, none)) } ss s
  | .inner (.mk ps ds lb b) c, s =>
    let sc := { sc with outer := args ++ sc.outer }
    match define sc lb s with
    | (.error e, s) => (.error e, s)
    | (.ok envs, s) =>
      if c then call { sc with envs := envs } (.mk ps ds lb b) [] (decorate ds s)
      else match call { sc with envs := envs } (.mk ps ds lb b) [] s with
        | (.error e, s) => (.error e, s)
        | (.ok v, s) => (.ok v, decorate ds s)
end

/-- The definition of the decorated function, and then calls of it, each with the global variables as they are then: the results of the calls.  An error in the definition is the error of all. -/
def runCalls (envs : List (Nat × Nat)) (f : Fn) : List ((String → Option Int) × List Int) → St → List (Except Err (Option Int)) × St
  | [], s => ([], s)
  | (g, args) :: cs, s =>
    let r := call { globals := g, envs := envs } f args s
    let rs := runCalls envs f cs r.2
    (r.1 :: rs.1, rs.2)

/-- `dletseq` -/
def runD (bindings : List (String × E)) (params decos : List String) (body : List S) (g : String → Option Int) (cs : List ((String → Option Int) × List Int)) :
    Except Err (List (Except Err (Option Int))) × List Event :=
  match expand true bindings params decos body with
  | .mk ps ds lb b => match define { globals := g } lb {} with
    | (.error e, s) => (.error e, s.trace)
    | (.ok envs, s) =>
      let r := runCalls envs (.mk ps ds lb b) cs (decorate ds s)
      (.ok r.1, r.2.trace)

/-- `bletseq`: what the name of the function is bound to -/
def runB (bindings : List (String × E)) (decos : List String) (body : List S) (g : String → Option Int) : Except Err (Option Int) × List Event :=
  match expand false bindings [] decos body with
  | .mk ps ds lb b => match define { globals := g } lb {} with
    | (.error e, s) => (.error e, s.trace)
    | (.ok envs, s) => match call { globals := g, envs := envs } (.mk ps ds lb b) [] s with
      | (.error e, s) => (.error e, s.trace)
      | (.ok v, s) => (.ok v, (decorate ds s).trace)

end Unpy.Dletseq
