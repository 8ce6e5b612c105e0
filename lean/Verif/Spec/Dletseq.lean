import Verif.Model.Dletseq
/-! # Specification of `dletseq` and `bletseq`: "letseq over def"

The values are computed once, one after the other, when the function is defined, each with the variables before it; the function sees them, with the last of each name, and keeps them from call to call. -/
namespace Unpy.Spec.Dletseq
open Unpy.Dletseq (E S Err Event)

/-- The let variables, the last one first -/
abbrev Vars := List (String × Int)

/-- The value of the last variable of this name is changed. -/
def update (x : String) (v : Int) : Vars → Vars
  | [] => []
  | (y, w) :: ls => if y = x then (y, v) :: ls else (y, w) :: update x v ls

/-- What a name means: a local variable (parameters included), which may have no value yet; or a let variable; or a global one -/
def name (globals : String → Option Int) (locals : List String) (vals : String → Option Int) (ls : Vars) (x : String) : Except Err Int :=
  if x ∈ locals then match vals x with
    | some v => .ok v
    | none => .error .unboundLocal
  else match ls.lookup x with
    | some v => .ok v
    | none => match globals x with
      | some v => .ok v
      | none => .error .name

/-- Expressions: the value, the let variables afterwards, and what is printed -/
def eval (globals : String → Option Int) (locals : List String) (vals : String → Option Int) : E → Vars → Except Err Int × Vars × List Event
  | .int n, ls => (.ok n, ls, [])
  | .var x, ls => (name globals locals vals ls x, ls, [])
  | .add a b, ls => match eval globals locals vals a ls with
    | (.error e, ls, t) => (.error e, ls, t)
    | (.ok m, ls, t) => match eval globals locals vals b ls with
      | (.error e, ls, t') => (.error e, ls, t ++ t')
      | (.ok n, ls, t') => (.ok (m + n), ls, t ++ t')
  | .show e, ls => match eval globals locals vals e ls with
    | (.error e, ls, t) => (.error e, ls, t)
    | (.ok n, ls, t) => (.ok n, ls, t ++ [.shown n])
  | .set x e, ls => match eval globals locals vals e ls with
    | (.error e, ls, t) => (.error e, ls, t)
    | (.ok n, ls, t) => (.ok n, update x n ls, t)
  | .envget .., ls | .envset .., ls => (.error .name, ls, [])

/-- Bodies -/
def exec (globals : String → Option Int) (locals : List String) : (String → Option Int) → List S → Vars → Except Err (Option Int) × Vars × List Event
  | _, [], ls => (.ok none, ls, [])
  | vals, .assign x e :: ss, ls => match eval globals locals vals e ls with
    | (.error e, ls, t) => (.error e, ls, t)
    | (.ok v, ls, t) => match exec globals locals (fun y => if y = x then some v else vals y) ss ls with
      | (r, ls, t') => (r, ls, t ++ t')
  | vals, .expr e :: ss, ls => match eval globals locals vals e ls with
    | (.error e, ls, t) => (.error e, ls, t)
    | (.ok _, ls, t) => match exec globals locals vals ss ls with
      | (r, ls, t') => (r, ls, t ++ t')
  | vals, .ret e :: _, ls => match eval globals locals vals e ls with
    | (.error e, ls, t) => (.error e, ls, t)
    | (.ok v, ls, t) => (.ok (some v), ls, t)

/-- The names that a body assigns to -/
def assigned (ss : List S) : List String := ss.filterMap fun
  | .assign x _ => some x
  | _ => none

/-- The bindings, one after the other -/
def bind (globals : String → Option Int) : List (String × E) → Vars → Except Err Vars × List Event
  | [], ls => (.ok ls, [])
  | (x, v) :: bs, ls => match eval globals [] (fun _ => none) v ls with
    | (.error e, _, t) => (.error e, t)
    | (.ok n, ls, t) => match bind globals bs ((x, n) :: ls) with
      | (r, t') => (r, t ++ t')

/-- A call -/
def call (params : List String) (body : List S) (globals : String → Option Int) (args : List Int) (ls : Vars) : Except Err (Option Int) × Vars × List Event :=
  if params.length = args.length then exec globals (params ++ assigned body) ((params.zip args).lookup ·) body ls
  else (.error .type, ls, [])

def calls (params : List String) (body : List S) : List ((String → Option Int) × List Int) → Vars → List (Except Err (Option Int)) × List Event
  | [], _ => ([], [])
  | (g, args) :: cs, ls => match call params body g args ls with
    | (r, ls, t) => match calls params body cs ls with
      | (rs, t') => (r :: rs, t ++ t')

/-- `@deco` … `@dletseq[bindings]` `def f(params): body`, and then calls of `f` -/
def runD (bindings : List (String × E)) (params decos : List String) (body : List S) (g : String → Option Int) (cs : List ((String → Option Int) × List Int)) :
    Except Err (List (Except Err (Option Int))) × List Event :=
  match bind g bindings [] with
  | (.error e, t) => (.error e, t)
  | (.ok ls, t) => match calls params body cs ls with
    | (rs, t') => (.ok rs, t ++ decos.reverse.map .applied ++ t')

/-- `@deco` … `@bletseq[bindings]` `def f(): body`: it is called at once, and the other decorators get its value -/
def runB (bindings : List (String × E)) (decos : List String) (body : List S) (g : String → Option Int) : Except Err (Option Int) × List Event :=
  match bind g bindings [] with
  | (.error e, t) => (.error e, t)
  | (.ok ls, t) => match call [] body g [] ls with
    | (.error e, _, t') => (.error e, t ++ t')
    | (.ok v, _, t') => (.ok v, t ++ t' ++ decos.reverse.map .applied)

/-- The let variables that an expression assigns to -/
def sets : E → List String
  | .add a b => sets a ++ sets b
  | .show e => sets e
  | .set x e => x :: sets e
  | _ => []

/-- The names that an expression reads -/
def reads : E → List String
  | .var x => [x]
  | .add a b => reads a ++ reads b
  | .show e => reads e
  | .set _ e => reads e
  | _ => []

/-- Written by a user: without what only the macro makes -/
def Source : E → Prop
  | .envget .. | .envset .. => False
  | .add a b => Source a ∧ Source b
  | .show e => Source e
  | .set _ e => Source e
  | _ => True

/-- Nothing is printed. -/
def Silent : E → Prop
  | .show _ => False
  | .add a b => Silent a ∧ Silent b
  | .set _ e => Silent e
  | _ => True

def expOf : S → E
  | .assign _ e => e
  | .expr e => e
  | .ret e => e

/-- The bindings are written by a user, and use `:=` only for variables that were bound before. -/
def Chain : List String → List (String × E) → Prop
  | _, [] => True
  | before, (x, v) :: bs => Source v ∧ (∀ y ∈ sets v, y ∈ before) ∧ Chain (x :: before) bs

/-- So is the body: `:=` for let variables, `=` for others -/
def Written (names : List String) (body : List S) : Prop :=
  (∀ st ∈ body, Source (expOf st) ∧ ∀ y ∈ sets (expOf st), y ∈ names) ∧ ∀ y ∈ assigned body, y ∉ names

/-- The values only depend on the variables before, and computing them does nothing else. -/
def Calm : List String → List (String × E) → Prop
  | _, [] => True
  | before, (x, v) :: bs => Source v ∧ Silent v ∧ sets v = [] ∧ (∀ y ∈ reads v, y ∈ before) ∧ Calm (x :: before) bs

end Unpy.Spec.Dletseq
