/-!
# Model of the macro `nb` (syntax/nb.py)

An expression or statement is what it does to the state: the variables, and the rest of the world.
-/
namespace Unpy.Nb
variable {V W E : Type}

structure St (V W : Type) where
  vars : String → Option V
  world : W

/-- A computation: a result or an exception, and the new state -/
abbrev Comp (V W E A : Type) := St V W → Except E A × St V W

/-- A statement of the block: an expression statement, one that calls a test macro (`istestmacro`, syntax/testingtools.py:489-494), or another statement -/
inductive Stmt (V W E : Type) where
  | expr (e : Comp V W E V)
  | test (e : Comp V W E V)
  | other (s : Comp V W E Unit)

/-- What Python provides -/
structure Python (V W E : Type) where
  none : V
  /-- calling a value with one argument -/
  call : V → V → Comp V W E V
  /-- the name of a variable that is not there: NameError -/
  nameError : E

/-- A statement of the expansion (syntax/nb.py:50-52, 60-63): one of the program, an assignment, or `if _ is not None: theprint(_)` -/
inductive XStmt (V W E : Type) where
  | user (s : Stmt V W E)
  | assign (x : String) (e : Comp V W E V)
  | printIt

/-- `_nb(body, args)` (syntax/nb.py:48-65); `theprint` is the value of the lambda (51-52) -/
def nb (py : Python V W E) (theprint : V) (body : List (Stmt V W E)) : List (XStmt V W E) :=
  [.assign "_" (fun s => (.ok py.none, s)), .assign "theprint" (fun s => (.ok theprint, s))] ++
  body.flatMap (fun
    | .expr e => [.assign "_" e, .printIt]
    | s => [.user s])

def setVar (s : St V W) (x : String) (v : V) : St V W := { s with vars := fun y => if y = x then some v else s.vars y }

def readVar (py : Python V W E) (x : String) : Comp V W E V := fun s =>
  match s.vars x with
  | some v => (.ok v, s)
  | none => (.error py.nameError, s)

/-- Running one statement -/
def exec1 [DecidableEq V] (py : Python V W E) : XStmt V W E → Comp V W E Unit
  | .user (.other c) => c
  | .user (.test c) | .user (.expr c) => fun s => match c s with
    | (.ok _, s) => (.ok (), s)
    | (.error e, s) => (.error e, s)
  | .assign x c => fun s => match c s with
    | (.ok v, s) => (.ok (), setVar s x v)
    | (.error e, s) => (.error e, s)
  | .printIt => fun s => match readVar py "_" s with
    | (.error e, s) => (.error e, s)
    | (.ok v, s) =>
      if v ≠ py.none then
        match readVar py "theprint" s with
        | (.error e, s) => (.error e, s)
        | (.ok f, s) => match readVar py "_" s with
          | (.error e, s) => (.error e, s)
          | (.ok v, s) => match py.call f v s with
            | (.error e, s) => (.error e, s)
            | (.ok _, s) => (.ok (), s)
      else (.ok (), s)

/-- Running statements up to the first exception -/
def exec [DecidableEq V] (py : Python V W E) : List (XStmt V W E) → Comp V W E Unit
  | [], s => (.ok (), s)
  | x :: xs, s => match exec1 py x s with
    | (.ok (), s) => exec py xs s
    | (.error e, s) => (.error e, s)

/-- Calling the lambda, i.e. `_print_and_passthrough(printer, value)` (syntax/nb.py:52, 70-72); `p` is the expression for the print function -/
def printAndPassthrough (py : Python V W E) (p : Comp V W E V) (v : V) : Comp V W E V := fun s =>
  match p s with
  | (.error e, s) => (.error e, s)
  | (.ok printer, s) => match py.call printer v s with
    | (.error e, s) => (.error e, s)
    | (.ok _, s) => (.ok v, s)

end Unpy.Nb
