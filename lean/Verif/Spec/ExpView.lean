import Verif.Model.ExpView
/-!
# Specification: expanded `let` and `do` forms

The formats that are documented in `letdoutil.py` (comments at 698-716 and 850-854), and in the quotes of `letdo.py`:

    letter(((k, v), …), namelambda("let_body")(lambda e: …), mode="let")
    letter(((k, namelambda("letrec_binding1_k")(lambda e: …)), …), namelambda("letrec_body")(lambda e: …), mode="letrec")
    dof(namelambda("do_line1")(lambda e: …), …)

and the same with `autocurry`.  Nothing here refers to the functions of the model.
-/
namespace Unpy.ExpView.Spec

/-- `namelambda(label)(f)`; with `autocurry`, `currycall(currycall(namelambda, label), curryf(f))` -/
def namedFn (curried : Bool) (label : String) (f : T) : T :=
  if curried then .call (.cap "currycall") [.call (.cap "currycall") [.cap "namelambda", .const (.str label)] [], .call (.cap "curryf") [f] []] []
  else .call (.call (.cap "namelambda") [.const (.str label)] []) [f] []

/-- `f(*args, **kws)`; with `autocurry`, `currycall(f, *args, **kws)` -/
def calls (curried : Bool) (f : T) (args : List T) (kws : List (String × T)) : T :=
  if curried then .call (.cap "currycall") (f :: args) kws else .call f args kws

/-- The ways to refer to a function `x` (nameutil.py:52-69): `x`, `h[x]`, `….x`, and these in a `Done`. -/
inductive Refers (x : String) : T → Prop
  | name : Refers x (.name x)
  | captured : Refers x (.cap x)
  | member (t : T) : Refers x (.attr t x)
  | done {t : T} : Refers x t → Refers x (.done t)

structure Binding where
  key : String
  /-- the name given to the function, in a `letrec` -/
  label : String
  value : T

structure Let where
  letrec : Bool
  /-- the name of the environment -/
  env : String
  bindings : List Binding
  label : String
  body : T

/-- `(k, v)` -/
def bound (key : String) (value : T) : T := .tuple [.const (.str key), value]

def Let.mode (x : Let) : String := if x.letrec then "letrec" else "let"

/-- The bindings as they are in the code. -/
def Let.coded (c : Bool) (x : Let) : T := .tuple (x.bindings.map fun b => bound b.key (if x.letrec then namedFn c b.label b.value else b.value))

/-- The code of a `let` expression. -/
def Let.form (c : Bool) (x : Let) : T := calls c (.cap "letter") [x.coded c, namedFn c x.label x.body] [("mode", .const (.str x.mode))]

/-- The code of a `let` decorator. -/
def Let.deco (c : Bool) (x : Let) : T := calls c (.cap "letter") [x.coded c] [("mode", .const (.str x.mode)), ("_envname", .const (.str x.env))]

/-- The bindings as the user of a view is to see them. -/
def Let.seen (x : Let) : T := .tuple (x.bindings.map fun b => bound b.key b.value)

/-- `lambda e, …: …` -/
def Takes (e : String) (t : T) : Prop := ∃ ps b, t = .lam (some e :: ps) b

/-- Some lambda with a first parameter. -/
def IsLambda (t : T) : Prop := ∃ p ps b, t = .lam (p :: ps) b

/-- The values of a `letrec` are lambdas that take the environment. -/
def Let.ProperValues (x : Let) : Prop := x.letrec = true → ∀ b ∈ x.bindings, Takes x.env b.value

/-- And so is the body. -/
def Let.Proper (x : Let) : Prop := Takes x.env x.body ∧ x.ProperValues

/-- The same lambda, with `e` as the name of its first parameter. -/
def enter (e : String) : T → T
  | .lam (_ :: ps) b => .lam (some e :: ps) b
  | t => t

/-- Change the body of a lambda. -/
def inside (f : T → T) : T → T
  | .lam ps b => .lam ps (f b)
  | t => t

/-- Change the values and the body of a `let`. -/
def Let.change (f : T → T) (g : T → T) (x : Let) : Let :=
  { x with bindings := x.bindings.map fun b => { b with value := if x.letrec then inside f b.value else f b.value }, body := inside g x.body }

structure Do where
  env : String
  lines : List (String × T)

def Do.form (c : Bool) (x : Do) : T := calls c (.cap "dof") (x.lines.map fun l => namedFn c l.1 l.2) []

def Do.Proper (x : Do) : Prop := x.lines ≠ [] ∧ ∀ l ∈ x.lines, Takes x.env l.2

end Unpy.ExpView.Spec
