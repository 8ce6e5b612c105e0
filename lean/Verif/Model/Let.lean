import Verif.Model.Env
import Verif.Model.Fold
/-!
# Model of `unpythonic/let.py`, `unpythonic/lispylet.py`, and `do`, `do0` (`unpythonic/seq.py`)

User code that is given the environment is a program over its operations (`EnvM.Op`): it does an operation, goes on with
what that returns or raises, and in the end returns or raises.  Other side effects of user code are not modelled.
-/
namespace Unpy.Let
open Unpy Unpy.EnvM
open Unpy.Fold (Err)

variable {V ε : Type}

/-- The code of a function of the environment, `lambda e: ...`. -/
inductive Code (V ε : Type) where
  | ret (v : V)
  | raise (e : Err ε)
  | op (o : Op V) (k : Res (Out V) → Code V ε)

/-- Run the code on an environment. -/
def Code.run (w : World V) : Code V ε → Env V → Except (Err ε) V × Env V
  | .ret v, e => (.ok v, e)
  | .raise x, e => (.error x, e)
  | .op o k, e => (k (step w false e o).1).run w (step w false e o).2

/-- A value given in a binding: the value itself; and if it is callable, whether it can take one argument (`none` if its
arity is not known) and what it does. -/
inductive Rhs (V ε : Type) where
  | value (v : V)
  | func (v : V) (arity1 : Option Bool) (code : Code V ε)

/-- The value itself. -/
def Rhs.val : Rhs V ε → V
  | .value v => v
  | .func v _ _ => v

/-- The value to bind (let.py:234-241, lispylet.py:242-249). -/
def rhsValue (w : World V) (letrec : Bool) (r : Rhs V ε) (e : Env V) : Except (Err ε) V × Env V :=
  match letrec, r with
  | true, .func _ (some false) _ => (.error (.py .TypeError), e)
  | true, .func _ _ code => code.run w e
  | _, r => (.ok r.val, e)

/-- One binding (let.py:228-242, lispylet.py:239-250): what is raised, if anything, and the environment. -/
def bindOne (w : World V) (letrec : Bool) (k : String) (r : Rhs V ε) (e : Env V) : Except (Err ε) Unit × Env V :=
  if e.env.has k then (.error (.py .AttributeError), e)
  else
    match rhsValue w letrec r e with
    | (.error x, e1) => (.error x, e1)
    | (.ok v, e1) =>
      match setattr w false e1 k v with
      | (.error x, e2) => (.error (.py x), e2)
      | (.ok _, e2) => (.ok (), e2)

/-- The loop over the bindings (let.py:227-242). -/
def bindAll (w : World V) (letrec : Bool) : List (String × Rhs V ε) → Env V → Except (Err ε) Unit × Env V
  | [], e => (.ok (), e)
  | (k, r) :: bs, e =>
    match bindOne w letrec k r e with
    | (.error x, e1) => (.error x, e1)
    | (.ok _, e1) => bindAll w letrec bs e1

/-- The body: a function, or something that is not callable. -/
inductive Body (V ε : Type) where
  | notCallable
  | func (arity1 : Option Bool) (code : Code V ε)

/-- `env.finalize()` and the call of the body (let.py:244-253, lispylet.py:224-235).  A falsy body that is not `None` is
called, which raises the same `TypeError`. -/
def runBody (w : World V) (b : Body V ε) (e : Env V) : Except (Err ε) V × Env V :=
  let e1 := (step w false e .finalize).2
  match b with
  | .notCallable => (.error (.py .TypeError), e1)
  | .func (some false) _ => (.error (.py .TypeError), e1)
  | .func _ code => code.run w e1

/-- `let(body, **bindings)`, `letrec(body, **bindings)` (let.py:12, 81-83, 157), with `_let(mode, body, **bindings)`
(let.py:215-253).  Bindings called `body` and `mode` clash with the parameters. -/
def letPy (w : World V) (letrec : Bool) (bs : List (String × Rhs V ε)) (b : Body V ε) : Except (Err ε) V × Env V :=
  if PyDict.has bs "body" || PyDict.has bs "mode" then (.error (.py .TypeError), {})
  else match bindAll w letrec bs {} with
  | (.error x, e) => (.error x, e)
  | (.ok _, e) => runBody w b e

/-- `dlet(**bindings)`, `dletrec(**bindings)` (let.py:182, 195), with `_dlet(mode, _envname="env", **bindings)`
(let.py:257-261): the environment for a decorator.  Bindings called `body` and `mode` clash with the parameters; one called
`_envname` is taken as the name of the parameter for the environment, and not bound. -/
def letEnv (w : World V) (letrec : Bool) (bs : List (String × Rhs V ε)) : Except (Err ε) Unit × Env V :=
  if PyDict.has bs "body" || PyDict.has bs "mode" then (.error (.py .TypeError), {})
  else match bindAll w letrec (bs.filter (fun b => b.1 ≠ "_envname")) {} with
  | (.error x, e) => (.error x, e)
  | (.ok _, e) => (.ok (), (step w false e .finalize).2)

/-- `_let(bindings, body, env=env, mode=mode)` of lispylet.py (219-251).  `env or _envcls()` replaces an environment that is
empty (`env.__len__`) by a new one. -/
def letLispy (w : World V) (letrec : Bool) : List (String × Rhs V ε) → Body V ε → Env V → Except (Err ε) V × Env V
  | [], b, e => runBody w b (if e.env.length = 0 then {} else e)
  | (k, r) :: bs, b, e =>
    match bindOne w letrec k r (if e.env.length = 0 then {} else e) with
    | (.error x, e1) => (.error x, e1)
    | (.ok _, e1) => letLispy w letrec bs b e1

/-- Calls of a function decorated with `@dlet` (let.py:257-268): the environment is made when the function is defined;
each call runs the body (its other arguments fixed) on that environment. -/
def dletCalls (w : World V) (e : Env V) : List (Code V ε) → List (Except (Err ε) V) × Env V
  | [] => ([], e)
  | c :: cs => ((c.run w e).1 :: (dletCalls w (c.run w e).2 cs).1, (dletCalls w (c.run w e).2 cs).2)

/-! ## `do`, `do0` -/

/-- An item of `do`. -/
inductive Item (V ε : Type) where
  | plain (r : Rhs V ε)
  /-- `assign(k=r)` -/
  | assign (k : String) (r : Rhs V ε)

/-- `maybe_call` (seq.py:577-585) -/
def maybeCall (w : World V) (r : Rhs V ε) (e : Env V) : Except (Err ε) V × Env V :=
  match r with
  | .func _ (some false) _ => (.error (.py .ValueError), e)
  | .func _ _ code => code.run w e
  | .value v => (.ok v, e)

/-- One item (seq.py:583-587). -/
def doItem (w : World V) (i : Item V ε) (e : Env V) : Except (Err ε) V × Env V :=
  match i with
  | .plain r => maybeCall w r e
  | .assign k r =>
    match maybeCall w r e with
    | (.error x, e1) => (.error x, e1)
    | (.ok v, e1) =>
      match setattr w false e1 k v with
      | (.error x, e2) => (.error (.py x), e2)
      | (.ok _, e2) => (.ok v, e2)

/-- The loop of `do` (seq.py:582-588); `last` is the current value of `item`. -/
def doLoop (w : World V) : List (Item V ε) → Option V → Env V → Except (Err ε) V × Env V
  | [], some v, e => (.ok v, e)
  | [], none, e => (.error (.py .UnboundLocalError), e)
  | i :: is, _, e =>
    match doItem w i e with
    | (.error x, e1) => (.error x, e1)
    | (.ok v, e1) => doLoop w is (some v) e1

/-- `do(*items)` (seq.py:512-588) -/
def doM (w : World V) (items : List (Item V ε)) : Except (Err ε) V × Env V := doLoop w items none {}

/-- `lambda e: e[k]`; a class attribute is returned as such, for which `cls` stands. -/
def readCode (cls : String → V) (k : String) : Code V ε :=
  .op (.getattr k) (fun r => match r with
    | .ok (.val v) => .ret v
    | .ok _ => .ret (cls k)
    | .error x => .raise (.py x))

/-- `do0(*items)` (seq.py:590-618); `fv` stands for a lambda as a value, `cls` for attributes that are not bindings. -/
def do0M (w : World V) (fv : V) (cls : String → V) : List (Item V ε) → Except (Err ε) V × Env V
  | [] => (.error (.py .ValueError), {})
  | .assign k r :: rest =>
    doM w (.assign k r :: .assign "_do0_result" (.func fv (some true) (readCode cls k)) :: rest ++
      [.plain (.func fv (some true) (readCode cls "_do0_result"))])
  | .plain r :: rest =>
    doM w (.assign "_do0_result" r :: rest ++ [.plain (.func fv (some true) (readCode cls "_do0_result"))])

end Unpy.Let
