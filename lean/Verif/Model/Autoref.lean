/-!
# Model of the `autoref` macro (`unpythonic/syntax/autoref.py`)

`with autoref[e]:` makes the names in its body, when they are read, stand for attributes of the object `e`.

Source programs (`E`, `S`), what they expand to (`T`, `TS`), and what the expanded code does.

Simplifications.  Functions have one parameter and an expression as their body, and variables that are not parameters are global.  In
targets of assignments, `x.a` and `x[k]`, `x` is a name, and `k` a name or a number.  Attributes are values, or properties that
return how often they were read.  Lazy values (`force1`) and other macros (`let`, `do`, `lazify`, `autocurry`, the test framework)
are not modelled.
-/
namespace Unpy.Autoref

/-- Names: written by the user, or made by `gensym`. -/
inductive Name where
  | user (x : String)
  | gen (i : Nat)
  deriving DecidableEq

/-- Expressions. -/
inductive E where
  | int (n : Int)
  | name (x : String)
  | attr (e : E) (a : String)
  | item (e k : E)
  | lam (x : String) (e : E)
  | call (f a : E)

/-- The key in a target. -/
inductive Key where
  | int (n : Int)
  | name (x : String)

/-- Targets of assignments (`Store` and `Del` context). -/
inductive Target where
  | name (x : Name)
  | attr (x : String) (a : String)
  | item (x : String) (k : Key)

/-- Statements. -/
inductive S where
  /-- an expression statement; what it evaluates to is shown -/
  | expr (e : E)
  | assign (t : Target) (e : E)
  | del (x : String)
  /-- a loop, so many times -/
  | repeat (n : Nat) (body : List S)
  /-- `with autoref[e] as x:`, `i` being what `gensym` will return if there is no as-part -/
  | autoref (i : Nat) (x : Option String) (e : E) (body : List S)

/-- Expanded expressions. -/
inductive T where
  | int (n : Int)
  | name (x : Name)
  | attr (e : T) (a : String)
  | item (e k : T)
  | lam (x : String) (e : T)
  | call (f a : T)
  /-- `(lambda _ar: _ar[1] if _ar[0] else x)(_autoref_resolve((p, ..., o, "x")))` -/
  | look (objs : List Name) (x : Name)

/-- Expanded statements. -/
inductive TS where
  | expr (e : T)
  | assign (t : Target) (e : T)
  | del (x : String)
  | repeat (n : Nat) (body : List TS)
  /-- `ExpandedAutorefMarker` -/
  | marker (x : Name) (body : List TS)

/-- `always_skip` (autoref.py:296-305; testingtools.py:476-478): a comma is missing between `curryf` and `currycall`. -/
def skip : List Name :=
  ["letter", "dof", "namelambda", "curry", "curryfcurrycall", "lazy", "lazyrec", "maybe_force_args", "callsite_filename",
    "returns_normally", "unpythonic_assert", "unpythonic_assert_signals", "unpythonic_assert_raises"].map .user

/-- `AutorefTransformer` on expressions (autoref.py:222-291) -/
def autoE (o : Name) (refs : List Name) : T → T
  | .int n => .int n
  | .name x => if refs.contains x then .name x else .look [o] x
  | .attr e a => .attr (autoE o refs e) a
  | .item e k => .item (autoE o refs e) (autoE o refs k)
  | .lam x e => .lam x (autoE o refs e)
  | .call f a => .call (autoE o refs f) (autoE o refs a)
  | .look objs x => if refs.contains x then .name x else .look (objs ++ [o]) x

mutual
/-- `AutorefTransformer` on statements (autoref.py:222-291): targets are left alone. -/
def autoS (o : Name) (refs : List Name) : TS → TS
  | .expr e => .expr (autoE o refs e)
  | .assign t e => .assign t (autoE o refs e)
  | .del x => .del x
  | .repeat n body => .repeat n (autoSs o refs body)
  | .marker x body => .marker x (autoSs o (refs ++ [x]) body)
def autoSs (o : Name) (refs : List Name) : List TS → List TS
  | [] => []
  | s :: ss => autoS o refs s :: autoSs o refs ss
end

/-- An expression without macros in it is left as it is. -/
def embed : E → T
  | .int n => .int n
  | .name x => .name (.user x)
  | .attr e a => .attr (embed e) a
  | .item e k => .item (embed e) (embed k)
  | .lam x e => .lam x (embed e)
  | .call f a => .call (embed f) (embed a)

/-- `o = asname.id if asname else gensym("_o")` (autoref.py:184) -/
def varName (i : Nat) : Option String → Name
  | some x => .user x
  | none => .gen i

mutual
/-- `_autoref` (autoref.py:171-314): the blocks inside are expanded first. -/
def expandS : S → TS
  | .expr e => .expr (embed e)
  | .assign t e => .assign t (embed e)
  | .del x => .del x
  | .repeat n body => .repeat n (expandSs body)
  | .autoref i x e body =>
    .marker (varName i x) (.assign (.name (varName i x)) (embed e) :: autoSs (varName i x) (skip ++ [varName i x]) (expandSs body))
def expandSs : List S → List TS
  | [] => []
  | s :: ss => expandS s :: expandSs ss
end

/-! ## What programs do -/

inductive Err where
  | name
  | attribute
  | key
  | type
  | recursion
  /-- no exception of Python: for the specification -/
  | stopped
  deriving DecidableEq

/-- An attribute: a value, or a property. -/
inductive Attr (V : Type) where
  | val (v : V)
  | prop (n : Nat)

structure Obj (V : Type) where
  attrs : List (String × Attr V)
  items : List (Int × V)

/-- Global variables, objects, and what was shown, the last first. -/
structure St (V : Type) where
  vars : List (Name × V)
  heap : List (Obj V)
  out : List (Option Int)

/-- The first that belongs to the key. -/
def find {K V : Type} [DecidableEq K] (k : K) : List (K × V) → Option V
  | [] => none
  | (k', v) :: kvs => if k' = k then some v else find k kvs

/-- Set it. -/
def set {K V : Type} [DecidableEq K] (k : K) (v : V) : List (K × V) → List (K × V)
  | [] => [(k, v)]
  | (k', v') :: kvs => if k' = k then (k, v) :: kvs else (k', v') :: set k v kvs

/-- Remove it. -/
def remove {K V : Type} [DecidableEq K] (k : K) : List (K × V) → List (K × V)
  | [] => []
  | (k', v') :: kvs => if k' = k then remove k kvs else (k', v') :: remove k kvs

/-- A computation. -/
abbrev M (V α : Type) := St V → Except Err α × St V

def M.pure {V α : Type} (a : α) : M V α := fun s => (.ok a, s)
def M.fail {V α : Type} (e : Err) : M V α := fun s => (.error e, s)
def M.bind {V α β : Type} (m : M V α) (k : α → M V β) : M V β := fun s =>
  match m s with
  | (.ok a, s) => k a s
  | (.error e, s) => (.error e, s)

/-- Read an attribute of the object `i`; a property counts. -/
def getAttr {V : Type} (int : Int → V) (i : Nat) (a : String) : M V V := fun s =>
  match s.heap[i]? with
  | none => (.error .attribute, s)
  | some o => match find a o.attrs with
    | none => (.error .attribute, s)
    | some (.val v) => (.ok v, s)
    | some (.prop n) => (.ok (int n), { s with heap := s.heap.set i { o with attrs := set a (.prop (n + 1)) o.attrs } })

/-- Values. -/
inductive V where
  | int (n : Int)
  | obj (i : Nat)
  /-- a function, with the parameters it is nested in -/
  | clo (x : String) (e : T) (loc : List (Name × V))

/-- The object a value is. -/
def V.ref : V → Option Nat
  | .obj i => some i
  | _ => none

/-- A variable: a parameter or a global one. -/
def readName {V : Type} (loc : List (Name × V)) (x : Name) : M V V := fun s =>
  match find x loc with
  | some v => (.ok v, s)
  | none => match find x s.vars with
    | some v => (.ok v, s)
    | none => (.error .name, s)

/-- The objects, in a tuple: `(p, ..., o, "x")`. -/
def readNames {V : Type} (loc : List (Name × V)) : List Name → M V (List V)
  | [] => M.pure []
  | x :: xs => (readName loc x).bind fun v => (readNames loc xs).bind fun vs => M.pure (v :: vs)

/-- `e.a` for a value -/
def attrOf (a : String) : V → M V V
  | .obj i => getAttr V.int i a
  | _ => M.fail .attribute

/-- `hasattr(o, a)`: a property is evaluated. -/
def hasAttr (a : String) (v : V) : M V Bool := fun s =>
  match attrOf a v s with
  | (.ok _, s) => (.ok true, s)
  | (.error .attribute, s) => (.ok false, s)
  | (.error e, s) => (.error e, s)

/-- `_autoref_resolve` (autoref.py:153-169) -/
def resolve (a : String) : List V → M V (Option V)
  | [] => M.pure none
  | o :: os => (hasAttr a o).bind fun b => if b then (attrOf a o).bind fun v => M.pure (some v) else resolve a os

/-- The name of an attribute. -/
def Name.str : Name → String
  | .user x => x
  | .gen i => "_o" ++ toString i

/-- `e[k]` for values -/
def itemOf : V → V → M V V
  | .obj i, .int k => fun s => match s.heap[i]? with
    | none => (.error .key, s)
    | some o => match find k o.items with
      | none => (.error .key, s)
      | some v => (.ok v, s)
  | _, _ => M.fail .type

/-- Evaluate an expanded expression. -/
def evalT : Nat → List (Name × V) → T → M V V
  | 0, _, _ => M.fail .recursion
  | _ + 1, _, .int n => M.pure (.int n)
  | _ + 1, loc, .name x => readName loc x
  | n + 1, loc, .attr e a => (evalT n loc e).bind (attrOf a)
  | n + 1, loc, .item e k => (evalT n loc e).bind fun v => (evalT n loc k).bind fun k => itemOf v k
  | _ + 1, loc, .lam x e => M.pure (.clo x e loc)
  | n + 1, loc, .call f a => (evalT n loc f).bind fun f => (evalT n loc a).bind fun a => match f with
    | .clo x e loc => evalT n ((.user x, a) :: loc) e
    | _ => M.fail .type
  -- (lambda _ar: _ar[1] if _ar[0] else x)(_autoref_resolve((p, ..., o, "x"))) (autoref.py:203)
  | _ + 1, loc, .look objs x => (readNames loc objs).bind fun os => (resolve x.str os).bind fun r => match r with
    | some v => M.pure v
    | none => readName loc x

/-- Set a global variable. -/
def setVar {V : Type} (x : Name) (v : V) : M V Unit := fun s => (.ok (), { s with vars := set x v s.vars })

/-- `o.a = v`; properties cannot be set. -/
def setAttr {V : Type} (i : Nat) (a : String) (v : V) : M V Unit := fun s =>
  match s.heap[i]? with
  | none => (.error .attribute, s)
  | some o => match find a o.attrs with
    | some (.prop _) => (.error .attribute, s)
    | _ => (.ok (), { s with heap := s.heap.set i { o with attrs := set a (.val v) o.attrs } })

/-- `o[k] = v` -/
def setItem {V : Type} (i : Nat) (k : Int) (v : V) : M V Unit := fun s =>
  match s.heap[i]? with
  | none => (.error .key, s)
  | some o => (.ok (), { s with heap := s.heap.set i { o with items := set k v o.items } })

/-- The value of the key in a target. -/
def evalKey : Key → M V V
  | .int n => M.pure (.int n)
  | .name x => readName [] (.user x)

/-- Assign to a target. -/
def assignT : Target → V → M V Unit
  | .name x, v => setVar x v
  | .attr x a, v => (readName [] (.user x)).bind fun o => match o with
    | .obj i => setAttr i a v
    | _ => M.fail .attribute
  | .item x k, v => (readName [] (.user x)).bind fun o => (evalKey k).bind fun k => match o, k with
    | .obj i, .int k => setItem i k v
    | _, _ => M.fail .type

/-- `del x` -/
def delVar {V : Type} (x : Name) : M V Unit := fun s =>
  match find x s.vars with
  | none => (.error .name, s)
  | some _ => (.ok (), { s with vars := remove x s.vars })

/-- Show a value. -/
def emit {V : Type} (o : Option Int) : M V Unit := fun s => (.ok (), { s with out := o :: s.out })

def V.shown : V → Option Int
  | .int n => some n
  | _ => none

/-- Do it so many times. -/
def times {V : Type} (m : M V Unit) : Nat → M V Unit
  | 0 => M.pure ()
  | n + 1 => m.bind fun _ => times m n

mutual
/-- Run an expanded statement. -/
def execT (n : Nat) : TS → M V Unit
  | .expr e => (evalT n [] e).bind fun v => emit v.shown
  | .assign t e => (evalT n [] e).bind (assignT t)
  | .del x => delVar (.user x)
  | .repeat k body => times (execTs n body) k
  | .marker _ body => execTs n body
def execTs (n : Nat) : List TS → M V Unit
  | [] => M.pure ()
  | s :: ss => (execT n s).bind fun _ => execTs n ss
end

end Unpy.Autoref
