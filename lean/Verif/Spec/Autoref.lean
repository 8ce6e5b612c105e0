import Verif.Model.Autoref
/-!
# What `with autoref[...]` should do

Programs are run as they are written.  The objects of the `with autoref` blocks around a place are known there (`ctx`, the innermost
first).  A name that is read is the attribute of the innermost of these objects that has one, else a variable.  The names given
to the objects in as-parts are variables; the object of such a block is what its variable is.

With `careful`, the run stops where the macro is known to do otherwise.
-/
namespace Unpy.Autoref.Spec
open Unpy.Autoref

/-- Values; functions remember the objects around them. -/
inductive RV where
  | int (n : Int)
  | obj (i : Nat)
  | clo (x : String) (e : E) (loc : List (Name × RV)) (ctx : List (Name × RV))

def RV.ref : RV → Option Nat
  | .obj i => some i
  | _ => none

/-- What `v.a` is, if it is anything. -/
def attrNow (s : St RV) (a : String) (v : RV) : Option (Attr RV) :=
  match v.ref with
  | none => none
  | some i => match s.heap[i]? with
    | none => none
    | some o => find a o.attrs

/-- The first of the objects that has the attribute. -/
def owner (s : St RV) (x : String) : List RV → Option RV
  | [] => none
  | v :: vs => if (attrNow s x v).isSome then some v else owner s x vs

def attrOf (a : String) : RV → M RV RV
  | .obj i => getAttr RV.int i a
  | _ => M.fail .attribute

/-- The variable, as it is now. -/
def varNow (loc : List (Name × RV)) (s : St RV) (x : Name) : Option RV :=
  match find x loc with
  | some v => some v
  | none => find x s.vars

/-- The objects of the blocks around.  If a block names its object, the object is what the variable is now. -/
def objects (loc : List (Name × RV)) (s : St RV) : List (Name × RV) → Option (List RV)
  | [] => some []
  | (.gen _, v) :: ctx => (objects loc s ctx).map (v :: ·)
  | (.user x, _) :: ctx => match varNow loc s (.user x) with
    | none => none
    | some v => (objects loc s ctx).map (v :: ·)

/-- All variables made for blocks around without an as-part hold their objects still. -/
def held (loc : List (Name × RV)) (s : St RV) : List (Name × RV) → Bool
  | [] => true
  | (.gen i, v) :: ctx => (match varNow loc s (.gen i) with
    | some w => w.ref == v.ref
    | none => false) && held loc s ctx
  | (.user _, _) :: ctx => held loc s ctx

def isProp : Option (Attr RV) → Bool
  | some (.prop _) => true
  | _ => false

/-- Helpers of the macros.  With these names the macro is known to do otherwise. -/
def helpers : List Name :=
  [.user "letter", .user "dof", .user "namelambda", .user "curry", .user "curryfcurrycall", .user "lazy", .user "lazyrec",
    .user "maybe_force_args", .user "callsite_filename", .user "returns_normally", .user "unpythonic_assert",
    .user "unpythonic_assert_signals", .user "unpythonic_assert_raises"]

/-- Read a name. -/
def name (careful : Bool) (ctx loc : List (Name × RV)) (x : String) : M RV RV := fun s =>
  if (ctx.map (·.1)).contains (.user x) then readName loc (.user x) s
  else if careful && !helpers.contains (.user x) && !held loc s ctx then (.error .stopped, s)
  else match objects loc s ctx with
    | none => if careful && helpers.contains (.user x) then (.error .stopped, s) else (.error .name, s)
    | some vs => match owner s x vs with
      | none => readName loc (.user x) s
      | some v =>
        if careful && (helpers.contains (.user x) || isProp (attrNow s x v)) then (.error .stopped, s)
        else attrOf x v s

/-- Read a name that is the key in a target. -/
def inKey (careful : Bool) (ctx : List (Name × RV)) (x : String) : M RV RV := fun s =>
  if (ctx.map (·.1)).contains (.user x) then readName [] (.user x) s
  else match objects [] s ctx with
    | none => if careful then (.error .stopped, s) else (.error .name, s)
    | some vs => match owner s x vs with
      | none => readName [] (.user x) s
      | some v => if careful then (.error .stopped, s) else attrOf x v s

def itemOf : RV → RV → M RV RV
  | .obj i, .int k => fun s => match s.heap[i]? with
    | none => (.error .key, s)
    | some o => match find k o.items with
      | none => (.error .key, s)
      | some v => (.ok v, s)
  | _, _ => M.fail .type

/-- Evaluate an expression. -/
def eval (careful : Bool) : Nat → List (Name × RV) → List (Name × RV) → E → M RV RV
  | 0, _, _, _ => M.fail .recursion
  | _ + 1, _, _, .int n => M.pure (.int n)
  | _ + 1, ctx, loc, .name x => name careful ctx loc x
  | n + 1, ctx, loc, .attr e a => (eval careful n ctx loc e).bind (attrOf a)
  | n + 1, ctx, loc, .item e k => (eval careful n ctx loc e).bind fun v => (eval careful n ctx loc k).bind fun k => itemOf v k
  | _ + 1, ctx, loc, .lam x e => M.pure (.clo x e loc ctx)
  | n + 1, ctx, loc, .call f a => (eval careful n ctx loc f).bind fun f => (eval careful n ctx loc a).bind fun a => match f with
    | .clo x e loc ctx => eval careful n ctx ((.user x, a) :: loc) e
    | _ => M.fail .type

def key (careful : Bool) (ctx : List (Name × RV)) : Key → M RV RV
  | .int n => M.pure (.int n)
  | .name x => inKey careful ctx x

/-- Targets are not redirected, but a key is read. -/
def assign (careful : Bool) (ctx : List (Name × RV)) : Target → RV → M RV Unit
  | .name x, v => setVar x v
  | .attr x a, v => (readName [] (.user x)).bind fun o => match o with
    | .obj i => setAttr i a v
    | _ => M.fail .attribute
  | .item x k, v => (readName [] (.user x)).bind fun o => (key careful ctx k).bind fun k => match o, k with
    | .obj i, .int k => setItem i k v
    | _, _ => M.fail .type

def RV.shown : RV → Option Int
  | .int n => some n
  | _ => none

/-- The name occurs in the expression. -/
def occurs (x : String) : E → Bool
  | .int _ => false
  | .name y => y == x
  | .attr e _ => occurs x e
  | .item e k => occurs x e || occurs x k
  | .lam _ e => occurs x e
  | .call f a => occurs x f || occurs x a

/-- The name in the as-part of a block occurs in the expression for its object, in another block. -/
def ownName (ctx : List (Name × RV)) (x : Option String) (e : E) : Bool :=
  !ctx.isEmpty && match x with
    | some x => occurs x e
    | none => false

mutual
/-- Run a statement. -/
def exec (careful : Bool) (n : Nat) (ctx : List (Name × RV)) : S → M RV Unit
  | .expr e => (eval careful n ctx [] e).bind fun v => emit v.shown
  | .assign t e => (eval careful n ctx [] e).bind (assign careful ctx t)
  | .del x => delVar (.user x)
  | .repeat k body => times (execs careful n ctx body) k
  | .autoref i x e body =>
    if careful && ownName ctx x e then M.fail .stopped
    else (eval careful n ctx [] e).bind fun v => (setVar (varName i x) v).bind fun _ =>
      execs careful n ((varName i x, v) :: ctx) body
def execs (careful : Bool) (n : Nat) (ctx : List (Name × RV)) : List S → M RV Unit
  | [] => M.pure ()
  | s :: ss => (exec careful n ctx s).bind fun _ => execs careful n ctx ss
end

/-- What a program starts with: variables that are numbers or objects. -/
inductive Init where
  | int (n : Int)
  | obj (i : Nat)

structure World where
  vars : List (String × Init)
  /-- Objects: attributes, properties, items. -/
  heap : List (List (String × Init) × List String × List (Int × Init))

def Init.val {V : Type} (int : Int → V) (obj : Nat → V) : Init → V
  | .int n => int n
  | .obj i => obj i

def World.start {V : Type} (int : Int → V) (obj : Nat → V) (w : World) : St V where
  vars := w.vars.map fun (x, i) => (.user x, i.val int obj)
  heap := w.heap.map fun (as, ps, is) =>
    { attrs := as.map (fun (a, i) => (a, .val (i.val int obj))) ++ ps.map (fun a => (a, .prop 0)),
      items := is.map fun (k, i) => (k, i.val int obj) }
  out := []

/-- What one sees of a value. -/
inductive Seen where
  | int (n : Int)
  | obj (i : Nat)
  | function
  deriving DecidableEq

def seenV : V → Seen
  | .int n => .int n
  | .obj i => .obj i
  | .clo _ _ _ => .function

def seenRV : RV → Seen
  | .int n => .int n
  | .obj i => .obj i
  | .clo _ _ _ _ => .function

def seenAttr {V : Type} (f : V → Seen) : Attr V → Seen ⊕ Nat
  | .val v => .inl (f v)
  | .prop n => .inr n

/-- What one sees of a state: the variables, the attributes and items of the objects, and what was shown. -/
def seen {V : Type} (f : V → Seen) (s : St V) :
    List (Name × Seen) × List (List (String × (Seen ⊕ Nat)) × List (Int × Seen)) × List (Option Int) :=
  (s.vars.map fun (x, v) => (x, f v),
    s.heap.map fun o => (o.attrs.map fun (a, v) => (a, seenAttr f v), o.items.map fun (k, v) => (k, f v)), s.out)

/-! ## Plain programs -/

/-- No calls, and no names of helpers. -/
def PlainE : E → Prop
  | .int _ => True
  | .name x => helpers.contains (.user x) = false
  | .attr e _ => PlainE e
  | .item e k => PlainE e ∧ PlainE k
  | .lam _ _ => True
  | .call _ _ => False

def PlainTarget : Target → Prop
  | .name (.user _) => True
  | .name (.gen _) => False
  | .attr _ _ => True
  | .item _ (.int _) => True
  | .item _ (.name _) => False

mutual
/-- No as-parts, no names as keys in targets, and the variables made for blocks are not those of the blocks around. -/
def PlainS (is : List Nat) : S → Prop
  | .expr e => PlainE e
  | .assign t e => PlainTarget t ∧ PlainE e
  | .del _ => True
  | .repeat _ body => PlainSs is body
  | .autoref i x e body => x = none ∧ ¬ i ∈ is ∧ PlainE e ∧ PlainSs (i :: is) body
def PlainSs (is : List Nat) : List S → Prop
  | [] => True
  | s :: ss => PlainS is s ∧ PlainSs is ss
end

end Unpy.Autoref.Spec
