import Verif.Model.Multilambda
import Verif.Spec.LetDo
/-!
# What lambdas with brackets mean

As in `Spec/LetDo.lean`, variables live in frames, and each body and each item counts as a call.  A lambda whose body is in
brackets runs the items in order, in the scope of its parameters, with variables of its own, and returns the value of the last.
-/
namespace Unpy.Spec.Multilambda
open Unpy.Multilambda (Src)
open Unpy.PyExpr (Tag World M Err ret raise bind params)
open Unpy.Spec.LetDo (Obs Glob)

/-- What a function runs: an expression, or several items. -/
inductive Code (β : Type) where
  | expr (t : Src β)
  | items (tags : List Tag) (ts : List (Src β))

mutual
inductive Val (β : Type) where
  | base (b : β)
  | ext (k : Nat)
  | tup (vs : List (Val β))
  | lst (vs : List (Val β))
  | clo (ps : List String) (ds : List (Val β)) (code : Code β) (ρ : String → Option (Ref β))
inductive Ref (β : Type) where
  | val (v : Val β)
  | var (a : Nat)
end

structure Frame (β : Type) where
  isDo : Bool
  vars : String → Option (Val β)

structure St (β ω : Type) where
  frames : List (Frame β)
  world : ω

variable {β ω ε : Type}

abbrev Env (β : Type) := String → Option (Ref β)
abbrev Ap (β ω ε : Type) := Val β → List (Val β) → M (St β ω) ε (Val β)

def truthy (P : World β ω ε) : Val β → Bool
  | .base b => P.truthy b
  | .tup vs => !vs.isEmpty
  | .lst vs => !vs.isEmpty
  | _ => true

def bases : List (Val β) → Option (List β)
  | [] => some []
  | .base b :: vs => (bases vs).map (b :: ·)
  | _ :: _ => none

def getFrame (a : Nat) : M (St β ω) ε (Frame β) := fun s =>
  match s.frames[a]? with
  | some f => some (.ok f, s)
  | none => some (.error .unmodelled, s)

def load (a : Nat) (x : String) : M (St β ω) ε (Val β) :=
  bind (getFrame a) fun f => match f.vars x with
  | some v => ret v
  | none => raise (.py .AttributeError)

def put (a : Nat) (x : String) (v : Option (Val β)) : M (St β ω) ε Unit :=
  bind (getFrame a) fun f => fun s =>
    some (.ok (), { s with frames := s.frames.set a { f with vars := fun y => if y = x then v else f.vars y } })

def write (a : Nat) (x : String) (v : Val β) : M (St β ω) ε Unit :=
  bind (getFrame a) fun f =>
    if f.isDo || (f.vars x).isSome then put a x (some v) else raise (.py .AttributeError)

def new (isDo : Bool) (xs : List String) (vs : List (Val β)) : M (St β ω) ε Nat := fun s =>
  some (.ok s.frames.length, { s with frames := s.frames ++ [⟨isDo, fun x => (xs.zip vs).lookup x⟩] })

def scope (ρ : Env β) (xs : List String) (a : Nat) : Env β := fun x => if x ∈ xs then some (.var a) else ρ x

/-- The parameters are in scope. -/
def extend (ρ : Env β) : List String → List (Val β) → Env β
  | p :: ps, v :: vs => fun x => if x = p then some (.val v) else extend ρ ps vs x
  | _, _ => ρ

def run (ap : Ap β ω ε) (ρ : Env β) (t : Src β) : M (St β ω) ε (Val β) := ap (.clo [] [] (.expr t) ρ) []

def recLoop (ap : Ap β ω ε) (ρ : Env β) (a : Nat) : List String → List (Src β) → M (St β ω) ε Unit
  | x :: xs, t :: ts => bind (run ap ρ t) fun v => bind (put a x (some v)) fun _ => recLoop ap ρ a xs ts
  | _, _ => ret ()

def putAll (a : Nat) (v : Val β) : List String → M (St β ω) ε Unit
  | [] => ret ()
  | x :: xs => bind (putAll a v xs) fun _ => put a x (some v)

/-- Run items in order. -/
def doLoop (ap : Ap β ω ε) (ρ : Env β) (a : Nat) (names : List String) :
    Val β → List Tag → List (Src β) → M (St β ω) ε (Val β)
  | _, .loc xs :: tags, t :: ts =>
    bind (run ap (scope ρ names a) t) fun v =>
    bind (putAll a v xs) fun _ => doLoop ap ρ a (names ++ xs) v tags ts
  | _, .del x :: tags, _ :: ts =>
    bind (getFrame a) fun f => match f.vars x with
      | some v => bind (put a x none) fun _ => doLoop ap ρ a (names.filter (· ≠ x)) v tags ts
      | none => raise (.py .KeyError)
  | last, _, _ => ret last

def callVal (P : World β ω ε) (ap : Ap β ω ε) (f : Val β) (args : List (Val β)) : M (St β ω) ε (Val β) :=
  match f with
  | .clo .. => ap f args
  | .ext k => match bases args with
    | some bs => fun s => match P.call k bs s.world with
      | (.ok b, w) => some (.ok (.base b), { s with world := w })
      | (.error e, w) => some (.error e, { s with world := w })
    | none => raise .unmodelled
  | _ => raise (.py .TypeError)

mutual
/-- The meaning of an expression.  A list display is a list, unless it is the body of a lambda. -/
def eval (P : World β ω ε) (ap : Ap β ω ε) (ρ : Env β) : Src β → M (St β ω) ε (Val β)
  | .cst c => ret (.base c)
  | .name x => match ρ x with
    | some (.val v) => ret v
    | some (.var a) => load a x
    | none => raise .nameError
  | .call f args => bind (eval P ap ρ f) fun fv => bind (evals P ap ρ args) fun vs => callVal P ap fv vs
  | .lam ps ds b => bind (evals P ap ρ ds) fun vs => ret (.clo ps vs (match b with
      | .lst tags ts => .items tags ts
      | b => .expr b) ρ)
  | .ife c t e => bind (eval P ap ρ c) fun v => if truthy P v then eval P ap ρ t else eval P ap ρ e
  | .tup ts => bind (evals P ap ρ ts) fun vs => ret (.tup vs)
  | .lst tags ts => if tags.all (· == .loc []) then bind (evals P ap ρ ts) fun vs => ret (.lst vs)
      else raise .unmodelled   -- no program
  | .assign x v => match ρ x with
    | some (.var a) => bind (eval P ap ρ v) fun w => bind (write a x w) fun _ => ret w
    | _ => raise .unmodelled
  | .letx false xs vs b => bind (evals P ap ρ vs) fun ws => bind (new false xs ws) fun a => run ap (scope ρ xs a) b
  | .letx true xs vs b => bind (new false [] []) fun a =>
      bind (recLoop ap (scope ρ xs a) a xs vs) fun _ => run ap (scope ρ xs a) b
  | .doe tags ts => bind (new true [] []) fun a => doLoop ap ρ a [] (.tup []) tags ts

def evals (P : World β ω ε) (ap : Ap β ω ε) (ρ : Env β) : List (Src β) → M (St β ω) ε (List (Val β))
  | [] => ret []
  | t :: ts => bind (eval P ap ρ t) fun v => bind (evals P ap ρ ts) fun vs => ret (v :: vs)
end

/-- Run what a function runs. -/
def exec (P : World β ω ε) (ap : Ap β ω ε) (ρ : Env β) : Code β → M (St β ω) ε (Val β)
  | .expr t => eval P ap ρ t
  | .items tags ts => bind (new true [] []) fun a => doLoop ap ρ a [] (.tup []) tags ts

/-- Call a function, with calls nesting at most so deep. -/
def apply (P : World β ω ε) : Nat → Ap β ω ε
  | 0, _, _ => fun _ => none
  | n + 1, .clo ps ds code ρ, args => match params ps.length ds args with
    | some vs => exec P (apply P n) (extend ρ ps vs) code
    | none => raise (.py .TypeError)
  | _ + 1, _, _ => raise .unmodelled

mutual
def Val.obs : Val β → Obs β
  | .base b => .base b
  | .tup vs => .tup (Val.obss vs)
  | .lst vs => .lst (Val.obss vs)
  | .ext _ => .func
  | .clo .. => .func
def Val.obss : List (Val β) → List (Obs β)
  | [] => []
  | v :: vs => v.obs :: Val.obss vs
end

/-- The meaning of a program: what can be told about its result, or the exception, and the final state of the external
functions; `none` if calls nest deeper than `n`. -/
def program (P : World β ω ε) (n : Nat) (globals : String → Option (Glob β)) (t : Src β) (w : ω) :
    Option (Except (Err ε) (Option (Obs β)) × ω) :=
  match eval P (apply P n) (fun x => (globals x).map fun g => match g with
      | .base b => .val (.base b)
      | .ext k => .val (.ext k)) t ⟨[], w⟩ with
  | none => none
  | some (.ok v, s) => some (.ok (some v.obs), s.world)
  | some (.error e, s) => some (.error e, s.world)

/-! ## Conditions -/

mutual
/-- `x` occurs as a name read or assigned to. -/
def mentions (x : String) : Src β → Bool
  | .cst _ => false
  | .name y => x == y
  | .call f args => mentions x f || mentionsAny x args
  | .lam _ ds b => mentionsAny x ds || mentions x b
  | .ife c t e => mentions x c || mentions x t || mentions x e
  | .tup ts => mentionsAny x ts
  | .lst _ ts => mentionsAny x ts
  | .assign y v => x == y || mentions x v
  | .letx _ _ vs b => mentionsAny x vs || mentions x b
  | .doe _ ts => mentionsAny x ts
def mentionsAny (x : String) : List (Src β) → Bool
  | [] => false
  | t :: ts => mentions x t || mentionsAny x ts
end

mutual
/-- `x` is assigned to. -/
def assigns (x : String) : Src β → Bool
  | .cst _ => false
  | .name _ => false
  | .call f args => assigns x f || assignsAny x args
  | .lam _ ds b => assignsAny x ds || assigns x b
  | .ife c t e => assigns x c || assigns x t || assigns x e
  | .tup ts => assignsAny x ts
  | .lst _ ts => assignsAny x ts
  | .assign y v => x == y || assigns x v
  | .letx _ _ vs b => assignsAny x vs || assigns x b
  | .doe _ ts => assignsAny x ts
def assignsAny (x : String) : List (Src β) → Bool
  | [] => false
  | t :: ts => assigns x t || assignsAny x ts
end

mutual
/-- The conditions on programs (those of `Spec.LetDo.Wf`): names in a `let` are distinct and usable; a `do`, or a lambda with
brackets, has items, deletes only names it has declared, and the value of a `local` does not assign to the name declared; the
defaults of a lambda do not use the names of its parameters; `local` and `delete` are used only in these places. -/
def Wf (P : World β ω ε) : Src β → Prop
  | .cst _ => True
  | .name _ => True
  | .call f args => Wf P f ∧ Wfs P args
  | .lam ps ds b => (∀ p ∈ ps, mentionsAny p ds = false) ∧ Wfs P ds ∧ match b with
    | .lst tags ts => ts ≠ [] ∧ ts.length = tags.length ∧ WfItems P [] tags ts
    | b => Wf P b
  | .ife c t e => Wf P c ∧ Wf P t ∧ Wf P e
  | .tup ts => Wfs P ts
  | .lst tags ts => (∀ t ∈ tags, t = .loc []) ∧ Wfs P ts
  | .assign _ v => Wf P v
  | .letx _ xs vs b => xs ≠ [] ∧ xs.Nodup ∧ (∀ x ∈ xs, LetDo.Usable P x) ∧ vs.length = xs.length ∧ Wfs P vs ∧ Wf P b
  | .doe tags ts => ts ≠ [] ∧ ts.length = tags.length ∧ WfItems P [] tags ts
def Wfs (P : World β ω ε) : List (Src β) → Prop
  | [] => True
  | t :: ts => Wf P t ∧ Wfs P ts
/-- Items of a `do`; `names` are those declared before. -/
def WfItems (P : World β ω ε) : List String → List Tag → List (Src β) → Prop
  | names, .loc xs :: tags, t :: ts => (∀ x ∈ xs, LetDo.Usable P x ∧ assigns x t = false) ∧ Wf P t ∧
      WfItems P (names ++ xs) tags ts
  | names, .del x :: tags, t :: ts => x ∈ names ∧ t = .name x ∧ WfItems P (names.filter (· ≠ x)) tags ts
  | _, _, _ => True
end

end Unpy.Spec.Multilambda
