import Verif.Model.PyExpr
/-!
# What the macros of `letdo` mean: lexically scoped variables

`eval` gives the meaning of expressions with `let`, `letrec` and `do` directly, by variables that live in frames.  Each
body, each value of a `letrec` and each item of a `do` counts as a call, as to how deep calls may nest.

`Wf` are the conditions under which the macros are claimed to do this.
-/
namespace Unpy.Spec.LetDo
open Unpy.PyExpr hiding Val eval evals callVal apply truthy bases St

mutual
/-- Objects of the language: constants, external functions, tuples, lists, and functions (with the environment of their
definition). -/
inductive Val (β : Type) where
  | base (b : β)
  | ext (k : Nat)
  | tup (vs : List (Val β))
  | lst (vs : List (Val β))
  | clo (ps : List Name) (ds : List (Val β)) (body : Ex β) (ρ : Name → Option (Ref β))

/-- What a name stands for: an object (parameters of functions, globals), or a variable in a frame. -/
inductive Ref (β : Type) where
  | val (v : Val β)
  | var (a : Nat)
end

/-- A frame: the variables of one run of a `let`, `letrec` or `do`; `isDo` if of a `do`. -/
structure Frame (β : Type) where
  isDo : Bool
  vars : String → Option (Val β)

structure St (β ω : Type) where
  frames : List (Frame β)
  world : ω

variable {β ω ε : Type}

def truthy (P : World β ω ε) : Val β → Bool
  | .base b => P.truthy b
  | .tup vs => !vs.isEmpty
  | .lst vs => !vs.isEmpty
  | _ => true

def bases : List (Val β) → Option (List β)
  | [] => some []
  | .base b :: vs => (bases vs).map (b :: ·)
  | _ :: _ => none

def getFrame (a : Nat) : M (St β ω) ε (Frame β) := fun s =>
  match s.frames[a]? with
  | some f => some (.ok f, s)
  | none => some (.error .unmodelled, s)

/-- Read a variable; one that has no value (yet) raises AttributeError. -/
def read (a : Nat) (x : String) : M (St β ω) ε (Val β) :=
  bind (getFrame a) fun f => match f.vars x with
  | some v => ret v
  | none => raise (.py .AttributeError)

/-- Give a variable a value, or none. -/
def put (a : Nat) (x : String) (v : Option (Val β)) : M (St β ω) ε Unit :=
  bind (getFrame a) fun f => fun s =>
    some (.ok (), { s with frames := s.frames.set a { f with vars := fun y => if y = x then v else f.vars y } })

/-- Assign to a variable.  In a `let` or `letrec` it must have a value already. -/
def write (a : Nat) (x : String) (v : Val β) : M (St β ω) ε Unit :=
  bind (getFrame a) fun f =>
    if f.isDo || (f.vars x).isSome then put a x (some v) else raise (.py .AttributeError)

/-- A new frame with the given variables. -/
def new (isDo : Bool) (xs : List String) (vs : List (Val β)) : M (St β ω) ε Nat := fun s =>
  some (.ok s.frames.length,
    { s with frames := s.frames ++ [⟨isDo, fun x => (xs.zip vs).lookup x⟩] })

/-- In the scope of variables `xs` in frame `a`. -/
def scope (ρ : Name → Option (Ref β)) (xs : List String) (a : Nat) : Name → Option (Ref β)
  | .user x => if x ∈ xs then some (.var a) else ρ (.user x)
  | .gen n => ρ (.gen n)

/-- Run an expression in an environment, as a call. -/
def run (ap : Val β → List (Val β) → M (St β ω) ε (Val β)) (ρ : Name → Option (Ref β)) (t : Ex β) :
    M (St β ω) ε (Val β) := ap (.clo [] [] t ρ) []

/-- The values of a `letrec`, in order. -/
def recLoop (ap : Val β → List (Val β) → M (St β ω) ε (Val β)) (ρ : Name → Option (Ref β)) (a : Nat) :
    List String → List (Ex β) → M (St β ω) ε Unit
  | x :: xs, t :: ts => bind (run ap ρ t) fun v => bind (put a x (some v)) fun _ => recLoop ap ρ a xs ts
  | _, _ => ret ()

/-- Give several variables the same value. -/
def putAll (a : Nat) (v : Val β) : List String → M (St β ω) ε Unit
  | [] => ret ()
  | x :: xs => bind (putAll a v xs) fun _ => put a x (some v)

/-- The items of a `do`, in order; `names` are the names in scope, `last` is the value of the item before. -/
def doLoop (ap : Val β → List (Val β) → M (St β ω) ε (Val β)) (ρ : Name → Option (Ref β)) (a : Nat)
    (names : List String) : Val β → List Tag → List (Ex β) → M (St β ω) ε (Val β)
  | _, .loc xs :: tags, t :: ts =>
    bind (run ap (scope ρ names a) t) fun v =>
    bind (putAll a v xs) fun _ => doLoop ap ρ a (names ++ xs) v tags ts
  | _, .del x :: tags, _ :: ts =>
    bind (getFrame a) fun f => match f.vars x with
      | some v => bind (put a x none) fun _ => doLoop ap ρ a (names.filter (· ≠ x)) v tags ts
      | none => raise (.py .KeyError)
  | last, _, _ => ret last

def callVal (P : World β ω ε) (ap : Val β → List (Val β) → M (St β ω) ε (Val β)) (f : Val β) (args : List (Val β)) :
    M (St β ω) ε (Val β) :=
  match f with
  | .clo .. => ap f args
  | .ext k => match bases args with
    | some bs => fun s => match P.call k bs s.world with
      | (.ok b, w) => some (.ok (.base b), { s with world := w })
      | (.error e, w) => some (.error e, { s with world := w })
    | none => raise .unmodelled
  | _ => raise (.py .TypeError)

mutual
/-- The meaning of an expression. -/
def eval (P : World β ω ε) (ap : Val β → List (Val β) → M (St β ω) ε (Val β)) (ρ : Name → Option (Ref β)) :
    Ex β → M (St β ω) ε (Val β)
  | .cst c => ret (.base c)
  | .name x => match ρ x with
    | some (.val v) => ret v
    | some (.var a) => match x with
      | .user y => read a y
      | .gen _ => raise .unmodelled
    | none => raise .nameError
  | .call f args => bind (eval P ap ρ f) fun fv => bind (evals P ap ρ args) fun vs => callVal P ap fv vs
  | .lam ps ds b => bind (evals P ap ρ ds) fun vs => ret (.clo ps vs b ρ)
  | .ife c t e => bind (eval P ap ρ c) fun v => if truthy P v then eval P ap ρ t else eval P ap ρ e
  | .tup ts => bind (evals P ap ρ ts) fun vs => ret (.tup vs)
  | .lst ts => bind (evals P ap ρ ts) fun vs => ret (.lst vs)
  | .assign (.user x) v => match ρ (.user x) with
    | some (.var a) => bind (eval P ap ρ v) fun w => bind (write a x w) fun _ => ret w
    | _ => raise .unmodelled
  | .letx false xs vs b => bind (evals P ap ρ vs) fun ws => bind (new false xs ws) fun a => run ap (scope ρ xs a) b
  | .letx true xs vs b => bind (new false [] []) fun a =>
      bind (recLoop ap (scope ρ xs a) a xs vs) fun _ => run ap (scope ρ xs a) b
  | .doe tags ts => bind (new true [] []) fun a => doLoop ap ρ a [] (.tup []) tags ts
  | _ => raise .unmodelled

def evals (P : World β ω ε) (ap : Val β → List (Val β) → M (St β ω) ε (Val β)) (ρ : Name → Option (Ref β)) :
    List (Ex β) → M (St β ω) ε (List (Val β))
  | [] => ret []
  | t :: ts => bind (eval P ap ρ t) fun v => bind (evals P ap ρ ts) fun vs => ret (v :: vs)
end

/-- Call a function, with calls nesting at most so deep. -/
def apply (P : World β ω ε) : Nat → Val β → List (Val β) → M (St β ω) ε (Val β)
  | 0, _, _ => fun _ => none
  | n + 1, .clo ps ds b ρ, args => match params ps.length ds args with
    | some vs => eval P (apply P n) (extend ρ ps (vs.map .val)) b
    | none => raise (.py .TypeError)
  | _ + 1, _, _ => raise .unmodelled

/-! ## Conditions -/

mutual
/-- `x` occurs as a name read. -/
def reads (x : Name) : Ex β → Bool
  | .name y => x == y
  | .attr t _ => reads x t
  | .call f args => reads x f || readsAny x args
  | .lam _ ds b => readsAny x ds || reads x b
  | .ife c t e => reads x c || reads x t || reads x e
  | .tup ts => readsAny x ts
  | .lst ts => readsAny x ts
  | .assign _ v => reads x v
  | .letx _ _ vs b => readsAny x vs || reads x b
  | .doe _ ts => readsAny x ts
  | _ => false
def readsAny (x : Name) : List (Ex β) → Bool
  | [] => false
  | t :: ts => reads x t || readsAny x ts
end

mutual
/-- `x` is assigned to. -/
def assigns (x : Name) : Ex β → Bool
  | .attr t _ => assigns x t
  | .call f args => assigns x f || assignsAny x args
  | .lam _ ds b => assignsAny x ds || assigns x b
  | .ife c t e => assigns x c || assigns x t || assigns x e
  | .tup ts => assignsAny x ts
  | .lst ts => assignsAny x ts
  | .assign y v => x == y || assigns x v
  | .letx _ _ vs b => assignsAny x vs || assigns x b
  | .doe _ ts => assignsAny x ts
  | _ => false
def assignsAny (x : Name) : List (Ex β) → Bool
  | [] => false
  | t :: ts => assigns x t || assignsAny x ts
end

/-- A name that the variables of `let` and `do` can have: no name of an attribute that every `env` has. -/
def Usable (P : World β ω ε) (x : String) : Prop :=
  x ∉ ["set", "_set", "pop", "clear", "finalize", "_env", "_finalized", "_direct_write", "_reserved_names"] ∧
  P.classAttr x = false

mutual
/-- Expressions of the user's programs that the claim is about: names in a `let` or `letrec` are distinct and usable; a
`do` has items, deletes only names it has declared, and the value of a `local` does not assign to the name declared;
the defaults of a lambda do not use the names of its parameters. -/
def Wf (P : World β ω ε) : Ex β → Prop
  | .cst _ => True
  | .name (.user _) => True
  | .call f args => Wf P f ∧ Wfs P args
  | .lam ps ds b => (∀ p ∈ ps, ∃ x, p = .user x) ∧ (∀ p ∈ ps, readsAny p ds = false ∧ assignsAny p ds = false) ∧
      Wfs P ds ∧ Wf P b
  | .ife c t e => Wf P c ∧ Wf P t ∧ Wf P e
  | .tup ts => Wfs P ts
  | .lst ts => Wfs P ts
  | .assign (.user _) v => Wf P v
  | .letx _ xs vs b => xs ≠ [] ∧ xs.Nodup ∧ (∀ x ∈ xs, Usable P x) ∧ vs.length = xs.length ∧ Wfs P vs ∧ Wf P b
  | .doe tags ts => ts ≠ [] ∧ ts.length = tags.length ∧ WfItems P [] tags ts
  | _ => False
def Wfs (P : World β ω ε) : List (Ex β) → Prop
  | [] => True
  | t :: ts => Wf P t ∧ Wfs P ts
def WfItems (P : World β ω ε) : List String → List Tag → List (Ex β) → Prop
  | names, .loc xs :: tags, t :: ts =>
    (∀ x ∈ xs, Usable P x ∧ assigns (.user x) t = false) ∧ Wf P t ∧ WfItems P (names ++ xs) tags ts
  | names, .del x :: tags, t :: ts => x ∈ names ∧ t = .name (.user x) ∧ WfItems P (names.filter (· ≠ x)) tags ts
  | _, _, _ => True
end

mutual
/-- A `let`, `letrec` or `do` in the expression makes a variable `x` of its own, and not inside a lambda with parameter
`x`. -/
def rebinds (x : String) : Ex β → Bool
  | .attr t _ => rebinds x t
  | .call f args => rebinds x f || rebindsAny x args
  | .lam ps ds b => !decide (Name.user x ∈ ps) && (rebindsAny x ds || rebinds x b)
  | .ife c t e => rebinds x c || rebinds x t || rebinds x e
  | .tup ts => rebindsAny x ts
  | .lst ts => rebindsAny x ts
  | .assign _ v => rebinds x v
  | .letx _ xs vs b => decide (x ∈ xs) || rebindsAny x vs || rebinds x b
  | .doe tags ts => tags.any (fun t => match t with | .loc xs => decide (x ∈ xs) | .del _ => false) || rebindsAny x ts
  | _ => false
def rebindsAny (x : String) : List (Ex β) → Bool
  | [] => false
  | t :: ts => rebinds x t || rebindsAny x ts
end

mutual
/-- No `do` declares a name again that it has, and no item of a `do` rebinds a name that the `do` has or that the item
declares. -/
def NoClash : Ex β → Prop
  | .attr t _ => NoClash t
  | .call f args => NoClash f ∧ NoClashes args
  | .lam _ ds b => NoClashes ds ∧ NoClash b
  | .ife c t e => NoClash c ∧ NoClash t ∧ NoClash e
  | .tup ts => NoClashes ts
  | .lst ts => NoClashes ts
  | .assign _ v => NoClash v
  | .letx _ _ vs b => NoClashes vs ∧ NoClash b
  | .doe tags ts => NoClashItems [] tags ts
  | _ => True
def NoClashes : List (Ex β) → Prop
  | [] => True
  | t :: ts => NoClash t ∧ NoClashes ts
def NoClashItems : List String → List Tag → List (Ex β) → Prop
  | names, .loc xs :: tags, t :: ts => (∀ x ∈ xs, x ∉ names) ∧ (∀ x ∈ names ++ xs, rebinds x t = false) ∧ NoClash t ∧
      NoClashItems (names ++ xs) tags ts
  | names, .del x :: tags, _ :: ts => NoClashItems (names.filter (· ≠ x)) tags ts
  | _, _, _ => True
end

/-! ## Observation -/

/-- What can be told about an object from outside: functions are opaque. -/
inductive Obs (β : Type) where
  | base (b : β)
  | tup (os : List (Obs β))
  | lst (os : List (Obs β))
  | func

mutual
def Val.obs : Val β → Obs β
  | .base b => .base b
  | .tup vs => .tup (Val.obss vs)
  | .lst vs => .lst (Val.obss vs)
  | .ext _ => .func
  | .clo .. => .func
def Val.obss : List (Val β) → List (Obs β)
  | [] => []
  | v :: vs => v.obs :: Val.obss vs
end

mutual
/-- The same for Python's objects; an `env` is not an object of the language. -/
def obsPy : PyExpr.Val β → Option (Obs β)
  | .base b => some (.base b)
  | .tup vs => (obsPys vs).map .tup
  | .lst vs => (obsPys vs).map .lst
  | .ext _ => some .func
  | .clo .. => some .func
  | _ => none
def obsPys : List (PyExpr.Val β) → Option (List (Obs β))
  | [] => some []
  | v :: vs => match obsPy v, obsPys vs with
    | some o, some os => some (o :: os)
    | _, _ => none
end

/-- The global variables: constants and external functions. -/
inductive Glob (β : Type) where
  | base (b : β)
  | ext (k : Nat)

/-- The meaning of a program: what can be told about its result, or the exception, and the final state of the external
functions; `none` if calls nest deeper than `n`. -/
def program (P : World β ω ε) (n : Nat) (globals : String → Option (Glob β)) (t : Ex β) (w : ω) :
    Option (Except (Err ε) (Option (Obs β)) × ω) :=
  match eval P (apply P n) (fun x => match x with
      | .user y => (globals y).map (fun g => match g with | .base b => .val (.base b) | .ext k => .val (.ext k))
      | .gen _ => none) t ⟨[], w⟩ with
  | none => none
  | some (.ok v, s) => some (.ok (some v.obs), s.world)
  | some (.error e, s) => some (.error e, s.world)

/-- The same for Python running the expanded program. -/
def python (P : World β ω ε) (n : Nat) (globals : String → Option (Glob β)) (t : Ex β) (w : ω) :
    Option (Except (Err ε) (Option (Obs β)) × ω) :=
  match PyExpr.eval P (PyExpr.apply P n) (fun x => match x with
      | .user y => (globals y).map (fun g => match g with | .base b => .base b | .ext k => .ext k)
      | .gen _ => none) t ⟨[], w⟩ with
  | none => none
  | some (.ok v, s) => some (.ok (obsPy v), s.world)
  | some (.error e, s) => some (.error e, s.world)

/-! ## Macros that rewrite into these -/

/-- `cond[test1, then1, ..., otherwise]`: the tests are evaluated in order, up to the first that is true, and then
what belongs to it. -/
def cond (P : World β ω ε) (ap : Val β → List (Val β) → M (St β ω) ε (Val β)) (ρ : Name → Option (Ref β)) :
    List (Ex β) → M (St β ω) ε (Val β)
  | test :: yes :: more => bind (eval P ap ρ test) fun v => if truthy P v then eval P ap ρ yes else cond P ap ρ more
  | [t] => eval P ap ρ t
  | [] => raise .unmodelled

/-- `letseq[x1 := v1, x2 := v2, ...][body]`: each value is evaluated in the scope of the variables before it, the body in
the scope of all; a later variable of the same name shadows an earlier one. -/
def letseq (P : World β ω ε) : Nat → (Name → Option (Ref β)) → List String → List (Ex β) → Ex β → M (St β ω) ε (Val β)
  | n + 1, ρ, x :: xs, v :: vs, b => bind (eval P (apply P (n + 1)) ρ v) fun w => bind (new false [x] [w]) fun a =>
      letseq P n (scope ρ [x] a) xs vs b
  | 0, ρ, _ :: _, v :: _, _ => bind (eval P (apply P 0) ρ v) fun _ => fun _ => none
  | n, ρ, _, _, b => eval P (apply P n) ρ b

/-- `aif[test, then, otherwise]`: the test is evaluated once, outside the scope of `it`; its value is `it` in the part
chosen. -/
def aif (P : World β ω ε) (n : Nat) (ρ : Name → Option (Ref β)) (test yes no : Ex β) : M (St β ω) ε (Val β) :=
  bind (eval P (apply P (n + 1)) ρ test) fun v => bind (new false ["it"] [v]) fun a =>
    if truthy P v then eval P (apply P n) (scope ρ ["it"] a) yes else eval P (apply P n) (scope ρ ["it"] a) no

mutual
/-- The object refers to variables of the first `K` frames only. -/
inductive Within (K : Nat) : Val β → Prop
  | base (b : β) : Within K (.base b)
  | ext (k : Nat) : Within K (.ext k)
  | tup {vs} : Withins K vs → Within K (.tup vs)
  | lst {vs} : Withins K vs → Within K (.lst vs)
  | clo {ps ds b ρ} : Withins K ds → (∀ x i, ρ x = some (.var i) → i < K) → (∀ x v, ρ x = some (.val v) → Within K v) →
      Within K (.clo ps ds b ρ)
inductive Withins (K : Nat) : List (Val β) → Prop
  | nil : Withins K []
  | cons {v vs} : Within K v → Withins K vs → Withins K (v :: vs)
end

/-- Nothing refers to frames that do not exist. -/
structure Scoped (ρ : Name → Option (Ref β)) (s : St β ω) : Prop where
  var : ∀ x i, ρ x = some (.var i) → i < s.frames.length
  val : ∀ x v, ρ x = some (.val v) → Within s.frames.length v
  frames : ∀ f ∈ s.frames, ∀ x v, f.vars x = some v → Within s.frames.length v

/-- The items neither declare, delete nor assign to `x`. -/
def Untouched (x : String) (tags : List Tag) (ts : List (Ex β)) : Prop :=
  (∀ t ∈ tags, match t with
    | .loc xs => x ∉ xs
    | .del y => y ≠ x) ∧ assignsAny (.user x) ts = false

end Unpy.Spec.LetDo
