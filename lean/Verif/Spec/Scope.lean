import Verif.Model.Scope
/-!
# Specification of the scope analyzer: which names a block of Python binds

By the reference of the language, "Naming and binding".  From the model only the type of the trees is used.
-/
namespace Unpy.Spec.Scope
open Unpy.Scope (Tree Params Dotted)

/-- `t` is a direct part of `s` that is in the same scope as `s` -/
inductive Part : Tree → Tree → Prop
  | done (t) : Part t (.done t)
  | tuple (h : t ∈ ts) : Part t (.tuple ts)
  | try_ (h : t ∈ ts) : Part t (.try_ hs ts)
  | matchAs (h : t ∈ ts) : Part t (.matchAs n ts)
  | matchMapping (h : t ∈ ts) : Part t (.matchMapping n ts)
  | matchClass (h : t ∈ ts) : Part t (.matchClass ts)
  | other (h : t ∈ ts) : Part t (.other ts)

/-- `s` makes a new scope, and `t` is a direct part of it in which Python binds names of the scope around `s`: decorators, default values, base classes, the first iterator of a comprehension.
The bindings in the other parts of a comprehension, which can only be made by `:=`, are also in the scope around it. -/
inductive Outer : Tree → Tree → Prop
  | func (h : t ∈ outer) : Outer t (.func a x p outer body)
  | lam (h : t ∈ outer) : Outer t (.lam p outer body)
  | base (h : t ∈ bases) : Outer t (.cls x bases outer body)
  | cls (h : t ∈ outer) : Outer t (.cls x bases outer body)
  | iter : Outer t (.comp c targets t rest)
  | rest (h : t ∈ rest) : Outer t (.comp c targets iter rest)

/-- How a name is bound: by `del x`; by `import x.y`; in a part of an inner scope that belongs to the outer one; in another way -/
inductive Way where
  | plain | deleted | dotted | nested

/-- `t` binds `x` in the scope it is in -/
inductive Binds (x : String) : Way → Tree → Prop
  | assigned : Binds x .plain (.name x .store)
  | deleted : Binds x .deleted (.name x .del)
  | function : Binds x .plain (.func a x p outer body)
  | class_ : Binds x .plain (.cls x bases outer body)
  | importAs (d : Dotted) (h : d ∈ names) (ha : d.asname = some x) : Binds x .plain (.imp names)
  | importModule (d : Dotted) (h : d ∈ names) (ha : d.asname = none) (ht : d.tail = []) (hh : d.head = x) : Binds x .plain (.imp names)
  | importPackage (d : Dotted) (h : d ∈ names) (ha : d.asname = none) (ht : d.tail ≠ []) (hh : d.head = x) : Binds x .dotted (.imp names)
  | fromImportAs (y : String) (h : (y, some x) ∈ names) : Binds x .plain (.importFrom names)
  | fromImport (h : (x, none) ∈ names) (hx : x ≠ "*") : Binds x .plain (.importFrom names)
  | handler (h : some x ∈ handlers) : Binds x .plain (.try_ handlers parts)
  | captured : Binds x .plain (.matchAs (some x) parts)
  | capturedStar : Binds x .plain (.matchStar (some x))
  | capturedRest : Binds x .plain (.matchMapping (some x) parts)
  | part (hp : Part t s) (h : Binds x w t) : Binds x w s
  | outer (ho : Outer t s) (h : Binds x w t) : Binds x .nested s

/-- What looks like a name that is bound, and is none: the full name in `import x.y`; the star in `from x import *`; the missing name (`none`) of a handler of exceptions -/
inductive Mistaken : Option String → Tree → Prop
  | dotted (d : Dotted) (h : d ∈ names) (ha : d.asname = none) (ht : d.tail ≠ []) : Mistaken (some (String.intercalate "." (d.head :: d.tail))) (.imp names)
  | star (h : ("*", none) ∈ names) : Mistaken (some "*") (.importFrom names)
  | anonymous (h : none ∈ handlers) : Mistaken none (.try_ handlers parts)
  | part (hp : Part t s) (h : Mistaken n t) : Mistaken n s

/-- In this scope, `t` has a pattern of `match` that is `{…}` or `C(…)` -/
inductive HasPattern : Tree → Prop
  | mapping : HasPattern (.matchMapping n ts)
  | class_ : HasPattern (.matchClass ts)
  | part (hp : Part t s) (h : HasPattern t) : HasPattern s

/-- `t` declares `x` as global, in the scope it is in -/
inductive Global (x : String) : Tree → Prop
  | here (h : x ∈ names) : Global x (.globals names)
  | part (hp : Part t s) (h : Global x t) : Global x s

/-- `t` declares `x` as nonlocal, in the scope it is in -/
inductive Nonlocal (x : String) : Tree → Prop
  | here (h : x ∈ names) : Nonlocal x (.nonlocals names)
  | part (hp : Part t s) (h : Nonlocal x t) : Nonlocal x s

/-- `x` is a parameter -/
def Parameter (x : String) (p : Params) : Prop := x ∈ p.posonly ∨ x ∈ p.args ∨ p.vararg = some x ∨ x ∈ p.kwonly ∨ p.kwarg = some x

/-- In this function, `x` is a variable of the function itself. -/
def Local (x : String) (p : Params) (body : List Tree) : Prop :=
  (Parameter x p ∨ ∃ t ∈ body, ∃ w, Binds x w t) ∧ ∀ t ∈ body, ¬ Global x t ∧ ¬ Nonlocal x t

/-- The names, tuples, lists, and starred names that can be assigned to, with no attributes or subscripts -/
inductive Assignee : Tree → Prop
  | name (x : String) : Assignee (.name x .store)
  | done (h : Assignee t) : Assignee (.done t)
  | tuple (h : ∀ t ∈ ts, Assignee t) : Assignee (.tuple ts)
  | other (h : ∀ t ∈ ts, Assignee t) : Assignee (.other ts)

end Unpy.Spec.Scope
