import Verif.Model.LetView
/-!
# The ways to write a `let`

A grammar: how bindings and `let` forms may be written, and what is meant.  Only the trees are taken from the model.
-/
namespace Unpy.Spec.LetView
open Unpy.LetView

/-- A name (with any number of markers of the macro expander around it). -/
inductive Plain : T → Prop
  | name (x : String) : Plain (.name x)
  | done {t : T} : Plain t → Plain (.done t)

/-- The name, below the markers. -/
inductive Named : T → String → Prop
  | name (x : String) : Named (.name x) x
  | done {t : T} {x : String} : Named t x → Named (.done t) x

/-- What can be on the left-hand side; in `let_syntax`, also the templates `f(a, ...)` and `f[a, ...]`. -/
inductive Target (template : Bool) : T → Prop
  | plain {t : T} : Plain t → Target template t
  | call {f : T} (args : List T) : template = true → Plain f → Target template (.call f args)
  | sub {f : T} (arg : T) : template = true → Plain f → Target template (.sub f arg)

/-- The bindings, as trees `(k, v)` -/
def pairs (ps : List (T × T)) : List T := ps.map fun p => .tuple [p.1, p.2]

/-- One binding, written `k := v` or `k << v` -/
inductive Assigned : T × T → T → Prop
  | walrus (k v : T) : Assigned (k, v) (.walrus k v)
  | shift (k v : T) : Assigned (k, v) (.shift k v)

/-- Several bindings written this way -/
inductive Assigneds : List (T × T) → List T → Prop
  | nil : Assigneds [] []
  | cons {p : T × T} {t : T} {ps : List (T × T)} {ts : List T} : Assigned p t → Assigneds ps ts → Assigneds (p :: ps) (t :: ts)

/-- The ways to write bindings, between the brackets:
`(k, v), ...`, or `[k, v], ...`, or `k := v, ...` (also `k << v`), or, for a single one, `k, v` -/
inductive Written : List (T × T) → List T → Prop
  | tuples (ps : List (T × T)) : Written ps (pairs ps)
  | lists (ps : List (T × T)) : Written ps (ps.map fun p => .list [p.1, p.2])
  | assigns {ps : List (T × T)} {ts : List T} : Assigneds ps ts → Written ps ts
  | single (k v : T) : Written [(k, v)] [k, v]

/-- Bindings with correct left-hand sides -/
def Bindings (template : Bool) (ps : List (T × T)) (ts : List T) : Prop := Written ps ts ∧ ∀ p ∈ ps, Target template p.1

/-- The items in a pair of brackets, as Python's parser gives them: with a comma, or with more brackets, there is a tuple or a list -/
inductive Bracketed : List T → T → Prop
  | tuple (ts : List T) : Bracketed ts (.tuple ts)
  | list (ts : List T) : Bracketed ts (.list ts)
  | one (t : T) : (∀ ts, t ≠ .tuple ts) → (∀ ts, t ≠ .list ts) → Bracketed [t] t

/-- What can be in the brackets of `let[...]`: `[...] in body`, or `body, where[...]` -/
inductive Inside (template : Bool) : List (T × T) → T → T → Prop
  | inList {ps : List (T × T)} {ts : List T} (body : T) : Bindings template ps ts → Inside template ps body (.compare (.list ts) ["in"] [body])
  | inTuple {ps : List (T × T)} {ts : List T} (body : T) : Bindings template ps ts → Inside template ps body (.compare (.tuple ts) ["in"] [body])
  | whereBrackets {ps : List (T × T)} {ts : List T} {b : T} (body : T) : Bindings template ps ts → Bracketed ts b →
      Inside template ps body (.tuple [body, .sub (.name "where") b])
  | whereParens {ps : List (T × T)} {ts : List T} (body : T) : Bindings template ps ts →
      Inside template ps body (.tuple [body, .call (.name "where") ts])

/-- `let`, `letseq`, …: the bindings and the body of a form -/
inductive Let (template : Bool) (mode : String) : List (T × T) → T → T → Prop
  | brackets {ps : List (T × T)} {ts : List T} {b : T} (body : T) : Bindings template ps ts → Bracketed ts b →
      Let template mode ps body (.sub (.sub (.name mode) b) body)
  | parens {ps : List (T × T)} {ts : List T} (body : T) : Bindings template ps ts → Let template mode ps body (.sub (.call (.name mode) ts) body)
  | inside {ps : List (T × T)} {body e : T} : Inside template ps body e → Let template mode ps body (.sub (.name mode) e)

/-- `@dlet[...]`, … -/
inductive Deco (mode : String) : List (T × T) → T → Prop
  | brackets {ps : List (T × T)} {ts : List T} {b : T} : Bindings false ps ts → Bracketed ts b → Deco mode ps (.sub (.name mode) b)
  | parens {ps : List (T × T)} {ts : List T} : Bindings false ps ts → Deco mode ps (.call (.name mode) ts)

def modes : List String := ["let", "letseq", "letrec", "let_syntax", "abbrev"]
def decoModes : List String := ["dlet", "dletseq", "dletrec", "blet", "bletseq", "bletrec"]

/-- As Python's parser gives them, comparisons have as many operators as right-hand sides. -/
inductive Parsed : T → Prop
  | compare (l : T) (ops : List String) (cs : List T) : ops.length = cs.length → Parsed (.compare l ops cs)
  | sub (v l : T) (ops : List String) (cs : List T) : ops.length = cs.length → Parsed (.sub v (.compare l ops cs))
  | other (t : T) : (∀ l ops cs, t ≠ .compare l ops cs) → (∀ v l ops cs, t ≠ .sub v (.compare l ops cs)) → Parsed t

/-- The node has an attribute `value`. -/
inductive HasValue : T → Prop
  | valued (k : String) (v : List T) : HasValue (.valued k v)
  | sub (v s : T) : HasValue (.sub v s)
  | walrus (x v : T) : HasValue (.walrus x v)

end Unpy.Spec.LetView
