import Verif.Model.PyStmt
/-!
# `with autoreturn`

Not modelled: `class` (treated like `def`), `async`, `except*`, several handlers; captured values (675-676).  A `with`
statement, whose tail position is that of its body (692-693), can be written as a `try` with a `finally`.
-/
namespace Unpy.Tail
variable {β : Type}

mutual
/-- `TailStatementTransformer.transform` (syntax/tailtools.py:685-716): one statement in tail position.  `finally` is left
alone (695); the body of a `try` is in tail position only without an `else` (696-699). -/
def tailS : St β → List (St β)
  | .ite c b₁ b₂ => [.ite c (tailLast b₁) (tailLast b₂)]
  | .tryx b hh h o f => [.tryx (if o.isEmpty then tailLast b else b) hh (tailLast h) (tailLast o) f]
  | .defn tr x ps ls b => [.defn tr x ps ls b, .ret (some (.name x))]
  | .expr e => [.ret (some e)]
  | t => [t]

/-- `tree.body[-1] = self.visit(tree.body[-1])` (syntax/tailtools.py:689-691, 697-702), for a list of statements that is
empty only if it is absent.  If the visit gives two statements, the syntax tree ends up with a list in the place of a
statement, and does not compile. -/
def tailLast : List (St β) → List (St β)
  | [] => []
  | [t] => match tailS t with
    | [u] => [u]
    | _ => [.expr .bad]
  | t :: ts => t :: tailLast ts
end

/-- The body of a function: two statements can replace the last one (syntax/tailtools.py:678-682). -/
def tailBody : List (St β) → List (St β)
  | [] => []
  | [t] => tailS t
  | t :: ts => t :: tailBody ts

mutual
/-- `AutoreturnTransformer.transform` (syntax/tailtools.py:673-683).  Here the functions within the body come first; the code
does them last, but a statement in tail position is replaced without looking into function definitions. -/
def autoS : St β → St β
  | .ite c b₁ b₂ => .ite c (autoSs b₁) (autoSs b₂)
  | .while c b => .while c (autoSs b)
  | .defn tr x ps ls b => .defn tr x ps ls (tailBody (autoSs b))
  | .tryx b hh h o f => .tryx (autoSs b) hh (autoSs h) (autoSs o) (autoSs f)
  | t => t

/-- `_autoreturn` (syntax/tailtools.py:672-719): the block, or a list of statements. -/
def autoSs : List (St β) → List (St β)
  | [] => []
  | t :: ts => autoS t :: autoSs ts
end

end Unpy.Tail
