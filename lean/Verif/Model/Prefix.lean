import Verif.Model.It
/-!
# `with prefix`

Python's expressions as the macro sees them.  The names `let`, `do` and subscripts are told apart because the macro does so; all
other syntax is a `node` with subexpressions.  A tuple that is assigned to (`ctx` is not `Load`) is a `node` too.

Not modelled: captured values (158-159); the check that a let binding is a tuple (172-173); the later expansion of the names
`q`, `u`, `kw`, which raises SyntaxError wherever one of them remains (117-147).
-/
namespace Unpy.Prefix

/-- Expressions.  In `call` and `letx`, names and values are two lists; the name `none` stands for `**value`. -/
inductive PE (β : Type) where
  | cst (c : β)
  | name (x : String)
  | tup (es : List (PE β))
  | call (f : PE β) (args : List (PE β)) (names : List (Option String)) (vals : List (PE β))
  | sub (v ix : PE β)
  | letx (names : List String) (vals : List (PE β)) (body : PE β)
  | doe (items : List (PE β))
  | node (k : Nat) (es : List (PE β))

variable {β : Type}

/-- `isquote`, `isunquote` (syntax/prefix.py:152-153) -/
def isName (x : String) : PE β → Bool
  | .name y => x == y
  | _ => false

/-- `iskwargs` (syntax/prefix.py:154) -/
def isKw : PE β → Bool
  | .call f _ _ _ => isName "kw" f
  | _ => false

/-- `tree.args` and `tree.keywords` of a call (syntax/prefix.py:240-241) -/
def callArgs : PE β → List (PE β)
  | .call _ args _ _ => args
  | _ => []

def keywords : PE β → List (Option String × PE β)
  | .call _ _ names vals => names.zip vals
  | _ => []

/-- The loop over the operators at the head of a tuple (syntax/prefix.py:215-229): the quote level, the first item that is
not an operator, and the items after it. -/
def strip : Nat → PE β → List (PE β) → Option (Nat × PE β × List (PE β))
  | n, op, data =>
    if isName "u" op then
      if n < 1 then none else match data with
        | [] => none
        | op :: data => strip (n - 1) op data
    else if isName "q" op then match data with
      | [] => none
      | op :: data => strip (n + 1) op data
    else some (n, op, data)

/-- Visit a list. -/
def visits (f : PE β → Option (PE β)) : List (PE β) → Option (List (PE β))
  | [] => some []
  | e :: es => match f e, visits f es with
    | some e, some es => some (e :: es)
    | _, _ => none

/-- `PrefixTransformer.transform` (syntax/prefix.py:157-248), at a quote level; `none` if an exception is raised.  The first
argument bounds the depth of the recursion.  `()` raises ValueError (215).  A `kw(...)` with `**d` is not rejected: the type
tested for is that of `*args` (242). -/
def expand : Nat → Nat → PE β → Option (PE β)
  | 0, _, _ => none
  | d + 1, n, e => match e with
    | .cst c => some (.cst c)
    | .name x => some (.name x)
    | .letx names vals body => match visits (expand d n) vals, expand d n body with
      | some vals, some body => some (.letx names vals body)
      | _, _ => none
    | .doe items => (visits (expand d n) items).map .doe
    | .sub v (.tup es) => match visits (expand d n) es, expand d n v with
      | some es, some v => some (.sub v (.tup es))
      | _, _ => none
    | .sub v ix => match expand d n v, expand d n ix with
      | some v, some ix => some (.sub v ix)
      | _, _ => none
    | .call f args names vals => match expand d n f, visits (expand d n) args, visits (expand d n) vals with
      | some f, some args, some vals => some (.call f args names vals)
      | _, _, _ => none
    | .node k es => (visits (expand d n) es).map (.node k)
    | .tup [] => none
    | .tup (op :: data) => match strip n op data with
      | none => none
      | some (n, op, data) =>
        if n > 0 then
          if (op :: data).any isKw then none else (visits (expand d n) (op :: data)).map .tup
        else
          let posargs := data.filter (fun x => !isKw x)
          let kwcalls := data.filter isKw
          if (kwcalls.flatMap callArgs).isEmpty then
            let kwargs := (It.uniqify Prod.fst (kwcalls.flatMap keywords).reverse).reverse
            match expand d n op, visits (expand d n) posargs, visits (expand d n) (kwargs.map Prod.snd) with
            | some f, some args, some vals => some (.call f args (kwargs.map Prod.fst) vals)
            | _, _, _ => none
          else none

end Unpy.Prefix
