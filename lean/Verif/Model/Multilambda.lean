import Verif.Model.LetDo
/-!
# Model of the block macro `multilambda` (`unpythonic/syntax/lambdatools.py`)

The language is that of `Model/LetDo.lean`, with lists whose items may be `local[...]` or `delete[...]`.  Left out: captured
values (249-250); statements, into which the macro goes as well; the implicit `do` of `let` bodies in brackets.
-/
namespace Unpy.Multilambda
open Unpy.PyExpr (Tag Ex Name)

/-- Expressions in the block.  A list display has tags for its items, as a `do` has (`local[...]`, `delete[...]`). -/
inductive Src (β : Type) where
  | cst (c : β)
  | name (x : String)
  | call (f : Src β) (args : List (Src β))
  | lam (ps : List String) (ds : List (Src β)) (body : Src β)
  | ife (c t e : Src β)
  | tup (ts : List (Src β))
  | lst (tags : List Tag) (ts : List (Src β))
  | assign (x : String) (v : Src β)
  | letx (letrec : Bool) (xs : List String) (vs : List (Src β)) (body : Src β)
  | doe (tags : List Tag) (ts : List (Src β))

variable {β : Type}

mutual
/-- `MultilambdaTransformer.transform` (syntax/lambdatools.py:248-253): the body of each lambda goes through `_implicit_do`
(syntax/letdo.py:939-956), then the transformer goes on inside.  In a list that stays a list, `local[...]` and `delete[...]`
raise SyntaxError (syntax/letdo.py:654-656, 675-677). -/
def multi : Src β → Ex β
  | .cst c => .cst c
  | .name x => .name (.user x)
  | .call f args => .call (multi f) (multis args)
  | .lam ps ds b => .lam (ps.map .user) (multis ds) (match b with
    | .lst tags ts => .doe tags (multis ts)
    | b => multi b)
  | .ife c t e => .ife (multi c) (multi t) (multi e)
  | .tup ts => .tup (multis ts)
  | .lst tags ts => if tags.all (fun t => t == .loc []) then .lst (multis ts) else .bad
  | .assign x v => .assign (.user x) (multi v)
  | .letx r xs vs b => .letx r xs (multis vs) (multi b)
  | .doe tags ts => .doe tags (multis ts)

def multis : List (Src β) → List (Ex β)
  | [] => []
  | t :: ts => multi t :: multis ts
end

end Unpy.Multilambda
