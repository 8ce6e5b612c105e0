import Verif.Model.PyExpr
/-!
# Model of the expression macros of `unpythonic/syntax/letdo.py`: `let`, `letrec`, `do`

The bindings of a `let` and the `local` declarations of a `do` are written with `:=`.  Left out: the other ways of
writing them (`letdoutil.canonize_bindings`); `namelambda`, which only gives names to the functions; the checks for stray
`local` and `delete`; comprehensions and `def`, in which names can be bound, too.
-/
namespace Unpy.LetDo
open Unpy.PyExpr
variable {β : Type}

mutual
/-- `_transform_envassignment(tree, lhsnames, envset)` (letdo.py:441-452), by `scoped_transform` (scopeanalyzer.py:113-164):
`x := v` becomes `e.set('x', v)` (or `e._set`, the method `m`), unless `x` is in scope as a Python variable.  The parameters
of a lambda are taken to be in scope in its defaults, too (scopeanalyzer.py:118-124).  A binding `x := v` of a `let`
or `do` that is not expanded yet is transformed as well, which ruins it. -/
def passAssign (names : List String) (m : String) (e : Nat) (scope : List Name) : Ex β → Ex β
  | .assign (.user x) v =>
    if x ∈ names ∧ Name.user x ∉ scope then
      .call (.attr (.name (.gen e)) m) [.str x, passAssign names m e scope v]
    else .assign (.user x) (passAssign names m e scope v)
  | .assign x v => .assign x (passAssign names m e scope v)
  | .cst c => .cst c
  | .str s => .str s
  | .cap c => .cap c
  | .name x => .name x
  | .attr t a => .attr (passAssign names m e scope t) a
  | .call f args => .call (passAssign names m e scope f) (passAssigns names m e scope args)
  | .lam ps ds b => .lam ps (passAssigns names m e (scope ++ ps) ds) (passAssign names m e (scope ++ ps) b)
  | .ife c t f => .ife (passAssign names m e scope c) (passAssign names m e scope t) (passAssign names m e scope f)
  | .tup ts => .tup (passAssigns names m e scope ts)
  | .lst ts => .lst (passAssigns names m e scope ts)
  | .letx r xs vs b =>
    if xs.any (fun x => decide (x ∈ names ∧ Name.user x ∉ scope)) then .bad
    else .letx r xs (passAssigns names m e scope vs) (passAssign names m e scope b)
  | .doe tags ts =>
    if tags.any (fun t => match t with
        | .loc xs => xs.any (fun x => decide (x ∈ names ∧ Name.user x ∉ scope))
        | .del _ => false) then .bad
    else .doe tags (passAssigns names m e scope ts)
  | .bad => .bad

def passAssigns (names : List String) (m : String) (e : Nat) (scope : List Name) : List (Ex β) → List (Ex β)
  | [] => []
  | t :: ts => passAssign names m e scope t :: passAssigns names m e scope ts
end

mutual
/-- `_transform_name(tree, rhsnames, envname)` (letdo.py:454-486): `x` becomes `e.x`, unless `x` is in scope as a Python
variable. -/
def passName (names : List String) (e : Nat) (scope : List Name) : Ex β → Ex β
  | .name (.user x) => if x ∈ names ∧ Name.user x ∉ scope then .attr (.name (.gen e)) x else .name (.user x)
  | .name x => .name x
  | .cst c => .cst c
  | .str s => .str s
  | .cap c => .cap c
  | .attr t a => .attr (passName names e scope t) a
  | .call f args => .call (passName names e scope f) (passNames names e scope args)
  | .lam ps ds b => .lam ps (passNames names e (scope ++ ps) ds) (passName names e (scope ++ ps) b)
  | .ife c t f => .ife (passName names e scope c) (passName names e scope t) (passName names e scope f)
  | .tup ts => .tup (passNames names e scope ts)
  | .lst ts => .lst (passNames names e scope ts)
  | .assign x v => .assign x (passName names e scope v)
  | .letx r xs vs b => .letx r xs (passNames names e scope vs) (passName names e scope b)
  | .doe tags ts =>
    if tags.any (fun t => match t with
        | .loc _ => false
        | .del x => decide (x ∈ names ∧ Name.user x ∉ scope)) then .bad
    else .doe tags (passNames names e scope ts)
  | .bad => .bad

def passNames (names : List String) (e : Nat) (scope : List Name) : List (Ex β) → List (Ex β)
  | [] => []
  | t :: ts => passName names e scope t :: passNames names e scope ts
end

/-- `_letlike_transform` (letdo.py:418-439), without and with `_envwrap` (488-492). -/
def letlike (e : Nat) (m : String) (lhs rhs : List String) (t : Ex β) : Ex β :=
  passName rhs e [] (passAssign lhs m e [] t)
def letlikeWrap (e : Nat) (m : String) (lhs rhs : List String) (t : Ex β) : Ex β :=
  .lam [.gen e] [] (letlike e m lhs rhs t)

/-- Why an expansion has no result: a `SyntaxError`; or the fuel is used up. -/
inductive XErr where
  | syntaxError
  | fuel
  deriving DecidableEq, Repr

/-- The loop of `_do` over the items (letdo.py:888-914): the lines, before the macros in them are expanded. -/
def doLines (e : Nat) (names : List String) : List Tag → List (Ex β) → Except XErr (List (Ex β))
  | .loc xs :: tags, t :: ts =>
    if xs.any (· ∈ names) then .error .syntaxError else
    match doLines e (names ++ xs) tags ts with
    | .error x => .error x
    | .ok ls => .ok (letlikeWrap e "_set" (names ++ xs) names (xs.foldr (fun x t => .assign (.user x) t) t) :: ls)
  | .del x :: tags, _ :: ts =>
    match doLines e (names.filter (· ≠ x)) tags ts with
    | .error err => .error err
    | .ok ls => .ok (letlikeWrap e "_set" (names.filter (· ≠ x)) names
        (.call (.attr (.name (.gen e)) "pop") [.str x]) :: ls)
  | _, _ => .ok []

/-- Expand the macros in each expression of a list; `f` takes and returns the counter of `gensym`. -/
def mapS (f : Ex β → Nat → Except XErr (Ex β × Nat)) : List (Ex β) → Nat → Except XErr (List (Ex β) × Nat)
  | [], c => .ok ([], c)
  | t :: ts, c => match f t c with
    | .error x => .error x
    | .ok (t', c) => match mapS f ts c with
      | .error x => .error x
      | .ok (ts', c) => .ok (t' :: ts', c)

/-- The expansion of a `let` or `letrec` whose values and body have been expanded (letdo.py:393-416). -/
def letCode (letrec : Bool) (e : Nat) (xs : List String) (vs : List (Ex β)) (b : Ex β) : Ex β :=
  .call (.cap (.letter letrec))
    [.tup (List.zipWith (fun x v => .tup [.str x, v]) xs
      (if letrec then vs.map (letlikeWrap e "set" xs xs) else vs)), letlikeWrap e "set" xs xs b]

/-- The macro expander.  A `let` or `letrec` expands its parts first (`_let_expr_impl`, letdo.py:373-416); a `do` is
expanded before the macros in its items (`_do`, letdo.py:825-920). -/
def expand : Nat → Ex β → Nat → Except XErr (Ex β × Nat)
  | 0, _, _ => .error .fuel
  | n + 1, t, c => match t with
    | .cst _ | .str _ | .cap _ | .name _ => .ok (t, c)
    | .attr t a => match expand n t c with
      | .error x => .error x
      | .ok (t', c) => .ok (.attr t' a, c)
    | .call f args => match expand n f c with
      | .error x => .error x
      | .ok (f', c) => match mapS (expand n) args c with
        | .error x => .error x
        | .ok (args', c) => .ok (.call f' args', c)
    | .lam ps ds b => match mapS (expand n) ds c with
      | .error x => .error x
      | .ok (ds', c) => match expand n b c with
        | .error x => .error x
        | .ok (b', c) => .ok (.lam ps ds' b', c)
    | .ife t₁ t₂ t₃ => match expand n t₁ c with
      | .error x => .error x
      | .ok (t₁', c) => match expand n t₂ c with
        | .error x => .error x
        | .ok (t₂', c) => match expand n t₃ c with
          | .error x => .error x
          | .ok (t₃', c) => .ok (.ife t₁' t₂' t₃', c)
    | .tup ts => match mapS (expand n) ts c with
      | .error x => .error x
      | .ok (ts', c) => .ok (.tup ts', c)
    | .lst ts => match mapS (expand n) ts c with
      | .error x => .error x
      | .ok (ts', c) => .ok (.lst ts', c)
    | .assign x v => match expand n v c with
      | .error err => .error err
      | .ok (v', c) => .ok (.assign x v', c)
    | .letx r xs vs b => match expand n b c with
      | .error x => .error x
      | .ok (b', c) =>
        if xs.isEmpty then .ok (b', c) else
        match mapS (expand n) vs c with
        | .error x => .error x
        | .ok (vs', c) => .ok (letCode r c xs vs' b', c + 1)
    | .doe tags ts => match doLines c [] tags ts with
      | .error x => .error x
      | .ok lines => expand n (.call (.cap .dof) lines) (c + 1)
    | .bad => .error .syntaxError

/-! ## Macros that rewrite into these -/

/-- `_implicit_do` (letdo.py:939-956): brackets around a body make a `do`; `tags` are the declarations of its items. -/
def implicitDo (tags : List Tag) : Ex β → Ex β
  | .lst ts => .doe tags ts
  | t => t

/-- `_do0` (letdo.py:924-937).  The first item may declare names. -/
def do0 : List Tag → List (Ex β) → Except XErr (Ex β)
  | .loc xs :: tags, t :: ts => .ok (.doe (.loc ("_do0_result" :: xs) :: tags ++ [.loc []])
      (t :: ts ++ [.name (.user "_do0_result")]))
  | _, _ => .error .syntaxError

/-- `_letseq` (letdo.py:356-368). -/
def letseq : List String → List (Ex β) → Ex β → Ex β
  | [], _, b => b
  | x :: xs, v :: vs, b => .letx false [x] [v] (letseq xs vs b)
  | _, _, _ => .bad

/-- `build` in `_cond` (ifexprs.py:131-142). -/
def cond : List (Ex β) → Except XErr (Ex β)
  | [] => .error .syntaxError
  | [t] => .ok t
  | c :: t :: more => match cond more with
    | .error x => .error x
    | .ok e => .ok (.ife c t e)

/-- `_aif` (ifexprs.py:60-81). -/
def aif (test yes no : Ex β) : Ex β :=
  .letx false ["it"] [test] (.ife (.name (.user "it")) yes no)

end Unpy.LetDo
