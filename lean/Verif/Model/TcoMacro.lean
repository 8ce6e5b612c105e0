import Verif.Model.PyStmt
/-!
# Model of the block macro `tco` (`unpythonic/syntax/tailtools.py`)

The names of the known escape continuations are a parameter (`detect_callec`, util.py:41-87, always includes `ec`, `brk`,
`throw`).  All lambdas are the user's.  Left out: decorators, so that `trampolined` is added everywhere
(`has_tco` is false), and need not be sorted; the skipping of nested `with continuations` blocks.
-/
namespace Unpy.Tail
variable {β : Type}

/-- `isec(tree, known_ecs)` (util.py:32-39), for a call with this function. -/
def isec (ecs : List String) : Ex β → Bool
  | .name x => decide (x ∈ ecs)
  | _ => false

/-- The types for which the last operand of `and`, `or` is transformed (tailtools.py:1621); an expanded `let` or `do` is a
`Call`. -/
def compound : Ex β → Bool
  | .call .. | .ife .. | .bool .. | .letx .. | .doe .. => true
  | _ => false

/-- `do[e₁, ..., eₙ]`; the macro fails for no items. -/
def doList : List (Ex β) → Ex β
  | [] => .bad
  | [e] => e
  | e :: es => .doe e (doList es)

/-- The macro `aif` takes a list display as a `do` (`_implicit_do`, ifexprs.py:67, letdo.py:939-956). -/
def implicitDo : Ex β → Ex β
  | .lst ts => doList ts
  | t => t

/-- Calls of functions with these names are not transformed (tailtools.py:1549, 1603-1606). -/
def leftAlone : List String := ["jump", "loop", "Values"]

/-- `_transform_retexpr(tree, known_ecs)` (tailtools.py:1550-1644), without callbacks. -/
def retexpr (ecs : List String) : Ex β → Ex β
  | .letx x v b => .letx x v (retexpr ecs b)
  | .doe a b => .doe a (retexpr ecs b)
  | .call f args => if isec leftAlone f || isec ecs f then .call f args else .jump f args
  | .ife c t e => .ife c (retexpr ecs t) (retexpr ecs e)
  | .bool isOr others last =>
    if compound last then
      if isOr then .aif (implicitDo others) (retexpr ecs last)
      else .ife others (retexpr ecs last) .ff
    else .bool isOr others last
  | t => t

/-- The first of the arguments of a call of an escape continuation is transformed (tailtools.py:1511-1514).  Without
arguments, or with more than one, expansion fails. -/
def ecArgs (ecs : List String) : List (Ex β) → List (Ex β)
  | [a] => [retexpr ecs a]
  | _ => [.bad]

mutual
/-- `_tco_transform_return` (tailtools.py:1493-1516) in an expression.  (The children of a transformed node are
visited, and calls inside the arguments of a call of an escape continuation are found by that.)  The recursion is
bounded by `n`. -/
def passReturnE (ecs : List String) : Nat → Ex β → Ex β
  | 0, t => t
  | n + 1, t => match t with
    | .call f args => .call (passReturnE ecs n f) (passReturnEs ecs n (if isec ecs f then ecArgs ecs args else args))
    | .lam tr ps b => .lam tr ps (passReturnE ecs n b)
    | .ife c t e => .ife (passReturnE ecs n c) (passReturnE ecs n t) (passReturnE ecs n e)
    | .bool o a b => .bool o (passReturnE ecs n a) (passReturnE ecs n b)
    | .lst ts => .lst (passReturnEs ecs n ts)
    | .letx x v b => .letx x (passReturnE ecs n v) (passReturnE ecs n b)
    | .doe a b => .doe (passReturnE ecs n a) (passReturnE ecs n b)
    | .assign x v => .assign x (passReturnE ecs n v)
    | .aif a b => .aif (passReturnE ecs n a) (passReturnE ecs n b)
    | .jump f args => .jump (passReturnE ecs n f) (passReturnEs ecs n args)
    | t => t

def passReturnEs (ecs : List String) : Nat → List (Ex β) → List (Ex β)
  | 0, ts => ts
  | _ + 1, [] => []
  | n + 1, t :: ts => passReturnE ecs n t :: passReturnEs ecs n ts
end

/-- Whether the value of a `return` is a call of an escape continuation (tailtools.py:1502). -/
def retEc (ecs : List String) : Ex β → Bool
  | .call f _ => isec ecs f
  | _ => false

mutual
/-- `_tco_transform_return` (tailtools.py:1493-1516). -/
def passReturn (ecs : List String) (n : Nat) : St β → St β
  | .ret none => .ret (some .non)
  | .ret (some e) => if retEc ecs e then .expr (passReturnE ecs n e) else .ret (some (passReturnE ecs n (retexpr ecs e)))
  | .expr e => .expr (passReturnE ecs n e)
  | .assign x e => .assign x (passReturnE ecs n e)
  | .ite c b₁ b₂ => .ite (passReturnE ecs n c) (passReturns ecs n b₁) (passReturns ecs n b₂)
  | .while c b => .while (passReturnE ecs n c) (passReturns ecs n b)
  | .defn tr x ps ls b => .defn tr x ps ls (passReturns ecs n b)
  | .tryx b hh h o f => .tryx (passReturns ecs n b) hh (passReturns ecs n h) (passReturns ecs n o) (passReturns ecs n f)

def passReturns (ecs : List String) (n : Nat) : List (St β) → List (St β)
  | [] => []
  | t :: ts => passReturn ecs n t :: passReturns ecs n ts
end

mutual
/-- `_tco_transform_def` (tailtools.py:1472-1488). -/
def passDef : St β → St β
  | .ite c b₁ b₂ => .ite c (passDefs b₁) (passDefs b₂)
  | .while c b => .while c (passDefs b)
  | .defn _ x ps ls b => .defn true x ps ls (passDefs b)
  | .tryx b hh h o f => .tryx (passDefs b) hh (passDefs h) (passDefs o) (passDefs f)
  | t => t

def passDefs : List (St β) → List (St β)
  | [] => []
  | t :: ts => passDef t :: passDefs ts
end

mutual
/-- Replace each lambda that is not inside another one. -/
def mapLam (g : List String → Ex β → Ex β) : Ex β → Ex β
  | .lam _ ps b => g ps b
  | .call f args => .call (mapLam g f) (mapLams g args)
  | .ife c t e => .ife (mapLam g c) (mapLam g t) (mapLam g e)
  | .bool o a b => .bool o (mapLam g a) (mapLam g b)
  | .lst ts => .lst (mapLams g ts)
  | .letx x v b => .letx x (mapLam g v) (mapLam g b)
  | .doe a b => .doe (mapLam g a) (mapLam g b)
  | .assign x v => .assign x (mapLam g v)
  | .aif a b => .aif (mapLam g a) (mapLam g b)
  | .jump f args => .jump (mapLam g f) (mapLams g args)
  | t => t

def mapLams (g : List String → Ex β → Ex β) : List (Ex β) → List (Ex β)
  | [] => []
  | t :: ts => mapLam g t :: mapLams g ts
end

/-- `_tco_transform_lambda` (tailtools.py:1519-1544) in an expression with lambdas nested at most `n` deep: the body is
transformed, then visited. -/
def passLambdaE (ecs : List String) : Nat → Ex β → Ex β
  | 0, t => mapLam (fun _ _ => .bad) t
  | n + 1, t => mapLam (fun ps b => .lam true ps (passLambdaE ecs n (retexpr ecs b))) t

mutual
/-- `_tco_transform_lambda` (tailtools.py:1519-1544). -/
def passLambda (ecs : List String) (n : Nat) : St β → St β
  | .ret none => .ret none
  | .ret (some e) => .ret (some (passLambdaE ecs n e))
  | .expr e => .expr (passLambdaE ecs n e)
  | .assign x e => .assign x (passLambdaE ecs n e)
  | .ite c b₁ b₂ => .ite (passLambdaE ecs n c) (passLambdas ecs n b₁) (passLambdas ecs n b₂)
  | .while c b => .while (passLambdaE ecs n c) (passLambdas ecs n b)
  | .defn tr x ps ls b => .defn tr x ps ls (passLambdas ecs n b)
  | .tryx b hh h o f => .tryx (passLambdas ecs n b) hh (passLambdas ecs n h) (passLambdas ecs n o) (passLambdas ecs n f)

def passLambdas (ecs : List String) (n : Nat) : List (St β) → List (St β)
  | [] => []
  | t :: ts => passLambda ecs n t :: passLambdas ecs n ts
end

/-- `_tco(block_body)` (tailtools.py:723-749); `n` bounds the nesting of the program's nodes.  (It must be at least the
number of lambdas nested in each other; if escape continuations are called, at least the size of an expression.) -/
def tco (ecs : List String) (n : Nat) (b : List (St β)) : List (St β) :=
  passLambdas ecs n (passDefs (passReturns ecs n b))

/-- The names that are always taken for escape continuations (util.py:68). -/
def fallbacks : List String := ["ec", "brk", "throw"]

end Unpy.Tail
