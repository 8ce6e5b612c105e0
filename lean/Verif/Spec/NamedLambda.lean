import Verif.Model.NamedLambda
/-!
# Which names lambdas should get

`expected` says for each lambda of a program, in order, which name it should have: that of what it is bound to, possibly with decorators
around it, or else its location.  `labels` says for each lambda of a program which names `namelambda` gives it, directly or to what
decorators make of it.
-/
namespace Unpy.NamedLambda.Spec
open Unpy.NamedLambda

mutual
/-- The names given to the lambdas, the outermost first. -/
def labels (ctx : List Const) : E → List (Nat × List Const)
  | .const _ => []
  | .name _ => []
  | .attr e _ => labels [] e
  | .lam l ds b => (l, ctx) :: (labelsAll [] ds ++ labels [] b)
  | .call f args kws => labels [] f ++ (labelsAll (if args.length = 1 then ctx else []) args ++ labelsItems kws)
  | .dict items => labelsItems items
  | .walrus _ e => labels [] e
  | .envassign _ e => labels [] e
  | .letx bs body => labelsItems bs ++ labels [] body
  | .assign _ e => labels [] e
  | .op _ es => labelsAll [] es
  | .named c e => labels (ctx ++ [c]) e
def labelsAll (ctx : List Const) : List E → List (Nat × List Const)
  | [] => []
  | e :: es => labels ctx e ++ labelsAll ctx es
def labelsItem : Item → List (Nat × List Const)
  | .star e => labels [] e
  | .lit _ e => labels [] e
  | .pair k e => labels [] k ++ labels [] e
def labelsItems : List Item → List (Nat × List Const)
  | [] => []
  | i :: is => labelsItem i ++ labelsItems is
end

/-- A literal that is a name: a string. -/
def key : Const → Option String
  | .str t => some t
  | .num _ => none

/-- A name that tells where the lambda is. -/
def place (l : Nat) : Const := .str ("<lambda at " ++ toString l ++ ">")

mutual
/-- The name each lambda should have, if the tree is bound to this name; with `bs` false, names from bindings are left out. -/
def expected (bs : Bool) (ctx : Option Const) : E → List (Nat × Const)
  | .const _ => []
  | .name _ => []
  | .attr e _ => expected bs none e
  | .lam l ds b => (l, ctx.getD (place l)) :: (expectedAll bs none ds ++ expected bs none b)
  | .call f args kws => expected bs none f ++ (expectedAll bs (if args.length = 1 then ctx else none) args ++ expectedItems bs kws)
  | .dict items => expectedItems bs items
  | .walrus x e => expected bs (if bs then some (.str x) else none) e
  | .envassign x e => expected bs (if bs then some (.str x) else none) e
  | .letx is body => expectedItems bs is ++ expected bs none body
  | .assign x e => expected bs (if bs then some (.str x) else none) e
  | .op _ es => expectedAll bs none es
  -- named already, by hand
  | .named c e => expected bs (some c) e
def expectedAll (bs : Bool) (ctx : Option Const) : List E → List (Nat × Const)
  | [] => []
  | e :: es => expected bs ctx e ++ expectedAll bs ctx es
def expectedItem (bs : Bool) : Item → List (Nat × Const)
  | .star e => expected bs none e
  | .lit c e => expected bs (if bs then (key c).map .str else none) e
  | .pair k e => expected bs none k ++ expected bs none e
def expectedItems (bs : Bool) : List Item → List (Nat × Const)
  | [] => []
  | i :: is => expectedItem bs i ++ expectedItems bs is
end

mutual
/-- The program without the names that were given. -/
def erase : E → E
  | .const c => .const c
  | .name x => .name x
  | .attr e a => .attr (erase e) a
  | .lam l ds b => .lam l (erases ds) (erase b)
  | .call f args kws => .call (erase f) (erases args) (eraseItems kws)
  | .dict items => .dict (eraseItems items)
  | .walrus x e => .walrus x (erase e)
  | .envassign x e => .envassign x (erase e)
  | .letx bs body => .letx (eraseItems bs) (erase body)
  | .assign x e => .assign x (erase e)
  | .op t es => .op t (erases es)
  | .named _ e => erase e
def erases : List E → List E
  | [] => []
  | e :: es => erase e :: erases es
def eraseItem : Item → Item
  | .star e => .star (erase e)
  | .lit c e => .lit c (erase e)
  | .pair k e => .pair (erase k) (erase e)
def eraseItems : List Item → List Item
  | [] => []
  | i :: is => eraseItem i :: eraseItems is
end

/-- There are no lambdas in the tree. -/
def NoLams (e : E) : Prop := labels [] e = []
def NoLamsAll (es : List E) : Prop := labelsAll [] es = []
def NoLamsItems (is : List Item) : Prop := labelsItems is = []

/-- The tree is this name, possibly of a module. -/
def says (n : String) : E → Bool
  | .name x => x == n
  | .attr _ x => x == n
  | _ => false

/-- `namelambda` or `namelambda(...)`, written out -/
def saysNamelambda : E → Bool
  | .call f _ _ => says "namelambda" f
  | e => says "namelambda" e

def isLambda : E → Bool
  | .lam _ _ _ => true
  | _ => false

mutual
/-- A lambda in decorators: the only argument of a call, of which the result may be the only argument of another, and so on. -/
def inDecorators : E → Bool
  | .call _ args _ => inDecoratorsArgs args
  | .named _ e => isLambda e || inDecorators e
  | _ => false
def inDecoratorsArgs : List E → Bool
  | [a] => isLambda a || inDecorators a
  | _ => false
end

mutual
/-- One of the decorators is `namelambda`. -/
def namedByHand : E → Bool
  | .call f args _ => saysNamelambda f || namedByHandArgs args
  | .named _ _ => true
  | _ => false
def namedByHandArgs : List E → Bool
  | [a] => namedByHand a
  | _ => false
end

/-- `curry(..., lambda ...: ...)` -/
def curriedLast : E → Bool
  | .call f args _ => says "curry" f && (args.getLast?.map isLambda).getD false
  | _ => false

mutual
/-- Programs for which the macro gives the names that are expected; `bound` if the tree is bound to a name. -/
def Fine (bound : Bool) : E → Prop
  | .const _ => True
  | .name _ => True
  | .attr e _ => Fine false e
  -- no lambdas in the defaults of a lambda
  | .lam _ ds b => NoLamsAll ds ∧ Fine false b
  | .call f args kws => saysNamelambda f = false ∧ says "currycall" f = false ∧
    Fine false f ∧ FineAll (bound && args.length == 1) args ∧ FineItems kws ∧
    -- no lambdas in the decorators of a lambda that gets a name
    (inDecoratorsArgs args = true → bound = true ∨ namedByHandArgs args = true → NoLams f ∧ NoLamsItems kws) ∧
    -- no bound lambdas in the function of a call with named arguments
    (kws ≠ [] → expected true none f = expected false none f) ∧
    -- no other lambdas in a `curry` with a lambda at the end that is bound
    (bound = true → curriedLast (.call f args kws) = true → NoLams f ∧ NoLamsAll args.dropLast ∧ NoLamsItems kws)
  | .dict items => FineItems items
  | .walrus _ e => Fine true e
  | .envassign _ e => Fine true e
  | .letx bs body => FineItems bs ∧ Fine false body
  | .assign _ e => Fine true e
  | .op _ es => FineAll false es
  -- only lambdas are named by hand
  | .named _ e => isLambda e = true ∧ Fine true e
def FineAll (bound : Bool) : List E → Prop
  | [] => True
  | e :: es => Fine bound e ∧ FineAll bound es
def FineItem : Item → Prop
  | .star e => Fine false e
  | .lit (.str _) e => Fine true e
  -- no lambda belongs to a literal that is no string
  | .lit (.num _) e => Fine false e ∧ isLambda e = false ∧ inDecorators e = false ∧ curriedLast e = false
  | .pair k e => Fine false k ∧ Fine false e
def FineItems : List Item → Prop
  | [] => True
  | i :: is => FineItem i ∧ FineItems is
end

end Unpy.NamedLambda.Spec
