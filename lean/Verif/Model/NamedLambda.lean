/-!
# Model of the `namedlambda` macro (`unpythonic/syntax/lambdatools.py`)

Syntax trees, statements and expressions alike.  A lambda carries its line, which also tells it from others.

Simplifications.  Between its passes the macro expands the macros in the block; the model is for blocks in which this does nothing, but
unexpanded `let[]` forms are there.  What is inserted, `namelambda(name)(tree)`, is a node of its own (`named`), which is also used where
the user wrote it.
-/
namespace Unpy.NamedLambda

inductive Const where
  | str (t : String)
  | num (n : Int)
  deriving DecidableEq

mutual
inductive E where
  | const (c : Const)
  | name (x : String)
  | attr (e : E) (a : String)
  /-- a lambda: line, defaults of the parameters, body -/
  | lam (line : Nat) (defaults : List E) (body : E)
  /-- a call: function, positional arguments, named ones -/
  | call (f : E) (args : List E) (kws : List Item)
  | dict (items : List Item)
  /-- `x := e` -/
  | walrus (x : String) (e : E)
  /-- `x << e` -/
  | envassign (x : String) (e : E)
  /-- `let[bindings][body]` -/
  | letx (bs : List Item) (body : E)
  /-- the statement `x = e` -/
  | assign (x : String) (e : E)
  /-- any other node -/
  | op (t : String) (es : List E)
  /-- `namelambda(c)(e)` -/
  | named (c : Const) (e : E)
/-- An item of a dictionary or a call, or a binding: `**e`, or `c: e`, `c=e`, `c := e` with a literal for `c`, or `k: e`. -/
inductive Item where
  | star (e : E)
  | lit (c : Const) (e : E)
  | pair (k e : E)
end

/-- `isx` (nameutil.py:51-75), for names and attributes -/
def isx (p : String → Bool) : E → Bool
  | .name x => p x
  | .attr _ a => p a
  | _ => false

/-- `is_decorator` (syntax/util.py:122-137) -/
def isDecorator (p : String → Bool) : E → Bool
  | .call f _ _ => isx p f
  | e => isx p e

def isLam : E → Bool
  | .lam _ _ _ => true
  | _ => false

mutual
/-- `is_decorated_lambda(tree, mode="any")` (syntax/util.py:159-187) -/
def decorated : E → Bool
  | .call _ args _ => decoratedArgs args
  | .named _ e => isLam e || decorated e
  | _ => false
def decoratedArgs : List E → Bool
  | [a] => isLam a || decorated a
  | _ => false
end

mutual
/-- `has_deco(["namelambda"], tree)` (syntax/util.py:227-244), of a decorated lambda -/
def hasNamed : E → Bool
  | .call f args _ => isDecorator (· == "namelambda") f || hasNamedArgs args
  | .named _ _ => true
  | _ => false
def hasNamedArgs : List E → Bool
  | [a] => hasNamed a
  | _ => false
end

/-- The last one is a lambda. -/
def lastLam (args : List E) : Bool :=
  match args.getLast? with
  | some a => isLam a
  | none => false

/-- `iscurrywithfinallambda` (lambdatools.py:264-267) -/
def curryFinal : E → Bool
  | .call f args _ => isx (· == "curry") f && lastLam args
  | _ => false

/-- `curryf(..., lambda ...: ...)` (lambdatools.py:273-280) -/
def curryf : E → Bool
  | .call f args _ => isx (fun x => x == "curryf" || x == "curry") f && lastLam args
  | _ => false

/-- `isautocurrywithfinallambda` (lambdatools.py:273-280) -/
def autocurryFinal : E → Bool
  | .call f args _ => isx (· == "currycall") f && match args.getLast? with
    | some a => curryf a
    | none => false
  | _ => false

/-- How a tree is visited: as it is; bound to a name; only the body of the lambda in it; only the lambda at its end, which gets the name. -/
inductive Mode where
  | plain
  | bind (c : Const)
  | chain
  | nameLast (c : Const)

mutual
/-- `NamedLambdaTransformer` (lambdatools.py:311-382), with `nameit` (lambdatools.py:287-309) -/
def visit : Mode → E → E
  | _, .const c => .const c
  | _, .name x => .name x
  | _, .attr e a => .attr (visit .plain e) a
  | .bind c, .lam l ds b => .named c (.lam l ds (visit .plain b))
  | .chain, .lam l ds b => .lam l ds (visit .plain b)
  | _, .lam l ds b => .lam l (visits ds) (visit .plain b)
  | .chain, .call f args kws => .call f (visitLast .chain args) kws
  | .nameLast c, .call f args kws => .call f (visitLast (.bind c) args) kws
  | .bind c, .call f args kws =>
    if autocurryFinal (.call f args kws) then .call f (visitLast (.nameLast c) args) kws
    else if decoratedArgs args && !hasNamed (.call f args kws) || curryFinal (.call f args kws) then
      .named c (.call f (visitLast .chain args) kws)
    else if kws.isEmpty then .call (visit .plain f) (visits args) []
    else .call f (visits args) (visitItems kws)
  -- a call with named arguments: its function is not visited (lambdatools.py:351-363)
  | .plain, .call f args kws =>
    if kws.isEmpty then .call (visit .plain f) (visits args) [] else .call f (visits args) (visitItems kws)
  | _, .dict items => .dict (visitItems items)
  | _, .walrus x e => .walrus x (visit (.bind (.str x)) e)
  | _, .envassign x e => .envassign x (visit (.bind (.str x)) e)
  | _, .letx bs body => .letx (visitItems bs) (visit .plain body)
  | _, .assign x e => .assign x (visit (.bind (.str x)) e)
  | _, .op t es => .op t (visits es)
  | .chain, .named c e => .named c (visit .chain e)
  | _, .named c e => .named c (visit .plain e)
def visits : List E → List E
  | [] => []
  | e :: es => visit .plain e :: visits es
/-- Only the last one. -/
def visitLast : Mode → List E → List E
  | _, [] => []
  | m, [e] => [visit m e]
  | m, e :: e' :: es => e :: visitLast m (e' :: es)
def visitItem : Item → Item
  | .star e => .star (visit .plain e)
  | .lit c e => .lit c (visit (.bind c) e)
  | .pair k e => .pair (visit .plain k) (visit .plain e)
def visitItems : List Item → List Item
  | [] => []
  | i :: is => visitItem i :: visitItems is
end

/-- The name from the location (lambdatools.py:404); the line stands for it. -/
def location (l : Nat) : Const := .str ("<lambda at " ++ toString l ++ ">")

mutual
/-- `NamedLambdaFinalizationTransformer` (lambdatools.py:395-411); with `chain`, only the body of the lambda in the tree is visited. -/
def fin : Bool → E → E
  | _, .const c => .const c
  | _, .name x => .name x
  | _, .attr e a => .attr (fin false e) a
  | false, .lam l ds b => .named (location l) (.lam l ds (fin false b))
  | true, .lam l ds b => .lam l ds (fin false b)
  | true, .call f args kws => .call f (finLast args) kws
  | false, .call f args kws =>
    if decoratedArgs args && hasNamed (.call f args kws) then .call f (finLast args) kws
    else .call (fin false f) (fins args) (finItems kws)
  | _, .dict items => .dict (finItems items)
  | _, .walrus x e => .walrus x (fin false e)
  | _, .envassign x e => .envassign x (fin false e)
  | _, .letx bs body => .letx (finItems bs) (fin false body)
  | _, .assign x e => .assign x (fin false e)
  | _, .op t es => .op t (fins es)
  | true, .named c e => .named c (fin true e)
  | false, .named c e => if isLam e || decorated e then .named c (fin true e) else .named c (fin false e)
def fins : List E → List E
  | [] => []
  | e :: es => fin false e :: fins es
def finLast : List E → List E
  | [] => []
  | [e] => [fin true e]
  | e :: e' :: es => e :: finLast (e' :: es)
def finItem : Item → Item
  | .star e => .star (fin false e)
  | .lit c e => .lit c (fin false e)
  | .pair k e => .pair (fin false k) (fin false e)
def finItems : List Item → List Item
  | [] => []
  | i :: is => finItem i :: finItems is
end

/-- `_namedlambda` (lambdatools.py:259-412) -/
def namedlambda (e : E) : E := fin false (visit .plain (visit .plain e))

end Unpy.NamedLambda
