/-!
# Model of the macro `dbg` (syntax/dbg.py)

Expressions are evaluated in an arbitrary monad, in Python's order.  What is neither a call nor a tuple is a `node`, whose meaning is any function of the meanings of its parts (so it may evaluate them in any order, some of them not at all, or several times); the macro visits all parts of it.
Simplification: `mcpyrate.unparse` is a parameter; the macros inside have been expanded already (syntax/dbg.py:217, 238).
-/
namespace Unpy.Dbg
variable {N V : Type}

/-- Functions that the expansion refers to, by hygienic capture (syntax/dbg.py:214, 229) or as `dyn.dbgprint_expr` (syntax/dbg.py:244) -/
inductive Cap where
  | dbgprintBlock | callsiteFilename | dbgprintExpr
  deriving DecidableEq

/-- Expressions.  An argument of a call or an item of a tuple can have a star. -/
inductive Ex (N : Type) where
  | name (x : String)
  | str (s : String)
  | num (n : Option Nat)
  | cap (c : Cap)
  | tuple (items : List (Bool × Ex N))
  | call (lineno : Option Nat) (f : Ex N) (args : List (Bool × Ex N)) (kws : List (String × Ex N))
  | node (tag : N) (parts : List (Ex N))

/-- What the program runs on -/
structure World (m : Type → Type) (N V : Type) where
  lookup : String → m V
  capture : Cap → m V
  apply : V → List V → List (String × V) → m V
  /-- the items of what has a star -/
  items : V → m (List V)
  node : N → List (m V) → m V
  tup : List V → V
  str : String → V
  num : Option Nat → V

variable {m : Type → Type} [Monad m]

mutual
/-- Evaluation in Python -/
def eval (w : World m N V) : Ex N → m V
  | .name x => w.lookup x
  | .str s => pure (w.str s)
  | .num n => pure (w.num n)
  | .cap c => w.capture c
  | .tuple items => do
    let vs ← evalArgs w items
    pure (w.tup vs)
  | .call _ f args kws => do
    let f ← eval w f
    let vs ← evalArgs w args
    let ks ← evalKws w kws
    w.apply f vs ks
  | .node t parts => w.node t (evalAll w parts)

/-- Arguments or items, from left to right -/
def evalArgs (w : World m N V) : List (Bool × Ex N) → m (List V)
  | [] => pure []
  | (star, e) :: rest => do
    let v ← eval w e
    let vs ← if star then w.items v else pure [v]
    let more ← evalArgs w rest
    pure (vs ++ more)

/-- Named arguments -/
def evalKws (w : World m N V) : List (String × Ex N) → m (List (String × V))
  | [] => pure []
  | (k, e) :: rest => do
    let v ← eval w e
    let more ← evalKws w rest
    pure ((k, v) :: more)

/-- The meanings of the parts -/
def evalAll (w : World m N V) : List (Ex N) → List (m V)
  | [] => []
  | e :: es => eval w e :: evalAll w es
end

mutual
/-- `DbgBlockTransformer` (syntax/dbg.py:219-234); captured values are not visited. -/
def transform (unparse : Bool × Ex N → String) (pname : String) (pfunc : Ex N) : Ex N → Ex N
  | .name x => .name x
  | .str s => .str s
  | .num n => .num n
  | .cap c => .cap c
  | .tuple items => .tuple (transformArgs unparse pname pfunc items)
  | .call lineno (.name x) args kws =>
    if x = pname then
      .call lineno pfunc
        [(false, .tuple (args.map (fun a => (false, .str (unparse a))))), (false, .tuple (transformArgs unparse pname pfunc args))]
        (transformKws unparse pname pfunc kws ++ [("filename", .call none (.cap .callsiteFilename) [] []), ("lineno", .num lineno)])
    else .call lineno (.name x) (transformArgs unparse pname pfunc args) (transformKws unparse pname pfunc kws)
  | .call lineno f args kws => .call lineno (transform unparse pname pfunc f) (transformArgs unparse pname pfunc args) (transformKws unparse pname pfunc kws)
  | .node t parts => .node t (transformAll unparse pname pfunc parts)

def transformArgs (unparse : Bool × Ex N → String) (pname : String) (pfunc : Ex N) : List (Bool × Ex N) → List (Bool × Ex N)
  | [] => []
  | (star, e) :: rest => (star, transform unparse pname pfunc e) :: transformArgs unparse pname pfunc rest

def transformKws (unparse : Bool × Ex N → String) (pname : String) (pfunc : Ex N) : List (String × Ex N) → List (String × Ex N)
  | [] => []
  | (k, e) :: rest => (k, transform unparse pname pfunc e) :: transformKws unparse pname pfunc rest

def transformAll (unparse : Bool × Ex N → String) (pname : String) (pfunc : Ex N) : List (Ex N) → List (Ex N)
  | [] => []
  | e :: es => transform unparse pname pfunc e :: transformAll unparse pname pfunc es
end

/-- `_dbg_block(body, args)` (syntax/dbg.py:204-234): with the name of a custom print function, or without -/
def dbgBlock (unparse : Bool × Ex N → String) (custom : Option String) (e : Ex N) : Ex N :=
  match custom with
  | some p => transform unparse p (.name p) e
  | none => transform unparse "print" (.cap .dbgprintBlock) e

/-- `_dbg_expr(tree)` (syntax/dbg.py:236-244); `lineno` is that of the expression -/
def dbgExpr (unparse : Bool × Ex N → String) (lineno : Option Nat) (e : Ex N) : Ex N :=
  .call none (.cap .dbgprintExpr) [(false, .str (unparse (false, e))), (false, e)] [("filename", .call none (.cap .callsiteFilename) [] []), ("lineno", .num lineno)]

/-- Python's compiler: a call must not have the same named argument twice. -/
def repeated (kws : List (String × Ex N)) : Bool := !decide (kws.map (·.1)).Nodup

/-- What `dbgprint_block` prints (syntax/dbg.py:158-162); the texts of the values, of the file name and of the line number are given. `sep` is None or a string; TypeError for None (`"\n" in None`). -/
def blockText (filename lineno : String) (sep : Option String) (ks vs : List String) : Option String :=
  let header := "[" ++ filename ++ ":" ++ lineno ++ "] "
  match sep with
  | none => none
  | some sep =>
    if '\n' ∈ sep.toList then some (sep.intercalate ((ks.zip vs).map (fun (k, v) => header ++ k ++ ": " ++ v)))
    else some (header ++ sep.intercalate ((ks.zip vs).map (fun (k, v) => k ++ ": " ++ v)))

/-- What `dbgprint_expr` prints (syntax/dbg.py:198), before it returns the value -/
def exprText (filename lineno : String) (k v : String) : String := "[" ++ filename ++ ":" ++ lineno ++ "] " ++ k ++ ": " ++ v

end Unpy.Dbg
