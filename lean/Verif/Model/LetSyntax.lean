/-!
# Model of `let_syntax` and `abbrev` (`unpythonic/syntax/letsyntax.py`), and of `eliminate_ifones` (`unpythonic/syntax/util.py`)

Python's syntax trees: of expressions (`T`), names, constants and calls are distinguished, everything else is `op`; of statements
(`Stmt`), expression statements, everything else is `op`, with its expressions and its bodies.  The syntax `f[a, b]` for the use of
a template is not distinguished from `f(a, b)`.

Recursion of the visitors is limited by `fuel`: Python raises RecursionError.

Not modelled: other macros inside (the body is supposed to be expanded); names in other places than `Name` nodes (`def`, parameters,
attributes), in which `rename` also replaces; captured values; that every substitution gets a copy of its own; `where`, and the
brackets for an implicit `do`.
-/
namespace Unpy.LetSyntax

/-- Expressions. -/
inductive T where
  | name (x : String)
  /-- a constant: an integer (True and False being 1 and 0), or None -/
  | const (c : Option Int)
  | call (f : T) (args : List T)
  | op (t : String) (es : List T)

/-- Statements. -/
inductive Stmt where
  | expr (e : T)
  | op (t : String) (es : List T) (bodies : List (List Stmt))

inductive Err where
  /-- SyntaxError -/
  | syntax
  /-- AttributeError -/
  | attribute
  | recursion
  deriving DecidableEq

abbrev R := Except Err

/-- The right hand side of a definition: an expression (mode `"expr"`), or statements (mode `"block"`). -/
inductive Value where
  | expr (e : T)
  | block (b : List Stmt)

/-- Apply to all; the first error counts. -/
def mapR {α β : Type} (f : α → R β) : List α → R (List β)
  | [] => .ok []
  | a :: as => (f a).bind fun b =>
    (mapR f as).bind fun bs => .ok (b :: bs)

/-- `ASTTransformer.generic_visit` of an expression. -/
def genE (v : T → R T) : T → R T
  | .name x => .ok (.name x)
  | .const c => .ok (.const c)
  | .call f args => (v f).bind fun f =>
    (mapR v args).bind fun args => .ok (.call f args)
  | .op t es => (mapR v es).bind fun es => .ok (.op t es)

/-- `ASTTransformer.generic_visit` of a statement. -/
def genS (vE : T → R T) (vS : Stmt → R Stmt) : Stmt → R Stmt
  | .expr e => (vE e).bind fun e => .ok (.expr e)
  | .op t es bs => (mapR vE es).bind fun es =>
    (mapR (mapR vS) bs).bind fun bs => .ok (.op t es bs)

/-- `if 1:` with these statements (letsyntax.py:304-308) -/
def ifOne (b : List Stmt) : Stmt := .op "if" [.const (some 1)] [b, []]

/-- `_substitute_barename` (letsyntax.py:404-436), on expressions -/
def bareE (x : String) (val : Value) : Nat → T → R T
  | 0, _ => .error .recursion
  | n + 1, .name y =>
    if y = x then match val with
      | .block _ => .error .syntax
      | .expr v => genE (bareE x val n) v
    else .ok (.name y)
  | n + 1, e => genE (bareE x val n) e

/-- `_substitute_barename` (letsyntax.py:404-436), on statements -/
def bareS (x : String) (val : Value) : Nat → Stmt → R Stmt
  | 0, _ => .error .recursion
  | n + 1, s => match val, s with
    | .block b, .expr (.name y) => if y = x then .ok (ifOne b) else .ok s
    | _, _ => genS (bareE x val n) (bareS x val n) s

/-- `for k, v in zip(formalparams, theargs): ...` of `_substitute_templates` (letsyntax.py:463-465), on an expression -/
def plugE (n : Nat) : List (String × T) → T → R T
  | [], e => .ok e
  | (k, v) :: kvs, e => (bareE k (.expr v) n e).bind fun e =>
    plugE n kvs e

/-- `for k, v in zip(formalparams, theargs): ...` of `_substitute_templates` (letsyntax.py:463-465), on a statement -/
def plugS (n : Nat) : List (String × T) → Stmt → R Stmt
  | [], s => .ok s
  | (k, v) :: kvs, s => (bareS k (.expr v) n s).bind fun s =>
    plugS n kvs s

/-- `_substitute_templates` (letsyntax.py:443-485), for one template, on expressions -/
def tempE (f : String) (ps : List String) (val : Value) : Nat → T → R T
  | 0, _ => .error .recursion
  | n + 1, .call (.name g) args =>
    if g = f then match val with
      | .block _ => .error .syntax
      | .expr v =>
        if args.length ≠ ps.length then .error .syntax
        else (plugE n (ps.zip args) v).bind fun e =>
          genE (tempE f ps val n) e
    else genE (tempE f ps val n) (.call (.name g) args)
  | n + 1, e => genE (tempE f ps val n) e

/-- `_substitute_templates` (letsyntax.py:443-485), for one template, on statements -/
def tempS (f : String) (ps : List String) (val : Value) : Nat → Stmt → R Stmt
  | 0, _ => .error .recursion
  | n + 1, s => match val, s with
    | .block b, .expr (.call (.name g) args) =>
      if g = f then
        if args.length ≠ ps.length then .error .syntax else plugS n (ps.zip args) (ifOne b)
      else genS (tempE f ps val n) (tempS f ps val n) s
    | _, _ => genS (tempE f ps val n) (tempS f ps val n) s

/-- A definition: its name, its formal parameters (none for a bare name), its right hand side. -/
structure Def where
  name : String
  ps : List String
  val : Value

/-- The templates among the definitions. -/
def templates (ds : List Def) : List Def := ds.filter (fun d => !d.ps.isEmpty)
def barenames (ds : List Def) : List Def := ds.filter (fun d => d.ps.isEmpty)

/-- One after the other. -/
def foldR {α β : Type} (f : α → β → R β) : List α → β → R β
  | [], b => .ok b
  | a :: as, b => (f a b).bind fun b =>
    foldR f as b

/-- Templates, then bare names (letsyntax.py:241-242), on an expression -/
def substE (n : Nat) (ds : List Def) (e : T) : R T :=
  (foldR (fun d => tempE d.name d.ps d.val n) (templates ds) e).bind fun e =>
  foldR (fun d => bareE d.name d.val n) (barenames ds) e

/-- Templates, then bare names (letsyntax.py:346-347), on a statement -/
def substS (n : Nat) (ds : List Def) (s : Stmt) : R Stmt :=
  (foldR (fun d => tempS d.name d.ps d.val n) (templates ds) s).bind fun s =>
  foldR (fun d => bareS d.name d.val n) (barenames ds) s

/-- A name is defined twice (letsyntax.py:231-232). -/
def duplicates : List String → Bool
  | [] => false
  | x :: xs => xs.contains x || duplicates xs

/-- `_let_syntax_expr` (letsyntax.py:219-243) -/
def letSyntaxExpr (n : Nat) (ds : List Def) (body : T) : R T :=
  if ds.isEmpty then .ok body
  else if duplicates (ds.map (·.name)) then .error .syntax
  else substE n ds body

/-- The statements of a block: definitions (`with block[a, b] as f:`, `with expr[a, b] as f:`), or others. -/
inductive Item where
  | define (isBlock : Bool) (ps : List String) (name : String) (body : List Stmt)
  | stmt (s : Stmt)

/-- Substitute in a definition, which is a `with` statement: in the formal parameters, the as-part and the body (letsyntax.py:346-347).
Given as a statement: `with block[ps] as name`. -/
def asWith (isBlock : Bool) (ps : List String) (name : String) (body : List Stmt) : Stmt :=
  .op (if isBlock then "with block" else "with expr") (.name name :: ps.map .name) [body]

/-- The names, where they are names (`[a.id for a in ...]`, letsyntax.py:391) -/
def ids : List T → R (List String)
  | [] => .ok []
  | .name x :: es => (ids es).bind fun xs => .ok (x :: xs)
  | _ :: _ => .error .attribute

/-- `destructure_binding` (letsyntax.py:285-318), for the names defined so far -/
def destructure (isBlock : Bool) (seen : List String) : Stmt → R Def
  | .op _ (nm :: ps) [body] => match nm with
    | .name name =>
      if seen.contains name then .error .syntax
      else (ids ps).bind fun ps =>
          if isBlock then .ok ⟨name, ps, .block body⟩
          else match body with
            | [.expr e] => .ok ⟨name, ps, .expr e⟩
            | _ => .error .syntax
    | _ => .error .syntax
  | _ => .error .syntax

/-- The loop of `_let_syntax_block` (letsyntax.py:339-363) -/
def loop (n : Nat) (ds : List Def) : List Item → R (List Stmt)
  | [] => .ok []
  | .define isBlock ps name body :: is =>
    (substS n ds (asWith isBlock ps name body)).bind fun s =>
    (destructure isBlock (ds.map (·.name)) s).bind fun d =>
      loop n (ds ++ [d]) is
  | .stmt s :: is =>
    (substS n ds s).bind fun s =>
    (loop n ds is).bind fun ss => .ok (s :: ss)

/-- `eliminate_ifones.optimize` (syntax/util.py:355-375), for a statement with bodies already transformed -/
def optimize (t : String) (es : List T) (bs : List (List Stmt)) : List Stmt :=
  match t, es, bs with
  | "if", [.const c], [b, e] =>
    if c = some 1 then b
    else if c = some 0 ∨ c = none then e
    else [.op t es bs]
  | _, _, _ => [.op t es bs]

mutual
/-- `transform_statements` (syntax/util.py:377-409) with `optimize`: from the inside -/
def elimS : Stmt → List Stmt
  | .expr e => [.expr e]
  | .op t es bs => optimize t es (elimBs bs)
/-- Statements in a row; those returned are spliced. -/
def elimSs : List Stmt → List Stmt
  | [] => []
  | s :: ss => elimS s ++ elimSs ss
/-- All bodies of a statement. -/
def elimBs : List (List Stmt) → List (List Stmt)
  | [] => []
  | b :: bs => elimSs b :: elimBs bs
end

/-- `_let_syntax_block` (letsyntax.py:260-367) -/
def letSyntaxBlock (n : Nat) (is : List Item) : R (List Stmt) :=
  (loop n [] is).bind fun ss =>
    let ss := elimSs ss
    if ss.isEmpty then .error .syntax else .ok ss

end Unpy.LetSyntax
