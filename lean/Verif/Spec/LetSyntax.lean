import Verif.Model.LetSyntax
/-!
# What `let_syntax` should do

A bare name is replaced by its right hand side.  A use of a template is replaced by its right hand side, with the arguments in the
places of the formal parameters, all at the same time.  Where a block of statements is used as a statement, its statements are put
there.

With `careful`, the substitution stops where the macro is known to do otherwise.
-/
namespace Unpy.LetSyntax.Spec
open Unpy.LetSyntax

inductive XErr where
  | syntax
  | stopped
  deriving DecidableEq

abbrev X := Except XErr

/-- All in a row. -/
def seq {α : Type} : List (X α) → X (List α)
  | [] => .ok []
  | r :: rs => r.bind fun a => (seq rs).bind fun as => .ok (a :: as)

/-! ## Substitution -/

/-- What names are replaced by: in an expression; as a statement. -/
structure Subst where
  inExpr : String → Option (X T)
  asStmt : String → Option (X (List Stmt))

mutual
/-- Substitute in an expression. -/
def subE (σ : Subst) : T → X T
  | .name x => match σ.inExpr x with
    | some r => r
    | none => .ok (.name x)
  | .const c => .ok (.const c)
  | .call f args => (subE σ f).bind fun f =>
    (subEs σ args).bind fun args => .ok (.call f args)
  | .op t es => (subEs σ es).bind fun es => .ok (.op t es)
def subEs (σ : Subst) : List T → X (List T)
  | [] => .ok []
  | e :: es => (subE σ e).bind fun e =>
    (subEs σ es).bind fun es => .ok (e :: es)
end

/-- Substitute in an expression used as a statement. -/
def subX (σ : Subst) : T → X (List Stmt)
  | .name x => match σ.asStmt x with
    | some r => r
    | none => .ok [.expr (.name x)]
  | e => (subE σ e).bind fun e => .ok [.expr e]

mutual
/-- Substitute in a statement. -/
def subS (σ : Subst) : Stmt → X (List Stmt)
  | .expr e => subX σ e
  | .op t es bs => (subEs σ es).bind fun es =>
    (subBs σ bs).bind fun bs => .ok [.op t es bs]
def subSs (σ : Subst) : List Stmt → X (List Stmt)
  | [] => .ok []
  | s :: ss => (subS σ s).bind fun s =>
    (subSs σ ss).bind fun ss => .ok (s ++ ss)
def subBs (σ : Subst) : List (List Stmt) → X (List (List Stmt))
  | [] => .ok []
  | b :: bs => (subSs σ b).bind fun b =>
    (subBs σ bs).bind fun bs => .ok (b :: bs)
end

/-! ## Occurrences -/

mutual
/-- The name occurs in the expression. -/
def occursE (x : String) : T → Bool
  | .name y => y == x
  | .const _ => false
  | .call f args => occursE x f || occursEs x args
  | .op _ es => occursEs x es
def occursEs (x : String) : List T → Bool
  | [] => false
  | e :: es => occursE x e || occursEs x es
end

/-! ## Bare names -/

/-- The right hand side contains the name itself, and more. -/
def selfRef (x : String) : T → Bool
  | .name _ => false
  | v => occursE x v

/-- Replace a bare name. -/
def bare (careful : Bool) (x : String) (val : Value) : Subst where
  inExpr y := if y = x then match val with
      | .block _ => some (.error .syntax)
      | .expr v => if careful && selfRef x v then some (.error .stopped) else some (.ok v)
    else none
  asStmt y := if y = x then match val with
      | .block b => some (.ok b)
      | .expr v => if careful && selfRef x v then some (.error .stopped) else some (.ok [.expr v])
    else none

/-! ## Templates -/

/-- The first that belongs to the name. -/
def lookup {α : Type} : List String → List α → String → Option α
  | p :: ps, a :: as, x => if x = p then some a else lookup ps as x
  | _, _, _ => none

def isName : T → Bool
  | .name _ => true
  | _ => false

/-- The expression is a use of the template. -/
def isUse (f : String) : T → Bool
  | .call (.name g) _ => g == f
  | _ => false

def isThe (f : String) : T → Bool
  | .name g => g == f
  | _ => false

/-- What the careful substitution does not do, for a template of an expression: a formal parameter occurs in an argument; the template
itself is an argument, or occurs in its own right hand side; the right hand side is a name, and an argument a use of the template. -/
def badUseE (f : String) (ps : List String) (v : T) (args : List T) : Bool :=
  ps.any (fun p => occursEs p args) || args.any (isThe f) || occursE f v || (isName v && args.any (isUse f))

/-- Likewise for a template of statements: a formal parameter, or the template itself, occurs in an argument. -/
def badUseB (f : String) (ps : List String) (args : List T) : Bool :=
  ps.any (fun p => occursEs p args) || occursEs f args

mutual
/-- Replace the uses of a template in an expression. -/
def temE (careful : Bool) (f : String) (ps : List String) (val : Value) : T → X T
  | .name x => .ok (.name x)
  | .const c => .ok (.const c)
  | .call g args =>
    if isThe f g then match val with
      | .block _ => .error .syntax
      | .expr v =>
        if args.length ≠ ps.length then .error .syntax
        else if careful && badUseE f ps v args then .error .stopped
        else subE ⟨lookup ps (temEl careful f ps val args), fun _ => none⟩ v
    else (temE careful f ps val g).bind fun g =>
      (seq (temEl careful f ps val args)).bind fun args => .ok (.call g args)
  | .op t es => (seq (temEl careful f ps val es)).bind fun es => .ok (.op t es)
/-- ... in each of these. -/
def temEl (careful : Bool) (f : String) (ps : List String) (val : Value) : List T → List (X T)
  | [] => []
  | e :: es => temE careful f ps val e :: temEl careful f ps val es
end

mutual
/-- Replace the uses of a template in an expression used as a statement. -/
def temX (careful : Bool) (f : String) (ps : List String) (val : Value) : T → X (List Stmt)
  | .call g args => match val, isThe f g with
    | .block b, true =>
      if args.length ≠ ps.length then .error .syntax
      else if careful && badUseB f ps args then .error .stopped
      else subSs ⟨lookup ps (temEl careful f ps val args), lookup ps (temXl careful f ps val args)⟩ b
    | _, _ => (temE careful f ps val (.call g args)).bind fun e => .ok [.expr e]
  | e => (temE careful f ps val e).bind fun e => .ok [.expr e]
def temXl (careful : Bool) (f : String) (ps : List String) (val : Value) : List T → List (X (List Stmt))
  | [] => []
  | e :: es => temX careful f ps val e :: temXl careful f ps val es
end

mutual
/-- Replace the uses of a template in a statement. -/
def temS (careful : Bool) (f : String) (ps : List String) (val : Value) : Stmt → X (List Stmt)
  | .expr e => temX careful f ps val e
  | .op t es bs => (seq (temEl careful f ps val es)).bind fun es =>
    (temBs careful f ps val bs).bind fun bs => .ok [.op t es bs]
def temSs (careful : Bool) (f : String) (ps : List String) (val : Value) : List Stmt → X (List Stmt)
  | [] => .ok []
  | s :: ss => (temS careful f ps val s).bind fun s =>
    (temSs careful f ps val ss).bind fun ss => .ok (s ++ ss)
def temBs (careful : Bool) (f : String) (ps : List String) (val : Value) : List (List Stmt) → X (List (List Stmt))
  | [] => .ok []
  | b :: bs => (temSs careful f ps val b).bind fun b =>
    (temBs careful f ps val bs).bind fun bs => .ok (b :: bs)
end

/-! ## The macros -/

/-- Is the definition one of a template? -/
def isTemplate (d : Def) : Bool := !d.ps.isEmpty

def foldX {α β : Type} (f : α → β → X β) : List α → β → X β
  | [], b => .ok b
  | a :: as, b => (f a b).bind fun b =>
    foldX f as b

/-- First the templates, in order, then the bare names, in order. -/
def applyE (careful : Bool) (ds : List Def) (e : T) : X T :=
  (foldX (fun d => temE careful d.name d.ps d.val) (ds.filter isTemplate) e).bind fun e =>
  foldX (fun d => subE (bare careful d.name d.val)) (ds.filter (fun d => !isTemplate d)) e

def applySs (careful : Bool) (ds : List Def) (ss : List Stmt) : X (List Stmt) :=
  (foldX (fun d => temSs careful d.name d.ps d.val) (ds.filter isTemplate) ss).bind fun ss =>
  foldX (fun d => subSs (bare careful d.name d.val)) (ds.filter (fun d => !isTemplate d)) ss

/-- `let_syntax[definitions][body]`: names are defined once. -/
def letSyntaxExpr (careful : Bool) (ds : List Def) (body : T) : X T :=
  if (ds.map (·.name)).Nodup then applyE careful ds body else .error .syntax

/-- The body of a definition `with expr as ...` is one expression. -/
def single : List Stmt → Option T
  | [.expr e] => some e
  | _ => none

/-- `with let_syntax:`; a definition may use those before it; what comes after it is substituted. -/
def loop (careful : Bool) (ds : List Def) : List Item → X (List Stmt)
  | [] => .ok []
  | .define isBlock ps name body :: is =>
    -- bare names defined before are replaced in the head of the definition
    if careful && (name :: ps).any (fun x => ds.any (fun d => !isTemplate d && d.name == x)) then .error .stopped
    else (applySs careful ds body).bind fun body' =>
      if (ds.map (·.name)).contains name then .error .syntax
      else if isBlock then loop careful (ds ++ [⟨name, ps, .block body'⟩]) is
      else match single body with
        | some e => (applyE careful ds e).bind fun e => loop careful (ds ++ [⟨name, ps, .expr e⟩]) is
        | none => .error .syntax
  | .stmt s :: is => (applySs careful ds [s]).bind fun s =>
    (loop careful ds is).bind fun ss => .ok (s ++ ss)

/-! ## What statements mean -/

/-- A way to give statements a meaning: one after the other; an expression statement; a compound statement, by its expressions and the
meanings of its bodies.  `if 1:` means its first branch, `if 0:` and `if None:` their second one. -/
structure Meaning (M : Type) where
  skip : M
  next : M → M → M
  expr : T → M
  op : String → List T → List M → M
  skip_next : ∀ a, next skip a = a
  next_skip : ∀ a, next a skip = a
  next_assoc : ∀ a b c, next (next a b) c = next a (next b c)
  if_one : ∀ a b, op "if" [.const (some 1)] [a, b] = a
  if_zero : ∀ a b, op "if" [.const (some 0)] [a, b] = b
  if_none : ∀ a b, op "if" [.const none] [a, b] = b

mutual
def meanS {M : Type} (m : Meaning M) : Stmt → M
  | .expr e => m.expr e
  | .op t es bs => m.op t es (meanBs m bs)
def meanSs {M : Type} (m : Meaning M) : List Stmt → M
  | [] => m.skip
  | s :: ss => m.next (meanS m s) (meanSs m ss)
def meanBs {M : Type} (m : Meaning M) : List (List Stmt) → List M
  | [] => []
  | b :: bs => meanSs m b :: meanBs m bs
end

/-- An `if` the condition of which is 1, 0 or None. -/
def isConstIf : String → List T → List (List Stmt) → Bool
  | "if", [.const c], [_, _] => c == some 1 || c == some 0 || c == none
  | _, _, _ => false

mutual
/-- No such `if`, at any depth. -/
def noConstIfS : Stmt → Bool
  | .expr _ => true
  | .op t es bs => !isConstIf t es bs && noConstIfBs bs
def noConstIfSs : List Stmt → Bool
  | [] => true
  | s :: ss => noConstIfS s && noConstIfSs ss
def noConstIfBs : List (List Stmt) → Bool
  | [] => true
  | b :: bs => noConstIfSs b && noConstIfBs bs
end

mutual
/-- Every `if` has statements in its first branch, as the syntax of Python wants. -/
def validS : Stmt → Bool
  | .expr _ => true
  | .op t _ bs => (t != "if" || !(bs.headD []).isEmpty) && validBs bs
def validSs : List Stmt → Bool
  | [] => true
  | s :: ss => validS s && validSs ss
def validBs : List (List Stmt) → Bool
  | [] => true
  | b :: bs => validSs b && validBs bs
end

end Unpy.LetSyntax.Spec
