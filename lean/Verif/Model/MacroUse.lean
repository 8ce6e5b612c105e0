import Verif.Model.Py
/-!
# Model of how macros recognize uses of other macros (`unpythonic/syntax/nameutil.py`, `unpythonic/syntax/testingtools.py`)

Simplified: Python 3.9 or later, where the slice of a subscript is an expression.  A hygienic capture of a macro is a tree with a key, by which mcpyrate finds a name that is
bound to the macro in the expander.
-/
namespace Unpy.MacroUse
open Unpy

/-- Trees, as far as they are looked at -/
inductive Tree where
  | name (x : String)
  /-- a hygienic capture of a macro, with its key -/
  | captured (key : Nat)
  | attribute (value : Tree) (x : String)
  | subscript (value slice : Tree)
  | call (func : Tree)
  /-- `with item, …: body`; the first item, and the others -/
  | with_ (item : Tree) (others : List Tree)
  /-- anything else -/
  | other (n : Nat)

/-- A macro expander: what the names are bound to, and the names of captured macros -/
structure Expander (M : Type) where
  /-- `isbound(name)`: the macro function, or False -/
  isbound : String → Option M
  /-- `lookup_macro(key)` -/
  lookup : Nat → String

variable {M : Type} [DecidableEq M]

/-- `name_node.id` (nameutil.py:116-123, 160-167) -/
def nameOf (E : Expander M) : Tree → Option String
  | .captured key => some (E.lookup key)
  | .name x => some x
  | _ => none

/-- `is_unexpanded_expr_macro` (nameutil.py:100-132), None for False -/
def exprMacro (m : M) (E : Expander M) (tree : Tree) : Option Tree :=
  match tree with
  | .subscript maybemacro slice =>
    match nameOf E maybemacro with
    | some x => if E.isbound x = some m then some slice else none
    | none => none
  | _ => none

/-- `is_unexpanded_block_macro` (nameutil.py:140-171) -/
def blockMacro (m : M) (E : Expander M) (tree : Tree) : Bool :=
  match tree with
  | .with_ ctxmanager _ =>
    let maybemacro := match ctxmanager with
      | .subscript value _ => value
      | .call func => func
      | t => t
    match nameOf E maybemacro with
    | some x => E.isbound x = some m
    | none => false
  | _ => false

/-- `_test_asserter_names` (testingtools.py:475) -/
def asserters : List String := ["test", "test_signals", "test_raises", "error", "fail", "warn"]

/-- `isunexpandedtestmacro` (testingtools.py:479-483) -/
def testMacro : Tree → Bool
  | .subscript (.name x) _ => x ∈ asserters
  | _ => false

end Unpy.MacroUse
