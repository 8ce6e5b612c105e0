/-!
# Model of the destructuring of `let` and `do` forms (`unpythonic/syntax/letdoutil.py`)

Syntax trees, the detection of `let` and `do` forms in the many ways they can be written, and the views that read and write their parts.

Simplifications.  Only the kinds of nodes that are looked at have constructors of their own; all others are `other`, if they have no attribute `value`, or
`valued`, if they have one.  Source locations are left out.  The views change trees in place; here they return the changed tree.
-/
namespace Unpy.LetView

/-- Syntax trees. -/
inductive T where
  | name (id : String)
  /-- `mcpyrate.core.Done` -/
  | done (body : T)
  | tuple (elts : List T)
  | list (elts : List T)
  | call (func : T) (args : List T)
  | sub (value slice : T)
  /-- `l << r` -/
  | shift (left right : T)
  /-- `target := value` -/
  | walrus (target value : T)
  | compare (left : T) (ops : List String) (comparators : List T)
  /-- any other node with an attribute `value`: constants, attributes, `await`, … -/
  | valued (kind : String) (value : List T)
  /-- any other node -/
  | other (kind : String) (parts : List T)
  /-- the node, with itself as the `value` -/
  | loop (t : T)

/-- The exceptions of this module. -/
inductive Err where
  | syntaxError
  | typeError
  /-- AttributeError, IndexError: does not happen -/
  | internal

/-- `_get_subscript_slice` (letdoutil.py:23-27), for all versions of Python -/
def getSlice : T → Except Err T
  | .sub _ s => .ok s
  | _ => .error .internal

/-- `t.value = t` -/
def selfValue : T → T
  | .valued k v => .loop (.valued k v)
  | .sub v s => .loop (.sub v s)
  | .walrus x v => .loop (.walrus x v)
  | t => t

/-- `_set_subscript_slice` (letdoutil.py:28-32).  With Python 3.9 or later, both assignments are made: the second one goes to the attribute `value` of the new slice.
For nodes that have no such part, this changes nothing that is looked at. -/
def setSlice (py39 : Bool) (new : T) : T → Except Err T
  | .sub v _ => .ok (.sub v (if py39 then selfValue new else new))
  | _ => .error .internal

/-- `_canonize_macroargs_node` (letdoutil.py:33-38) -/
def macroargs : T → List T
  | .list ts => ts
  | .tuple ts => ts
  | t => [t]

/-- `_isname` (letdoutil.py:41-49) -/
def isName : T → Bool
  | .name _ => true
  | .done t => isName t
  | _ => false

/-- `_isbindingtarget` (letdoutil.py:50-59); `ls` for `letsyntax_mode` -/
def isTarget (ls : Bool) (t : T) : Bool := isName t || (ls && match t with
  | .call f _ => isName f
  | .sub v _ => isName v
  | _ => false)

/-- `isenvassign` (letdoutil.py:111-135): the left and the right side, and whether it is written with `<<` -/
def envAssign (ls : Bool) : T → Option (Bool × T × T)
  | .shift l r => if isTarget ls l then some (true, l, r) else none
  | .walrus l r => if isTarget ls l then some (false, l, r) else none
  | _ => none

/-- `iskvpairbinding` (letdoutil.py:87-88) -/
def isPair (ls : Bool) (ts : List T) : Bool := match ts with
  | [k, _] => isTarget ls k
  | _ => false

/-- A single `k << v` or `k := v` (letdoutil.py:90-94) -/
def single (ls : Bool) : List T → Option (Bool × T × T)
  | [t] => envAssign ls t
  | _ => none

/-- `(k, v)` (letdoutil.py:97) -/
def isTuplePair (ls : Bool) : T → Bool
  | .tuple ts => isPair ls ts
  | _ => false
/-- `[k, v]` (letdoutil.py:99) -/
def isListPair (ls : Bool) : T → Bool
  | .list ts => isPair ls ts
  | _ => false
/-- `Tuple(elts=b.elts)` (letdoutil.py:100) -/
def toTuple : T → T
  | .list ts => .tuple ts
  | t => t

/-- `canonize_bindings` (letdoutil.py:61-109) -/
def canonize (ls : Bool) (elts : List T) : Except Err (List T) :=
  match single ls elts with
  | some (_, k, v) => .ok [.tuple [k, v]]
  | none =>
    if isPair ls elts then .ok [.tuple elts]
    else if elts.all (isTuplePair ls) then .ok elts
    else if elts.all (isListPair ls) then .ok (elts.map toTuple)
    else if elts.all (fun b => (envAssign ls b).isSome) then .ok (elts.filterMap fun b => (envAssign ls b).map fun p => .tuple [p.2.1, p.2.2])
    else .error .syntaxError

/-- How a form is written. -/
inductive Kind where
  | decorator
  | lispy
  | letIn
  | letWhere

/-- `_ishaskellylet` (letdoutil.py:234-275) -/
def haskelly : T → Option Kind
  | .compare left ["in"] _ => match left with
    | .list ts => (match canonize true ts with
      | .ok _ => some .letIn
      | .error _ => none)
    | .tuple ts => (match canonize true ts with
      | .ok _ => some .letIn
      | .error _ => none)
    | _ => none
  | .tuple [_, .call (.name w) _] => if w = "where" then some .letWhere else none
  | .tuple [_, .sub (.name w) _] => if w = "where" then some .letWhere else none
  | _ => none

def decoNames : List String := ["dlet", "dletseq", "dletrec", "blet", "bletseq", "bletrec"]
def exprNames : List String := ["let", "letseq", "letrec", "let_syntax", "abbrev"]

/-- The last part of `islet` (letdoutil.py:204-232), for expressions -/
def isletExpr : T → Option (Kind × String)
  | .sub (.sub (.name s) _) _ => if s ∈ exprNames then some (.lispy, s) else none
  | .sub (.call (.name s) _) _ => if s ∈ exprNames then some (.lispy, s) else none
  | .sub (.name s) e => if s ∈ exprNames then (haskelly e).map fun h => (h, s) else none
  | _ => none

/-- `islet` (letdoutil.py:139-232), with `expanded=False` -/
def islet (t : T) : Option (Kind × String) :=
  match t with
  | .sub (.name s) _ => if s ∈ decoNames then some (.decorator, s) else isletExpr t
  | .call (.name s) _ => if s ∈ decoNames then some (.decorator, s) else isletExpr t
  | _ => isletExpr t

/-- `isdo` (letdoutil.py:279-315), with `expanded=False` -/
def isdo : T → Option String
  | .sub (.name s) (.tuple _) => if s = "do" ∨ s = "do0" then some s else none
  | _ => none

/-! ## `UnexpandedEnvAssignView` (letdoutil.py:319-379) -/

/-- `getname(tree, accept_attr=False)` (nameutil.py:77-94), for names -/
def getName : T → Option String
  | .name x => some x
  | .done t => getName t
  | _ => none

/-- `UnexpandedEnvAssignView.__init__` (letdoutil.py:345-348): the parts -/
def assignView (t : T) : Except Err (Bool × T × T) := match envAssign false t with
  | some p => .ok p
  | none => .error .typeError

/-- `_getname` (letdoutil.py:350-354) -/
def assignName (t : T) : Except Err (Option String) := (assignView t).map fun p => getName p.2.1
/-- `_getvalue` (letdoutil.py:369-373) -/
def assignValue (t : T) : Except Err T := (assignView t).map fun p => p.2.2

/-- `targetnode.id = newname`, or the same for its `body` (letdoutil.py:362-366) -/
def renameNode (new : String) : T → T
  | .done (.name _) => .done (.name new)
  | .done t => .done t
  | .name _ => .name new
  | t => t

/-- `_setname` (letdoutil.py:355-366) -/
def assignSetName (new : String) : T → T
  | .shift l r => .shift (renameNode new l) r
  | .walrus l r => .walrus (renameNode new l) r
  | t => t
/-- `_setvalue` (letdoutil.py:374-378) -/
def assignSetValue (new : T) : T → T
  | .shift l _ => .shift l new
  | .walrus l _ => .walrus l new
  | t => t

/-! ## `UnexpandedLetView` (letdoutil.py:381-569) -/

structure View where
  tree : T
  kind : Kind
  mode : Option String
  /-- `_has_subscript_container` -/
  container : Bool

/-- `__init__` (letdoutil.py:462-479) -/
def view (t : T) : Except Err View := match islet t with
  | some (k, m) => .ok ⟨t, k, some m, true⟩
  | none => match haskelly t with
    | some h => .ok ⟨t, h, none, false⟩
    | none => .error .typeError

/-- `_theexpr_ref` (letdoutil.py:482-485) -/
def View.expr (v : View) : Except Err T := if v.container then getSlice v.tree else .ok v.tree

/-- The bindings of `dlet[...]`, `dlet(...)`, `let[...]`, `let(...)`, `where[...]`, `where(...)` (letdoutil.py:500-504, 510-514) -/
def bindingsIn : T → Except Err (List T)
  | .call _ args => canonize false args
  | .sub _ s => canonize false (macroargs s)
  | _ => .error .internal

/-- `_getbindings` (letdoutil.py:487-515) -/
def View.bindings (v : View) : Except Err (List T) := match v.kind with
  | .decorator => bindingsIn v.tree
  | .lispy => (match v.tree with
    | .sub m _ => bindingsIn m
    | _ => .error .internal)
  | .letIn => (match v.expr with
    | .ok (.compare left _ _) => canonize false (macroargs left)
    | _ => .error .internal)
  | .letWhere => (match v.expr with
    | .ok (.tuple [_, w]) => bindingsIn w
    | _ => .error .internal)

/-- The same, for writing (letdoutil.py:529-532, 538-542) -/
def setBindingsIn (py39 : Bool) (new : List T) : T → Except Err T
  | .call f _ => .ok (.call f new)
  | t => setSlice py39 (.tuple new) t

/-- `theexpr` is changed in place. -/
def View.setExpr (v : View) (e : T) : View := { v with tree := if v.container then (match v.tree with
  | .sub m _ => .sub m e
  | t => t) else e }

/-- `_setbindings` (letdoutil.py:516-542) -/
def View.setBindings (py39 : Bool) (v : View) (new : List T) : Except Err View := match v.kind with
  | .decorator => (setBindingsIn py39 new v.tree).map fun t => { v with tree := t }
  | .lispy => (match v.tree with
    | .sub m b => (setBindingsIn py39 new m).map fun m => { v with tree := .sub m b }
    | _ => .error .internal)
  | .letIn => (match v.expr with
    | .ok (.compare _ ops cs) => .ok (v.setExpr (.compare (.tuple new) ops cs))
    | _ => .error .internal)
  | .letWhere => (match v.expr with
    | .ok (.tuple [b, w]) => (setBindingsIn py39 new w).map fun w => v.setExpr (.tuple [b, w])
    | _ => .error .internal)

/-- `_getbody` (letdoutil.py:545-556) -/
def View.body (v : View) : Except Err T := match v.kind with
  | .decorator => .error .typeError
  | .lispy => getSlice v.tree
  | .letIn => (match v.expr with
    | .ok (.compare _ _ (c :: _)) => .ok c
    | _ => .error .internal)
  | .letWhere => (match v.expr with
    | .ok (.tuple (b :: _)) => .ok b
    | _ => .error .internal)

/-- `_setbody` (letdoutil.py:557-568) -/
def View.setBody (py39 : Bool) (v : View) (new : T) : Except Err View := match v.kind with
  | .decorator => .error .typeError
  | .lispy => (setSlice py39 new v.tree).map fun t => { v with tree := t }
  | .letIn => (match v.expr with
    | .ok (.compare l ops (_ :: cs)) => .ok (v.setExpr (.compare l ops (new :: cs)))
    | _ => .error .internal)
  | .letWhere => (match v.expr with
    | .ok (.tuple (_ :: ts)) => .ok (v.setExpr (.tuple (new :: ts)))
    | _ => .error .internal)

/-- `_destructure_and_apply_let` (letdo.py:77-84): the bindings and the body given to the transformer; `args` is none if there are no macro arguments.  (The tree is
then what is inside of the brackets.) -/
def destructure (ls : Bool) (args : List T) (t : T) : Except Err (List T × T) :=
  if args ≠ [] then (canonize ls args).map fun bs => (bs, t)
  else match view t with
    | .ok v => (match v.bindings, v.body with
      | .ok bs, .ok b => .ok (bs, b)
      | .error e, _ => .error e
      | _, .error e => .error e)
    | .error e => .error e

/-! ## `UnexpandedDoView` (letdoutil.py:571-613) -/

structure DoView where
  tree : T
  implicit : Bool

/-- `__init__` (letdoutil.py:595-601) -/
def doView (t : T) : Except Err DoView := match isdo t with
  | some _ => .ok ⟨t, false⟩
  | none => match t with
    | .list _ => .ok ⟨t, true⟩
    | _ => .error .typeError

/-- `_getbody` (letdoutil.py:603-607) -/
def DoView.body (v : DoView) : Except Err (List T) := match v.implicit, v.tree with
  | false, .sub _ (.tuple ts) => .ok ts
  | true, .list ts => .ok ts
  | _, _ => .error .internal

/-- `_setbody` (letdoutil.py:608-612) -/
def DoView.setBody (py39 : Bool) (v : DoView) (new : List T) : Except Err DoView := match v.implicit, v.tree with
  | false, t => (setSlice py39 (.tuple new) t).map fun t => { v with tree := t }
  | true, .list _ => .ok { v with tree := .list new }
  | _, _ => .error .internal

end Unpy.LetView
