/-!
# Model of the search for the lambdas in a block (`unpythonic/syntax/util.py`, `detect_lambda`)

The macros `tco`, `continuations` and `envify` look for the lambdas in their block before they expand the macros in it, and treat these and no others as the user's.

Simplified: nodes are given by what is looked at.  Lambdas have no default values.  Of the nodes, only lambdas have an attribute `body` (of the expressions that may be in a call, `IfExp` has one, too).  Which exception is raised
is not kept: it is AttributeError, IndexError or TypeError.
-/
namespace Unpy.DetectLambda

/-- Syntax trees -/
inductive T where
  /-- a name, a hygienic capture of it, or an attribute of this name, as `getname` finds it (nameutil.py:77-94) -/
  | ref (x : String)
  /-- a lambda: its `id`, and how many positional parameters it has -/
  | lam (id : Nat) (params : Nat) (body : T)
  | call (func : T) (args : List T)
  /-- any other node, with its parts -/
  | node (parts : List T)

/-- `isx(tree, x)` (nameutil.py:52-75) -/
def isx : T → String → Bool
  | .ref y, x => y == x
  | _, _ => false

/-- How the items of a `do` are read: as they are, or curried; or the first argument is to be left out before -/
inductive Mode where
  | plain | curried | skip
  deriving DecidableEq

/-- `isdo(tree, expanded=True)` (letdoutil.py:296-304), for a call: none if `args[0]` raises IndexError -/
def isdo (func : T) (args : List T) : Option (Option Mode) :=
  if isx func "currycall" then
    match args with
    | [] => none
    | a :: _ => some (if isx a "dof" then some .skip else if isx func "dof" then some .plain else none)
  else some (if isx func "dof" then some .plain else none)

/-- Whether `firstitem.args.args[0]` raises IndexError in `_deduce_envname` (letdoutil.py:842-845); that is not caught -/
def noParam : Mode → List T → Bool
  | .skip, _ :: .call _ (_ :: .call _ (.lam _ 0 _ :: _) :: _) :: _ => true
  | .plain, .call _ (.lam _ 0 _ :: _) :: _ => true
  | _, _ => false

mutual
/-- `LambdaDetector.examine` (syntax/util.py:109-117): what is collected, or none if an exception is raised -/
def detect : T → Option (List Nat)
  | .ref _ => some []
  | .lam id _ body => (detect body).map (id :: ·)
  | .call func args =>
    match isdo func args with
    | none => none
    | some (some mode) => if noParam mode args then none else detectItems mode args
    | some none => (detect func).bind fun l => (detectAll args).map (l ++ ·)
  | .node parts => detectAll parts
/-- `generic_visit`, for a list of nodes -/
def detectAll : List T → Option (List Nat)
  | [] => some []
  | t :: ts => (detect t).bind fun l => (detectAll ts).map (l ++ ·)
/-- The loop over the items of a `do` (syntax/util.py:111-114), which `ExpandedDoView.body` has found (letdoutil.py:850-860) -/
def detectItems : Mode → List T → Option (List Nat)
  | _, [] => some []
  | .skip, _ :: items => detectItems .curried items
  | .plain, .call _ (.lam _ _ body :: _) :: items => (detect body).bind fun l => (detectItems .plain items).map (l ++ ·)
  | .curried, .call _ (_ :: .call _ (.lam _ _ body :: _) :: _) :: items => (detect body).bind fun l => (detectItems .curried items).map (l ++ ·)
  | _, _ :: _ => none
end

end Unpy.DetectLambda
