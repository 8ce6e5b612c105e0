/-!
# The registry of decorators, and the functions that put decorators in order

Decorators of a lambda, `f(g(h(lambda ...: ...)))`, are a list, outermost first.  Each has the name that it is recognized by
(`is_decorator`, syntax/util.py:122-137: that of `f` itself or, if `f` is parametric, of the function that is called to make
it), the expression `f`, and the named arguments of the call of `f` (normally none).

Not modelled: the recursion of `sort_lambda_decorators` into the body of the lambda and other parts of the tree; captured
values.  Priorities are integers here; the code allows any numbers.
-/
namespace Unpy.Deco

/-- Stable sorting (Python's `sorted` and `list.sort`). -/
def insertBy {α : Type} (le : α → α → Bool) (x : α) : List α → List α
  | [] => [x]
  | y :: ys => if le x y then x :: y :: ys else y :: insertBy le x ys

def sortBy {α : Type} (le : α → α → Bool) : List α → List α
  | [] => []
  | x :: xs => insertBy le x (sortBy le xs)

/-- `decorator_registry`: pairs of priority and name (regutil.py:25). -/
abbrev Registry := List (Int × String)

/-- Comparison of pairs. -/
def pairLe (a b : Int × String) : Bool := decide (a.1 < b.1) || (decide (a.1 = b.1) && decide (a.2 ≤ b.2))

/-- `register` (regutil.py:54-61). -/
def register (reg : Registry) (priority : Int) (name : String) : Registry := sortBy pairLe (reg ++ [(priority, name)])

/-- `name in all_decorators`: the names of the registry (regutil.py:58). -/
def isRegistered (reg : Registry) (name : String) : Bool := reg.any (fun e => e.2 == name)

/-- A decorator of a lambda. -/
structure Deco (φ κ : Type) where
  name : String
  func : φ
  kws : κ

variable {φ κ : Type}

/-- `prioritize` (syntax/util.py:259-265): the index of the first entry of this name.  (For a name that is not registered the
code raises SyntaxError; here it is the length.) -/
def prioritize (reg : Registry) (d : Deco φ κ) : Nat := reg.findIdx (fun e => e.2 == d.name)

/-- The sorting in `FixIt.transform` (syntax/util.py:272-278): the functions of the calls are permuted, the calls keep their
other arguments. -/
def sortKnown (reg : Registry) (ds : List (Deco φ κ)) : List (Deco φ κ) :=
  let ordered := sortBy (fun a b => decide (prioritize reg a ≤ prioritize reg b)) ds
  List.zipWith (fun thecall new => { thecall with name := new.name, func := new.func }) ds ordered

/-- `sort_lambda_decorators` (syntax/util.py:246-284), on one chain.  If not all of the decorators are known
(`is_decorated_lambda`, syntax/util.py:159-187), the generic visit (283) goes on with the chain inside the outermost one. -/
def sortDecorators (reg : Registry) : List (Deco φ κ) → List (Deco φ κ)
  | [] => []
  | d :: ds => if (d :: ds).all (fun d => isRegistered reg d.name) then sortKnown reg (d :: ds) else d :: sortDecorators reg ds

/-- `pri_by_name` (syntax/util.py:308): the last entry of a name counts. -/
def priByName (reg : Registry) (name : String) : Option Int := (reg.reverse.find? (fun e => e.2 == name)).map Prod.fst

/-- `cummax` (syntax/util.py:317-323); `none` is minus infinity. -/
def cummax : Option Int → List Int → List Int
  | _, [] => []
  | m, x :: xs =>
    let m' := match m with
      | none => x
      | some m => max x m
    m' :: cummax (some m') xs

/-- `isascending` (syntax/util.py:314-316) -/
def isascending (l : List Int) : Bool :=
  let maxes := cummax none l
  (maxes.zip maxes.tail).all (fun p => decide (p.2 ≥ p.1))

/-- `suggest_decorator_index` (syntax/util.py:288-339).  A decorator without a name (a call) is `none`. -/
def suggestIndex (reg : Registry) (deco : String) (decorators : List (Option String)) : Option Nat :=
  if isRegistered reg deco then
    let knownnames := decorators.filterMap (fun n => n.filter (fun n => (priByName reg n).isSome))
    let knownpris := knownnames.filterMap (priByName reg)
    match knownpris, knownpris.getLast?, priByName reg deco with
    | first :: _, some last, some target =>
      if isascending knownpris then
        if target < first then some 0
        else if target > last then some decorators.length
        else match (knownpris.zip knownnames).find? (fun p => decide (p.1 ≥ target)) with
          | some (_, dname) => some (decorators.findIdx (fun n => n == some dname))
          | none => none
      else none
    | _, _, _ => none
  else none

end Unpy.Deco
