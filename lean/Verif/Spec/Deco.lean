import Verif.Model.Deco
/-!
# Order of decorators
-/
namespace Unpy.Deco.Spec
open Unpy.Deco

/-- A registry made by registering some decorators, each name once. -/
inductive Made : Registry → List (Int × String) → Prop
  | nil : Made [] []
  | reg {r es p n} : Made r es → n ∉ es.map Prod.snd → Made (register r p n) (es ++ [(p, n)])

/-- The priority that a name was registered with. -/
def priority (es : List (Int × String)) (n : String) : Option Int := es.findSome? (fun e => if e.2 = n then some e.1 else none)

/-- In order of priority: the smallest first (outermost). -/
def Ascending (l : List Int) : Prop := l.Pairwise (· ≤ ·)

/-- The priorities of the known ones among some decorators. -/
def known (es : List (Int × String)) (names : List (Option String)) : List Int :=
  names.filterMap (fun n => n.bind (priority es))

end Unpy.Deco.Spec
