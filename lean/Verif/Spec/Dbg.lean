import Verif.Model.Dbg
/-!
# Specification of `with dbg`: the same program, in which a call of the print function is given the source code and the values of its arguments
-/
namespace Unpy.Spec.Dbg
open Unpy.Dbg
variable {N V : Type} {m : Type → Type} [Monad m]

/-- The print function, as it is called -/
def isPrint (pname : String) : Ex N → Bool
  | .name x => x == pname
  | _ => false

mutual
/-- Evaluation with debug prints: as in Python, except for calls of `pname`.  These evaluate each argument once, from left to right, then the named ones, and pass on the texts and the values. -/
def debug (w : World m N V) (source : Bool × Ex N → String) (pname : String) (printer : m V) : Ex N → m V
  | .name x => w.lookup x
  | .str s => pure (w.str s)
  | .num n => pure (w.num n)
  | .cap c => w.capture c
  | .tuple items => do
    let vs ← debugArgs w source pname printer items
    pure (w.tup vs)
  | .call line f args kws => do
    if isPrint pname f then
      let p ← printer
      let vs ← debugEach w source pname printer args
      let ks ← debugKws w source pname printer kws
      let callsite ← w.capture .callsiteFilename
      let file ← w.apply callsite [] []
      w.apply p [w.tup (args.map (fun a => w.str (source a))), w.tup vs] (ks ++ [("filename", file), ("lineno", w.num line)])
    else
      let f ← debug w source pname printer f
      let vs ← debugArgs w source pname printer args
      let ks ← debugKws w source pname printer kws
      w.apply f vs ks
  | .node t parts => w.node t (debugAll w source pname printer parts)

def debugArgs (w : World m N V) (source : Bool × Ex N → String) (pname : String) (printer : m V) : List (Bool × Ex N) → m (List V)
  | [] => pure []
  | (star, e) :: rest => do
    let v ← debug w source pname printer e
    let vs ← if star then w.items v else pure [v]
    let more ← debugArgs w source pname printer rest
    pure (vs ++ more)

/-- One value for each argument -/
def debugEach (w : World m N V) (source : Bool × Ex N → String) (pname : String) (printer : m V) : List (Bool × Ex N) → m (List V)
  | [] => pure []
  | (_, e) :: rest => do
    let v ← debug w source pname printer e
    let more ← debugEach w source pname printer rest
    pure (v :: more)

def debugKws (w : World m N V) (source : Bool × Ex N → String) (pname : String) (printer : m V) : List (String × Ex N) → m (List (String × V))
  | [] => pure []
  | (k, e) :: rest => do
    let v ← debug w source pname printer e
    let more ← debugKws w source pname printer rest
    pure ((k, v) :: more)

def debugAll (w : World m N V) (source : Bool × Ex N → String) (pname : String) (printer : m V) : List (Ex N) → List (m V)
  | [] => []
  | e :: es => debug w source pname printer e :: debugAll w source pname printer es
end

mutual
/-- No call of the print function has an argument with a star. -/
def NoStar (pname : String) : Ex N → Prop
  | .tuple items => NoStarArgs pname items
  | .call _ f args kws => (isPrint pname f = true → ∀ a ∈ args, a.1 = false) ∧ NoStar pname f ∧ NoStarArgs pname args ∧ NoStarKws pname kws
  | .node _ parts => NoStarAll pname parts
  | _ => True

def NoStarArgs (pname : String) : List (Bool × Ex N) → Prop
  | [] => True
  | (_, e) :: rest => NoStar pname e ∧ NoStarArgs pname rest

def NoStarKws (pname : String) : List (String × Ex N) → Prop
  | [] => True
  | (_, e) :: rest => NoStar pname e ∧ NoStarKws pname rest

def NoStarAll (pname : String) : List (Ex N) → Prop
  | [] => True
  | e :: es => NoStar pname e ∧ NoStarAll pname es
end

mutual
/-- The print function is not called. -/
def NoPrint (pname : String) : Ex N → Prop
  | .tuple items => NoPrintArgs pname items
  | .call _ f args kws => isPrint pname f = false ∧ NoPrint pname f ∧ NoPrintArgs pname args ∧ NoPrintKws pname kws
  | .node _ parts => NoPrintAll pname parts
  | _ => True

def NoPrintArgs (pname : String) : List (Bool × Ex N) → Prop
  | [] => True
  | (_, e) :: rest => NoPrint pname e ∧ NoPrintArgs pname rest

def NoPrintKws (pname : String) : List (String × Ex N) → Prop
  | [] => True
  | (_, e) :: rest => NoPrint pname e ∧ NoPrintKws pname rest

def NoPrintAll (pname : String) : List (Ex N) → Prop
  | [] => True
  | e :: es => NoPrint pname e ∧ NoPrintAll pname es
end

/-- The line of a debug print: the texts and values in pairs -/
def pairs : List String → List String → List String
  | k :: ks, v :: vs => (k ++ ": " ++ v) :: pairs ks vs
  | _, _ => []

end Unpy.Spec.Dbg
