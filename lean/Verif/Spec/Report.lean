import Verif.Model.Report
/-!
# What a test should report
-/
namespace Unpy.Report.Spec
variable {V X : Type}

/-- What is shown for a value: its `repr`; for an AST, its source code. -/
def ShownAs (W : World V X) (v : V) (t : String) : Prop :=
  W.unparsed v = none ∧ W.repr v = .ok t ∨ ∃ u, W.unparsed v = some u ∧ t = "<AST; unparsed form: '" ++ u ++ "'>"

/-- Captured values, and what is shown for each. -/
inductive Shows (W : World V X) : List (String × V) → List (String × String) → Prop where
  | nil : Shows W [] []
  | cons {s : String} {v : V} {t : String} {captured : List (String × V)} {ls : List (String × String)}
      (h : ShownAs W v t) (hs : Shows W captured ls) : Shows W ((s, v) :: captured) ((s, t) :: ls)

/-- A captured value is trivial if its source code is what is shown for it, as in `4 = 4`. -/
def Trivial (W : World V X) (p : String × String) : Prop := W.canon p.1 = W.canon p.2

/-- The source code is that of a string whose contents are what is shown.  This is never so: a string is shown with quotes. -/
def Quoted (W : World V X) (p : String × String) : Prop := W.canon p.1 = W.canon (W.strRepr p.2)

/-- The text for a test that fails: what it is, where, why, and the message of the user. -/
def failed (file line src : String) (ls : List (String × String)) (result : String) (msg : Option String) : String :=
  "[" ++ file ++ ":" ++ line ++ "] " ++ ", ".intercalate
    (["Test failed: " ++ src] ++
     ["due to " ++ (if ls.isEmpty then "result = " ++ result else ", ".intercalate (ls.map fun p => p.1 ++ " = " ++ p.2))] ++
     (match msg with | some m => ["with message '" ++ m ++ "'"] | none => []))

/-- What a test counts as. -/
inductive Verdict where
  | pass | fail | error | warning
  deriving DecidableEq, Repr

/-- Warnings are no tests. -/
def Verdict.count : Verdict → Counts → Counts
  | .pass, ⟨r, f, e, w⟩ => ⟨r + 1, f, e, w⟩
  | .fail, ⟨r, f, e, w⟩ => ⟨r + 1, f + 1, e, w⟩
  | .error, ⟨r, f, e, w⟩ => ⟨r + 1, f, e + 1, w⟩
  | .warning, ⟨r, f, e, w⟩ => ⟨r, f, e, w + 1⟩

/-- A test passes if its value is true. -/
def verdict (W : World V X) (truth : Bool) : Mode V X → Verdict
  | .completed v =>
    match W.special v with
    | some .fail => .fail
    | some .error => .error
    | some .warn => .warning
    | none => if truth then .pass else .fail
  | .signaled _ | .raised _ => .error

/-- `test_signals` passes if there was a signal of that type, and fails if the code ended normally. -/
def verdictSignals (isType : Bool) : Mode V X → Verdict
  | .completed _ => .fail
  | .signaled _ => if isType then .pass else .error
  | .raised _ => .error

/-- `test_raises` passes if there was an exception of that type, and fails if the code ended normally. -/
def verdictRaises (isType : Bool) : Mode V X → Verdict
  | .completed _ => .fail
  | .raised _ => if isType then .pass else .error
  | .signaled _ => .error

/-- What is signaled for a verdict. -/
def Verdict.cond : Verdict → Option Cond
  | .pass => none
  | .fail => some .failure
  | .error => some .error
  | .warning => some .warning

/-- Integers and a thing that cannot be shown nor be a condition; 4 is written `4`. -/
inductive Val where
  | int (n : Nat)
  | bad
  | marker (s : Special)
  deriving DecidableEq, Repr

def vals : World Val String where
  repr
    | .int n => .ok (toString n)
    | .bad => .error "ValueError"
    | .marker _ => .ok "sym"
  unparsed _ := none
  strRepr t := "'" ++ t ++ "'"
  canon t := some t
  strV
    | .int n => .ok (toString n)
    | .bad => .ok "bad"
    | .marker _ => .ok "sym"
  strX x := .ok x
  truth
    | .int n => .ok (n != 0)
    | .bad => .error "ValueError"
    | .marker _ => .ok true
  isInstance _ _ := .ok true
  describe x := x
  describeType _ := "type"
  special
    | .marker s => some s
    | _ => none

end Unpy.Report.Spec
