/-!
# Model of what a test reports (`unpythonic/syntax/testingtools.py`, the three assert functions)

From how the tested code fared (`_observe`, see `Verif.Model.Fixtures`), the values captured by `the[]`, and the message of the user, to the counters, the type and the text of the condition
that is signaled.  What handlers do with it is in `Verif.Model.Fixtures`.

Simplifications: `describe_exception` and unparsing an AST do not raise; source code and reprs are texts that parse to one expression or not at all.
-/
namespace Unpy.Report

/-- The markers of `fail[]`, `error[]` and `warn[]` (testingtools.py:499-501) -/
inductive Special where
  | fail | error | warn
  deriving DecidableEq, Repr

/-- How the tested code fared: the value, the condition or the exception. -/
inductive Mode (V X : Type) where
  | completed (v : V)
  | signaled (x : X)
  | raised (x : X)

inductive Cond where
  | failure | error | warning
  deriving DecidableEq, Repr

structure Counts where
  run : Int
  failed : Int
  errored : Int
  warned : Int
  deriving DecidableEq, Repr

/-- What is signaled: the type, `origin`, and the text. -/
structure Report where
  cond : Cond
  origin : String
  text : String
  deriving DecidableEq, Repr

/-- What Python does with values and exceptions. -/
structure World (V X : Type) where
  /-- `repr(v)` -/
  repr : V → Except X String
  /-- the source code, if the value is an AST -/
  unparsed : V → Option String
  /-- `repr(t)` for a string -/
  strRepr : String → String
  /-- `canonize_expr` (testingtools.py:610-617); none: it does not parse -/
  canon : String → Option String
  /-- `f"{v}"` -/
  strV : V → Except X String
  strX : X → Except X String
  truth : V → Except X Bool
  isInstance : X → V → Except X Bool
  describe : X → String
  describeType : V → String
  special : V → Option Special

variable {V X : Type}

/-- `", ".join(...)` -/
def join : List String → String
  | [] => ""
  | [a] => a
  | a :: b :: l => a ++ ", " ++ join (b :: l)

/-- testingtools.py:604: what is logged for a captured value -/
def shown (W : World V X) (v : V) : Except X String :=
  match W.unparsed v with
  | some u => .ok ("<AST; unparsed form: '" ++ u ++ "'>")
  | none => W.repr v

/-- `logged_values` (testingtools.py:604-605) -/
def logged (W : World V X) : List (String × V) → Except X (List (String × String))
  | [] => .ok []
  | (s, v) :: l =>
    match shown W v with
    | .error x => .error x
    | .ok t =>
      match logged W l with
      | .error x => .error x
      | .ok ts => .ok ((s, t) :: ts)

/-- `f"{test_result}"` -/
def strResult (W : World V X) : Mode V X → Except X String
  | .completed v => W.strV v
  | .signaled x | .raised x => W.strX x

/-- `values_strs` (testingtools.py:620-622) -/
def valuesStrs (W : World V X) (ls : List (String × String)) : List String :=
  (ls.filter fun p => W.canon p.1 != W.canon (W.strRepr p.2)).map fun p => p.1 ++ " = " ++ p.2

/-- `values_msg` (testingtools.py:590-631) -/
def valuesMsg (W : World V X) (captured : List (String × V)) (mode : Mode V X) : Except X String :=
  match logged W captured with
  | .error x => .error x
  | .ok ls =>
    if !(valuesStrs W ls).isEmpty then .ok (", due to " ++ join (valuesStrs W ls))
    else
      match strResult W mode with
      | .error x => .error x
      | .ok t => .ok (", due to result = " ++ t)

/-- `custom_msg` (testingtools.py:634-637) -/
def customMsg : Option String → String
  | some m => ", with message '" ++ m ++ "'"
  | none => ""

/-- `complete_msg` (testingtools.py:697) -/
def complete (file line error : String) : String := "[" ++ file ++ ":" ++ line ++ "] " ++ error

/-- `unpythonic_assert` after `_observe` (testingtools.py:590-711).  An exception is one that comes out of it. -/
def assertTest (W : World V X) (file line src : String) (captured : List (String × V)) (mode : Mode V X) (msg : Option String)
    (c : Counts) : Except X (Option Report) × Counts :=
  match valuesMsg W captured mode with
  | .error x => (.error x, c)
  | .ok values =>
    let c := { c with run := c.run + 1 }                            -- 632
    match mode with
    | .completed v =>
      match W.special v with
      | some .fail => (.ok (some ⟨.failure, "fail", complete file line (msg.getD "Unconditional failure requested, no message.")⟩), { c with failed := c.failed + 1 })
      | some .error => (.ok (some ⟨.error, "error", complete file line (msg.getD "Unconditional error requested, no message.")⟩), { c with errored := c.errored + 1 })
      | some .warn => (.ok (some ⟨.warning, "warn", complete file line (msg.getD "Warning requested, no message.")⟩),
          { c with warned := c.warned + 1, run := c.run - 1 })     -- 664-666
      | none =>
        match W.truth v with
        | .error x => (.error x, c)
        | .ok true => (.ok none, c)
        | .ok false => (.ok (some ⟨.failure, "test", complete file line ("Test failed: " ++ src ++ values ++ customMsg msg)⟩), { c with failed := c.failed + 1 })
    | .signaled x =>
      (.ok (some ⟨.error, "test", complete file line ("Test errored: " ++ src ++ customMsg msg ++ ", due to unexpected signal: " ++ W.describe x)⟩), { c with errored := c.errored + 1 })
    | .raised x =>
      (.ok (some ⟨.error, "test", complete file line ("Test errored: " ++ src ++ customMsg msg ++ ", due to unexpected exception: " ++ W.describe x)⟩), { c with errored := c.errored + 1 })

/-- `unpythonic_assert_signals` after `_observe` (testingtools.py:713-746) -/
def assertSignals (W : World V X) (file line src : String) (t : V) (mode : Mode V X) (msg : Option String) (c : Counts) :
    Except X (Option Report) × Counts :=
  let c := { c with run := c.run + 1 }
  match mode with
  | .completed _ =>
    (.ok (some ⟨.failure, "test_signals", complete file line ("Test failed: " ++ src ++ customMsg msg ++ ", expected signal: " ++ W.describeType t ++ ", nothing was signaled.")⟩),
      { c with failed := c.failed + 1 })
  | .signaled x =>
    match W.isInstance x t with
    | .error e => (.error e, c)
    | .ok true => (.ok none, c)
    | .ok false =>
      (.ok (some ⟨.error, "test_signals", complete file line ("Test errored: " ++ src ++ customMsg msg ++ ", expected signal: " ++ W.describeType t ++ ", got unexpected signal: " ++ W.describe x)⟩),
        { c with errored := c.errored + 1 })
  | .raised x =>
    (.ok (some ⟨.error, "test_signals", complete file line ("Test errored: " ++ src ++ customMsg msg ++ ", expected signal: " ++ W.describeType t ++ ", got unexpected exception: " ++ W.describe x)⟩),
      { c with errored := c.errored + 1 })

/-- `unpythonic_assert_raises` after `_observe` (testingtools.py:748-781) -/
def assertRaises (W : World V X) (file line src : String) (t : V) (mode : Mode V X) (msg : Option String) (c : Counts) :
    Except X (Option Report) × Counts :=
  let c := { c with run := c.run + 1 }
  match mode with
  | .completed _ =>
    (.ok (some ⟨.failure, "test_raises", complete file line ("Test failed: " ++ src ++ customMsg msg ++ ", expected exception: " ++ W.describeType t ++ ", nothing was raised.")⟩),
      { c with failed := c.failed + 1 })
  | .signaled x =>
    (.ok (some ⟨.error, "test_raises", complete file line ("Test errored: " ++ src ++ customMsg msg ++ ", expected exception: " ++ W.describeType t ++ ", got unexpected signal: " ++ W.describe x)⟩),
      { c with errored := c.errored + 1 })
  | .raised x =>
    match W.isInstance x t with
    | .error e => (.error e, c)
    | .ok true => (.ok none, c)
    | .ok false =>
      (.ok (some ⟨.error, "test_raises", complete file line ("Test errored: " ++ src ++ customMsg msg ++ ", expected exception: " ++ W.describeType t ++ ", got unexpected exception: " ++ W.describe x)⟩),
        { c with errored := c.errored + 1 })

end Unpy.Report
