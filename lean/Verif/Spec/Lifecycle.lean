import Verif.Model.Lifecycle
/-! # Specification of starting and stopping the REPL server -/
namespace Unpy.Spec.Lifecycle
open Unpy.Lifecycle (Ev Sys)

/-- The last thing `halt` was told -/
def Halted (es : List Ev) : Prop := ∃ pre post, es = pre ++ .halt true :: post ∧ .halt false ∉ post

/-- A session has been opened and has not ended. -/
def Open (id : Nat) (es : List Ev) : Prop := ∃ pre post, es = pre ++ .opens id :: post ∧ .ends id ∉ post

/-- The event ends `main`: Ctrl+C, or the next look at the clock when the server has been told to halt and the last session has ended -/
def Over (pre : List Ev) (e : Ev) : Prop := e = .ctrlC ∨ e = .tick ∧ Halted pre ∧ ∀ id, ¬ Open id pre

/-- There are two prompts, neither of them empty, or none. -/
def Prompts (sys : Sys) : Prop := (sys.ps1 = none ∧ sys.ps2 = none) ∨ ∃ p q, sys.ps1 = some p ∧ sys.ps2 = some q ∧ p ≠ "" ∧ q ≠ ""

end Unpy.Spec.Lifecycle
