import Verif.Model.Client
/-! # Specification of the client of the REPL server -/
namespace Unpy.Spec.Client
open Unpy.Client (Act Ev Bytes)

/-- What is on the screen: the output, and the prompts -/
def screen : List Act → List Char
  | [] => []
  | .shows s :: as => s ++ screen as
  | .asks p :: as => p ++ screen as
  | _ :: as => screen as

/-- What is sent to the session -/
def sent : List Act → List (List Char)
  | [] => []
  | .sends s :: as => s :: sent as
  | _ :: as => sent as

/-- All data that has been received -/
def received : List Ev → Bytes
  | [] => []
  | .data b :: es => b ++ received es
  | _ :: es => received es

/-- What the user has typed; Ctrl+D stands for `quit()`, and Ctrl+C for an empty line. -/
def typed : List Ev → List (List Char)
  | [] => []
  | .line s :: es => (s ++ ['\n']) :: typed es
  | .ctrlD :: es => "quit()\n".toList :: typed es
  | .ctrlC :: es => ['\n'] :: typed es
  | _ :: es => typed es

/-- The last thing the client has done was to ask for input. -/
def Asked (as : List Act) : Prop := ∃ p, as.getLast? = some (.asks p)

/-- The client has ended. -/
def Ended (as : List Act) : Prop := .disconnected ∈ as ∨ .closed ∈ as ∨ ∃ e, .fails e ∈ as

/-- What can happen next, when the client has done this: while it asks for input, it does not look at the socket. -/
def Possible (as : List Act) : Ev → Prop
  | .data _ | .quiet | .eof => ¬ Asked as
  | .line _ | .ctrlD => Asked as
  | .ctrlC => True

/-- A sequence of events that can happen, to a client that does `acts es` when `es` has happened -/
def Legal (acts : List Ev → List Act) (es : List Ev) : Prop :=
  ∀ pre e post, es = pre ++ e :: post → Possible (acts pre) e ∧ ¬ Ended (acts pre)

/-- The first line that the server prints in session `n` (net/server.py:480), without the newline; `tail` is what the terminal adds. -/
def greeting (n : Nat) (tail : List Char) : List Char := "REPL session ".toList ++ (toString n).toList ++ " connected.".toList ++ tail

/-- The first line of what has come says that session `n` is connected: "session", a number, "connected", in these words. -/
def Announced (n : Nat) (b : Bytes) : Prop :=
  ∃ text pre ds post, Unpy.Client.encode text <+: b ∧ ds ≠ [] ∧ (∀ d ∈ ds, d.isDigit = true) ∧ n = Nat.ofDigitChars 10 ds 0 ∧
    text.takeWhile (· != '\n') = pre ++ "session ".toList ++ ds ++ " connected".toList ++ post

end Unpy.Spec.Client
