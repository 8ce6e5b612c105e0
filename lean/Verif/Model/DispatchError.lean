import Verif.Model.CurryGeneric
/-!
# Model of the error of a call, or a partial application, of a generic function with no matching multimethod (`unpythonic/dispatch.py`)

The dispatchers are those of `Verif.Model.Dispatch`.  Here, also the text of the exception is made.

Simplified: describing a multimethod (`_format_callable`) and writing a type do not raise; of exceptions other than the one made here, only the type is kept.
-/
namespace Unpy.DispatchError
open Unpy Unpy.Arity Unpy.Dispatch Unpy.CurryGeneric
variable {C V T : Type}

/-- How things are written. -/
structure Texts (V T : Type) where
  /-- `repr(v)` for an argument -/
  repr : V → Res String
  /-- `repr(v)` for what is bound to a parameter, which may be a tuple or a dictionary of arguments -/
  reprB : BVal V → Res String
  /-- `f"{t}"` for a type -/
  type : T → String
  /-- `_format_callable` (dispatch.py:485-504) -/
  line : MM V T → String
  /-- `dispatcher.__qualname__` -/
  qualname : String
  /-- `_function_fullname(dispatcher)` (dispatch.py:424-429) -/
  fullname : String

/-- What is raised: the TypeError with this text, or something else. -/
inductive Raised where
  | told (msg : String)
  | other (e : PyErr)
  deriving DecidableEq, Repr

/-- `[f(x) for x in xs]` where `f` may raise -/
def each {α β : Type} (f : α → Res β) : List α → Res (List β)
  | [] => .ok []
  | x :: xs =>
    match f x with
    | .error e => .error e
    | .ok y =>
      match each f xs with
      | .error e => .error e
      | .ok ys => .ok (y :: ys)

/-- `_get_argument_type_mismatches` (dispatch.py:532-570), with the list -/
def mismatches (isof : T → BVal V → Res Bool) (hints : PyDict String T) : List (String × BVal V) → Res (List (String × BVal V × T))
  | [] => .ok []
  | (p, v) :: rest =>
    match PyDict.get? hints p with
    | none => .error .ValueError
    | some t =>
      match isof t v with
      | .error e => .error e
      | .ok ok =>
        match mismatches isof hints rest with
        | .error e => .error e
        | .ok l => .ok (if ok then l else (p, v, t) :: l)

/-- `one_multimethod_msg_str` (dispatch.py:607-618) -/
def oneMsg (X : Texts V T) (isof : T → BVal V → Res Bool) (part : Bool) (args : List V) (kwargs : PyDict String V) : List (MM V T) → Res String
  | [m] =>
    match (if part then keyPartial m.sig args kwargs else key m.sig args kwargs) with
    | .error e => .error e
    | .ok bound =>
      match mismatches isof m.hints bound with
      | .error e => .error e
      | .ok l =>
        match each (fun q => (X.reprB q.2.1).map fun r => q.1 ++ "=" ++ r ++ ", expected " ++ X.type q.2.2) l with
        | .error e => .error e
        | .ok texts => .ok ("\nParameter binding(s) do not match type specification: " ++ "; ".intercalate texts)
  | _ => .ok ""

/-- `_raise_multiple_dispatch_error` (dispatch.py:598-642) -/
def raiseError (X : Texts V T) (isof : T → BVal V → Res Bool) (typed part : Bool) (candidates : List (MM V T)) (args : List V) (kwargs : PyDict String V) : Raised :=
  match oneMsg X isof part args kwargs candidates with
  | .error e => .other e
  | .ok one =>
    match each X.repr args with
    | .error e => .other e
    | .ok as =>
      let argsStr := ", ".intercalate as
      let argsStr := if part && argsStr != "" then argsStr ++ ", ..." else argsStr
      let sep := if !args.isEmpty && !kwargs.isEmpty then ", " else ""
      match each (fun (k, v) => (X.repr v).map fun r => k ++ "=" ++ r) kwargs with
      | .error e => .other e
      | .ok ks =>
        let kwsStr := ", ".intercalate ks
        let kwsStr := if part && kwsStr != "" then kwsStr ++ ", ..." else kwsStr
        let argsStr := if part && argsStr == "" && kwsStr == "" then "..." else argsStr
        let methods := "\n".intercalate (candidates.map fun m => "  " ++ X.line m)
        let op := if part then "partial application" else "call"
        .told ("No multiple-dispatch match for the " ++ op ++ " " ++ X.qualname ++ "(" ++ argsStr ++ sep ++ kwsStr ++ ").\n" ++
          "Multimethods for @" ++ (if typed then "typed" else "generic") ++ " " ++ X.fullname ++ " (most recent match attempt last):\n" ++ methods ++ one)

/-- Calling the dispatcher (dispatch.py:666-672) -/
def callE (X : Texts V T) (isof : T → BVal V → Res Bool) (w : World C V) (st : Reg V T) (d : Disp V T) (args : List V) (kwargs : PyDict String V) : Except Raised (MM V T) :=
  match extractSelf d args with
  | .error e => .error (.other e)
  | .ok self =>
    match scan isof args kwargs (listMultimethods w st d self) with
    | .error e => .error (.other e)
    | .ok (some m) => .ok m
    | .ok none => .error (raiseError X isof d.typed false (listMultimethods w st d self) args kwargs)

/-- `partial(f, *args, **kwargs)` for a generic function, or for a `functools.partial` of one with the arguments `args₀` and `kwargs₀` (fun.py:134-152, 176).
For the text, `self` is looked for among the new arguments only (fun.py:152). -/
def partialE (X : Texts V T) (isof : T → BVal V → Res Bool) (w : World C V) (st : Reg V T) (d : Disp V T) (args₀ args : List V) (kwargs₀ kwargs : PyDict String V) :
    Except Raised Unit :=
  match extractSelf d (args₀ ++ args) with
  | .error e => .error (.other e)
  | .ok self =>
    match scanPartial isof (args₀ ++ args) (PyDict.update kwargs₀ kwargs) (listMultimethods w st d self) with
    | .error e => .error (.other e)
    | .ok true => .ok ()
    | .ok false =>
      match extractSelf d args with
      | .error e => .error (.other e)
      | .ok self' => .error (raiseError X isof d.typed true (listMultimethods w st d self') (args₀ ++ args) (PyDict.update kwargs₀ kwargs))

end Unpy.DispatchError
