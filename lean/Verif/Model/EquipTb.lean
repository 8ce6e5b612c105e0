import Verif.Model.Py
/-!
# Model of `equip_with_traceback` (`unpythonic/excutil.py`), and of its use in `signal` (`unpythonic/conditions.py`)

A call stack is the list of its frames, top first.  A frame `F` is anything that has a current line; the line is read when the traceback is made.  `E` are the exception instances.
-/
namespace Unpy.EquipTb
open Unpy
variable {F E : Type}

/-- `types.TracebackType(tb_next, tb_frame, …)`: `tb_next` points toward the level where the exception occurred. -/
inductive Tb (F : Type) where
  | mk (next : Option (Tb F)) (frame : F)

/-- Arguments: an exception instance or another object; an int (also bool) or another object -/
inductive ExcArg (E : Type) where
  | exc (e : E)
  | other

inductive LevelArg where
  | int (n : Int)
  | other

/-- The frames (excutil.py:196-203): `getframe(depth)` for each depth until ValueError.  Depth 0 is the top of the stack. -/
def frames (stack : List F) (depth : Nat) : List F :=
  match h : stack[depth]? with
  | none => []
  | some f => f :: frames stack (depth + 1)
termination_by stack.length - depth
decreasing_by
  have := (List.getElem?_eq_some_iff.mp h).1
  omega

/-- The loop that makes the tracebacks (excutil.py:206-211), from the top of the call stack toward the root -/
def makeTbs : List F → Option (Tb F) → List (Tb F) → List (Tb F)
  | [], _, tracebacks => tracebacks
  | frame :: rest, nxt, tracebacks =>
    let tb := Tb.mk nxt frame
    makeTbs rest (some tb) (tracebacks ++ [tb])

/-- The tracebacks of exceptions, as attributes `__traceback__` -/
abbrev World (F E : Type) := E → Option (Tb F)

/-- `exc.with_traceback(tb)` -/
def withTraceback [DecidableEq E] (w : World F E) (e : E) (tb : Option (Tb F)) : World F E := fun x => if x = e then tb else w x

/-- `equip_with_traceback(exc, stacklevel)` (excutil.py:184-216), where `stack` is the stack in it: its own frame is the top.
Simplified: the interpreter has `sys._getframe`. -/
def equip [DecidableEq E] (stack : List F) (exc : ExcArg E) (stacklevel : LevelArg) (w : World F E) : Res E × World F E :=
  match exc with
  | .other => (.error .TypeError, w)
  | .exc e =>
    match stacklevel with
    | .other => (.error .TypeError, w)
    | .int n =>
      if n < 0 then (.error .ValueError, w)
      else
        let tracebacks := makeTbs (frames stack n.toNat) none []
        (.ok e, withTraceback w e tracebacks.getLast?)

/-- The functions that signal a condition -/
inductive Caller where
  | signal | error | cerror | warn

/-- The frames of the library between the user's code and `signal`, top first: `signal` is called directly (conditions.py:182), through `error` and `_error` (conditions.py:746, 789), through `cerror` and `_error` (conditions.py:782),
and by `warn` (conditions.py:846). -/
def Caller.frames (lib : String → F) : Caller → List F
  | .signal => []
  | .error => [lib "_error", lib "error"]
  | .cerror => [lib "_error", lib "cerror"]
  | .warn => [lib "warn"]

/-- The traceback of a condition `e` that is signalled (conditions.py:182, 228): `signal` calls `_prepare_signal_instance` with `stacklevel=3`, which calls `equip_with_traceback`. -/
def signalled [DecidableEq E] (lib : String → F) (c : Caller) (user : List F) (e : E) (w : World F E) : World F E :=
  (equip (lib "equip_with_traceback" :: lib "_prepare_signal_instance" :: lib "signal" :: (c.frames lib ++ user)) (.exc e) (.int 3) w).2

end Unpy.EquipTb
