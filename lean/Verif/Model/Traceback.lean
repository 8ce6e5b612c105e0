import Verif.Model.Py
/-!
# Model of `equip_with_traceback` (excutil.py:150-216)

The call stack is a list of frames, the running one (`equip_with_traceback` itself) first.  The interpreter has `sys._getframe`.
-/
namespace Unpy.Traceback

/-- `types.TracebackType(tb_next, tb_frame, tb_lasti, tb_lineno)` -/
inductive Tb (F : Type) where
  | mk (next : Option (Tb F)) (frame : F) (lasti lineno : Nat)

/-- What a frame knows: where it is -/
structure Frame where
  id : Nat
  lasti : Nat
  lineno : Nat
  deriving DecidableEq

/-- `sys._getframe(depth)`: ValueError beyond the root level (used at excutil.py:195-197) -/
def getframe (stack : List Frame) (depth : Nat) : Res Frame := match stack[depth]? with
  | some f => .ok f
  | none => .error .ValueError

/-- The loop that collects the frames (excutil.py:192-199) -/
def collect (stack : List Frame) (depth : Nat) (frames : List Frame) : List Frame :=
  if h : depth < stack.length then collect stack (depth + 1) (frames ++ [stack[depth]])
  else
    match getframe stack depth with
    | .ok f => frames ++ [f]   -- does not happen
    | .error _ => frames
termination_by stack.length - depth

/-- The loop that makes the traceback objects (excutil.py:202-207) -/
def chain : List Frame → Option (Tb Frame) → List (Tb Frame) → List (Tb Frame)
  | [], _, tracebacks => tracebacks
  | f :: frames, nxt, tracebacks =>
    let tb := Tb.mk nxt f f.lasti f.lineno
    chain frames (some tb) (tracebacks ++ [tb])

/-- The arguments: an exception or something else; an integer or something else -/
inductive Level where
  | int (n : Int)
  | other

/-- `equip_with_traceback(exc, stacklevel)` (excutil.py:181-212): the traceback that the exception gets -/
def equip (isExc : Bool) (stack : List Frame) : Level → Res (Option (Tb Frame))
  | .other => .error .TypeError
  | .int level =>
    if !isExc then .error .TypeError
    else if level < 0 then .error .ValueError
    else .ok (chain (collect stack level.toNat []) none []).getLast?

/-- The traceback of a condition that is signaled (conditions.py:182, 228): `equip_with_traceback`, called by `_prepare_signal_instance`, called by `signal`, with level 3; `stack` is the stack of the caller of `signal`. -/
def signalTraceback (equipFrame prepareFrame signalFrame : Frame) (stack : List Frame) : Res (Option (Tb Frame)) :=
  equip true (equipFrame :: prepareFrame :: signalFrame :: stack) (.int 3)

end Unpy.Traceback
