import Verif.Model.Py
/-!
# Model of `callsite_filename` (`unpythonic/misc.py`)

The call stack is given by the functions that are running, from the inside, and the files they are in.

Simplified: of the helpers, only those frames are there that are left when the function they call is running.
-/
namespace Unpy.Callsite
open Unpy

/-- A record of `inspect.stack()`: the name in the code of the function (decorators do not change it) and `frame.f_code.co_filename` -/
structure Frame where
  function : String
  filename : String
  deriving DecidableEq, Repr

/-- The names to ignore (misc.py:299-301) -/
def ignored : List String := ["maybe_force_args", "curried", "curry", "_currycall", "call", "callwith"]

/-- The loop (misc.py:296-304), at the frame `stack[k]`; the rest of the stack is given -/
def loop : List Frame → Res String
  | [] => .error .IndexError
  | r :: rest => if r.function ∈ ignored then loop rest else .ok r.filename

/-- `callsite_filename()` (misc.py:287-304); the first frame is its own -/
def callsite (stack : List Frame) : Res String := loop (stack.drop 1)

/-- `maybe_force_args(f, …)` (lazyutil.py:113-124) -/
def forceArgs : Frame := ⟨"maybe_force_args", "unpythonic/lazyutil.py"⟩

/-- Ways in which a function is called -/
inductive Via where
  /-- `call(f)` -/
  | call
  /-- `callwith()(f)` -/
  | callwith
  /-- a call in `with lazify` -/
  | lazify
  /-- a call of `curry(f)` -/
  | curried
  /-- `curry(f, x)` -/
  | curry
  /-- a call in `with autocurry` -/
  | autocurry

/-- The frames of the helpers, from the inside (funutil.py:96, funutil.py:195-196, lazyutil.py:124, fun.py:337-354, fun.py:450, fun.py:467) -/
def frames : Via → List Frame
  | .call => [forceArgs, ⟨"call", "unpythonic/funutil.py"⟩]
  | .callwith => [forceArgs, ⟨"applyfrozenargsto", "unpythonic/funutil.py"⟩]
  | .lazify => [forceArgs]
  | .curried => [forceArgs, ⟨"curried", "unpythonic/fun.py"⟩]
  | .curry => [forceArgs, ⟨"curried", "unpythonic/fun.py"⟩, forceArgs, ⟨"curry", "unpythonic/fun.py"⟩]
  | .autocurry => [forceArgs, ⟨"curried", "unpythonic/fun.py"⟩, forceArgs, ⟨"curry", "unpythonic/fun.py"⟩, ⟨"_currycall", "unpythonic/fun.py"⟩]

/-- The frame of `callsite_filename` -/
def self : Frame := ⟨"callsite_filename", "unpythonic/misc.py"⟩

/-- The stack while `callsite_filename` runs, called in these ways, each around the one before, by the function whose frame comes first in `stack`. -/
def stackOf (vias : List Via) (stack : List Frame) : List Frame := self :: (vias.flatMap frames ++ stack)

/-- The stack when it is called as a tail call in the function with the first frame in `stack`, in `with tco`: this function has returned a jump already
(tco.py:246-250; the trampoline is the one of the same function) -/
def tailCalled (stack : List Frame) : List Frame := self :: ⟨"trampoline", "unpythonic/tco.py"⟩ :: stack.drop 1

end Unpy.Callsite
