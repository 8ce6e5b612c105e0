import Verif.Model.Shim
/-!
# Boxes and shims, in terms of the history of the program

Only the data types and the names of the operations are taken from the model.
-/
namespace Unpy.Spec.Shim
open Unpy.Shim

/-- The item in all the boxes -/
def core : V → Nat
  | .item n => n
  | .box x | .tlbox x | .some x => core x

/-- What is in the box, for thread `t`; the newest operation is the first one.
A box has what has been put last into it, by any thread.  A thread-local box has what this thread has put last into it, unless it has been cleared by this thread since;
otherwise, it has the default. -/
def default (x : Box → Obj) : List Op → Box → Obj
  | [], b => x b
  | .setdefault b' o :: h, b => if b' = b then o else default x h b
  | _ :: h, b => default x h b

def content (isLocal : Box → Bool) (x : Box → Obj) : List Op → Thread → Box → Option Obj
  | [], _, b => if isLocal b then none else some (x b)
  | .set t' b' o :: h, t, b => if b' = b ∧ (isLocal b = true → t' = t) then some o else content isLocal x h t b
  | .clear t' b' :: h, t, b => if b' = b ∧ t' = t ∧ isLocal b = true then none else content isLocal x h t b
  | _ :: h, t, b => content isLocal x h t b

def inBox (isLocal : Box → Bool) (x : Box → Obj) (h : List Op) (t : Thread) (b : Box) : Obj :=
  (content isLocal x h t b).getD (default x h b)

/-- The primary box of a shim -/
def primary : Shim → Box
  | .single b => b
  | .object b _ => b
  | .boxed b _ => b
  | .shim b _ => b

/-- The attribute of an object: what has been written last to it, directly, or by a shim that had this object in its primary box then. -/
def attr (isLocal : Box → Bool) (i : Init) : List Op → Obj → String → Option Obj
  | [], o, k => i.attrs o k
  | .setattr o' k' v :: h, o, k => if o' = o ∧ k' = k then some v else attr isLocal i h o k
  | .setattrShim t s k' v :: h, o, k => if inBox isLocal i.x h t (primary s) = o ∧ k' = k then some v else attr isLocal i h o k
  | _ :: h, o, k => attr isLocal i h o k

/-- The objects that are tried for an attribute, in order -/
def tried (inBox : Box → Obj) : Shim → List Obj
  | .single b => [inBox b]
  | .object b o => [inBox b, o]
  | .boxed b c => [inBox b, inBox c]
  | .shim b s => inBox b :: tried inBox s

/-- The attribute, from the first of them that has it -/
def firstOf (attr : Obj → String → Option Obj) (k : String) : List Obj → Res
  | [] => .attributeError
  | o :: os => match attr o k with
    | some v => .value v
    | none => firstOf attr k os

/-- The objects given as fallbacks without a box -/
def bare : Shim → List Obj
  | .object _ o => [o]
  | .shim _ s => bare s
  | _ => []

/-- Names that have a meaning for Python itself -/
def special (k : String) : Prop := k ∈ ["_shim_box", "_shim_fallback", "__init__", "__getattr__", "__setattr__", "__doc__", "__module__", "__dict__", "__weakref__", "__class__", "__new__",
  "__repr__", "__str__", "__eq__", "__ne__", "__lt__", "__le__", "__gt__", "__ge__", "__hash__", "__getattribute__", "__delattr__", "__dir__", "__format__", "__reduce__",
  "__reduce_ex__", "__sizeof__", "__init_subclass__", "__subclasshook__"]

end Unpy.Spec.Shim
