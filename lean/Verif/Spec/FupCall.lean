import Verif.Spec.Slices
import Verif.Model.FupCall
/-!
# Specification for calls of `fupdate`: which update an index with its value stands for, and the parameters of `fupdate`
-/
namespace Unpy.Spec.FupCall
open Unpy Unpy.Slices Unpy.FupCall

/-- `fupdate(seq, ix, v)` is meant to do the update `u`: an int with any object, or a slice with a sequence or an iterator. -/
inductive IsUpd : Obj → Obj → Upd Obj → Prop
  | int (k : Int) (v : Obj) : IsUpd (.int k) v (.int k v)
  | list (s : Slice) (l : List Obj) : IsUpd (.slice s) (.list l) (.slice s (.seq l))
  | tuple (s : Slice) (l : List Obj) : IsUpd (.slice s) (.tuple l) (.slice s (.seq l))
  | str (s : Slice) (x : String) : IsUpd (.slice s) (.str x) (.slice s (.seq (x.toList.map fun c => .str (String.singleton c))))
  | iter (s : Slice) (l : List Obj) : IsUpd (.slice s) (.iter l) (.slice s (.iter false fun n => l[n]?))

/-- the items of a sequence -/
def contents : Target → Option (List Obj)
  | .list l | .tuple l | .named _ l => some l
  | _ => none

/-- a sequence of the same type with other items -/
def withContents : Target → List Obj → Target
  | .list _, l => .list l
  | .tuple _, l => .tuple l
  | .named c _, l => .named c l
  | t, _ => t

/-- the parameters of `fupdate` -/
def paramNames : List String := ["target", "indices", "values"]

/-- the parameters of the methods that make a frozendict -/
def selfNames : List String := ["cls", "self"]

end Unpy.Spec.FupCall
