/-!
# Model of `box`, `ThreadLocalBox`, `Some`, `unbox` and `Shim` (`unpythonic/collections.py`)
-/
namespace Unpy.Shim

/-! ## Equality -/

/-- Values: items with the usual equality, and boxes of any kind.  (Simplifications: the items' `__eq__` returns NotImplemented for boxes, as it does for numbers,
strings, None, …; there is no cycle of boxes; of a `ThreadLocalBox`, we see what it contains in the current thread.) -/
inductive V where
  | item (n : Nat)
  | box (x : V)
  | tlbox (x : V)
  | some (x : V)

def V.size : V → Nat
  | .item _ => 0
  | .box x | .tlbox x | .some x => x.size + 1

/-- `a == b`.  If `a` is a box, its method (collections.py:210-211, 258-259, 307-308) returns `b == a.get()`.  Python tries the method of `b` first if the class of `b` is a
subclass of that of `a`, and has a method of its own; and it tries the method of `b` last if that of `a` returns NotImplemented. -/
def eq (a b : V) : Bool := match a, b with
  | .box x, .tlbox y => eq (.box x) y
  | .box x, b => eq b x
  | .tlbox x, b => eq b x
  | .some x, b => eq b x
  | .item m, .item n => m == n
  | .item m, .box y => eq (.item m) y
  | .item m, .tlbox y => eq (.item m) y
  | .item m, .some y => eq (.item m) y
termination_by a.size + b.size
decreasing_by all_goals (simp only [V.size]; omega)

/-- `get` (collections.py:232-237, 265-268, 309-314), `unbox` (collections.py:316-325); a TypeError if it is not a box -/
def unbox : V → Option V
  | .item _ => none
  | .box x | .tlbox x | .some x => .some x

/-- `x in b` (collections.py:204-205, 254-255, 301-302); a TypeError if it is not a box -/
def contains (b x : V) : Option Bool := (unbox b).map fun c => eq c x

/-- `list(b)` (collections.py:206-207, 256-257, 303-304) -/
def items (b : V) : Option (List V) := (unbox b).map fun c => [c]

/-- `len(b)` (collections.py:208-209, 305-306) -/
def len (b : V) : Option Nat := (unbox b).map fun _ => 1

/-! ## Shims

Objects are numbers.  Simplification: in the boxes, and in the attributes, there are only objects, and none of these objects is a shim or a box.  (A shim can be the fallback of
another one.) -/

abbrev Obj := Nat
abbrev Box := Nat
abbrev Thread := Nat

inductive Shim where
  /-- no `fallback`, or None -/
  | single (b : Box)
  /-- the fallback is an object -/
  | object (b : Box) (o : Obj)
  /-- the fallback is a box -/
  | boxed (b : Box) (c : Box)
  /-- the fallback is a shim -/
  | shim (b : Box) (s : Shim)

/-- `_shim_box` -/
def Shim.box : Shim → Box
  | .single b | .object b _ | .boxed b _ | .shim b _ => b

/-- What does not change: which boxes are thread-local; which objects count as false. -/
structure Static where
  isLocal : Box → Bool
  falsy : Obj → Bool

structure W where
  /-- `x` of a `box`, `_default` of a `ThreadLocalBox` -/
  x : Box → Obj
  /-- `storage.x` of a `ThreadLocalBox` -/
  storage : Box → Thread → Option Obj
  attrs : Obj → String → Option Obj

/-- `get` (collections.py:232-237, 265-268) -/
def W.get (c : Static) (w : W) (t : Thread) (b : Box) : Obj := if c.isLocal b then (w.storage b t).getD (w.x b) else w.x b

/-- Attributes that each shim has by itself: those of its class, of `object`, and its own two.  `Shim.__getattr__` is not called for these. -/
def ownNames : List String := ["_shim_box", "_shim_fallback", "__init__", "__getattr__", "__setattr__", "__doc__", "__module__", "__dict__", "__weakref__", "__class__", "__new__",
  "__repr__", "__str__", "__eq__", "__ne__", "__lt__", "__le__", "__gt__", "__ge__", "__hash__", "__getattribute__", "__delattr__", "__dir__", "__format__", "__reduce__",
  "__reduce_ex__", "__sizeof__", "__init_subclass__", "__subclasshook__"]

/-- The result of reading an attribute -/
inductive Res where
  | value (o : Obj)
  /-- an attribute of the shim itself -/
  | own
  | attributeError
  deriving DecidableEq

def read : Option Obj → Res
  | some o => .value o
  | none => .attributeError

/-- `getattr(s, k)`: `Shim.__getattr__` (collections.py:376-383) -/
def W.getattr (c : Static) (w : W) (t : Thread) (k : String) : Shim → Res
  | .single b => if k ∈ ownNames then .own else read (w.attrs (w.get c t b) k)
  | .object b o => if k ∈ ownNames then .own else
    let thing := w.get c t b
    if c.falsy o || (w.attrs thing k).isSome then read (w.attrs thing k) else read (w.attrs o k)
  | .boxed b d => if k ∈ ownNames then .own else
    let thing := w.get c t b
    if (w.attrs thing k).isSome then read (w.attrs thing k) else read (w.attrs (w.get c t d) k)
  | .shim b s => if k ∈ ownNames then .own else
    let thing := w.get c t b
    if (w.attrs thing k).isSome then read (w.attrs thing k) else w.getattr c t k s

/-- `setattr(o, k, v)` -/
def W.put (w : W) (o : Obj) (k : String) (v : Obj) : W :=
  { w with attrs := fun o' k' => if o' = o ∧ k' = k then some v else w.attrs o' k' }

/-- What the program does; the first number is the thread. -/
inductive Op where
  /-- `b.set(o)`, `b << o` -/
  | set (t : Thread) (b : Box) (o : Obj)
  | clear (t : Thread) (b : Box)
  | setdefault (b : Box) (o : Obj)
  /-- `o.k = v` -/
  | setattr (o : Obj) (k : String) (v : Obj)
  /-- `s.k = v` -/
  | setattrShim (t : Thread) (s : Shim) (k : String) (v : Obj)

/-- `set`, `<<` (collections.py:212-231, 260-264), `clear` and `setdefault` (collections.py:269-279; only for thread-local boxes), `Shim.__setattr__` (collections.py:384-388; the
names of the two attributes of the shim itself are left out). -/
def W.step (c : Static) (w : W) : Op → W
  | .set t b o => if c.isLocal b then { w with storage := fun b' t' => if b' = b ∧ t' = t then some o else w.storage b' t' }
    else { w with x := fun b' => if b' = b then o else w.x b' }
  | .clear t b => if c.isLocal b then { w with storage := fun b' t' => if b' = b ∧ t' = t then none else w.storage b' t' } else w
  | .setdefault b o => if c.isLocal b then { w with x := fun b' => if b' = b then o else w.x b' } else w
  | .setattr o k v => w.put o k v
  | .setattrShim t s k v => w.put (w.get c t s.box) k v

/-- The program starts with these boxes and objects. -/
structure Init where
  x : Box → Obj
  attrs : Obj → String → Option Obj

def Init.world (i : Init) : W := ⟨i.x, fun _ _ => none, i.attrs⟩

/-- The state after a history of operations, by any number of threads -/
def run (c : Static) (i : Init) (ops : List Op) : W := ops.foldl (W.step c) i.world

end Unpy.Shim
