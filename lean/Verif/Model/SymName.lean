import Verif.Model.Py
import Verif.Model.PyDict
/-!
# Model of names, labels, attributes, texts and pickles of symbols (unpythonic/symbol.py)

`Model/Intern.lean` has the table of symbols shared by threads.  Here is one thread, and what the objects hold.  A symbol is made for a
name `n : N` of which the table sees only `key n`, its equality class: names that are equal in Python, such as `1` and `True`, have
the same key.  A gensym is made for its UUID and label, of which the key is the UUID.
-/
namespace Unpy.SymName
open Unpy
universe u v
variable {K : Type u} {N : Type v} [DecidableEq K]

/-- The `__dict__` of a symbol: the attribute `name` (of a gensym: `uid` and `label`), and other attributes, set by the user ("note a
`sym` is just a Python object", symbol.py:55-56).  Assigning to `name` itself is not modelled. -/
structure Obj (N : Type v) where
  name : N
  attrs : PyDict String Nat := []

/-- the objects ever made, and the table (symbol.py:16 / 21) -/
structure St (K : Type u) (N : Type v) where
  objs : List (Obj N) := []
  table : K → Option Nat := fun _ => none

/-- a pickle: the argument for `__new__` (symbol.py:92-93 / 132-133), and the state, which is the `__dict__` -/
structure Pickle (N : Type v) where
  arg : N
  state : Obj N

/-- `__new__`, symbol.py:61-80 / 113-125: the object with this key, which is made if there is none, as yet without attributes.  (The
value given here to `name` in a new object is overwritten at once by `__init__`, or by the state of a pickle.) -/
def new (key : N → K) (st : St K N) (n : N) : Nat × St K N :=
  match st.table (key n) with
  | some i => (i, st)
  | none => (st.objs.length,
      { objs := st.objs ++ [{ name := n }], table := fun k => if k = key n then some st.objs.length else st.table k })

/-- `sym(n)` or `gsym(uid, label)`: `__new__`, and then `__init__` (symbol.py:82-83 / 127-129), on an old object too -/
def call (key : N → K) (st : St K N) (n : N) : Nat × St K N :=
  let r := new key st n
  (r.1, { r.2 with objs := r.2.objs.modify r.1 fun o => { o with name := n } })

/-- `pickle.dumps(s)`, `none` if there is no such object -/
def dumps (st : St K N) (i : Nat) : Option (Pickle N) := st.objs[i]?.map fun o => ⟨o.name, o⟩

/-- `pickle.loads(p)`, also `copy(s)`: `__new__`, and then the default `__setstate__`, which updates the `__dict__` of the object -/
def loads (key : N → K) (st : St K N) (p : Pickle N) : Nat × St K N :=
  let r := new key st p.arg
  (r.1, { r.2 with objs := r.2.objs.modify r.1 fun o => ⟨p.state.name, PyDict.update o.attrs p.state.attrs⟩ })

/-- What a program does.  `drop`: the last reference to the object of this key is dropped, so the table loses it. -/
inductive Op (K : Type u) (N : Type v) where
  | call (n : N)
  | setattr (i : Nat) (a : String) (v : Nat)
  | loads (p : Pickle N)
  | drop (k : K)

/-- one step -/
def step (key : N → K) (st : St K N) : Op K N → St K N
  | .call n => (call key st n).2
  | .setattr i a v => { st with objs := st.objs.modify i fun o => { o with attrs := PyDict.set o.attrs a v } }
  | .loads p => (loads key st p).2
  | .drop k => { st with table := fun k' => if k' = k then none else st.table k' }

def run (key : N → K) (st : St K N) (ops : List (Op K N)) : St K N := ops.foldl (step key) st

/-- The names of symbols: strings, and other hashables, with their key and the text that an f-string makes of them. -/
inductive Name where
  | str (s : String)
  | other (id : Nat) (key : Nat) (text : String)
  deriving DecidableEq, Repr

/-- equality of names: a string equals only itself -/
def Name.key : Name → String ⊕ Nat
  | .str s => .inl s
  | .other _ k _ => .inr k

/-- symbol.py:95-96 `sym.__str__`; `str` insists on a string -/
def symStr : Name → Res String
  | .str s => .ok s
  | .other _ _ _ => .error .TypeError

/-- symbol.py:97-98 `sym.__repr__` -/
def symRepr : Name → String
  | .str s => "sym(\"" ++ s ++ "\")"
  | .other _ _ t => "sym(\"" ++ t ++ "\")"

/-- symbol.py:135-136 `gsym.__str__`, with the text of the UUID -/
def gsymStr (label uid : String) : String := "gensym#" ++ label ++ ":" ++ uid

/-- symbol.py:137-138 `gsym.__repr__`, with the `repr` of the UUID -/
def gsymRepr (label uid : String) : String := "gsym(\"" ++ label ++ "\", UUID('" ++ uid ++ "'))"

end Unpy.SymName
