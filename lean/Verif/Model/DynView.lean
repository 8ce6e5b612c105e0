import Verif.Model.Dyn
/-!
# Model of `unpythonic.dynassign`, continued: `dyn` as a mapping, and its live views

`_DynLiveView` is a `collections.ChainMap` whose list `maps` is replaced when a dynamic scope of its thread begins or
ends.  The methods of `ChainMap` used are those of Python's standard library.
-/
namespace Unpy.Dyn
universe u
variable {V : Type u}

/-- dynassign.py:76-77 `_refresh`: the scopes of the thread, innermost first, then `_global_dynvars`. -/
def freshMaps (st : St V) (th : Nat) : List Nat := getstack st th ++ [0]

/-- `ChainMap.__getitem__`: the first map that has the key; `none` for KeyError. -/
def chainGet : List (Dict V) → String → Option V
  | [], _ => none
  | d :: ds, x => match d.get x with
    | some v => some v
    | none => chainGet ds x

/-- `ChainMap.__iter__`: the keys of the maps, last map first, each where it comes first. -/
def chainKeys (ds : List (Dict V)) : List String :=
  (ds.reverse.flatMap (fun d => d.map Prod.fst)).foldl (fun ks k => if k ∈ ks then ks else ks ++ [k]) []

/-- `items()` (of `collections.abc.Mapping`): the keys, each with its value; KeyError if there is none. -/
def chainItems (ds : List (Dict V)) : Res (List (String × V)) :=
  (chainKeys ds).mapM (fun k => match chainGet ds k with
    | some v => .ok (k, v)
    | none => .error .KeyError)

/-- dynassign.py:235-236 `__iter__`, 243-244 `keys`, through dynassign.py:227-233 `asdict` -/
def dynKeys (st : St V) (th : Nat) : List String := chainKeys ((freshMaps st th).map (deref st))

/-- dynassign.py:240-242 `items` -/
def dynItems (st : St V) (th : Nat) : Res (List (String × V)) := chainItems ((freshMaps st th).map (deref st))

/-- dynassign.py:252-253 `__len__`: `len(set().union(*maps))` -/
def dynLen (st : St V) (th : Nat) : Nat := (dynKeys st th).length

/-- dynassign.py:247-248 `get`, with dynassign.py:256-257 `__getitem__` -/
def dynGet (cls : String → Option V) (st : St V) (th : Nat) (x : String) (dflt : V) : Res V :=
  if contains cls st th x then readAttr cls st th x else .ok dflt

/-- Interpreter state with the live views: for each its thread and its list `maps` (references). -/
structure VSt (V : Type u) where
  st : St V
  views : List (Nat × List Nat)

inductive VEvent (V : Type u) where
  | op (e : Event V)
  /-- `dyn.asdict()` in this thread -/
  | asdict (th : Nat)

/-- `for o in _getobservers().values(): o._refresh()` (dynassign.py:43-44, 48-49): the observers of the thread. -/
def refresh (st : St V) (th : Nat) (vs : List (Nat × List Nat)) : List (Nat × List Nat) :=
  vs.map (fun v => if v.1 = th then (th, freshMaps st th) else v)

/-- One operation: dynassign.py:37-49 `_EnvBlock`, dynassign.py:54-57 `_DynLiveView.__init__`. -/
def vstep (s : VSt V) : VEvent V → VSt V
  | .op (.enter th bs) =>
    let st' := step s.st (.enter th bs)
    if bs.isEmpty then ⟨st', s.views⟩ else ⟨st', refresh st' th s.views⟩
  | .op (.exit th bs) =>
    let st' := step s.st (.exit th bs)
    if bs.isEmpty then ⟨st', s.views⟩ else ⟨st', refresh st' th s.views⟩
  | .op e => ⟨step s.st e, s.views⟩
  | .asdict th => let st' := touch s.st th; ⟨st', s.views ++ [(th, freshMaps st' th)]⟩

def vrun (s : VSt V) (evs : List (VEvent V)) : VSt V := evs.foldl vstep s

/-- Reading a name through a live view. -/
def viewGet (s : VSt V) (maps : List Nat) (x : String) : Option V := chainGet (maps.map (deref s.st)) x

end Unpy.Dyn
