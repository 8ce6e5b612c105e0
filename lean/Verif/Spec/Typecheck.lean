import Verif.Model.Typecheck
/-!
# What type specifications mean

`Has w v T` says that the value `v` belongs to the set of values that the type specification `T` denotes: the
meaning the `typing` module documents, with the rule documented by `isoftype` that an empty collection has no
element type and therefore belongs to no collection type.
-/
namespace Unpy.Spec.Typecheck
open Unpy.Typecheck
variable {C V : Type}

/-- The meaning of the bare generics of the `typing` module: `typing.Tuple` is any tuple, `typing.Callable`
any callable; the others are nonempty mappings and collections with arbitrary contents. -/
def bareMeaning (w : World C V) (v : V) : Std → Prop
  | .tuple => w.inst v (w.std .tuple) = true
  | .callable => w.isCallable v = true
  | .dict => w.inst v (w.std .dict) = true ∧ w.pairs v ≠ []
  | .mutableMapping => w.inst v (w.std .mutableMapping) = true ∧ w.pairs v ≠ []
  | .mapping => w.inst v (w.std .mapping) = true ∧ w.pairs v ≠ []
  | .itemsView => w.inst v (w.std .itemsView) = true ∧ w.pairs v ≠ []
  | k => w.inst v (w.std k) = true ∧ w.iter v ≠ []

/-- The abstract base class which each of these names of `typing` stands for -/
def ponyClass : Pony → Std
  | .iterator => .iterator
  | .iterable => .iterable
  | .container => .container
  | .collection => .collection
  | .hashable => .hashable
  | .sized => .sized

/-- The class which each of the mapping types stands for -/
def mapClass : MapKind → Std
  | .dict => .dict
  | .mutableMapping => .mutableMapping
  | .mapping => .mapping

/-- The class which each of the collection types stands for -/
def collClass : CollKind → Std
  | .list => .list
  | .frozenset => .frozenset
  | .set => .set
  | .deque => .deque
  | .byteString => .byteString
  | .mutableSet => .mutableSet
  | .keysView => .keysView
  | .valuesView => .valuesView
  | .mappingView => .mappingView
  | .abstractSet => .abstractSet
  | .mutableSequence => .mutableSequence
  | .sequence => .sequence

inductive Has (w : World C V) : V → Ty C → Prop
  | any : Has w v .any
  | typevarFree : Has w v (.typevar [] none)
  | typevarBound : w.inst v c = true → Has w v (.typevar [] (some c))
  | typevarConstraint : t ∈ ts → Has w v t → Has w v (.typevar ts b)
  | union : t ∈ ts → Has w v t → Has w v (.union ts)
  | newtype : Has w v t → Has w v (.newtype t)
  | pony : w.inst v (w.std (ponyClass p)) = true → Has w v (.pony p)
  | reversible : w.hasReversed v = true → Has w v .reversible
  | supports : w.supports v p = true → Has w v (.supports p)
  | bare : bareMeaning w v k → Has w v (.bare k)
  | tupleAll : w.inst v (w.std .tuple) = true → w.iter v ≠ [] → (∀ x ∈ w.iter v, Has w x t) →
      Has w v (.tupleAll t)
  | tupleOf : w.inst v (w.std .tuple) = true → (w.iter v).length = ts.length →
      (∀ p ∈ (w.iter v).zip ts, Has w p.1 p.2) → Has w v (.tupleOf ts)
  | map : w.inst v (w.std (mapClass k)) = true → w.pairs v ≠ [] →
      (∀ p ∈ w.pairs v, Has w p.1 tk) → (∀ p ∈ w.pairs v, Has w p.2 tv) → Has w v (.map k tk tv)
  | items : w.inst v (w.std .itemsView) = true → w.pairs v ≠ [] →
      (∀ p ∈ w.pairs v, Has w p.1 tk) → (∀ p ∈ w.pairs v, Has w p.2 tv) → Has w v (.items tk tv)
  | coll : w.inst v (w.std (collClass k)) = true → w.iter v ≠ [] → (∀ x ∈ w.iter v, Has w x t) →
      Has w v (.coll k t)
  | callable : w.isCallable v = true → Has w v .callable
  | cls : w.inst v c = true → Has w v (.cls c)

/-- The classes that a class is compared with before `isoftype` delegates to `isinstance`. -/
def compared : List Std :=
  [.str, .tuple, .dict, .mutableMapping, .mapping, .itemsView, .list, .frozenset, .set, .deque, .byteString,
   .mutableSet, .keysView, .valuesView, .mappingView, .abstractSet, .mutableSequence, .sequence, .callable]

/-- Which of them a class of the standard library inherits from (or is). -/
def ancestors : Std → List Std
  | .str => [.str, .sequence]
  | .bytes => [.byteString, .sequence]
  | .int => []
  | .tuple => [.tuple, .sequence]
  | .dict => [.dict, .mutableMapping, .mapping]
  | .mutableMapping => [.mutableMapping, .mapping]
  | .mapping => [.mapping]
  | .itemsView => [.itemsView, .mappingView, .abstractSet]
  | .list => [.list, .mutableSequence, .sequence]
  | .frozenset => [.frozenset, .abstractSet]
  | .set => [.set, .mutableSet, .abstractSet]
  | .deque => [.deque, .mutableSequence, .sequence]
  | .byteString => [.byteString, .sequence]
  | .mutableSet => [.mutableSet, .abstractSet]
  | .keysView => [.keysView, .mappingView, .abstractSet]
  | .valuesView => [.valuesView, .mappingView]
  | .mappingView => [.mappingView]
  | .abstractSet => [.abstractSet]
  | .mutableSequence => [.mutableSequence, .sequence]
  | .sequence => [.sequence]
  | .callable => [.callable]
  | .iterator => []
  | .iterable => []
  | .container => []
  | .collection => []
  | .hashable => []
  | .sized => []

/-- Facts about Python that the checker relies on: how the classes of the standard library are related, that
a tuple, mapping or collection is true exactly when it is not empty, and that byte strings consist of
integers. -/
structure Real (w : World C V) : Prop where
  sub : ∀ a, ∀ b ∈ compared, w.sub (w.std a) (w.std b) = decide (b ∈ ancestors a)
  tuple : ∀ v, w.inst v (w.std .tuple) = true → w.truthy v = !(w.iter v).isEmpty
  coll : ∀ (k : CollKind) v, w.inst v (w.std (collClass k)) = true → w.truthy v = !(w.iter v).isEmpty
  map : ∀ (k : MapKind) v, w.inst v (w.std (mapClass k)) = true → w.truthy v = !(w.pairs v).isEmpty
  items : ∀ v, w.inst v (w.std .itemsView) = true → w.truthy v = !(w.pairs v).isEmpty
  bytes : ∀ v, w.inst v (w.std .byteString) = true → ∀ x ∈ w.iter v, w.inst x (w.std .int) = true

/-- A class for which `isoftype` is `isinstance`: `str`, `bytes` or `tuple` itself, or a class that is related
to none of the classes that are compared. -/
def Plain (w : World C V) (c : C) : Prop :=
  c = w.std .str ∨ c = w.std .bytes ∨ c = w.std .tuple ∨ ∀ k ∈ compared, w.sub c (w.std k) = false

/-- The bare generics of the `typing` module that `isoftype` knows. -/
def bareKinds : List Std :=
  [.tuple, .dict, .mutableMapping, .mapping, .itemsView, .list, .frozenset, .set, .deque, .byteString,
   .mutableSet, .keysView, .valuesView, .mappingView, .abstractSet, .mutableSequence, .sequence, .callable]

/-- What `isinstance` can be asked, in the sense of `Has`: a class, one of the abstract base classes and protocols, or a union of such -/
inductive Checkable : Ty C → Prop
  | cls : Checkable (.cls c)
  | pony : Checkable (.pony p)
  | supports : Checkable (.supports p)
  | union : (∀ t ∈ ts, Checkable t) → Checkable (.union ts)

/-- What `isinstance` refuses: type variables, new types, and generics with type arguments -/
def Refused : Ty C → Prop
  | .any => True
  | .typevar _ _ => True
  | .bareUnion => True
  | .newtype _ => True
  | .tupleAll _ => True
  | .tupleOf _ => True
  | .map _ _ _ => True
  | .items _ _ => True
  | .coll _ _ => True
  | .callable => True
  | _ => False

/-- The type specifications covered by `C46_sound_partial`: every nesting of the forms, except that type
variables have no bound, `Tuple[()]` is left out, classes are `Plain`, and `NewType` is over something
`Checkable`. -/
inductive Covered (w : World C V) : Ty C → Prop
  | any : Covered w .any
  | typevar : (∀ t ∈ ts, Covered w t) → (ts = [] → b = none) → Covered w (.typevar ts b)
  | union : (∀ t ∈ ts, Covered w t) → Covered w (.union ts)
  | bareUnion : Covered w .bareUnion
  | newtype : Checkable t → Covered w (.newtype t)
  | pony : Covered w (.pony p)
  | reversible : Covered w .reversible
  | supports : Covered w (.supports p)
  | bare : k ∈ bareKinds → Covered w (.bare k)
  | tupleAll : Covered w t → Covered w (.tupleAll t)
  | tupleOf : (∀ t ∈ ts, Covered w t) → ts ≠ [] → Covered w (.tupleOf ts)
  | map : Covered w tk → Covered w tv → Covered w (.map k tk tv)
  | items : Covered w tk → Covered w tv → Covered w (.items tk tv)
  | coll : Covered w t → k ≠ .byteString → Covered w (.coll k t)
  | callable : Covered w .callable
  | cls : Plain w c → Covered w (.cls c)
  | other : Covered w .other

/-- The type specifications that `isoftype` documents as supported: no other object of the `typing` module
inside, and `NewType` only over a class or something else that is `Checkable`. -/
inductive Supported : Ty C → Prop
  | any : Supported .any
  | typevar : (∀ t ∈ ts, Supported t) → Supported (.typevar ts b)
  | union : (∀ t ∈ ts, Supported t) → Supported (.union ts)
  | bareUnion : Supported .bareUnion
  | newtype : Checkable t → Supported (.newtype t)
  | pony : Supported (.pony p)
  | reversible : Supported .reversible
  | supports : Supported (.supports p)
  | bare : k ∈ bareKinds → Supported (.bare k)
  | tupleAll : Supported t → Supported (.tupleAll t)
  | tupleOf : (∀ t ∈ ts, Supported t) → Supported (.tupleOf ts)
  | map : Supported tk → Supported tv → Supported (.map k tk tv)
  | items : Supported tk → Supported tv → Supported (.items tk tv)
  | coll : Supported t → Supported (.coll k t)
  | callable : Supported .callable
  | cls : Supported (.cls c)

end Unpy.Spec.Typecheck
