import Verif.Model.Mogrify
/-!
# What a container is, seen as a tree

Shared with the model: the types of objects and the heap.
-/
namespace Unpy.Spec.Mogrify
open Unpy.Mogrify (MKind IKind MVal Heap)
open Unpy.Fold (Err)

/-- A container with everything in it.  Mutable ones carry their address. -/
inductive Tree (α κ : Type) where
  | leaf (a : α)
  | nil
  | imm (k : IKind κ) (ts : List (Tree α κ))
  | mut (addr : Nat) (k : MKind κ) (ts : List (Tree α κ))

variable {σ ε α κ : Type}

mutual
/-- The object. -/
def Tree.val : Tree α κ → MVal α κ
  | .leaf a => .atom a
  | .nil => .nil
  | .imm k ts => .imm k (vals ts)
  | .mut addr _ _ => .ref addr
def vals : List (Tree α κ) → List (MVal α κ)
  | [] => []
  | t :: ts => t.val :: vals ts
end

mutual
/-- The heap holds what the tree says. -/
def Tree.Stored (h : Heap α κ) : Tree α κ → Prop
  | .leaf _ => True
  | .nil => True
  | .imm _ ts => AllStored h ts
  | .mut addr k ts => h addr = some (k, vals ts) ∧ AllStored h ts
def AllStored (h : Heap α κ) : List (Tree α κ) → Prop
  | [] => True
  | t :: ts => t.Stored h ∧ AllStored h ts
end

mutual
/-- The atoms, in the order of iteration. -/
def Tree.atoms : Tree α κ → List α
  | .leaf a => [a]
  | .nil => []
  | .imm _ ts => atomsOf ts
  | .mut _ _ ts => atomsOf ts
def atomsOf : List (Tree α κ) → List α
  | [] => []
  | t :: ts => t.atoms ++ atomsOf ts
end

mutual
/-- The mutable containers in it, by address (as often as they occur). -/
def Tree.addrs : Tree α κ → List Nat
  | .leaf _ => []
  | .nil => []
  | .imm _ ts => addrsOf ts
  | .mut addr _ ts => addr :: addrsOf ts
def addrsOf : List (Tree α κ) → List Nat
  | [] => []
  | t :: ts => t.addrs ++ addrsOf ts
end

mutual
/-- There are no sets in it. -/
def Tree.NoSets : Tree α κ → Prop
  | .leaf _ => True
  | .nil => True
  | .imm k ts => k ≠ .frozenset ∧ NoSetsIn ts
  | .mut _ k ts => k ≠ .set ∧ NoSetsIn ts
def NoSetsIn : List (Tree α κ) → Prop
  | [] => True
  | t :: ts => t.NoSets ∧ NoSetsIn ts
end

/-- Is the container a tuple, or another immutable sequence? -/
def isTuple : IKind κ → Bool
  | .seq _ => true
  | _ => false

mutual
/-- Are there tuples in it? -/
def Tree.hasTuple : Tree α κ → Bool
  | .leaf _ => false
  | .nil => false
  | .imm k ts => isTuple k || anyTuple ts
  | .mut _ _ ts => anyTuple ts
def anyTuple : List (Tree α κ) → Bool
  | [] => false
  | t :: ts => t.hasTuple || anyTuple ts
end

/-- The exception `e` comes out as `e'`: the same, or if there are tuples, possibly a RuntimeError in place of a StopIteration. -/
def ComesOut (tuples : Bool) (e e' : Err ε) : Prop :=
  e' = e ∨ (tuples = true ∧ e = .py .StopIteration ∧ e' = .py .RuntimeError)

mutual
/-- The same tree with the atoms replaced by the items of a list, in order. -/
def Tree.fill : Tree α κ → List α → Tree α κ
  | .leaf a, bs => .leaf (bs.headD a)
  | .nil, _ => .nil
  | .imm k ts, bs => .imm k (fillAll ts bs)
  | .mut addr k ts, bs => .mut addr k (fillAll ts bs)
def fillAll : List (Tree α κ) → List α → List (Tree α κ)
  | [], _ => []
  | t :: ts, bs => t.fill (bs.take t.atoms.length) :: fillAll ts (bs.drop t.atoms.length)
end

mutual
/-- The parts of a tree: itself, its items, their items, and so on. -/
def Tree.parts : Tree α κ → List (Tree α κ)
  | .leaf a => [.leaf a]
  | .nil => [.nil]
  | .imm k ts => .imm k ts :: partsOf ts
  | .mut addr k ts => .mut addr k ts :: partsOf ts
def partsOf : List (Tree α κ) → List (Tree α κ)
  | [] => []
  | t :: ts => t.parts ++ partsOf ts
end

/-- Call `f` with each item, in order, until one raises. -/
def callAll (f : α → σ → Except (Err ε) α × σ) : List α → σ → Except (Err ε) (List α) × σ
  | [], s => (.ok [], s)
  | a :: as, s => match f a s with
    | (.error e, s) => (.error e, s)
    | (.ok b, s) => match callAll f as s with
      | (.error e, s) => (.error e, s)
      | (.ok bs, s) => (.ok (b :: bs), s)

/-- A function from atoms to atoms, as `mogrify` takes it. -/
def onAtoms (f : α → σ → Except (Err ε) α × σ) : α → σ → Except (Err ε) (MVal α κ) × σ := fun a s =>
  match f a s with
  | (.ok b, s) => (.ok (.atom b), s)
  | (.error e, s) => (.error e, s)

/-- What the evaluation of a promise gives. -/
def outcome {β : Type} : Unpy.Mogrify.Promise ε β → Except (Err ε) (Unpy.Mogrify.Atom β)
  | .pending r => r
  | .done r => r

/-- What an atom stands for: a promise for its value. -/
def valueOf {β : Type} (w : Unpy.Mogrify.World ε β) : Unpy.Mogrify.Atom β → Except (Err ε) (Unpy.Mogrify.Atom β)
  | .plain b => .ok (.plain b)
  | .lazy i => outcome (w.promises i)

end Unpy.Spec.Mogrify
