import Verif.Model.Prefix
/-!
# What a `with prefix` block means

Stated for any meaning of Python's expressions that is built up from the meanings of their parts.
-/
namespace Unpy.Prefix.Spec
open Unpy.Prefix
variable {β D : Type}

/-- A meaning for each kind of expression, in terms of the meanings of its parts. -/
structure Meaning (β D : Type) where
  cst : β → D
  name : String → D
  tup : List D → D
  call : D → List D → List (Option String × D) → D
  sub : D → D → D
  letx : List (String × D) → D → D
  doe : List D → D
  node : Nat → List D → D

mutual
/-- The meaning of an expression in Python. -/
def interp (A : Meaning β D) : PE β → D
  | .cst c => A.cst c
  | .name x => A.name x
  | .tup es => A.tup (interps A es)
  | .call f args names vals => A.call (interp A f) (interps A args) (names.zip (interps A vals))
  | .sub v ix => A.sub (interp A v) (interp A ix)
  | .letx names vals body => A.letx (names.zip (interps A vals)) (interp A body)
  | .doe items => A.doe (interps A items)
  | .node k es => A.node k (interps A es)

def interps (A : Meaning β D) : List (PE β) → List D
  | [] => []
  | e :: es => interp A e :: interps A es
end

/-! ## In a `with prefix` block -/

/-- The meanings of several expressions, at the same quote level. -/
def all (n : Nat) : List (Nat → Option D) → Option (List D)
  | [] => some []
  | f :: fs => match f n, all n fs with
    | some x, some xs => some (x :: xs)
    | _, _ => none

/-- An item of a tuple: whether it is the operator `q` (`some true`) or `u` (`some false`); what it means at each quote level;
and, if it is `kw(...)`, whether it has named arguments only, and what they are. -/
structure Item (D : Type) where
  op : Option Bool
  val : Nat → Option D
  kw : Option (Bool × List (Option String × (Nat → Option D)))

/-- The quote level after some operators; it cannot become negative. -/
def levelAfter : Nat → List (Option Bool) → Option Nat
  | n, some true :: ops => levelAfter (n + 1) ops
  | n + 1, some false :: ops => levelAfter n ops
  | 0, some false :: _ => none
  | n, _ => some n

/-- Of several definitions of the same name, the rightmost one. -/
def rightmost {α : Type} : List (Option String × α) → List (Option String × α)
  | [] => []
  | (k, v) :: r => if k ∈ r.map Prod.fst then rightmost r else (k, v) :: rightmost r

/-- The call of the first item.  Named arguments come from `kw(...)` items, which have individual named arguments only. -/
def callMeaning (A : Meaning β D) (f : Item D) (data : List (Item D)) : Option D :=
  let kws := data.filterMap Item.kw
  let named := rightmost (kws.flatMap Prod.snd)
  if kws.all (fun k => k.1 && k.2.all (fun x => x.1.isSome)) then
    match f.val 0, all 0 ((data.filter (fun x => x.kw.isNone)).map Item.val), all 0 (named.map Prod.snd) with
    | some f, some args, some vals => some (A.call f args ((named.map Prod.fst).zip vals))
    | _, _, _ => none
  else none

/-- A tuple, at a quote level.  First come any number of operators; they change the level.  At level 0 the rest is a call, of the
first item with the others as arguments; at other levels it is a tuple. -/
def tupleMeaning (A : Meaning β D) (n : Nat) (items : List (Item D)) : Option D :=
  let ops := items.takeWhile (fun x => x.op.isSome)
  let rest := items.dropWhile (fun x => x.op.isSome)
  match levelAfter n (ops.map Item.op), rest with
  | none, _ => none
  | some 0, [] => none
  | some 0, f :: data => callMeaning A f data
  | some (n + 1), rest =>
    if (rest.isEmpty && !ops.isEmpty) || rest.any (fun x => x.kw.isSome) then none
    else (all (n + 1) (rest.map Item.val)).map A.tup

def opOf : PE β → Option Bool
  | .name x => if x = "q" then some true else if x = "u" then some false else none
  | _ => none

mutual
/-- The meaning of an expression in a `with prefix` block, at a quote level; `none`: it is an error.  A tuple that is the index
of a subscript, or the items of a `do`, or a binding of a `let`, is not a tuple of the program, but syntax. -/
def den (A : Meaning β D) : PE β → Nat → Option D
  | .cst c => fun _ => some (A.cst c)
  | .name x => fun _ => some (A.name x)
  | .tup es => fun n => tupleMeaning A n (items A es)
  | .call f args names vals => fun n => match den A f n, all n (dens A args), all n (dens A vals) with
    | some f, some args, some vals => some (A.call f args (names.zip vals))
    | _, _, _ => none
  | .sub v (.tup es) => fun n => match den A v n, all n (dens A es) with
    | some v, some es => some (A.sub v (A.tup es))
    | _, _ => none
  | .sub v ix => fun n => match den A v n, den A ix n with
    | some v, some ix => some (A.sub v ix)
    | _, _ => none
  | .letx names vals body => fun n => match all n (dens A vals), den A body n with
    | some vals, some body => some (A.letx (names.zip vals) body)
    | _, _ => none
  | .doe es => fun n => (all n (dens A es)).map A.doe
  | .node k es => fun n => (all n (dens A es)).map (A.node k)

def dens (A : Meaning β D) : List (PE β) → List (Nat → Option D)
  | [] => []
  | e :: es => den A e :: dens A es

def kwOf (A : Meaning β D) : PE β → Option (Bool × List (Option String × (Nat → Option D)))
  | .call (.name x) args names vals => if x = "kw" then some (args.isEmpty, names.zip (dens A vals)) else none
  | _ => none

def items (A : Meaning β D) : List (PE β) → List (Item D)
  | [] => []
  | e :: es => ⟨opOf e, den A e, kwOf A e⟩ :: items A es
end

/-! ## The programs -/

/-- The name `kw`. -/
def namedKw : PE β → Bool
  | .name x => x == "kw"
  | _ => false

mutual
/-- No empty tuple (except as an index), and no `**d` in `kw(...)`. -/
def ok : PE β → Bool
  | .cst _ | .name _ => true
  | .tup es => !es.isEmpty && oks es
  | .call f args names vals => ok f && oks args && oks vals &&
      !(namedKw f && names.contains none)
  | .sub v (.tup es) => ok v && oks es
  | .sub v ix => ok v && ok ix
  | .letx _ vals body => oks vals && ok body
  | .doe es => oks es
  | .node _ es => oks es

def oks : List (PE β) → Bool
  | [] => true
  | e :: es => ok e && oks es
end

mutual
/-- No tuples at all. -/
def noTuple : PE β → Bool
  | .cst _ | .name _ => true
  | .tup _ => false
  | .call f args _ vals => noTuple f && noTuples args && noTuples vals
  | .sub v ix => noTuple v && noTuple ix
  | .letx _ vals body => noTuples vals && noTuple body
  | .doe es => noTuples es
  | .node _ es => noTuples es

def noTuples : List (PE β) → Bool
  | [] => true
  | e :: es => noTuple e && noTuples es
end

mutual
/-- How deep an expression is nested. -/
def depth : PE β → Nat
  | .cst _ | .name _ => 1
  | .tup es => depths es + 1
  | .call f args _ vals => max (depth f) (max (depths args) (depths vals)) + 1
  | .sub v ix => max (depth v) (depth ix) + 1
  | .letx _ vals body => max (depths vals) (depth body) + 1
  | .doe es => depths es + 1
  | .node _ es => depths es + 1

def depths : List (PE β) → Nat
  | [] => 0
  | e :: es => max (depth e) (depths es)
end

end Unpy.Prefix.Spec
