import Verif.Model.Lazyrec
/-!
# What is expected of `lazyrec[...]`

`now e` lists the expressions in `e` that are evaluated at
once: keys, and the arguments of constructors that are containers to be unpacked.
-/
namespace Unpy.Lazyrec
variable {A : Type}

/-- A container literal, or a call of a constructor. -/
def isContainer : Ex → Bool
  | .atom _ => false
  | .lit .. => true
  | .dict _ => true
  | .call .. => true
  | .lazy _ => false

/-- A dictionary, or a call of `dict` or `frozendict`. -/
def isMapping : Ex → Bool
  | .dict _ => true
  | .call .dict .. => true
  | .call .frozendict .. => true
  | _ => false

/-- These items, none of them `*e`. -/
def itemsOf : List Ex → Items
  | [] => .nil
  | e :: es => .item e (itemsOf es)

/-- What is delayed by `lazyrec[e]`, for an `e` that is not a container literal: `e`, or if `e` is `lazy[e']`, `e'`. -/
def delayed : Ex → Ex
  | .lazy e => e
  | e => e

/-! ## What is evaluated when -/

mutual
/-- The expressions in `e` that are evaluated when `e` is. -/
def parts : Ex → List Nat
  | .atom i => [i]
  | .lit _ items => partsI items
  | .dict es => partsE es
  | .call _ args kws => partsI args ++ partsK kws
  | .lazy _ => []
def partsI : Items → List Nat
  | .nil => []
  | .item e r => parts e ++ partsI r
  | .star e r => parts e ++ partsI r
def partsE : Entries → List Nat
  | .nil => []
  | .kv k v r => parts k ++ parts v ++ partsE r
  | .dstar e r => parts e ++ partsE r
def partsK : Kws → List Nat
  | .nil => []
  | .kw _ e r => parts e ++ partsK r
  | .dstar e r => parts e ++ partsK r
end

/-- Constructors that take one container, and those that take containers or pairs, are given their arguments at once, unless they are literals. -/
def takesItems : Ctor → Bool
  | .box => true
  | .some => true
  | .ll => true
  | _ => false

mutual
/-- The expressions in `e` that are evaluated when `lazyrec[e]` is. -/
def now : Ex → List Nat
  | .atom _ => []
  | .lit _ items => nowI true items
  | .dict es => nowE es
  | .call c args kws => nowI (takesItems c) args ++ nowK kws
  | .lazy _ => []
def nowI (all : Bool) : Items → List Nat
  | .nil => []
  | .item e r => (if all || isContainer e then now e else parts e) ++ nowI all r
  | .star e r => (if isContainer e then now e else parts e) ++ nowI all r
def nowE : Entries → List Nat
  | .nil => []
  | .kv k v r => parts k ++ now v ++ nowE r
  | .dstar e r => now e ++ nowE r
def nowK : Kws → List Nat
  | .nil => []
  | .kw _ e r => now e ++ nowK r
  | .dstar e r => (if isMapping e then now e else parts e) ++ nowK r
end

/-! ## Ordinary values -/

/-- No two are equal. -/
def isSet (W : World A) : List (Val A) → Bool
  | [] => true
  | v :: vs => vs.all (fun w => !W.eqv v w) && isSet W vs

mutual
/-- Without promises, if `np`; and sets are as sets are. -/
def proper (W : World A) (np : Bool) : Val A → Bool
  | .atom _ => true
  | .promise _ => !np
  | .seq k xs => properL W np xs && (if k = .set ∨ k = .frozenset then hashableL W xs && isSet W xs else true)
  | .map _ ks vs => properL W np ks && properL W np vs
def properL (W : World A) (np : Bool) : List (Val A) → Bool
  | [] => true
  | v :: vs => proper W np v && properL W np vs
end

/-- An ordinary value: no promises in it. -/
def Ordinary (W : World A) (v : Val A) : Prop := proper W true v = true

/-- Equality is transitive, and what has a promise in it is not equal to anything else; other expressions evaluate to ordinary
values. -/
structure Sane (W : World A) : Prop where
  trans : ∀ {a b c}, W.eqv a b = true → W.eqv b c = true → W.eqv a c = true
  promises : ∀ {a b}, W.eqv a b = true → proper W false a = true → proper W false b = true → Ordinary W a ∧ Ordinary W b
  values : ∀ {i v}, W.val i = .ok v → Ordinary W v

/-! ## Where the claim holds -/

/-- A set, or a call of `set` or `frozenset`. -/
def isSetLit : Ex → Bool
  | .lit .set _ => true
  | .call .set .. => true
  | .call .frozenset .. => true
  | _ => false

mutual
/-- Without `lazy[...]`. -/
def noLazy : Ex → Bool
  | .atom _ => true
  | .lit _ items => noLazyI items
  | .dict es => noLazyE es
  | .call _ args kws => noLazyI args && noLazyK kws
  | .lazy _ => false
def noLazyI : Items → Bool
  | .nil => true
  | .item e r => noLazy e && noLazyI r
  | .star e r => noLazy e && noLazyI r
def noLazyE : Entries → Bool
  | .nil => true
  | .kv k v r => noLazy k && noLazy v && noLazyE r
  | .dstar e r => noLazy e && noLazyE r
def noLazyK : Kws → Bool
  | .nil => true
  | .kw _ e r => noLazy e && noLazyK r
  | .dstar e r => noLazy e && noLazyK r
end

mutual
/-- The literals for which the claim holds: no `*e` in a literal (`C135_star_refuted`), `**e` in one only for literal `e`
(`C135_double_star_refuted`), constructors that take one container have at most one argument (`C135_several_refuted`), which is not
`*e`; literal arguments of `dict` and `frozendict` are mappings (`C135_pairs_refuted`); sets are not unpacked, unless into
sets (`C135_set_refuted`). -/
def fine : Ex → Bool
  | .atom _ => true
  | .lit _ items => fineElts items
  | .dict es => fineE es
  | .call c args kws => (match c with
      | .dict => decide (args.length ≤ 1) && fineMaps args
      | .frozendict => fineMaps args
      | .list => fineOne false args
      | .tuple => fineOne false args
      | .llist => fineOne false args
      | .set => fineOne true args
      | .frozenset => fineOne true args
      | .box => fineItems args
      | .some => fineItems args
      | .ll => fineItems args) && fineK kws
  | .lazy _ => false
def fineElts : Items → Bool
  | .nil => true
  | .item e r => fine e && fineElts r
  | .star _ _ => false
def fineE : Entries → Bool
  | .nil => true
  | .kv k v r => noLazy k && fine v && fineE r
  | .dstar e r => isMapping e && fine e && fineE r
/-- each one a mapping literal or an ordinary expression -/
def fineMaps : Items → Bool
  | .nil => true
  | .item e r => (!isContainer e || isMapping e) && fine e && fineMaps r
  | .star _ _ => false
/-- at most one, and if not `sets`, not a set -/
def fineOne (sets : Bool) : Items → Bool
  | .nil => true
  | .item e .nil => fine e && (sets || !isSetLit e)
  | _ => false
def fineItems : Items → Bool
  | .nil => true
  | .item e r => fine e && fineItems r
  | .star e r => fine e && !isSetLit e && fineItems r
def fineK : Kws → Bool
  | .nil => true
  | .kw _ e r => fine e && fineK r
  | .dstar e r => (!isContainer e || isMapping e) && fine e && fineK r
end

end Unpy.Lazyrec
