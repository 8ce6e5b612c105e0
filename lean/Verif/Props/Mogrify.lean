import Verif.Proof.Mogrify
/-!
# `mogrify` and `force` (C85)
-/
namespace Unpy.Props
open Unpy Unpy.Mogrify Unpy.Spec.Mogrify
open Unpy.Fold (Err)
variable {σ ε α κ : Type} {f : α → σ → Except (Err ε) α × σ} {E : Unpy.Mogrify.Env α κ}

private theorem mogrifies_iff {E : Unpy.Mogrify.Env α κ} {func : α → σ → Except (Err ε) (MVal α κ) × σ} {x st N r}
    (h : ∀ n, N ≤ n → doit E func n x st = some r) (r' : Unpy.Mogrify.Out σ ε α κ (MVal α κ)) :
    Mogrifies E func x st r' ↔ r' = r := by
  constructor
  · rintro ⟨M, hM⟩
    have := (hM (max N M) (by omega)).symm.trans (h (max N M) (by omega))
    simpa using this
  · rintro rfl; exact ⟨N, h⟩

/-! ## examples: atoms are numbers; a dict, a list in a tuple in it, a box -/

private def E1 : Unpy.Mogrify.Env Nat String where
  eqv := fun x y => match x, y with
    | .atom a, .atom b => a == b
    | _, _ => false
  hashable := fun x => match x with
    | .ref _ => false
    | _ => true
private def tree1 : Tree Nat String :=
  .mut 0 (.dict ["a", "b", "c"]) [.imm (.seq 0) [.mut 1 .list [.leaf 1, .leaf 2], .leaf 3], .mut 2 .box [.leaf 4], .nil]
private def heap1 : Heap Nat String := fun a => match a with
  | 0 => some (.dict ["a", "b", "c"], [.imm (.seq 0) [.ref 1, .atom 3], .ref 2, .nil])
  | 1 => some (.list, [.atom 1, .atom 2])
  | 2 => some (.box, [.atom 4])
  | _ => none
/-- write down the argument, multiply by ten; 3 raises if `bad` -/
private def fn1 (bad : Bool) : Nat → List Nat → Except (Err Unit) Nat × List Nat := fun a s =>
  if bad && a == 3 then (.error (.user ()), s ++ [a]) else (.ok (10 * a), s ++ [a])

/-! ## C85 -/

/-- C85 (what holds): in a container in which no mutable container occurs twice, and without sets (for these see
below), `mogrify` calls the function once with each atom, in the order of iteration.  If all these calls return, it
returns the same structure with the results in the places of the atoms: mutable containers are the same objects, with
new contents, immutable ones are copies; no other mutable container is changed.  (An immutable container is never
changed: it is a value in the model.)  Missing: mutable containers that occur more than once, and cycles, refuted
below. -/
theorem C85_mogrify_partial (t : Tree α κ) (h : Heap α κ) (s s' : σ) (bs : List α) (hst : t.Stored h)
    (hd : t.addrs.Nodup) (hns : t.NoSets) (hf : callAll f t.atoms s = (.ok bs, s')) :
    ∃ h', (∀ r, Mogrifies E (onAtoms f) t.val (h, s) r ↔ r = (.ok (t.fill bs).val, (h', s'))) ∧
      (t.fill bs).Stored h' ∧ (t.fill bs).atoms = bs ∧ (t.fill bs).addrs = t.addrs ∧
      ∀ a, a ∉ t.addrs → h' a = h a := by
  obtain ⟨N, r, hr, h', s1, hframe, _, hg⟩ := doit_tree (f := f) (E := E) t h s hst hd hns
  rcases hg with ⟨bs', h1, rfl, h3⟩ | ⟨e, _, h1, _⟩
  · rw [hf] at h1
    simp only [Prod.mk.injEq, Except.ok.injEq] at h1
    obtain ⟨rfl, rfl⟩ := h1
    exact ⟨h', mogrifies_iff hr, h3, atoms_fill t bs (callAll_length hf), addrs_fill t bs, hframe⟩
  · rw [hf] at h1; simp at h1

example : tree1.Stored heap1 ∧ tree1.addrs.Nodup ∧ tree1.NoSets ∧
    callAll (fn1 false) tree1.atoms [] = (.ok [10, 20, 30, 40], [1, 2, 3, 4]) := by
  refine ⟨?_, by decide, ?_, rfl⟩ <;> simp [tree1, Tree.Stored, AllStored, heap1, vals, Tree.val, Tree.NoSets, NoSetsIn]

/-- C85, when a call raises: `mogrify` raises the same exception (unless it is a StopIteration and there are tuples in the structure, see
`C85_stopiteration_refuted`), the function is not called again, and each mutable
container in the structure holds the results for all its items if the calls up to its last item have returned (`as₁` are
the atoms before the container), and otherwise still holds its old items, never a mixture; the outermost one still holds
its old items.
(Missing: containers that are shared or in a circle, see `C85_shared_refuted` and `C85_cycle_refuted`, and sets.) -/
theorem C85_mogrify_raises_partial (t : Tree α κ) (h : Heap α κ) (s s' : σ) (e : Err ε) (hst : t.Stored h)
    (hd : t.addrs.Nodup) (hns : t.NoSets) (hf : callAll f t.atoms s = (.error e, s')) :
    ∃ h' e', ComesOut t.hasTuple e e' ∧ (∀ r, Mogrifies E (onAtoms f) t.val (h, s) r ↔ r = (.error e', (h', s'))) ∧
      (∀ a, a ∉ t.addrs → h' a = h a) ∧
      (∀ a k us, Tree.mut a k us ∈ t.parts → ∃ as₁ as₂, t.atoms = as₁ ++ atomsOf us ++ as₂ ∧
        ((∃ cs s1 bs s2, callAll f as₁ s = (.ok cs, s1) ∧ callAll f (atomsOf us) s1 = (.ok bs, s2) ∧
            h' a = some (k, vals (fillAll us bs))) ∨
         ((∃ e s1, callAll f (as₁ ++ atomsOf us) s = (.error e, s1)) ∧ h' a = h a))) ∧
      (∀ a k us, t = .mut a k us → h' a = h a) := by
  obtain ⟨N, r, hr, h', s1, hframe, hh, hg⟩ := doit_tree (f := f) (E := E) t h s hst hd hns
  rcases hg with ⟨bs', h1, _⟩ | ⟨e1, e', h1, hc, rfl, h3⟩
  · rw [hf] at h1; simp at h1
  · rw [hf] at h1
    simp only [Prod.mk.injEq, Except.error.injEq] at h1
    obtain ⟨rfl, rfl⟩ := h1
    exact ⟨h', e', hc, mogrifies_iff hr, hframe, hh, h3⟩

example : callAll (fn1 true) tree1.atoms [] = (.error (.user ()), [1, 2, 3]) := rfl
/-- the list has been updated, the dict has not, the box has not been reached -/
example : ∃ h', doit E1 (onAtoms (fn1 true)) 4 (.ref 0) (heap1, []) = some (.error (.user ()), (h', [1, 2, 3])) ∧
    h' 0 = heap1 0 ∧ h' 1 = some (.list, [.atom 10, .atom 20]) ∧ h' 2 = heap1 2 := ⟨_, rfl, rfl, rfl, rfl⟩

private theorem mapSet_atoms (go : MVal α κ → Heap α κ × σ → Option (Unpy.Mogrify.Out σ ε α κ (MVal α κ)))
    (h : Heap α κ) (hgo : ∀ a s, go (.atom a) (h, s) = some ((onAtoms f a s).1, (h, (onAtoms (κ := κ) f a s).2)))
    (as : List α) (s s' : σ) (bs : List α) (hf : callAll f as s = (.ok bs, s'))
    (hh : ∀ b ∈ bs, E.hashable (.atom b) = true) (acc : List (MVal α κ)) :
    ∃ ys, mapSet E go acc (as.map .atom) (h, s) = some (.ok ys, (h, s')) ∧
      (∀ y ∈ ys, y ∈ acc ∨ ∃ b ∈ bs, y = .atom b) ∧ (∀ y ∈ acc, y ∈ ys) ∧
      (∀ b ∈ bs, ∃ y ∈ ys, E.eqv (.atom b) y = true ∨ y = .atom b) ∧
      (acc.Pairwise (fun x y => E.eqv y x = false) → ys.Pairwise (fun x y => E.eqv y x = false)) := by
  induction as generalizing s bs acc with
  | nil =>
    simp only [callAll, Prod.mk.injEq, Except.ok.injEq] at hf
    obtain ⟨rfl, rfl⟩ := hf
    exact ⟨acc, rfl, fun y hy => .inl hy, fun y hy => hy, by simp, fun h => h⟩
  | cons a as ih =>
    simp only [callAll] at hf
    have hg := hgo a s
    simp only [onAtoms] at hg
    rcases hfa : f a s with ⟨(e | b), s1⟩
    · simp [hfa] at hf
    · simp only [hfa] at hf hg
      rcases hrest : callAll f as s1 with ⟨(e | bs'), s2⟩
      · simp [hrest] at hf
      · simp only [hrest, Prod.mk.injEq, Except.ok.injEq] at hf
        obtain ⟨rfl, rfl⟩ := hf
        obtain ⟨ys, h1, h2, h3, h4, h5⟩ := ih s1 bs' hrest (fun b hb => hh b (by simp [hb]))
          (if acc.any (E.eqv (.atom b)) then acc else acc ++ [.atom b])
        refine ⟨ys, ?_, ?_, ?_, ?_, ?_⟩
        · simp only [List.map_cons, mapSet, hg, hh b (by simp), if_true]; exact h1
        · intro y hy
          rcases h2 y hy with h | ⟨c, hc, rfl⟩
          · split at h
            · exact .inl h
            · simp only [List.mem_append, List.mem_singleton] at h
              rcases h with h | rfl
              · exact .inl h
              · exact .inr ⟨b, by simp, rfl⟩
          · exact .inr ⟨c, by simp [hc], rfl⟩
        · intro y hy
          apply h3
          split
          · exact hy
          · simp [hy]
        · intro c hc
          simp only [List.mem_cons] at hc
          rcases hc with rfl | hc
          · by_cases hany : acc.any (E.eqv (.atom c)) = true
            · obtain ⟨y, hy, he⟩ := List.any_eq_true.mp hany
              exact ⟨y, h3 y (by simp [hany, hy]), .inl he⟩
            · exact ⟨.atom c, h3 _ (by simp [hany]), .inr rfl⟩
          · exact h4 c hc
        · intro hp
          apply h5
          split
          · exact hp
          · rename_i hany
            rw [List.pairwise_append]
            refine ⟨hp, by simp, ?_⟩
            intro x hx y hy
            simp only [List.mem_singleton] at hy
            subst hy
            cases hxy : E.eqv (.atom b) x with
            | false => rfl
            | true => exact absurd (List.any_eq_true.mpr ⟨x, hx, hxy⟩) hany

/-- C85 for a set: it is the same set object afterwards, with the results for its elements as elements, each once: of
results that are equal only one is there. -/
theorem C85_mogrify_set (addr : Nat) (as : List α) (h : Heap α κ) (s s' : σ) (bs : List α)
    (hst : h addr = some (.set, as.map .atom)) (hf : callAll f as s = (.ok bs, s'))
    (hh : ∀ b ∈ bs, E.hashable (.atom b) = true) (hrefl : ∀ x, E.eqv x x = true) :
    ∃ ys, (∀ r, Mogrifies E (onAtoms f) (.ref addr) (h, s) r ↔
        r = (.ok (.ref addr), (fun a => if a = addr then some (.set, ys) else h a, s'))) ∧
      (∀ y ∈ ys, ∃ b ∈ bs, y = .atom b) ∧ (∀ b ∈ bs, ∃ y ∈ ys, E.eqv (.atom b) y = true) ∧
      ys.Pairwise (fun x y => E.eqv y x = false) := by
  have hmain : ∀ n, ∃ ys, mapSet E (doit E (onAtoms f) (n + 1)) [] (as.map .atom) (h, s) = some (.ok ys, (h, s')) ∧
      (∀ y ∈ ys, y ∈ [] ∨ ∃ b ∈ bs, y = .atom b) ∧ (∀ y ∈ [], y ∈ ys) ∧
      (∀ b ∈ bs, ∃ y ∈ ys, E.eqv (.atom b) y = true ∨ y = .atom b) ∧
      (([] : List (MVal α κ)).Pairwise (fun x y => E.eqv y x = false) → ys.Pairwise (fun x y => E.eqv y x = false)) :=
    fun n => mapSet_atoms (doit E (onAtoms f) (n + 1)) h (fun a s => rfl) as s s' bs hf hh []
  have hind : ∀ (as : List α) acc s n, mapSet E (doit E (onAtoms f) (n + 1)) acc (as.map .atom) (h, s) =
      mapSet E (doit E (onAtoms f) 1) acc (as.map .atom) (h, s) := by
    intro as
    induction as with
    | nil => intros; rfl
    | cons a as ih =>
      intro acc s n
      simp only [List.map_cons, mapSet, doit]
      rcases (onAtoms f a s : Except (Err ε) (MVal α κ) × σ) with ⟨(e | b), s1⟩
      · rfl
      · simp only
        split
        · exact ih _ _ n
        · rfl
  obtain ⟨ys, h1, h2, _, h4, h5⟩ := hmain 0
  refine ⟨ys, mogrifies_iff (N := 2) ?_, fun y hy => by simpa using h2 y hy, ?_, h5 .nil⟩
  · intro n hn
    obtain ⟨m, rfl⟩ : ∃ m, n = m + 2 := ⟨n - 2, by omega⟩
    simp only [doit, hst, items, MKind.isSet, if_true, hind as [] s m, h1]
    rfl
  · intro b hb
    obtain ⟨y, hy, he⟩ := h4 b hb
    exact ⟨y, hy, he.elim id fun e => e ▸ hrefl _⟩

/-- halving: three elements become two -/
example : ∃ h', doit E1 (onAtoms (ε := Unit) fun a s => (.ok (a / 2), s ++ [a])) 2 (.ref 5)
    (fun a => if a = 5 then some (.set, [.atom 2, .atom 3, .atom 4]) else none, []) =
      some (.ok (.ref 5), (h', [2, 3, 4])) ∧ h' 5 = some (.set, [.atom 1, .atom 2]) := ⟨_, rfl, rfl⟩

/-- C85 for a frozenset: a new frozenset is returned, with the results for its elements as elements, each once: of results that are
equal only one is there.  No mutable container is changed. -/
theorem C85_mogrify_frozenset (as : List α) (h : Heap α κ) (s s' : σ) (bs : List α)
    (hf : callAll f as s = (.ok bs, s')) (hh : ∀ b ∈ bs, E.hashable (.atom b) = true) (hrefl : ∀ x, E.eqv x x = true) :
    ∃ ys, (∀ r, Mogrifies E (onAtoms f) (.imm .frozenset (as.map .atom)) (h, s) r ↔ r = (.ok (.imm .frozenset ys), (h, s'))) ∧
      (∀ y ∈ ys, ∃ b ∈ bs, y = .atom b) ∧ (∀ b ∈ bs, ∃ y ∈ ys, E.eqv (.atom b) y = true) ∧
      ys.Pairwise (fun x y => E.eqv y x = false) := by
  have hmain : ∀ n, ∃ ys, mapSet E (doit E (onAtoms f) (n + 1)) [] (as.map .atom) (h, s) = some (.ok ys, (h, s')) ∧
      (∀ y ∈ ys, y ∈ [] ∨ ∃ b ∈ bs, y = .atom b) ∧ (∀ y ∈ [], y ∈ ys) ∧
      (∀ b ∈ bs, ∃ y ∈ ys, E.eqv (.atom b) y = true ∨ y = .atom b) ∧
      (([] : List (MVal α κ)).Pairwise (fun x y => E.eqv y x = false) → ys.Pairwise (fun x y => E.eqv y x = false)) :=
    fun n => mapSet_atoms (doit E (onAtoms f) (n + 1)) h (fun a s => rfl) as s s' bs hf hh []
  have hind : ∀ (as : List α) acc s n, mapSet E (doit E (onAtoms f) (n + 1)) acc (as.map .atom) (h, s) =
      mapSet E (doit E (onAtoms f) 1) acc (as.map .atom) (h, s) := by
    intro as
    induction as with
    | nil => intros; rfl
    | cons a as ih =>
      intro acc s n
      simp only [List.map_cons, mapSet, doit]
      rcases (onAtoms f a s : Except (Err ε) (MVal α κ) × σ) with ⟨(e | b), s1⟩
      · rfl
      · simp only
        split
        · exact ih _ _ n
        · rfl
  obtain ⟨ys, h1, h2, _, h4, h5⟩ := hmain 0
  refine ⟨ys, mogrifies_iff (N := 2) ?_, fun y hy => by simpa using h2 y hy, ?_, h5 .nil⟩
  · intro n hn
    obtain ⟨m, rfl⟩ : ∃ m, n = m + 2 := ⟨n - 2, by omega⟩
    simp only [doit, immItems, items, IKind.isSet, if_true, hind as [] s m, h1]
  · intro b hb
    obtain ⟨y, hy, he⟩ := h4 b hb
    exact ⟨y, hy, he.elim id fun e => e ▸ hrefl _⟩

/-- halving: three elements become two -/
example : doit E1 (onAtoms (ε := Unit) fun a s => (.ok (a / 2), s ++ [a])) 2 (.imm .frozenset [.atom 2, .atom 3, .atom 4])
    (heap1, []) = some (.ok (.imm .frozenset [.atom 1, .atom 2]), (heap1, [2, 3, 4])) := rfl

/-- C85 for a set, error branch: a result that is not hashable raises TypeError, and the set keeps its elements. -/
theorem C85_mogrify_set_unhashable (addr : Nat) (as₁ : List α) (a : α) (as₂ : List α) (h : Heap α κ) (s s1 s2 : σ)
    (bs : List α) (func : α → σ → Except (Err ε) (MVal α κ) × σ) (v : MVal α κ)
    (hfunc : ∀ a ∈ as₁, ∀ s, func a s = onAtoms f a s)
    (hst : h addr = some (.set, (as₁ ++ a :: as₂).map .atom)) (hf : callAll f as₁ s = (.ok bs, s1))
    (hh : ∀ b ∈ bs, E.hashable (.atom b) = true) (ha : func a s1 = (.ok v, s2)) (hv : E.hashable v = false) :
    ∀ r, Mogrifies E func (.ref addr) (h, s) r ↔ r = (.error (.py .TypeError), (h, s2)) := by
  have key : ∀ (as₁ : List α) acc s bs n, (∀ a ∈ as₁, ∀ s, func a s = onAtoms f a s) →
      callAll f as₁ s = (.ok bs, s1) → (∀ b ∈ bs, E.hashable (.atom b) = true) →
      mapSet E (doit E func (n + 1)) acc ((as₁ ++ a :: as₂).map .atom) (h, s) =
        some (.error (.py .TypeError), (h, s2)) := by
    intro as₁
    induction as₁ with
    | nil =>
      intro acc s bs n _ hf _
      simp only [callAll, Prod.mk.injEq, Except.ok.injEq] at hf
      obtain ⟨_, rfl⟩ := hf
      simp [mapSet, doit, ha, hv]
    | cons x as₁ ih =>
      intro acc s bs n hfunc hf hh
      simp only [callAll] at hf
      rcases hfx : f x s with ⟨(e | b), s3⟩
      · simp [hfx] at hf
      · simp only [hfx] at hf
        rcases hrest : callAll f as₁ s3 with ⟨(e | bs'), s4⟩
        · simp [hrest] at hf
        · simp only [hrest, Prod.mk.injEq, Except.ok.injEq] at hf
          obtain ⟨rfl, rfl⟩ := hf
          simp only [List.cons_append, List.map_cons, mapSet, doit, hfunc x (by simp) s, onAtoms, hfx,
            hh b (by simp), if_true]
          exact ih _ s3 bs' n (fun a h => hfunc a (by simp [h])) hrest (fun b hb => hh b (by simp [hb]))
  refine mogrifies_iff (N := 2) ?_
  intro n hn
  obtain ⟨m, rfl⟩ : ∃ m, n = m + 2 := ⟨n - 2, by omega⟩
  simp only [doit, hst, items, MKind.isSet, if_true, key as₁ [] s bs m hfunc hf hh]

/-- C85 fails when a mutable container occurs twice: the function is applied to its atoms twice, the second time to its
own results.  Here `[a, a]` with `a = [1]` and adding one: `a` becomes `[3]`. -/
theorem C85_shared_refuted : ∃ (E : Unpy.Mogrify.Env Nat String) (h h' : Heap Nat String),
    h 0 = some (.list, [.ref 1, .ref 1]) ∧ h 1 = some (.list, [.atom 1]) ∧
    Mogrifies E (onAtoms (ε := Unit) fun a s => (.ok (a + 1), s ++ [a])) (.ref 0) (h, []) (.ok (.ref 0), (h', [1, 2])) ∧
    h' 1 = some (.list, [.atom 3]) := by
  let h : Heap Nat String := fun a => match a with
    | 0 => some (.list, [.ref 1, .ref 1])
    | 1 => some (.list, [.atom 1])
    | _ => none
  refine ⟨E1, h, store (store (store h 1 .list [.atom 2]) 1 .list [.atom 3]) 0 .list [.ref 1, .ref 1], rfl, rfl,
    ⟨3, fun n hn => ?_⟩, rfl⟩
  obtain ⟨m, rfl⟩ : ∃ m, n = m + 3 := ⟨n - 3, by omega⟩
  rfl

/-- C85, "raises the same exception", fails for a StopIteration in a tuple: the items of a tuple are processed by a generator expression,
which replaces it by a RuntimeError.  In a list it stays a StopIteration. -/
theorem C85_stopiteration_refuted (E : Unpy.Mogrify.Env α κ) (func : α → σ → Except (Err ε) (MVal α κ) × σ) (a : α) (h : Heap α κ) (s s' : σ)
    (hf : func a s = (.error (.py .StopIteration), s')) (addr : Nat) (hl : h addr = some (.list, [.atom a])) :
    (∀ r, Mogrifies E func (.imm (.seq 0) [.atom a]) (h, s) r ↔ r = (.error (.py .RuntimeError), (h, s'))) ∧
    ∀ r, Mogrifies E func (.ref addr) (h, s) r ↔ r = (.error (.py .StopIteration), (h, s')) := by
  refine ⟨mogrifies_iff (N := 2) fun n hn => ?_, mogrifies_iff (N := 2) fun n hn => ?_⟩
  · obtain ⟨m, rfl⟩ : ∃ m, n = m + 2 := ⟨n - 2, by omega⟩
    simp [doit, immItems, items, IKind.isSet, mapAll, hf, escape]
  · obtain ⟨m, rfl⟩ : ∃ m, n = m + 2 := ⟨n - 2, by omega⟩
    simp [doit, hl, items, MKind.isSet, mapAll, hf]

/-- C85 fails for a container that contains itself: the recursion has no end. -/
theorem C85_cycle_refuted (E : Unpy.Mogrify.Env α κ) (func : α → σ → Except (Err ε) (MVal α κ) × σ) (h : Heap α κ) (s : σ)
    (addr : Nat) (rest : List (MVal α κ)) (hc : h addr = some (.list, .ref addr :: rest)) :
    ∀ r, ¬ Mogrifies E func (.ref addr) (h, s) r := by
  have key : ∀ n, doit E func n (.ref addr) (h, s) = none := by
    intro n
    induction n with
    | zero => rfl
    | succ n ih => simp [doit, hc, items, MKind.isSet, mapAll, ih]
  rintro r ⟨N, hN⟩
  have := hN N (Nat.le_refl _)
  rw [key] at this
  simp at this

/-! ## `force` -/

private def forceAtom {β : Type} : Atom β → World ε β → Except (Err ε) (Atom β) × World ε β
  | .plain b, w => (.ok (.plain b), w)
  | .lazy i, w => match w.promises i with
    | .done r => (r, w)
    | .pending r => (r, ⟨fun j => if j = i then .done r else w.promises j, w.runs ++ [i]⟩)

private theorem force1_eq {β : Type} : (force1 : Atom β → World ε β → Except (Err ε) (MVal (Atom β) κ) × World ε β) =
    onAtoms forceAtom := by
  funext a w
  cases a with
  | plain b => rfl
  | lazy i =>
    simp only [force1, onAtoms, forceAtom]
    cases w.promises i with
    | pending r => cases r <;> rfl
    | done r => cases r <;> rfl

private theorem force_calls {β : Type} (as : List (Atom β)) (w : World ε β) (bs : List (Atom β))
    (hv : as.map (valueOf w) = bs.map .ok) :
    ∃ w', callAll forceAtom as w = (.ok bs, w') ∧ (∀ a, valueOf w' a = valueOf w a) ∧
      (∃ runs, w'.runs = w.runs ++ runs ∧ runs.Nodup ∧
        ∀ i, i ∈ runs ↔ (∃ r, w.promises i = .pending r) ∧ Atom.lazy i ∈ as) ∧
      (∀ i, Atom.lazy i ∈ as ∨ (∃ r, w.promises i = .done r) → ∃ r, w'.promises i = .done r) ∧
      (∀ i, Atom.lazy i ∉ as → w'.promises i = w.promises i) := by
  induction as generalizing w bs with
  | nil =>
    cases bs with
    | cons b bs => simp at hv
    | nil => exact ⟨w, rfl, fun _ => rfl, ⟨[], by simp, by simp, by simp⟩, by simp, fun _ _ => rfl⟩
  | cons a as ih =>
    cases bs with
    | nil => simp at hv
    | cons b bs =>
    simp only [List.map_cons, List.cons.injEq] at hv
    obtain ⟨hva, hv⟩ := hv
    cases a with
    | plain c =>
      obtain ⟨w', h1, h2, h3, h4, h5⟩ := ih w bs hv
      simp only [valueOf, Except.ok.injEq] at hva
      subst hva
      exact ⟨w', by simp [callAll, forceAtom, h1], h2, by simpa using h3, by simpa using h4, by simpa using h5⟩
    | lazy i =>
      cases hp : w.promises i with
      | done r =>
        obtain ⟨w', h1, h2, ⟨runs, h3, h3', h3''⟩, h4, h5⟩ := ih w bs hv
        simp only [valueOf, hp, outcome] at hva
        subst hva
        refine ⟨w', by simp [callAll, forceAtom, hp, h1], h2, ⟨runs, h3, h3', ?_⟩, ?_, ?_⟩
        · intro j
          rw [h3'']
          constructor
          · rintro ⟨hr, hm⟩; exact ⟨hr, by simp [hm]⟩
          · rintro ⟨⟨r', hr⟩, hm⟩
            simp only [List.mem_cons, Atom.lazy.injEq] at hm
            rcases hm with rfl | hm
            · rw [hp] at hr; cases hr
            · exact ⟨⟨r', hr⟩, hm⟩
        · intro j hj
          simp only [List.mem_cons, Atom.lazy.injEq] at hj
          rcases hj with (rfl | hj) | hj
          · exact h4 _ (.inr ⟨_, hp⟩)
          · exact h4 j (.inl hj)
          · exact h4 j (.inr hj)
        · intro j hj
          exact h5 j fun h => hj (by simp [h])
      | pending r =>
        simp only [valueOf, hp, outcome] at hva
        subst hva
        let w1 : World ε β := ⟨fun j => if j = i then .done (.ok b) else w.promises j, w.runs ++ [i]⟩
        have hval : ∀ a, valueOf w1 a = valueOf w a := by
          intro a
          cases a with
          | plain c => rfl
          | lazy j =>
            simp only [valueOf, w1]
            split
            · rename_i h; subst h; rw [hp]; rfl
            · rfl
        obtain ⟨w', h1, h2, ⟨runs, h3, h3', h3''⟩, h4, h5⟩ := ih w1 bs (by rw [← hv]; exact List.map_congr_left fun a _ => hval a)
        have hi : i ∉ runs := by
          intro h
          obtain ⟨⟨r', hr⟩, _⟩ := (h3'' i).mp h
          simp [w1] at hr
        refine ⟨w', by simp only [callAll, forceAtom, hp]; rw [h1], fun a => (h2 a).trans (hval a), ⟨i :: runs, ?_, ?_, ?_⟩, ?_, ?_⟩
        · rw [h3]; simp [w1]
        · exact List.nodup_cons.mpr ⟨hi, h3'⟩
        · intro j
          simp only [List.mem_cons, h3'', Atom.lazy.injEq, w1]
          by_cases hji : j = i
          · subst hji; simp [hp]
          · simp [hji]
        · intro j hj
          apply h4
          simp only [List.mem_cons, Atom.lazy.injEq, w1] at hj ⊢
          by_cases hji : j = i
          · right; simp [hji]
          · simpa [hji] using hj
        · intro j hj
          simp only [List.mem_cons, Atom.lazy.injEq, not_or] at hj
          rw [h5 j hj.2]
          simp [w1, hj.1]

/-- C85 for `force` (under the same conditions as for `mogrify`, and with promises that do not raise): each promise in
the structure is replaced by its value, everything else stays; the thunks that are run are exactly those of the
promises in the structure that were pending, each once, however often the promise occurs; afterwards none of them is
pending.
(Missing: as for `mogrify`.  For promises that raise see `C85_force_raises_partial`.) -/
theorem C85_force_partial {β : Type} {E : Unpy.Mogrify.Env (Atom β) κ} (t : Tree (Atom β) κ) (h : Heap (Atom β) κ)
    (w : World ε β) (bs : List (Atom β)) (hst : t.Stored h) (hd : t.addrs.Nodup) (hns : t.NoSets)
    (hv : t.atoms.map (valueOf w) = bs.map .ok) :
    ∃ h' w', (∀ r, Mogrifies E force1 t.val (h, w) r ↔ r = (.ok (t.fill bs).val, (h', w'))) ∧
      (t.fill bs).Stored h' ∧ (t.fill bs).atoms = bs ∧ (∀ a, a ∉ t.addrs → h' a = h a) ∧
      (∀ a, valueOf w' a = valueOf w a) ∧ (∀ i, Atom.lazy i ∈ t.atoms → ∃ r, w'.promises i = .done r) ∧
      ∃ runs, w'.runs = w.runs ++ runs ∧ runs.Nodup ∧
        ∀ i, i ∈ runs ↔ (∃ r, w.promises i = .pending r) ∧ Atom.lazy i ∈ t.atoms := by
  obtain ⟨w', h1, h2, h3, h4, _⟩ := force_calls t.atoms w bs hv
  rw [force1_eq]
  obtain ⟨h', g1, g2, g3, _, g5⟩ := C85_mogrify_partial (E := E) t h w w' bs hst hd hns h1
  exact ⟨h', w', g1, g2, g3, g5, h2, fun i hi => h4 i (.inl hi), h3⟩

/-- a tuple with a promise in it twice, and in a list -/
example : ∃ h', doit (κ := String) ⟨fun _ _ => true, fun _ => true⟩ (force1 (ε := Unit) (β := Nat)) 3
    (.imm (.seq 0) [.atom (.lazy 7), .ref 0, .atom (.plain 1)])
    (fun a => if a = 0 then some (.list, [.atom (.lazy 7)]) else none, ⟨fun _ => .pending (.ok (.plain 42)), []⟩)
    = some (.ok (.imm (.seq 0) [.atom (.plain 42), .ref 0, .atom (.plain 1)]), h') ∧
      h'.1 0 = some (.list, [.atom (.plain 42)]) ∧ h'.2.runs = [7] := ⟨_, rfl, rfl, rfl⟩

private theorem force_fails {β : Type} (as₁ as₂ : List (Atom β)) (a : Atom β) (w : World ε β) (bs : List (Atom β)) (e : Err ε)
    (hv : as₁.map (valueOf w) = bs.map .ok) (ha : valueOf w a = .error e) :
    ∃ w', callAll forceAtom (as₁ ++ a :: as₂) w = (.error e, w') ∧ (∀ a, valueOf w' a = valueOf w a) ∧
      (∀ i, Atom.lazy i ∈ as₁ ++ [a] → ∃ r, w'.promises i = .done r) ∧
      (∃ runs, w'.runs = w.runs ++ runs ∧ runs.Nodup ∧
        ∀ i, i ∈ runs ↔ (∃ r, w.promises i = .pending r) ∧ Atom.lazy i ∈ as₁ ++ [a]) := by
  obtain ⟨w1, h1, h2, ⟨runs, h3, h4, h5⟩, h6, h7⟩ := force_calls as₁ w bs hv
  cases a with
  | plain c => exact (nomatch ha)
  | lazy i =>
    have hi : Atom.lazy i ∉ as₁ := by
      intro hm
      have hm' : valueOf w (.lazy i) ∈ as₁.map (valueOf w) := List.mem_map_of_mem hm
      rw [hv, ha] at hm'
      simp at hm'
    have hp1 := h7 i hi
    cases hp : w.promises i with
    | done r =>
      simp only [valueOf, hp, outcome] at ha
      subst ha
      refine ⟨w1, ?_, h2, ?_, runs, h3, h4, ?_⟩
      · simp only [callAll_append, h1, callAll, forceAtom, hp1, hp]
      · intro j hj
        simp only [List.mem_append, List.mem_singleton, Atom.lazy.injEq] at hj
        rcases hj with hj | rfl
        · exact h6 j (.inl hj)
        · exact h6 j (.inr ⟨_, hp⟩)
      · intro j
        rw [h5]
        simp only [List.mem_append, List.mem_singleton, Atom.lazy.injEq]
        constructor
        · rintro ⟨g, g'⟩; exact ⟨g, .inl g'⟩
        · rintro ⟨⟨r, g⟩, g' | rfl⟩
          · exact ⟨⟨r, g⟩, g'⟩
          · rw [hp] at g; cases g
    | pending r =>
      simp only [valueOf, hp, outcome] at ha
      subst ha
      refine ⟨⟨fun j => if j = i then .done (.error e) else w1.promises j, w1.runs ++ [i]⟩, ?_, ?_, ?_, runs ++ [i], ?_, ?_, ?_⟩
      · simp only [callAll_append, h1, callAll, forceAtom, hp1, hp]
      · intro b
        rw [← h2 b]
        cases b with
        | plain c => rfl
        | lazy j =>
          simp only [valueOf]
          split
          · rename_i g; subst g; rw [hp1, hp]; rfl
          · rfl
      · intro j hj
        simp only [List.mem_append, List.mem_singleton, Atom.lazy.injEq] at hj
        by_cases g : j = i
        · exact ⟨.error e, by simp [g]⟩
        · simp only [g, if_false]
          rcases hj with hj | hj
          · exact h6 j (.inl hj)
          · exact absurd hj g
      · simp [h3]
      · rw [List.nodup_append]
        refine ⟨h4, by simp, ?_⟩
        intro x hx y hy hxy
        simp only [List.mem_singleton] at hy
        subst hy; subst hxy
        exact hi ((h5 x).mp hx).2
      · intro j
        simp only [List.mem_append, List.mem_singleton, Atom.lazy.injEq, h5]
        constructor
        · rintro (⟨g, g'⟩ | rfl)
          · exact ⟨g, .inl g'⟩
          · exact ⟨⟨_, hp⟩, .inr rfl⟩
        · rintro ⟨g, g' | rfl⟩
          · exact .inl ⟨g, g'⟩
          · exact .inr rfl

private theorem force_cases {β : Type} (w : World ε β) (as : List (Atom β)) : (∃ bs : List (Atom β), as.map (valueOf w) = bs.map .ok) ∨
    ∃ (as₁ : List (Atom β)) (a : Atom β) (as₂ bs : List (Atom β)) (e : Err ε), as = as₁ ++ a :: as₂ ∧ as₁.map (valueOf w) = bs.map .ok ∧ valueOf w a = .error e := by
  induction as with
  | nil => exact .inl ⟨[], rfl⟩
  | cons a as ih =>
    cases ha : valueOf w a with
    | error e => exact .inr ⟨[], a, as, [], e, rfl, rfl, ha⟩
    | ok b =>
      rcases ih with ⟨bs, h⟩ | ⟨as₁, a', as₂, bs, e, h1, h2, h3⟩
      · exact .inl ⟨b :: bs, by simp [ha, h]⟩
      · exact .inr ⟨a :: as₁, a', as₂, b :: bs, e, by simp [h1], by simp [ha, h2], h3⟩

private theorem force_calls_ok {β : Type} {as : List (Atom β)} {w w' : World ε β} {bs : List (Atom β)}
    (h : callAll forceAtom as w = (.ok bs, w')) : as.map (valueOf w) = bs.map .ok ∧ ∀ a, valueOf w' a = valueOf w a := by
  rcases force_cases w as with ⟨bs', hb⟩ | ⟨as₁, a, as₂, bs', e, rfl, h2, h3⟩
  · obtain ⟨w1, g1, g2, _⟩ := force_calls as w bs' hb
    rw [h] at g1
    simp only [Prod.mk.injEq, Except.ok.injEq] at g1
    obtain ⟨rfl, rfl⟩ := g1
    exact ⟨hb, g2⟩
  · obtain ⟨w1, g1, _⟩ := force_fails as₁ as₂ a w bs' e h2 h3
    rw [h] at g1
    simp at g1

/-- C85 for `force` when a promise raises (under the same conditions as for `mogrify`): let `a` be the first promise of the
structure, in the order of its atoms, whose thunk raises, or has raised when it was forced before.  Then `force` raises that
same exception (again, but for a StopIteration); the thunks that are run are exactly those of the pending promises up to `a`, each once: none after `a` is
run; no promise changes its value or its exception, and those up to `a` are not pending any more.  A mutable container whose items, and everything before them, do not
raise holds the values of all its items; every other one holds its old items, and so does the outermost one.
(Missing: as for `mogrify`.) -/
theorem C85_force_raises_partial {β : Type} {E : Unpy.Mogrify.Env (Atom β) κ} (t : Tree (Atom β) κ) (h : Heap (Atom β) κ)
    (w : World ε β) (as₁ as₂ : List (Atom β)) (a : Atom β) (bs : List (Atom β)) (e : Err ε) (hst : t.Stored h)
    (hd : t.addrs.Nodup) (hns : t.NoSets) (hat : t.atoms = as₁ ++ a :: as₂) (hv : as₁.map (valueOf w) = bs.map .ok)
    (ha : valueOf w a = .error e) :
    ∃ h' w' e', ComesOut t.hasTuple e e' ∧ (∀ r, Mogrifies E force1 t.val (h, w) r ↔ r = (.error e', (h', w'))) ∧
      (∀ b, b ∉ t.addrs → h' b = h b) ∧
      (∀ b k us, Tree.mut b k us ∈ t.parts → ∃ xs ys, t.atoms = xs ++ atomsOf us ++ ys ∧
        ((∃ cs ds : List (Atom β), xs.map (valueOf w) = cs.map .ok ∧ (atomsOf us).map (valueOf w) = ds.map .ok ∧
            h' b = some (k, vals (fillAll us ds))) ∨
         ((∃ x ∈ xs ++ atomsOf us, ∃ e', valueOf w x = .error e') ∧ h' b = h b))) ∧
      (∀ b k us, t = .mut b k us → h' b = h b) ∧
      (∀ x, valueOf w' x = valueOf w x) ∧ (∀ i, Atom.lazy i ∈ as₁ ++ [a] → ∃ r, w'.promises i = .done r) ∧
      ∃ runs, w'.runs = w.runs ++ runs ∧ runs.Nodup ∧
        ∀ i, i ∈ runs ↔ (∃ r, w.promises i = .pending r) ∧ Atom.lazy i ∈ as₁ ++ [a] := by
  obtain ⟨w', h1, h2, h3, h3'⟩ := force_fails as₁ as₂ a w bs e hv ha
  rw [force1_eq]
  obtain ⟨h', e', g0, g1, g2, g3, g4⟩ := C85_mogrify_raises_partial (E := E) t h w w' e hst hd hns (by rw [hat]; exact h1)
  refine ⟨h', w', e', g0, g1, g2, ?_, g4, h2, h3, h3'⟩
  intro b k us hm
  obtain ⟨xs, ys, k1, k2⟩ := g3 b k us hm
  refine ⟨xs, ys, k1, ?_⟩
  rcases k2 with ⟨cs, s1, ds, s2, q1, q2, q3⟩ | ⟨⟨e', s1, q1⟩, q2⟩
  · obtain ⟨r1, r2⟩ := force_calls_ok q1
    obtain ⟨r3, _⟩ := force_calls_ok q2
    exact .inl ⟨cs, ds, r1, by rw [← r3]; exact List.map_congr_left fun x _ => (r2 x).symm, q3⟩
  · refine .inr ⟨?_, q2⟩
    rcases force_cases w (xs ++ atomsOf us) with ⟨bs', hb⟩ | ⟨zs, x, zs', _, e', hz, _, hx⟩
    · obtain ⟨w1, p1, _⟩ := force_calls _ w bs' hb
      rw [q1] at p1
      simp at p1
    · exact ⟨x, by rw [hz]; simp, e', hx⟩

/-- a tuple of a list, a promise that raises, and a list with a promise that is not run -/
example : ∃ h', doit (κ := String) ⟨fun _ _ => true, fun _ => true⟩ (force1 (ε := Unit) (β := Nat)) 3
    (.imm (.seq 0) [.ref 0, .atom (.lazy 8), .ref 1])
    (fun a => if a = 0 then some (.list, [.atom (.lazy 7)]) else some (.list, [.atom (.lazy 9)]),
      ⟨fun i => .pending (if i = 8 then .error (.user ()) else .ok (.plain 42)), []⟩)
    = some (.error (.user ()), h') ∧ h'.1 0 = some (.list, [.atom (.plain 42)]) ∧ h'.1 1 = some (.list, [.atom (.lazy 9)]) ∧
      h'.2.runs = [7, 8] := ⟨_, rfl, rfl, rfl, rfl⟩

/-- C85, limit of the statement: a promise whose value is a promise is forced once only; `force` does not look into
what it got. -/
theorem C85_force_shallow {β : Type} {E : Unpy.Mogrify.Env (Atom β) κ} (i j : Nat) (h : Heap (Atom β) κ) (w : World ε β)
    (hi : w.promises i = .done (.ok (.lazy j))) :
    ∀ r, Mogrifies E force1 (.atom (.lazy i)) (h, w) r ↔ r = (.ok (.atom (.lazy j)), (h, w)) := by
  refine mogrifies_iff (N := 1) ?_
  intro n hn
  obtain ⟨m, rfl⟩ : ∃ m, n = m + 1 := ⟨n - 1, by omega⟩
  simp [doit, force1, hi, Except.map]

end Unpy.Props
