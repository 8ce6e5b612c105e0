import Verif.Spec.ForceArgs
/-!
# Ordinary arguments are passed on as they are
-/
namespace Unpy.Proof.ForceArgs
open Unpy Unpy.ForceArgs Unpy.Spec.ForceArgs

variable {α σ R : Type}

theorem mapAll_id (go : Obj α → Heap α → Res (Obj α) × Heap α) (h : Heap α) (xs : List (Obj α))
    (hx : ∀ x ∈ xs, go x h = (.ok x, h)) : mapAll go xs h = (.ok xs, h) := by
  induction xs with
  | nil => rfl
  | cons x xs ih =>
    simp only [mapAll, hx x (List.mem_cons_self ..), ih fun y hy => hx y (List.mem_cons_of_mem _ hy)]

theorem mapSet_id (E : Env α) (go : Obj α → Heap α → Res (Obj α) × Heap α) (h : Heap α) (xs acc : List (Obj α))
    (hx : ∀ x ∈ xs, go x h = (.ok x, h)) (hh : ∀ x ∈ xs, E.hashable x = true)
    (hd : (acc ++ xs).Pairwise fun x y => E.eqv y x = false) : mapSet E go acc xs h = (.ok (acc ++ xs), h) := by
  induction xs generalizing acc with
  | nil => simp [mapSet]
  | cons x xs ih =>
    have hany : acc.any (E.eqv x) = false := by
      rw [List.any_eq_false]
      intro y hy hxy
      have := (List.pairwise_append.1 hd).2.2 y hy x (List.mem_cons_self ..)
      rw [this] at hxy; exact absurd hxy (by simp)
    simp only [mapSet, hx x (List.mem_cons_self ..), hh x (List.mem_cons_self ..), if_true, hany]
    have := ih (acc ++ [x]) (fun y hy => hx y (List.mem_cons_of_mem _ hy)) (fun y hy => hh y (List.mem_cons_of_mem _ hy))
      (by simpa using hd)
    simpa using this

theorem store_same (h : Heap α) (addr : Nat) (k : MKind α) (xs : List (Obj α)) (ha : h addr = some (k, xs)) :
    store h addr k xs = h := by
  funext a; unfold store; split
  · subst a; exact ha.symm
  · rfl

theorem doit_plain (E : Env α) (h : Heap α) (n : Nat) (x : Obj α) (hx : Plain E h n x) (d : Nat) (hd : n ≤ d) :
    doit E d x h = (.ok x, h) := by
  induction n generalizing x d with
  | zero => exact hx.elim
  | succ n ih =>
    obtain ⟨d, rfl⟩ : ∃ m, d = m + 1 := ⟨d - 1, by omega⟩
    cases x with
    | atom a => rfl
    | imm k xs =>
      obtain ⟨hxs, hc, hs⟩ := hx
      have hgo : ∀ x ∈ xs, doit E d x h = (.ok x, h) := fun x hx => ih x (hxs x hx) d (by omega)
      have hbuild : k.buildable E = true := by
        cases k <;> first | rfl | exact hc _ rfl
      simp only [doit, hbuild, if_true]
      cases hk : k.isSet with
      | false => simp only [Bool.false_eq_true, if_false, mapAll_id _ h xs hgo]
      | true =>
        have hset : SetLike E xs := hs (by cases k <;> simp_all [IKind.isSet])
        simp only [if_true, mapSet_id E _ h xs [] hgo hset.1 (by simpa using hset.2), List.nil_append]
    | ref addr =>
      obtain ⟨k, xs, ha, hxs, hs⟩ := hx
      have hgo : ∀ x ∈ xs, doit E d x h = (.ok x, h) := fun x hx => ih x (hxs x hx) d (by omega)
      simp only [doit, ha]
      cases hk : k.isSet with
      | false => simp only [Bool.false_eq_true, if_false, mapAll_id _ h xs hgo, store_same h addr k xs ha]
      | true =>
        have hset : SetLike E xs := hs (by cases k <;> simp_all [MKind.isSet])
        simp only [if_true, mapSet_id E _ h xs [] hgo hset.1 (by simpa using hset.2), List.nil_append,
          store_same h addr k xs ha]
    | view w addr => exact hx.elim

theorem maybeForceArgs_plain (E : Env α) (n d : Nat) (hd : n ≤ d) (f : Func α σ R) (args : List (Obj α))
    (kwargs : PyDict String (Obj α)) (h : Heap α) (s : σ) (hf : PyDict.has kwargs "f" = false)
    (ha : ∀ x ∈ args, Plain E h n x) (hk : ∀ p ∈ kwargs, Plain E h n p.2) :
    maybeForceArgs E d f args kwargs h s = f.body args kwargs h s := by
  unfold maybeForceArgs
  simp only [hf, Bool.false_eq_true, if_false]
  split
  · rfl
  · rw [mapAll_id _ h args fun x hx => doit_plain E h n x (ha x hx) d hd]
    simp only []
    rw [mapAll_id _ h (kwargs.map Prod.snd) fun x hx => by
      obtain ⟨p, hp, rfl⟩ := List.mem_map.1 hx
      exact doit_plain E h n p.2 (hk p hp) d hd]
    simp only []
    have : List.zip (kwargs.map Prod.fst) (kwargs.map Prod.snd) = kwargs := by
      induction kwargs with
      | nil => rfl
      | cons p ps _ => simp [List.zip_map']
    rw [this]

end Unpy.Proof.ForceArgs
