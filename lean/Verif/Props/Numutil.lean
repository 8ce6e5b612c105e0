import Verif.Proof.Numutil
/-!
# Properties C53 and C66: integer partitions, fixed points
-/
namespace Unpy.Props
open Unpy Unpy.Numutil Unpy.Numutil.Spec

/-! ## C53 -/

/-- C53: `partition_int_custom` yields exactly the sequences of components that sum to `n`, each once if the components
are distinct. -/
theorem C53_custom (n : Int) (components : List Int) (hn : 1 ≤ n) (hc : ∀ x ∈ components, 1 ≤ x ∧ x ≤ n) :
    ∃ L, partitionIntCustom n components = .ok L ∧ (∀ l, l ∈ L ↔ IsComposition (· ∈ components) n l) ∧
      (components.Nodup → L.Nodup) :=
  customAux_spec _ n components (Nat.lt_succ_self _) hn hc

example : partitionIntCustom 5 [3, 2] = .ok [[3, 2], [2, 3]] := by decide

/-- C53: and raises `ValueError` if `n` or a component is out of range. -/
theorem C53_custom_invalid (n : Int) (components : List Int)
    (h : n < 1 ∨ ∃ x ∈ components, x < 1 ∨ n < x) : partitionIntCustom n components = .error .ValueError := by
  unfold partitionIntCustom customAux
  by_cases hn : n < 1
  · rw [if_pos hn]
  · rw [if_neg hn, if_pos]
    rcases h with h | ⟨x, hx, h⟩
    · exact absurd h hn
    · exact List.any_eq_true.mpr ⟨x, hx, by simp; omega⟩

example : partitionIntCustom 5 [6] = .error .ValueError := by decide

/-- C53: `partition_int` yields exactly the sequences of integers from `lower` to `upper` that sum to `n`, each
once. -/
theorem C53_partition_int (n lower : Int) (upper : Option Int) (h1 : 1 ≤ lower) (h2 : lower ≤ upper.getD n)
    (h3 : upper.getD n ≤ n) :
    ∃ L, partitionInt n lower upper = .ok L ∧
      (∀ l, l ∈ L ↔ IsComposition (fun x => lower ≤ x ∧ x ≤ upper.getD n) n l) ∧ L.Nodup := by
  have hmem : ∀ x, x ∈ downFrom (min n (upper.getD n)) (min n (upper.getD n) - (lower - 1)).toNat ↔
      lower ≤ x ∧ x ≤ upper.getD n := by
    intro x; rw [mem_downFrom]; omega
  obtain ⟨L, e, hL, hnd⟩ := C53_custom n (downFrom (min n (upper.getD n)) (min n (upper.getD n) - (lower - 1)).toNat)
    (by omega) (fun x hx => by have := (hmem x).mp hx; omega)
  refine ⟨L, ?_, fun l => ?_, hnd (nodup_downFrom _ _)⟩
  · unfold partitionInt
    simp only
    rw [if_neg (by omega), if_neg (by simp; omega)]
    exact e
  · rw [hL l]; unfold IsComposition
    simp only [hmem]

example : partitionInt 4 1 none = .ok [[4], [3, 1], [2, 2], [2, 1, 1], [1, 3], [1, 2, 1], [1, 1, 2], [1, 1, 1, 1]] := by
  decide
example : partitionInt 7 2 (some 3) = .ok [[3, 2, 2], [2, 3, 2], [2, 2, 3]] := by decide

/-- C53: `partition_int_triangular` yields exactly the sequences of triangular numbers from `lower` to `upper` that
sum to `n`, each once. -/
theorem C53_triangular (n lower : Int) (upper : Option Int) (h1 : 1 ≤ lower) (h2 : lower ≤ upper.getD n)
    (h3 : upper.getD n ≤ n) :
    ∃ L, partitionIntTriangular n lower upper = .ok L ∧
      (∀ l, l ∈ L ↔ IsComposition (fun x => Triangular x ∧ lower ≤ x ∧ x ≤ upper.getD n) n l) ∧ L.Nodup := by
  obtain ⟨ht1, ht2⟩ := triangularUpto_spec n (n.toNat + 1) 1 1 (by omega) (by decide) (by omega)
  have hmem : ∀ x, x ∈ ((triangularUpto n (n.toNat + 1) 1 2).filter
      (fun m => decide (lower ≤ m) && decide (m ≤ upper.getD n))).reverse ↔
      Triangular x ∧ lower ≤ x ∧ x ≤ upper.getD n := by
    intro x
    have e : triangularUpto n (n.toNat + 1) 1 2 = triangularUpto n (n.toNat + 1) 1 ((1 : Nat) + 1) := rfl
    rw [List.mem_reverse, List.mem_filter, e, ht1]
    simp only [Bool.and_eq_true, decide_eq_true_eq, Triangular]
    constructor
    · rintro ⟨⟨h4, j, h5⟩, h6⟩; exact ⟨⟨j, h5⟩, h6⟩
    · rintro ⟨⟨j, h5⟩, h6⟩; exact ⟨⟨by omega, j, h5⟩, h6⟩
  obtain ⟨L, e, hL, hnd⟩ := C53_custom n _ (by omega) (fun x hx => by have := (hmem x).mp hx; omega)
  refine ⟨L, ?_, fun l => ?_, hnd ((List.reverse_perm _).nodup_iff.mpr (ht2.filter _))⟩
  · unfold partitionIntTriangular
    simp only
    rw [if_neg (by omega), if_neg (by simp; omega)]
    exact e
  · rw [hL l]; unfold IsComposition
    simp only [hmem]

example : partitionIntTriangular 9 3 none = .ok [[6, 3], [3, 6], [3, 3, 3]] := by decide

/-- C53: limits out of range are rejected. -/
theorem C53_limits (n lower : Int) (upper : Option Int)
    (h : ¬ (1 ≤ lower ∧ lower ≤ upper.getD n ∧ upper.getD n ≤ n)) :
    partitionInt n lower upper = .error .ValueError ∧ partitionIntTriangular n lower upper = .error .ValueError := by
  unfold partitionInt partitionIntTriangular
  simp only
  by_cases hn : n < 1
  · simp only [if_pos hn, and_self]
  · rw [if_neg hn, if_neg hn, if_pos (by simp; omega), if_pos (by simp; omega)]
    exact ⟨rfl, rfl⟩

example : partitionInt 3 2 (some 1) = .error .ValueError := by decide

/-! ## C66 -/

variable {α ε : Type}

/-- C66: if `fixpoint` returns `x`, then `x` and the iterate before it are the first two successive iterates that are
close. -/
theorem C66_returns (close : α → α → Bool) (f : α → Except ε α) (steps : Nat) (x0 x : α)
    (h : fixpoint close f steps x0 = some (.ok x)) :
    ∃ i a, Iterate f x0 i a ∧ f a = .ok x ∧ close a x = true ∧
      ∀ j c d, j < i → Iterate f x0 j c → f c = .ok d → close c d = false := by
  have uniq : ∀ {x0 : α} {i a}, Iterate f x0 i a → ∀ {b}, Iterate f x0 i b → a = b := by
    intro x0 i a h1
    induction h1 with
    | zero => intro b h2; cases h2; rfl
    | succ h1 hf ih =>
      intro b h2
      cases h2 with
      | succ h2 hf2 => have := ih h2; subst this; rw [hf] at hf2; cases hf2; rfl
  have shift : ∀ {x0 x1 : α} (_ : f x0 = .ok x1) {i a}, Iterate f x1 i a → Iterate f x0 (i + 1) a := by
    intro x0 x1 h0 i a h1
    induction h1 with
    | zero => exact .succ .zero h0
    | succ _ hf ih => exact .succ ih hf
  have unshift : ∀ {x0 x1 : α} (_ : f x0 = .ok x1) {i a}, Iterate f x0 (i + 1) a → Iterate f x1 i a := by
    intro x0 x1 h0 i
    induction i with
    | zero =>
      intro a h1
      cases h1 with
      | succ h1 hf => cases h1; rw [h0] at hf; cases hf; exact .zero
    | succ i ih =>
      intro a h1
      cases h1 with
      | succ h1 hf => exact .succ (ih h1) hf
  induction steps generalizing x0 with
  | zero => cases h
  | succ steps ih =>
    rw [fixpoint] at h
    split at h
    · cases h
    · rename_i b hb
      split at h
      · rename_i hc
        cases h
        exact ⟨0, x0, .zero, hb, hc, fun j c d hj => absurd hj (by omega)⟩
      · rename_i hc
        obtain ⟨i, a, h1, h2, h3, h4⟩ := ih b h
        refine ⟨i + 1, a, shift hb h1, h2, h3, fun j c d hj hc' hd => ?_⟩
        cases j with
        | zero => cases hc'; rw [hb] at hd; cases hd; simpa using hc
        | succ j => exact h4 j c d (by omega) (unshift hb hc') hd

example : fixpoint (ε := PyErr) (fun a b => decide ((a - b : Int).natAbs ≤ 0)) (fun x => .ok (x / 2 + 1)) 10 100 =
    some (.ok 2) := by decide

/-- C66: with zero tolerance, what is returned is a fixed point. -/
theorem C66_fixed_point (close : α → α → Bool) (hclose : ∀ a b, close a b = true → a = b) (f : α → Except ε α)
    (steps : Nat) (x0 x : α) (h : fixpoint close f steps x0 = some (.ok x)) : f x = .ok x := by
  obtain ⟨i, a, -, h2, h3, -⟩ := C66_returns close f steps x0 x h
  have := hclose a x h3
  subst this
  exact h2

example : (fun a b : Int => decide ((a - b).natAbs ≤ 0)) 3 3 = true ∧
    ∀ a b : Int, decide ((a - b).natAbs ≤ 0) = true → a = b := ⟨by decide, by simp; omega⟩

/-- C66: it returns, if the iteration gets to two successive iterates that are close. -/
theorem C66_converges (close : α → α → Bool) (f : α → Except ε α) (x0 : α) (i : Nat) (a x : α)
    (h1 : Iterate f x0 i a) (h2 : f a = .ok x) (h3 : close a x = true) :
    ∃ y, fixpoint close f (i + 1) x0 = some (.ok y) := by
  have unshift : ∀ {x0 x1 : α} (_ : f x0 = .ok x1) {i a}, Iterate f x0 (i + 1) a → Iterate f x1 i a := by
    intro x0 x1 h0 i
    induction i with
    | zero =>
      intro a h1
      cases h1 with
      | succ h1 hf => cases h1; rw [h0] at hf; cases hf; exact .zero
    | succ i ih =>
      intro a h1
      cases h1 with
      | succ h1 hf => exact .succ (ih h1) hf
  have first : ∀ {x0 : α} {i a}, Iterate f x0 (i + 1) a → ∃ b, f x0 = .ok b := by
    intro x0 i
    induction i with
    | zero => intro a h; cases h with | succ h hf => cases h; exact ⟨_, hf⟩
    | succ i ih => intro a h; cases h with | succ h hf => exact ih h
  induction i generalizing x0 with
  | zero =>
    cases h1
    exact ⟨x, by rw [fixpoint, h2]; simp [h3]⟩
  | succ i ih =>
    obtain ⟨b, hb⟩ := first h1
    rw [fixpoint, hb]
    simp only
    split
    · exact ⟨b, rfl⟩
    · exact ih b (unshift hb h1)

example : Iterate (ε := PyErr) (fun x : Int => .ok (x / 2 + 1)) 4 2 2 := .succ (.succ (b := 3) .zero (by decide)) (by decide)

/-- C66: and what `f` raises on the way comes out. -/
theorem C66_raises (close : α → α → Bool) (f : α → Except ε α) (steps : Nat) (x0 : α) (e : ε)
    (h : fixpoint close f steps x0 = some (.error e)) : ∃ i a, Iterate f x0 i a ∧ f a = .error e := by
  have shift : ∀ {x0 x1 : α} (_ : f x0 = .ok x1) {i a}, Iterate f x1 i a → Iterate f x0 (i + 1) a := by
    intro x0 x1 h0 i a h1
    induction h1 with
    | zero => exact .succ .zero h0
    | succ _ hf ih => exact .succ ih hf
  induction steps generalizing x0 with
  | zero => cases h
  | succ steps ih =>
    rw [fixpoint] at h
    split at h
    · rename_i e' he; cases h; exact ⟨0, x0, .zero, he⟩
    · rename_i b hb
      split at h
      · cases h
      · obtain ⟨i, a, h1, h2⟩ := ih b h
        exact ⟨i + 1, a, shift hb h1, h2⟩

example : fixpoint (fun a b : Int => decide (a = b)) (fun x => if x > 5 then .error PyErr.ValueError else .ok (x + 1))
    20 0 = some (.error .ValueError) := by decide

end Unpy.Props
