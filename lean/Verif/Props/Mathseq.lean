import Verif.Proof.Mathseq
import Mathlib.Data.List.TakeWhile
/-!
# Properties C54, C55, C57: diagonal sums, number sequences, termwise arithmetic
-/
namespace Unpy.Props
open Unpy Unpy.Mathseq Unpy.Mathseq.Spec

variable {α β γ δ : Type}

/-! ## C54 -/

/-- C54: `diagonal_reduce` reduces, for `k = 0, 1, ...`, the combination of the pairs `a[i], b[k-i]` that can be formed,
and stops at the first `k` that has no term. -/
theorem C54_diagonal_reduce (all : Bool) (combine : List α → List β → γ) (reduce : γ → δ) (a : Iter α) (b : Iter β)
    (count : Nat) :
    diagonalReduce all combine reduce a b count = ((List.range count).takeWhile (hasTerm all a b)).map (fun k =>
      reduce (combine ((diagonalPairs a b k).map Prod.fst) ((diagonalPairs a b k).map Prod.snd))) := by
  have := diagonalFrom_eq all combine reduce a b count 0
  simpa [diagonalReduce] using this

example : diagonalReduce false (fun xs ys => List.zip xs ys) id (.fin [1, 2]) (.inf (fun i => 10 * i)) 3 =
    [[(1, 0)], [(1, 10), (2, 0)], [(1, 20), (2, 10)]] := by decide

private theorem filterMap_length (f : α → Option β) (l : List α) :
    (l.filterMap f).length = l.length ↔ ∀ x ∈ l, (f x).isSome = true := by
  induction l with
  | nil => simp
  | cons x l ih =>
    have := List.length_filterMap_le f l
    cases h : f x with
    | none => simp [h]; omega
    | some y => simp [h, ih]

/-- C54: the condition for a term. -/
theorem C54_has_term (a : Iter α) (b : Iter β) (k : Nat) :
    (hasTerm false a b k = true ↔ ∃ i, i ≤ k ∧ (a.get? i).isSome ∧ (b.get? (k - i)).isSome) ∧
    (hasTerm true a b k = true ↔ ∀ i, i ≤ k → (a.get? i).isSome ∧ (b.get? (k - i)).isSome) := by
  have hp : ∀ i, (pairAt a b k i).isSome = ((a.get? i).isSome && (b.get? (k - i)).isSome) := by
    intro i
    unfold pairAt
    cases a.get? i <;> cases b.get? (k - i) <;> rfl
  constructor
  · unfold hasTerm diagonalPairs
    simp only [Bool.false_eq_true, if_false, Bool.not_eq_true', List.isEmpty_eq_false_iff, ne_eq,
      List.filterMap_eq_nil_iff, List.mem_range]
    constructor
    · intro h
      refine Classical.byContradiction fun hno => h fun i hi => ?_
      have := hp i
      rw [← Option.not_isSome_iff_eq_none, this]
      intro hc
      simp only [Bool.and_eq_true] at hc
      exact hno ⟨i, by omega, hc⟩
    · rintro ⟨i, hi, h1, h2⟩ h
      have := hp i
      rw [h i (by omega), h1, h2] at this
      cases this
  · unfold hasTerm diagonalPairs
    simp only [if_true, beq_iff_eq]
    have := filterMap_length (pairAt a b k) (List.range (k + 1))
    rw [List.length_range] at this
    rw [this]
    simp only [hp, Bool.and_eq_true, List.mem_range, Nat.lt_succ_iff]

/-- C54: term `k` of `cauchyprod` is the sum of `a[i] * b[k-i]` over the pairs that can be formed. -/
theorem C54_cauchyprod (all : Bool) (a b : Iter Int) (count : Nat) :
    cauchyprod all a b count = ((List.range count).takeWhile (hasTerm all a b)).map (fun k =>
      ((diagonalPairs a b k).map (fun p => p.1 * p.2)).sum) := by
  unfold cauchyprod
  rw [C54_diagonal_reduce]
  apply List.map_congr_left
  intro k _
  have e : ∀ (l : List (Int × Int)), List.zipWith (· * ·) (l.map Prod.fst) (l.map Prod.snd) =
      l.map (fun p => p.1 * p.2) := by
    intro l
    induction l with
    | nil => rfl
    | cons p l ih => simp [ih]
  rw [e]
  have f : ∀ (l : List Int) (z : Int), l.foldl (· + ·) z = z + l.sum := by
    intro l
    induction l with
    | nil => simp
    | cons x l ih => intro z; rw [List.foldl_cons, ih, List.sum_cons]; omega
  rw [f]; omega

example : cauchyprod false (.fin [1, 2]) (.fin [3, 4]) 10 = [3, 10, 8] := by decide
example : cauchyprod true (.fin [1, 2]) (.fin [3, 4]) 10 = [3, 10] := by decide

private theorem takeWhile_range (p : Nat → Bool) (count T : Nat) (h : ∀ k, k < count → (p k = true ↔ k < T)) :
    (List.range count).takeWhile p = List.range (min count T) := by
  induction count with
  | zero => simp
  | succ n ih =>
    have ih := ih (fun k hk => h k (by omega))
    rw [List.range_succ]
    by_cases hT : T ≤ n
    · have e : min (n + 1) T = min n T := by omega
      have hne : (List.range n).takeWhile p ≠ List.range n ∨ p n = false := by
        right
        have := h n (by omega)
        cases hp : p n with
        | false => rfl
        | true => have := this.mp hp; omega
      rw [e, ← ih, List.takeWhile_append]
      split
      · rcases hne with hne | hne
        · rename_i hl
          exact absurd (List.IsPrefix.eq_of_length (List.takeWhile_prefix p) hl) hne
        · simp [List.takeWhile_cons, hne]
          rename_i hl
          exact (List.IsPrefix.eq_of_length (List.takeWhile_prefix p) (by simpa using hl)).symm
      · rfl
    · have hall : ∀ x ∈ List.range n ++ [n], p x = true := by
        intro x hx
        rw [← List.range_succ, List.mem_range] at hx
        exact (h x hx).mpr (by omega)
      have e : min (n + 1) T = n + 1 := by omega
      rw [e, List.range_succ, List.takeWhile_eq_self_iff]
      exact hall

private theorem isSome_getElem? (l : List α) (i : Nat) : l[i]?.isSome = true ↔ i < l.length := by simp

/-- C54: finite inputs give `len(a) + len(b) - 1` terms with `require="any"` (none if one of them is empty), and
`min(len(a), len(b))` with `require="all"`. -/
theorem C54_length (combine : List α → List β → γ) (reduce : γ → δ) (a : List α) (b : List β) (count : Nat) :
    (diagonalReduce false combine reduce (.fin a) (.fin b) count).length =
      min count (if a = [] ∨ b = [] then 0 else a.length + b.length - 1) ∧
    (diagonalReduce true combine reduce (.fin a) (.fin b) count).length = min count (min a.length b.length) := by
  constructor
  · rw [C54_diagonal_reduce, List.length_map, takeWhile_range _ count (if a = [] ∨ b = [] then 0 else a.length + b.length - 1),
      List.length_range]
    intro k _
    rw [(C54_has_term _ _ k).1]
    simp only [Iter.get?, isSome_getElem?]
    split
    · rename_i h
      constructor
      · rintro ⟨i, hi, h1, h2⟩
        rcases h with rfl | rfl
        · simp at h1
        · simp at h2
      · omega
    · rename_i h
      have ha : 0 < a.length := by cases a <;> simp_all
      have hb : 0 < b.length := by cases b <;> simp_all
      constructor
      · rintro ⟨i, hi, h1, h2⟩; omega
      · intro hk
        refine ⟨min k (a.length - 1), by omega, by omega, by omega⟩
  · rw [C54_diagonal_reduce, List.length_map, takeWhile_range _ count (min a.length b.length), List.length_range]
    intro k _
    rw [(C54_has_term _ _ k).2]
    simp only [Iter.get?, isSome_getElem?]
    constructor
    · intro h
      have h1 := h k (Nat.le_refl _)
      have h2 := h 0 (by omega)
      simp at h1 h2
      omega
    · intro hk i hi; omega

/-- C54: an infinite input: with `require="any"` there is no end unless the other one is empty; with `require="all"` the
other one decides. -/
theorem C54_length_infinite (combine : List α → List β → γ) (reduce : γ → δ) (a : Nat → α) (b : List β) (b' : Nat → β)
    (count : Nat) :
    (diagonalReduce false combine reduce (.inf a) (.fin b) count).length = (if b = [] then 0 else count) ∧
    (diagonalReduce true combine reduce (.inf a) (.fin b) count).length = min count b.length ∧
    (∀ all, (diagonalReduce all combine reduce (.inf a) (.inf b') count).length = count) := by
  refine ⟨?_, ?_, ?_⟩
  · have : (if b = [] then 0 else count) = min count (if b = [] then 0 else count) := by split <;> omega
    rw [C54_diagonal_reduce, List.length_map, this, takeWhile_range _ count (if b = [] then 0 else count), List.length_range]
    intro k hk
    rw [(C54_has_term _ _ k).1]
    simp only [Iter.get?, isSome_getElem?]
    split
    · rename_i h; subst h; simp
    · rename_i h
      have hb : 0 < b.length := by cases b <;> simp_all
      exact ⟨fun _ => hk, fun _ => ⟨k, Nat.le_refl _, rfl, by omega⟩⟩
  · rw [C54_diagonal_reduce, List.length_map, takeWhile_range _ count b.length, List.length_range]
    intro k hk
    rw [(C54_has_term _ _ k).2]
    simp only [Iter.get?, isSome_getElem?]
    exact ⟨fun h => (by have := (h 0 (by omega)).2; omega), fun h i hi => ⟨rfl, by omega⟩⟩
  · intro all
    rw [C54_diagonal_reduce, List.length_map, takeWhile_range _ count count, List.length_range]
    · omega
    · intro k hk
      cases all with
      | false => rw [(C54_has_term _ _ k).1]; exact ⟨fun _ => hk, fun _ => ⟨k, Nat.le_refl _, rfl, rfl⟩⟩
      | true => rw [(C54_has_term _ _ k).2]; exact ⟨fun _ => hk, fun _ _ _ => ⟨rfl, rfl⟩⟩

example : cauchyprod false (.inf (fun _ => 1)) (.fin [1, 1, 1]) 5 = [1, 2, 3, 3, 3] := by decide

/-! ## C55 -/

/-- C55: `fibonacci()` yields the Fibonacci numbers. -/
theorem C55_fibonacci (n : Nat) : fibonacci n = (List.range n).map fib := by
  have h : ∀ (n k : Nat), fibos n (fib k) (fib (k + 1)) = (List.range n).map (fun i => fib (k + i)) := by
    intro n
    induction n with
    | zero => intro k; rfl
    | succ n ih =>
      intro k
      rw [fibos, List.range_succ_eq_map, List.map_cons, List.map_map]
      have : fib k + fib (k + 1) = fib (k + 2) := by rw [fib]
      rw [this, ih (k + 1)]
      congr 1
      apply List.map_congr_left
      intro i _
      simp only [Function.comp]
      congr 1; omega
  have := h n 0
  simpa [fibonacci, fib] using this

example : fibonacci 8 = [1, 1, 2, 3, 5, 8, 13, 21] := by decide

/-- C55: `triangular()` yields `n(n+1)/2` for `n = 1, 2, ...` -/
theorem C55_triangular (n : Nat) : triangular n = (List.range n).map (fun i => (i + 1) * (i + 2) / 2) := by
  have h : ∀ (n k s : Nat), 2 * s = k * (k + 1) →
      triangularFrom n s (k + 1) = (List.range n).map (fun i => (k + i) * (k + i + 1) / 2) := by
    intro n
    induction n with
    | zero => intro k s _; rfl
    | succ n ih =>
      intro k s hs
      rw [triangularFrom, List.range_succ_eq_map, List.map_cons, List.map_map]
      have hs' : 2 * (s + (k + 1)) = (k + 1) * (k + 1 + 1) := by
        rw [Nat.mul_comm (k + 1), show k + 1 + 1 = k + 2 from rfl, Nat.add_mul]; omega
      rw [ih (k + 1) (s + (k + 1)) hs']
      congr 1
      · simp only [Nat.add_zero]; omega
      · apply List.map_congr_left
        intro i _
        simp only [Function.comp]
        have : k + 1 + i = k + (i + 1) := by omega
        rw [this]
  have := h n 1 1 rfl
  unfold triangular
  rw [this]
  apply List.map_congr_left
  intro i _
  congr 1
  rw [show 1 + i = i + 1 by omega]

example : triangular 5 = [1, 3, 6, 10, 15] := by decide

/-- C55: at every point, `primes(optimize="speed")` has yielded the primes below the next candidate, all of them, in
increasing order. -/
theorem C55_primes_speed (j : Nat) : fastprimes j = (List.range (3 + 2 * j)).filter (fun p => decide p.Prime) :=
  fastprimes_eq j

example : fastprimes 8 = [2, 3, 5, 7, 11, 13, 17] := by decide

/-- C55: `primes(optimize="memory")` yields the same; in particular, its inner loop never runs past the primes already
memoized, so it does not re-enter the running generator. -/
theorem C55_primes_memory (j : Nat) :
    memprimes j = .ok ((List.range (3 + 2 * j)).filter (fun p => decide p.Prime)) := by
  rw [memprimes_eq, fastprimes_eq]

example : memprimes 8 = .ok [2, 3, 5, 7, 11, 13, 17] := by rw [memprimes_eq]; decide

/-- C55: the sequence does not end: there are always more primes to come. -/
theorem C55_primes_infinite (n : Nat) : ∃ j, n ≤ (fastprimes j).length := by
  induction n with
  | zero => exact ⟨0, by omega⟩
  | succ n ih =>
    obtain ⟨j, hj⟩ := ih
    obtain ⟨p, hp1, hp2⟩ := Nat.exists_infinite_primes (3 + 2 * j)
    refine ⟨p, Nat.lt_of_le_of_lt hj ?_⟩
    rw [fastprimes_eq, fastprimes_eq]
    have e : 3 + 2 * p = (3 + 2 * j) + (2 * p - 2 * j) := by omega
    rw [e, List.range_add (n := 3 + 2 * j), List.filter_append, List.length_append]
    have : p ∈ ((List.range (2 * p - 2 * j)).map (fun x => 3 + 2 * j + x)).filter (fun p => decide p.Prime) := by
      rw [List.mem_filter, List.mem_map]
      refine ⟨⟨p - (3 + 2 * j), ?_, by omega⟩, by simpa using hp2⟩
      rw [List.mem_range]; omega
    have := List.length_pos_of_mem this
    omega

example : 6 ≤ (fastprimes 6).length := by decide

/-! ## C57 -/

private theorem at_along {t : Mathseq.Tree α} {p : List Nat} {x : α} (h : At t p x) : Along t p x := by
  induction h with
  | leaf x => exact .leaf x []
  | node hi _ ih => exact .node hi ih

private theorem along_nil {t : Mathseq.Tree α} {x : α} (h : Along t [] x) : At t [] x := by
  cases h with | leaf => exact .leaf x

private theorem binopLeft_at (op : α → α → β) (c : α) (b : Mathseq.Tree α) (p : List Nat) (z : β) :
    At (binopLeft op c b) p z ↔ ∃ y, At b p y ∧ z = op c y := by
  induction b generalizing p with
  | leaf y =>
    constructor
    · intro h; cases h; exact ⟨y, .leaf y, rfl⟩
    · rintro ⟨y', h, rfl⟩; cases h; exact .leaf _
  | node n g ih =>
    constructor
    · intro h
      rw [binopLeft] at h
      cases h with
      | node hi h =>
        obtain ⟨y, h1, h2⟩ := (ih _ _).mp h
        exact ⟨y, .node hi h1, h2⟩
    · rintro ⟨y, h, rfl⟩
      cases h with
      | node hi h => exact .node hi ((ih _ _).mpr ⟨y, h, rfl⟩)

private theorem minLen_lt (m n : Option Nat) (i : Nat) :
    (∀ l, minLen m n = some l → i < l) ↔ (∀ l, m = some l → i < l) ∧ (∀ l, n = some l → i < l) := by
  cases m <;> cases n <;> simp [minLen]

/-- C57: the result of a termwise binary operation has a scalar at exactly those paths along which both operands have
one, one of them at the very end (a scalar is broadcast to all places of a sequence; where both are sequences, the
shorter decides); and it is the operation applied to these two, in this order. -/
theorem C57_binop (op : α → α → β) (a b : Mathseq.Tree α) (p : List Nat) (z : β) :
    At (binop op a b) p z ↔ ∃ x y, Along a p x ∧ Along b p y ∧ (At a p x ∨ At b p y) ∧ z = op x y := by
  induction a generalizing b p with
  | leaf x =>
    rw [binop, binopLeft_at]
    constructor
    · rintro ⟨y, h, rfl⟩; exact ⟨x, y, .leaf x p, at_along h, .inr h, rfl⟩
    · rintro ⟨x', y, h1, h2, h3, rfl⟩
      cases h1
      rcases h3 with h3 | h3
      · cases h3
        cases h2 with
        | leaf => exact ⟨y, .leaf y, rfl⟩
      · exact ⟨y, h3, rfl⟩
  | node m f ih =>
    cases b with
    | leaf y =>
      rw [binop]
      constructor
      · intro h
        cases h with
        | node hi h =>
          obtain ⟨x, y', h1, h2, h3, h4⟩ := (ih _ _ _).mp h
          cases h2
          refine ⟨x, y, .node hi h1, .leaf y _, .inl ?_, h4⟩
          rcases h3 with h3 | h3
          · exact .node hi h3
          · cases h3
            exact .node hi (along_nil h1)
      · rintro ⟨x, y', h1, h2, h3, rfl⟩
        cases h2
        cases h1 with
        | node hi h1 =>
          refine .node hi ((ih _ _ _).mpr ⟨x, y, h1, .leaf y _, ?_, rfl⟩)
          rcases h3 with h3 | h3
          · cases h3 with | node _ h3 => exact .inl h3
          · cases h3
    | node n g =>
      rw [binop]
      constructor
      · intro h
        cases h with
        | node hi h =>
          rw [minLen_lt] at hi
          obtain ⟨x, y, h1, h2, h3, h4⟩ := (ih _ _ _).mp h
          refine ⟨x, y, .node hi.1 h1, .node hi.2 h2, ?_, h4⟩
          rcases h3 with h3 | h3
          · exact .inl (.node hi.1 h3)
          · exact .inr (.node hi.2 h3)
      · rintro ⟨x, y, h1, h2, h3, rfl⟩
        cases h1 with
        | node hi1 h1 =>
          cases h2 with
          | node hi2 h2 =>
            refine .node (by rw [minLen_lt]; exact ⟨hi1, hi2⟩) ((ih _ _ _).mpr ⟨x, y, h1, h2, ?_, rfl⟩)
            rcases h3 with h3 | h3
            · cases h3 with | node _ h3 => exact .inl h3
            · cases h3 with | node _ h3 => exact .inr h3

/-- `((1, (2, 3)) - 10)[1][0]` is `2 - 10`. -/
example : At (binop (· - · : Int → Int → Int)
    (.node (some 2) (fun i => if i = 0 then .leaf 1 else .node (some 2) (fun j => .leaf (j + 2)))) (.leaf 10)) [1, 0]
    (2 - 10) :=
  (C57_binop _ _ _ _ _).mpr ⟨2, 10, .node (by simp) (.node (by simp) (.leaf 2 _)), .leaf _ _,
    .inl (.node (by simp) (.node (by simp) (.leaf 2))), rfl⟩

/-- C57: a termwise unary operation changes each scalar and keeps the shape. -/
theorem C57_unop (op : α → β) (a : Mathseq.Tree α) (p : List Nat) (z : β) :
    At (unop op a) p z ↔ ∃ x, At a p x ∧ z = op x := by
  induction a generalizing p with
  | leaf x =>
    constructor
    · intro h; cases h; exact ⟨x, .leaf x, rfl⟩
    · rintro ⟨y, h, rfl⟩; cases h; exact .leaf _
  | node n f ih =>
    constructor
    · intro h
      rw [unop] at h
      cases h with
      | node hi h =>
        obtain ⟨y, h1, h2⟩ := (ih _ _).mp h
        exact ⟨y, .node hi h1, h2⟩
    · rintro ⟨y, h, rfl⟩
      cases h with
      | node hi h => exact .node hi ((ih _ _).mpr ⟨y, h, rfl⟩)

example : At (unop (fun x : Int => -x) (.node none (fun i => .leaf i))) [7] (-7) :=
  (C57_unop _ _ _ _).mpr ⟨7, .node (by simp) (.leaf 7), rfl⟩

/-- C57: the length of the result, at the top level. -/
theorem C57_length (op : α → α → β) (m n : Option Nat) (f g : Nat → Mathseq.Tree α) (c : α) :
    (∃ h, binop op (.node m f) (.node n g) = .node (minLen m n) h) ∧
    (∃ h, binop op (.node m f) (.leaf c) = .node m h) ∧ (∃ h, binop op (.leaf c) (.node n g) = .node n h) :=
  ⟨⟨_, rfl⟩, ⟨_, rfl⟩, ⟨_, rfl⟩⟩

example : minLen (some 3) none = some 3 ∧ minLen (some 3) (some 2) = some 2 ∧ minLen none none = none :=
  ⟨rfl, rfl, rfl⟩

end Unpy.Props
