import Verif.Spec.MathOnce
/-!
# C141: mathematical sequences in expressions
-/
namespace Unpy.Props
open Unpy.MathOnce Unpy.MathOnce.Spec
variable {N : Type}

private theorem taken_self (pos : Nat → Nat) (i : Nat) : taken pos i i = pos i + 1 := by simp [taken]
private theorem taken_other (pos : Nat → Nat) {i j : Nat} (h : j ≠ i) : taken pos i j = pos j := by simp [taken, h]

/-- Generators that are not in the expression are left alone. -/
private theorem next_other (items : Nat → Nat → Option N) : (e : Ex N) → (pos : Nat → Nat) → (j : Nat) → j ∉ gens e → (next items e pos).2 j = pos j
  | .gen i, pos, j, h => by
    simp only [gens, List.mem_singleton] at h
    simp only [next]
    cases items i (pos i) with
    | none => rfl
    | some x => exact taken_other pos h
  | .scalar c, pos, j, _ => rfl
  | .un f e, pos, j, h => by
    have ih := next_other items e pos j h
    simp only [next]
    generalize next items e pos = r at ih
    obtain ⟨o, pos'⟩ := r
    cases o <;> exact ih
  | .bin f a b, pos, j, h => by
    simp only [gens, List.mem_append, not_or] at h
    have ia := next_other items a pos j h.1
    simp only [next]
    generalize next items a pos = r at ia
    obtain ⟨o, pos'⟩ := r
    cases o with
    | none => exact ia
    | some x =>
      have ib := next_other items b pos' j h.2
      simp only at ia ⊢
      generalize next items b pos' = r' at ib
      obtain ⟨o', pos''⟩ := r'
      simp only at ib
      cases o' <;> (show pos'' j = pos j; rw [ib, ia])

/-- If each generator is in the expression once, and `k` items have been taken from each, then what comes next is the term at `k`; if there is one, then one item is taken from each. -/
private theorem next_meaning (items : Nat → Nat → Option N) : (e : Ex N) → (gens e).Nodup → (pos : Nat → Nat) → (k : Nat) → (∀ i ∈ gens e, pos i = k) →
    (next items e pos).1 = meaning items e k ∧ ((next items e pos).1.isSome → ∀ i ∈ gens e, (next items e pos).2 i = k + 1)
  | .gen i, _, pos, k, h => by
    have hi : pos i = k := h i (by simp [gens])
    simp only [next, meaning]
    rw [hi]
    cases items i k with
    | none => exact ⟨rfl, fun h => by simp at h⟩
    | some x =>
      refine ⟨rfl, fun _ j hj => ?_⟩
      simp only [gens, List.mem_singleton] at hj
      rw [hj]; show taken pos i i = k + 1
      rw [taken_self, hi]
  | .scalar c, _, pos, k, _ => ⟨rfl, fun _ i hi => by simp [gens] at hi⟩
  | .un f e, hn, pos, k, h => by
    have ih := next_meaning items e hn pos k h
    simp only [next, meaning, ← ih.1]
    generalize next items e pos = r at ih ⊢
    obtain ⟨o, pos'⟩ := r
    cases o with
    | none => exact ⟨rfl, fun h => by simp at h⟩
    | some x => exact ⟨rfl, fun _ => ih.2 rfl⟩
  | .bin f a b, hn, pos, k, h => by
    simp only [gens, List.nodup_append] at hn
    have ia := next_meaning items a hn.1 pos k fun i hi => h i (by simp [gens, hi])
    have oa := next_other items a pos
    simp only [next, meaning, ← ia.1]
    generalize next items a pos = r at ia oa ⊢
    obtain ⟨o, pos'⟩ := r
    cases o with
    | none => exact ⟨rfl, fun h => by simp at h⟩
    | some x =>
      have hb : ∀ i ∈ gens b, pos' i = k := by
        intro i hi
        have := oa i fun hia => hn.2.2 i hia i hi rfl
        simp only at this
        rw [this]; exact h i (by simp [gens, hi])
      have ib := next_meaning items b hn.2.1 pos' k hb
      have ob := next_other items b pos'
      simp only [Option.bind_some, ← ib.1]
      generalize next items b pos' = r' at ib ob ⊢
      obtain ⟨o', pos''⟩ := r'
      cases o' with
      | none => exact ⟨rfl, fun h => by simp at h⟩
      | some y =>
        refine ⟨rfl, fun _ i hi => ?_⟩
        simp only [gens, List.mem_append] at hi
        rcases hi with hi | hi
        · have := ob i fun hib => hn.2.2 i hi i hib rfl
          simp only at this
          show pos'' i = k + 1
          rw [this]; exact ia.2 rfl i hi
        · exact ib.2 rfl i hi

private theorem take_terms (items : Nat → Nat → Option N) (e : Ex N) (hn : (gens e).Nodup) : (n k : Nat) → (pos : Nat → Nat) → (∀ i ∈ gens e, pos i = k) →
    (take items e n pos).1 = terms (meaning items e) n k
  | 0, k, pos, _ => rfl
  | n + 1, k, pos, h => by
    have hm := next_meaning items e hn pos k h
    simp only [take, terms, ← hm.1]
    generalize next items e pos = r at hm ⊢
    obtain ⟨o, pos'⟩ := r
    cases o with
    | none => rfl
    | some x => simp only [take_terms items e hn n (k + 1) pos' (hm.2 rfl)]

/-- C141: if no generator is in the expression twice, and nothing has been taken from them before, then the items are the terms of the expression, up to the end of the shortest sequence.
(Missing: a generator that is used twice, see `C141_twice_refuted`, `C141_later_refuted` and `C141_square_refuted`.) -/
theorem C141_terms_partial (items : Nat → Nat → Option N) (e : Ex N) (hn : (gens e).Nodup) (n : Nat) : (take items e n (fun _ => 0)).1 = terms (meaning items e) n 0 :=
  take_terms items e hn n 0 _ fun _ _ => rfl

private theorem meaning_rename (items : Nat → Nat → Option N) (ρ : Nat → Nat) : (e : Ex N) → meaning items (rename ρ e) = meaning (fun i => items (ρ i)) e
  | .gen i => rfl
  | .scalar c => rfl
  | .un f e => by funext k; simp only [rename, meaning, meaning_rename items ρ e]
  | .bin f a b => by funext k; simp only [rename, meaning, meaning_rename items ρ a, meaning_rename items ρ b]

/-- C141: with sequences that can be started again, such as those made by `gmathify(imemoize(...))`, an expression means what it says, also if a sequence is in it many times: each time it is
mentioned, a generator of its own is made (generator `i` is one of sequence `ρ i`). -/
theorem C141_restartable (seqs : Nat → Nat → Option N) (e : Ex N) (ρ : Nat → Nat) (hn : (gens e).Nodup) (n : Nat) :
    (take (fun i => seqs (ρ i)) e n (fun _ => 0)).1 = terms (meaning seqs (rename ρ e)) n 0 := by
  rw [meaning_rename]
  exact C141_terms_partial _ e hn n

/-- `1 / (a + b) ` and so on: an expression with two generators, of which the second has three items -/
example : (take (fun i k => if i = 0 then some (k + 1) else if k < 3 then some (10 * k) else none) (.bin (· + ·) (.un (2 * ·) (.gen 0)) (.bin (· + ·) (.gen 1) (.scalar 100))) 7 (fun _ => 0)).1 =
    [102, 114, 126] := C141_terms_partial _ _ (by simp [gens]) 7

private theorem twice (items : Nat → N) (f : N → N → N) (i : Nat) : (n k : Nat) → (pos : Nat → Nat) → pos i = 2 * k →
    (take (fun _ k => some (items k)) (.bin f (.gen i) (.gen i)) n pos).1 = (List.range' k n).map fun k => f (items (2 * k)) (items (2 * k + 1))
  | 0, k, pos, _ => rfl
  | n + 1, k, pos, h => by
    have hp : taken (taken pos i) i i = 2 * (k + 1) := by rw [taken_self, taken_self, h]; omega
    have ih := twice items f i n (k + 1) _ hp
    simp only [take, next, ih, taken_self, h, List.range'_succ, List.map_cons]

/-- C141 refuted for a generator that is in an expression twice: with `a = s(...)`, the terms of `a + a` are the first item of `a` plus the second, the third plus the fourth, and so on. -/
theorem C141_twice_refuted (items : Nat → N) (f : N → N → N) (n : Nat) :
    (take (fun _ k => some (items k)) (.bin f (.gen 0) (.gen 0)) n (fun _ => 0)).1 = (List.range n).map (fun k => f (items (2 * k)) (items (2 * k + 1))) ∧
    terms (meaning (fun _ k => some (items k)) (.bin f (.gen 0) (.gen 0))) n 0 = (List.range n).map (fun k => f (items k) (items k)) := by
  refine ⟨?_, ?_⟩
  · rw [twice items f 0 n 0 (fun _ => 0) rfl, List.range_eq_range']
  · have h : ∀ n k, terms (meaning (fun _ k => some (items k)) (.bin f (.gen 0) (.gen 0))) n k = (List.range' k n).map (fun k => f (items k) (items k)) := by
      intro n
      induction n with
      | zero => intro k; rfl
      | succ n ih =>
        intro k
        rw [List.range'_succ, List.map_cons, ← ih (k + 1)]
        rfl
    rw [h, List.range_eq_range']

/-- `a = s(1, 2, ...)`: `a + a` is 3, 7, 11, ... -/
example : (take (fun _ k => some (k + 1)) (.bin (· + ·) (.gen 0) (.gen 0)) 3 (fun _ => 0)).1 = [3, 7, 11] := by decide

private theorem take_moves (items : Nat → Nat → Option N) (e : Ex N) (hn : (gens e).Nodup) : (n k : Nat) → (pos : Nat → Nat) → (∀ i ∈ gens e, pos i = k) →
    (∀ j, k ≤ j → j < k + n → (meaning items e j).isSome) → ∀ i ∈ gens e, (take items e n pos).2 i = k + n
  | 0, k, pos, h, _, i, hi => h i hi
  | n + 1, k, pos, h, hs, i, hi => by
    have hm := next_meaning items e hn pos k h
    have hk := hs k (Nat.le_refl _) (by omega)
    simp only [take]
    rw [← hm.1] at hk
    generalize next items e pos = r at hm hk ⊢
    obtain ⟨o, pos'⟩ := r
    cases o with
    | none => simp at hk
    | some x =>
      have := take_moves items e hn n (k + 1) pos' (hm.2 rfl) (fun j h1 h2 => hs j (by omega) (by omega)) i hi
      simp only at this ⊢
      rw [this]; omega

/-- C141 refuted for a generator that is used again later: after `n` terms of one expression have been taken, each of its generators goes on with the item at `n`, in whatever
expression it is. -/
theorem C141_later_refuted (items : Nat → Nat → Option N) (e : Ex N) (hn : (gens e).Nodup) (n : Nat) (hs : ∀ j, j < n → (meaning items e j).isSome) (i : Nat) (hi : i ∈ gens e) (m : Nat) :
    (take items (.gen i) m (take items e n (fun _ => 0)).2).1 = terms (items i) m n ∧ terms (meaning items (.gen i)) m 0 = terms (items i) m 0 := by
  have h := take_moves items e hn n 0 (fun _ => 0) (fun _ _ => rfl) (fun j _ h => hs j (by omega)) i hi
  refine ⟨take_terms items (.gen i) (by simp [gens]) m n _ ?_, rfl⟩
  intro j hj
  simp only [gens, List.mem_singleton] at hj
  rw [hj, h]; omega

/-- C141 refuted for the end: if the second of two sequences has `n` items and the first has more, then the end of their sum costs the first an item that is in no term. -/
theorem C141_lost_refuted (x y : Nat → N) (f : N → N → N) (n : Nat) :
    let items : Nat → Nat → Option N := fun i k => if i = 0 then some (x k) else if k < n then some (y k) else none
    let r := take items (.bin f (.gen 0) (.gen 1)) (n + 1) (fun _ => 0)
    r.1 = terms (meaning items (.bin f (.gen 0) (.gen 1))) (n + 1) 0 ∧ r.1.length = n ∧ r.2 0 = n + 1 := by
  intro items r
  refine ⟨C141_terms_partial items _ (by simp [gens]) (n + 1), ?_⟩
  have key : ∀ m k (pos : Nat → Nat), pos 0 = k → pos 1 = k → k + m = n →
      (take items (.bin f (.gen 0) (.gen 1)) (m + 1) pos).1.length = m ∧ (take items (.bin f (.gen 0) (.gen 1)) (m + 1) pos).2 0 = n + 1 := by
    intro m
    induction m with
    | zero =>
      intro k pos h0 h1 hk
      have hk' : k = n := by omega
      subst hk'
      have e0 : items 0 (pos 0) = some (x (pos 0)) := rfl
      have e1 : items 1 (taken pos 0 1) = none := by
        rw [taken_other pos (by omega), h1]; simp [items]
      have hnext : next items (.bin f (.gen 0) (.gen 1)) pos = (none, taken pos 0) := by simp only [next, e0, e1]
      refine ⟨by simp only [take, hnext, List.length_nil], ?_⟩
      simp only [take, hnext, taken_self, h0]
    | succ m ih =>
      intro k pos h0 h1 hk
      have e0 : items 0 (pos 0) = some (x (pos 0)) := rfl
      have e1 : items 1 (taken pos 0 1) = some (y k) := by
        rw [taken_other pos (by omega), h1]; simp only [items]; rw [if_neg (by omega), if_pos (by omega)]
      have hnext : next items (.bin f (.gen 0) (.gen 1)) pos = (some (f (x (pos 0)) (y k)), taken (taken pos 0) 1) := by simp only [next, e0, e1]
      have ih' := ih (k + 1) (taken (taken pos 0) 1) (by rw [taken_other _ (by omega), taken_self, h0]) (by rw [taken_self, taken_other _ (by omega), h1]) (by omega)
      rw [take, hnext]
      exact ⟨by simp only [List.length_cons, ih'.1], ih'.2⟩
  exact key n 0 _ rfl rfl (by omega)

private theorem memos_eq (items : Nat → N) : (n : Nat) → memos items n = ((List.range n).map (fun j => items (2 * j)), (List.range n).map (fun j => items (2 * j + 1)), 2 * n)
  | 0 => rfl
  | n + 1 => by
    simp only [memos, memos_eq items n, List.range_succ, List.map_append, List.map_cons, List.map_nil]
    rfl

/-- C141 refuted for products: `cauchyprod(a, a)` of a generator is not the square of the series, but the product of that of its items at even indices and that of its items at odd indices; the first term
is the product of the first item and the second. -/
theorem C141_square_refuted (items : Nat → Int) (count : Nat) :
    cauchySquare items count = Unpy.Mathseq.cauchyprod false (.inf fun j => items (2 * j)) (.inf fun j => items (2 * j + 1)) count := by
  have h : ∀ count n, Unpy.Mathseq.diagonalFrom false (fun xs ys => List.zipWith (· * ·) xs ys) (fun zs : List Int => zs.foldl (· + ·) 0) (.inf fun j => items (2 * j)) (.inf fun j => items (2 * j + 1)) count (n + 1) =
      (List.range' n count).map fun k => (List.zipWith (· * ·) (memos items (k + 1)).1 (memos items (k + 1)).2.1.reverse).foldl (· + ·) 0 := by
    intro count
    induction count with
    | zero => intro n; rfl
    | succ c ih =>
      intro n
      rw [List.range'_succ, List.map_cons, ← ih (n + 1)]
      simp only [Unpy.Mathseq.diagonalFrom, Unpy.Mathseq.Iter.prefix, memos_eq, List.length_map, List.length_range, Bool.false_eq_true, false_and, if_false]
      simp [List.range_succ]
  rw [cauchySquare, Unpy.Mathseq.cauchyprod, Unpy.Mathseq.diagonalReduce, h count 0, List.range_eq_range']

/-- With `a = s(1, 1, 1, ...)`, nothing is wrong; with `a = s(1, 2, ...)`, the square should be 1, 4, 10, but is 2, 10, 28. -/
example : cauchySquare (fun k => (k : Int) + 1) 3 = [2, 10, 28] ∧ Unpy.Mathseq.cauchyprod false (.inf fun k => (k : Int) + 1) (.inf fun k => (k : Int) + 1) 3 = [1, 4, 10] := by decide

end Unpy.Props
