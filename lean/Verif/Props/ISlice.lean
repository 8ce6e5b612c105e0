import Verif.Model.ISlice
import Verif.Proof.PySlice
import Verif.Props.It
/-!
# C15: `islice` with negative indices
-/
namespace Unpy.Props
open Unpy Unpy.It Unpy.ISlice
universe u
variable {α : Type u}

private theorem loop_getElem? (stop : Option Nat) (step : Nat) (hs : 0 < step) (xs : List α) (i nexti : Nat) (h : i ≤ nexti)
    (k : Nat) : (isliceLoop stop step i nexti xs)[k]? =
      if (∀ n, stop = some n → nexti + k * step < n) then xs[nexti + k * step - i]? else none := by
  induction xs generalizing i nexti k with
  | nil => simp [isliceLoop]
  | cons x xs ih =>
    rw [isliceLoop]
    have hstop : stop.any (· ≤ nexti) = true ↔ ∃ n, stop = some n ∧ n ≤ nexti := by
      cases stop <;> simp
    by_cases hc : stop.any (· ≤ nexti) = true
    · rw [if_pos hc]
      obtain ⟨n, hn, hle⟩ := hstop.mp hc
      have := Nat.zero_le (k * step)
      rw [if_neg (fun hall => by have := hall n hn; omega)]; rfl
    · rw [if_neg hc]
      have hlt : ∀ n, stop = some n → nexti < n := by
        intro n hn
        rcases Nat.lt_or_ge nexti n with h | h
        · exact h
        · exact absurd (hstop.mpr ⟨n, hn, h⟩) hc
      by_cases hi : i = nexti
      · rw [if_pos hi]
        cases k with
        | zero => simp only [List.getElem?_cons_zero, Nat.zero_mul, Nat.add_zero]; rw [if_pos hlt, hi]; simp
        | succ k =>
          rw [List.getElem?_cons_succ, ih (i + 1) (nexti + step) (by omega)]
          have e : nexti + step + k * step = nexti + (k + 1) * step := by rw [Nat.succ_mul]; omega
          rw [e]
          have e2 : nexti + (k + 1) * step - i = (nexti + (k + 1) * step - (i + 1)) + 1 := by
            rw [Nat.succ_mul]; omega
          rw [e2, List.getElem?_cons_succ]
      · rw [if_neg hi, ih (i + 1) nexti (by omega)]
        have := Nat.zero_le (k * step)
        have e2 : nexti + k * step - i = (nexti + k * step - (i + 1)) + 1 := by omega
        rw [e2, List.getElem?_cons_succ]

/-- items of a slice with positive step -/
private theorem pySlice_pos (l : List α) (s : Slice) (hs : 0 < s.by) (k : Nat) :
    (pySlice l s)[k]? = if s.startIn l.length + (k : Int) * s.by < s.stopIn l.length then
      l[(s.startIn l.length + (k : Int) * s.by).toNat]? else none := by
  rw [pySlice_getElem?]
  unfold Slice.indices
  rw [pyRange_getElem?]
  by_cases h : k < rangeLen (s.startIn l.length) (s.stopIn l.length) s.by
  · rw [if_pos h, if_pos ((rangeLen_pos hs k).mp h)]; rfl
  · rw [if_neg h, if_neg (fun h' => h ((rangeLen_pos hs k).mpr h'))]; rfl

private theorem startIn_pos (s : Slice) (hs : 0 < s.by) (n : Nat) : s.startIn n = match s.start with
    | none => 0
    | some k => if k < 0 then max 0 (k + n) else min k n := by
  unfold Slice.startIn
  cases s.start with
  | none => simp only; rw [if_neg (by omega)]
  | some k => simp only; rw [if_neg (show ¬ s.by < 0 by omega)]; repeat' split
              all_goals omega

private theorem stopIn_pos (s : Slice) (hs : 0 < s.by) (n : Nat) : s.stopIn n = match s.stop with
    | none => (n : Int)
    | some k => if k < 0 then max 0 (k + n) else min k n := by
  unfold Slice.stopIn
  cases s.stop with
  | none => simp only; rw [if_neg (by omega)]
  | some k => simp only; rw [if_neg (show ¬ s.by < 0 by omega)]; repeat' split
              all_goals omega

private theorem islicef_ok (xs : List α) (a b : Option Int) (st : Option Int) (ha : ∀ k, a = some k → 0 ≤ k)
    (hb : ∀ k, b = some k → 0 ≤ k) (hst : ∀ k, st = some k → 1 ≤ k) : ∃ l, islicef xs a b st = .ok l ∧
      ∀ k : Nat, l[k]? = if (∀ n, b = some n → (a.getD 0) + (k : Int) * (st.getD 1) < n) then
        xs[(a.getD 0 + (k : Int) * (st.getD 1)).toNat]? else none := by
  refine ⟨isliceLoop (b.map Int.toNat) (st.getD 1).toNat 0 (a.getD 0).toNat xs, ?_, ?_⟩
  · unfold islicef
    rw [if_neg]
    cases a <;> cases b <;> cases st <;> simp_all <;> omega
  · intro k
    have hst' : 1 ≤ st.getD 1 := by cases st with | none => simp | some v => simpa using hst v rfl
    have ha' : 0 ≤ a.getD 0 := by cases a with | none => simp | some v => simpa using ha v rfl
    rw [loop_getElem? _ _ (by omega) _ _ _ (by omega)]
    have hmul : (((k * (st.getD 1).toNat : Nat)) : Int) = (k : Int) * st.getD 1 := by
      rw [Int.natCast_mul, Int.toNat_of_nonneg (by omega)]
    have hidx : (a.getD 0).toNat + k * (st.getD 1).toNat - 0 = (a.getD 0 + (k : Int) * (st.getD 1)).toNat := by omega
    rw [hidx]
    cases b with
    | none => simp
    | some n =>
      have := hb n rfl
      simp only [Option.map_some, Option.some.injEq, forall_eq']
      by_cases h : a.getD 0 + (k : Int) * st.getD 1 < n
      · rw [if_pos h, if_pos (by omega)]
      · rw [if_neg h, if_neg (by omega)]

/-- C15 (what holds): for every finite iterable and every slice with a positive (or no) step, `islice(xs)[start:stop:step]` yields
what `list(xs)[start:stop:step]` contains — except that a negative start together with a positive stop lying before the items
that `start` selects raises AssertionError (instead of yielding nothing).
(Missing: that case, see `C15_islice_assert_refuted`.) -/
theorem C15_islice_slice_partial (xs : List α) (s : Slice) (hstep : ∀ k, s.step = some k → 1 ≤ k)
    (hok : ∀ a b, s.start = some a → s.stop = some b → a < 0 → 0 < b → (xs.length : Int) + a ≤ b) :
    isliceSlice xs s = .ok (pySlice xs s) := by
  have hby : 0 < s.by := by
    unfold Slice.by
    cases h : s.step with
    | none => simp
    | some k => have := hstep k h; simp; omega
  have hbyd : s.by = s.step.getD 1 := rfl
  have hmulnn : ∀ k : Nat, 0 ≤ (k : Int) * s.by := fun k => Int.mul_nonneg (by omega) (by omega)
  -- it suffices to compare item by item
  have main : ∀ (ys : List α) (a b : Option Int), (∀ k, a = some k → 0 ≤ k) → (∀ k, b = some k → 0 ≤ k) →
      (∀ k : Nat, (if (∀ n, b = some n → (a.getD 0) + (k : Int) * s.by < n) then
        ys[(a.getD 0 + (k : Int) * s.by).toNat]? else none) =
        if s.startIn xs.length + (k : Int) * s.by < s.stopIn xs.length then
          xs[(s.startIn xs.length + (k : Int) * s.by).toNat]? else none) →
      islicef ys a b s.step = .ok (pySlice xs s) := by
    intro ys a b ha hb h
    obtain ⟨l, hl, hk⟩ := islicef_ok ys a b s.step ha hb hstep
    rw [hl]
    congr 1
    apply List.ext_getElem?
    intro k
    rw [hk, pySlice_pos _ _ hby, ← h k, hbyd]
  rw [startIn_pos s hby, stopIn_pos s hby] at main
  unfold isliceSlice
  have hn : ∀ x : Option Int, neg x = true ↔ ∃ k, x = some k ∧ k < 0 := by
    intro x; cases x <;> simp [neg]
  have hn' : ∀ x : Option Int, neg x = false ↔ ∀ k, x = some k → 0 ≤ k := by
    intro x; cases x <;> simp [neg]
  by_cases h1 : neg s.start = true
  · obtain ⟨a, ha, ha0⟩ := (hn _).mp h1
    by_cases h2 : neg s.stop = true
    · obtain ⟨b, hb, hb0⟩ := (hn _).mp h2
      simp only [h1, h2, Bool.and_self, if_true]
      simp only [ha, hb, Option.getD_some]
      rw [C18_lastn, if_neg (by omega)]
      have e : -b = (((-b).toNat : Nat) : Int) := by omega
      rw [e, C18_butlastn]
      apply main
      · simp
      · simp
      · intro k
        have := hmulnn k
        simp only [ha, hb, if_pos ha0, if_pos hb0, Option.getD_none, reduceCtorEq, false_implies, implies_true, if_true,
          List.length_drop]
        rw [List.getElem?_take, List.getElem?_drop]
        split <;> split
        · congr 1; omega
        · omega
        · rw [List.getElem?_eq_none (by omega)]
        · rfl
    · have h2' : neg s.stop = false := by simpa using h2
      simp only [h1, h2', Bool.and_false, if_true, Bool.false_eq_true, if_false]
      simp only [ha, Option.getD_some]
      by_cases h3 : s.stop = none ∨ s.stop = some 0
      · rw [if_pos h3, C18_lastn, if_neg (by omega)]
        apply main
        · simp
        · exact (hn' _).mp h2'
        · intro k
          have := hmulnn k
          simp only [ha, if_pos ha0, Option.getD_none]
          rcases h3 with h3 | h3
          · simp only [h3, reduceCtorEq, false_implies, implies_true, if_true, List.getElem?_drop]
            split
            · congr 1; omega
            · rw [List.getElem?_eq_none (by omega)]
          · simp only [h3, Option.some.injEq, forall_eq']
            rw [if_neg (by omega), if_neg (by omega)]
      · rw [if_neg h3]
        cases hst : s.stop with
        | none => simp [hst] at h3
        | some b =>
          have hb0 : 0 < b := by
            have := (hn' _).mp h2' b hst
            have : b ≠ 0 := by rintro rfl; simp [hst] at h3
            omega
          have hok' := hok a b ha hst ha0 hb0
          simp only [Option.getD_some]
          rw [if_pos (by omega), C18_lastn, if_neg (by omega)]
          apply main
          · simp
          · intro k hk; simp only [Option.some.injEq] at hk; omega
          · intro k
            have := hmulnn k
            simp only [ha, hst, if_pos ha0, if_neg (show ¬ b < 0 by omega), Option.getD_none, Option.some.injEq, forall_eq',
              List.getElem?_drop]
            split <;> split
            · congr 1; omega
            · rw [List.getElem?_eq_none (by omega)]
            · rw [List.getElem?_eq_none (by omega)]
            · rfl
  · have h1' : neg s.start = false := by simpa using h1
    have hs0 := (hn' _).mp h1'
    simp only [h1', Bool.false_and, Bool.false_eq_true, if_false]
    by_cases h2 : neg s.stop = true
    · obtain ⟨b, hb, hb0⟩ := (hn _).mp h2
      simp only [h2, if_true]
      simp only [hb, Option.getD_some]
      have e : -b = (((-b).toNat : Nat) : Int) := by omega
      rw [e, C18_butlastn]
      apply main
      · exact hs0
      · simp
      · intro k
        have := hmulnn k
        simp only [hb, if_pos hb0, reduceCtorEq, false_implies, implies_true, if_true]
        rw [List.getElem?_take]
        cases ha : s.start with
        | none =>
          simp only [Option.getD_none]
          split <;> split
          · rfl
          · omega
          · rw [List.getElem?_eq_none (by omega)]
          · rfl
        | some a =>
          have := hs0 a ha
          simp only [Option.getD_some, if_neg (show ¬ a < 0 by omega)]
          split <;> split
          · congr 1; omega
          · omega
          · rw [List.getElem?_eq_none (by omega)]
          · rfl
    · have h2' : neg s.stop = false := by simpa using h2
      have ht0 := (hn' _).mp h2'
      simp only [h2', Bool.false_eq_true, if_false]
      apply main
      · exact hs0
      · exact ht0
      · intro k
        have := hmulnn k
        cases ha : s.start with
        | none =>
          cases hb : s.stop with
          | none =>
            simp only [Option.getD_none, reduceCtorEq, false_implies, implies_true, if_true]
            split
            · rfl
            · rw [List.getElem?_eq_none (by omega)]
          | some b =>
            have := ht0 b hb
            simp only [Option.getD_none, Option.some.injEq, forall_eq', if_neg (show ¬ b < 0 by omega)]
            split <;> split
            · rfl
            · rw [List.getElem?_eq_none (by omega)]
            · omega
            · rfl
        | some a =>
          have := hs0 a ha
          cases hb : s.stop with
          | none =>
            simp only [Option.getD_some, reduceCtorEq, false_implies, implies_true, if_true, if_neg (show ¬ a < 0 by omega)]
            split
            · congr 1; omega
            · rw [List.getElem?_eq_none (by omega)]
          | some b =>
            have := ht0 b hb
            simp only [Option.getD_some, Option.some.injEq, forall_eq', if_neg (show ¬ b < 0 by omega), if_neg (show ¬ a < 0 by omega)]
            split <;> split
            · congr 1; omega
            · rw [List.getElem?_eq_none (by omega)]
            · omega
            · rfl

/-- C15: a zero or negative step raises ValueError. -/
theorem C15_islice_bad_step (xs : List α) (s : Slice) (k : Int) (h : s.step = some k) (hk : k < 1)
    (hok : ∀ a b, s.start = some a → s.stop = some b → a < 0 → 0 < b → (xs.length : Int) + a ≤ b) :
    isliceSlice xs s = .error .ValueError := by
  have hbad : ∀ (ys : List α) a b, islicef ys a b (some k) = .error .ValueError := by
    intro ys a b; unfold islicef; rw [if_pos (by simp [hk])]
  unfold isliceSlice
  simp only [h, hbad]
  split
  · rfl
  split
  · rename_i h1
    split
    · rfl
    · rename_i h2
      rw [if_pos]
      rw [Bool.and_eq_true] at *
      cases ha : s.start with
      | none => rw [ha] at h1; simp [neg] at h1
      | some a =>
        have ha0 : a < 0 := by rw [ha] at h1; simpa [neg] using h1
        cases hb : s.stop with
        | none => simp [hb] at h2
        | some b =>
          rename_i h0
          have hb0 : 0 ≤ b := by
            rw [ha, hb] at h0; simp [neg, ha0] at h0; exact h0
          have hbne : b ≠ 0 := by rintro rfl; simp [hb] at h2
          have := hok a b ha hb ha0 (by omega)
          simp only [Option.getD_some]; omega
  split <;> rfl

/-- C15: a single index within the range gives the item.
(Missing: indices out of range, see `C15_islice_index_refuted`.) -/
theorem C15_islice_index_partial (xs : List α) (k : Int) (h1 : -(xs.length : Int) ≤ k) (h2 : k < xs.length) :
    isliceIndex xs k = .ok (xs[(normIdx k xs.length).toNat]?) := by
  unfold isliceIndex
  by_cases hk : k < 0
  · rw [if_pos hk, C18_lastn, if_neg (by omega)]
    simp only [List.head?_drop, normIdx, if_pos hk]
    congr 2; omega
  · rw [if_neg hk]
    obtain ⟨l, hl, hitem⟩ := islicef_ok xs (some k) (some (k + 1)) none (by intro j hj; cases hj; omega) (by intro j hj; cases hj; omega)
      (by simp)
    rw [hl]
    simp only [List.head?_eq_getElem?, hitem, normIdx, if_neg hk]
    simp
    intro h; omega

/-- `islice(range(10))[-8:-1:3]` and `islice(range(10))[-3]` -/
example : isliceSlice [0, 1, 2, 3, 4, 5, 6, 7, 8, 9] ⟨some (-8), some 9, some 3⟩ = .ok [2, 5, 8] ∧
    isliceIndex [0, 1, 2, 3] (-3) = .ok (some 1) := by decide

/-- C15 is violated (1): `list(xs)[-2:1]` is empty, but `islice(xs)[-2:1]` raises AssertionError. -/
theorem C15_islice_assert_refuted :
    pySlice [1, 2, 3, 4, 5] ⟨some (-2), some 1, none⟩ = [] ∧
    isliceSlice [1, 2, 3, 4, 5] ⟨some (-2), some 1, none⟩ = .error .AssertionError := by decide

/-- C15 is violated (2): an index before the beginning gives the first item, instead of an error; an index beyond the end gives None.
(For every nonempty, respectively every, iterable.) -/
theorem C15_islice_index_refuted (xs : List α) :
    (∀ k : Int, k < -(xs.length : Int) → isliceIndex xs k = .ok xs.head?) ∧
    (∀ k : Int, (xs.length : Int) ≤ k → isliceIndex xs k = .ok none) := by
  constructor
  · intro k hk
    unfold isliceIndex
    rw [if_pos (by omega), C18_lastn, if_neg (by omega)]
    simp only [show xs.length - (-k).toNat = 0 from by omega, List.drop_zero]
  · intro k hk
    unfold isliceIndex
    rw [if_neg (by omega)]
    obtain ⟨l, hl, hitem⟩ := islicef_ok xs (some k) (some (k + 1)) none (by intro j hj; cases hj; omega) (by intro j hj; cases hj; omega)
      (by simp)
    rw [hl]
    simp only [List.head?_eq_getElem?, hitem]
    simp
    omega

end Unpy.Props
