import Verif.Proof.Slices
/-!
# C10, C11: functional update, `in_slice` and `index_in_slice`
-/
namespace Unpy.Props
open Unpy Unpy.Slices Unpy.Spec.Slices
universe u
variable {α : Type u}

/-! ## C11 -/

/-- C11 (what holds): for the slices that `in_slice` accepts (`Accepted`) it is true exactly for the positions that Python's
`seq[s]` selects, and `index_in_slice` gives the place of the position in `seq[s]`, or None.
Missing: start or stop beyond the ends (rejected with IndexError, see `C11_in_slice_rejects`), length 0 (rejected), and
`start == length` with a negative step (wrong, see the refutations). -/
theorem C11_in_slice_partial (s : Slice) (n : Nat) (hn : 0 < n) (h : Accepted s n) (i : Int) (h1 : -(n : Int) ≤ i)
    (h2 : i < n) :
    (inSlice i (.slice s) (some n) = .ok true ↔ normIdx i n ∈ s.indices n) ∧
    (inSlice i (.slice s) (some n) = .ok false ↔ normIdx i n ∉ s.indices n) ∧
    (∀ m : Nat, indexInSlice i s (some n) = .ok (some (m : Int)) ↔ (s.indices n)[m]? = some (normIdx i n)) ∧
    (indexInSlice i s (some n) = .ok none ↔ normIdx i n ∉ s.indices n) := by
  obtain ⟨b, hb, hbm⟩ := inSlice_slice hn h h1 h2
  have hidx : ∀ m : Nat, (s.indices n)[m]? = some (normIdx i n) → indexNoCheck i s (some n) = .ok (m : Int) :=
    fun m hm => indexNoCheck_spec hn h h1 h2 hm
  refine ⟨by rw [hb]; simp [hbm], ?_, ?_, ?_⟩
  · rw [hb]; simp only [Except.ok.injEq]; rw [← hbm]; simp
  · intro m
    unfold indexInSlice
    simp only [hb, bind, Except.bind, pure, Except.pure]
    cases b with
    | true =>
      obtain ⟨m', hm'⟩ := List.mem_iff_getElem?.mp (hbm.mp rfl)
      simp only [if_true, hidx m' hm', Except.ok.injEq, Option.some.injEq]
      constructor
      · intro e; have : m' = m := by omega
        rw [← this]; exact hm'
      · intro hm
        have := hidx m hm
        rw [hidx m' hm'] at this
        simpa using this
    | false =>
      simp only [Bool.false_eq_true, if_false, Except.ok.injEq, reduceCtorEq, false_iff]
      intro hm
      exact absurd (hbm.mpr (List.mem_iff_getElem?.mpr ⟨m, hm⟩)) (by simp)
  · unfold indexInSlice
    simp only [hb, bind, Except.bind, pure, Except.pure]
    cases b with
    | true =>
      obtain ⟨m', hm'⟩ := List.mem_iff_getElem?.mp (hbm.mp rfl)
      simp only [if_true, hidx m' hm', Except.ok.injEq, reduceCtorEq, false_iff, Classical.not_not]
      exact hbm.mp rfl
    | false =>
      simp only [Bool.false_eq_true, if_false, true_iff]
      intro hm; exact absurd (hbm.mpr hm) (by simp)

/-- C11 for an int in place of the slice: same position. -/
theorem C11_in_slice_int (n : Nat) (hn : 0 < n) (i k : Int) (h1 : -(n : Int) ≤ i) (h2 : i < n) (h3 : -(n : Int) ≤ k)
    (h4 : k < n) : inSlice i (.int k) (some n) = .ok (decide (normIdx i n = normIdx k n)) :=
  inSlice_int hn h1 (by omega) h3 (by omega)

/-- C11: what `in_slice` refuses, with the exception, in the order it checks. -/
theorem C11_in_slice_rejects (s : Slice) (n : Nat) (i : Int) :
    (n = 0 → inSlice i (.slice s) (some n) = .error .ValueError) ∧
    (0 < n → ¬ (-(n : Int) ≤ i ∧ i ≤ n) → inSlice i (.slice s) (some n) = .error .IndexError) ∧
    (0 < n → -(n : Int) ≤ i → i ≤ n → s.by = 0 → inSlice i (.slice s) (some n) = .error .ValueError) ∧
    (0 < n → -(n : Int) ≤ i → i ≤ n → s.by ≠ 0 →
      ((∃ k, s.start = some k ∧ ¬ (-(n : Int) ≤ k ∧ k ≤ n)) ∨ (∃ k, s.stop = some k ∧ ¬ (-(n : Int) ≤ k ∧ k ≤ n))) →
      inSlice i (.slice s) (some n) = .error .IndexError) := by
  refine ⟨?_, ?_, ?_, ?_⟩
  · rintro rfl; rfl
  · intro hn hi
    simp only [inSlice, checkLength_pos hn, wrap_some_bad hi, bind, Except.bind]
  · intro hn h1 h2 hs
    simp only [inSlice, checkLength_pos hn, wrap_some h1 h2, bind, Except.bind, canonize, hs, if_true, throw, throwThe,
      MonadExceptOf.throw]
  · intro hn h1 h2 hs hbad
    have hcan : canonize s (some (n : Int)) = .error .IndexError := by
      simp only [canonize, hs, if_false, bind, Except.bind, pure, Except.pure, throw, throwThe, MonadExceptOf.throw]
      rcases hbad with ⟨k, hk, hb⟩ | ⟨k, hk, hb⟩
      · simp only [hk, wrapOpt, wrap_some_bad hb]
      · simp only [hk, wrapOpt, wrap_some_bad hb]
        cases hst : s.start with
        | none =>
          simp only
          split
          · rfl
          · rw [wrap_some (by omega) (by omega)]
        | some k' =>
          simp only
          by_cases hb' : -(n : Int) ≤ k' ∧ k' ≤ n
          · rw [wrap_some hb'.1 hb'.2]
          · rw [wrap_some_bad hb']
    simp only [inSlice, checkLength_pos hn, wrap_some h1 h2, hcan, bind, Except.bind]

/-- C11 without a length: when `in_slice(i, s)` gives an answer at all, it is the answer for every length that can contain
the index and the slice's limits. -/
theorem C11_in_slice_without_length (s : Slice) (i : Int) (b : Bool) (h : inSlice i (.slice s) none = .ok b) (n : Nat)
    (hi : i < n) (hstart : ∀ k, s.start = some k → k < n) (hstop : ∀ k, s.stop = some k → k ≤ n) :
    0 ≤ i ∧ (b = true ↔ i ∈ s.indices n) := by
  have hi0 : 0 ≤ i := by
    simp only [inSlice, checkLength, wrap, bind, Except.bind] at h
    split at h
    · simp at h
    · rename_i hh; split at hh <;> simp at hh; omega
  refine ⟨hi0, ?_⟩
  have hn : 0 < n := by omega
  -- the slice is accepted, and the canonical form does not depend on the length
  have hs0 : s.by ≠ 0 := by
    intro hs
    simp only [inSlice, checkLength, wrap, bind, Except.bind, canonize, hs, if_true, throw, throwThe, MonadExceptOf.throw,
      if_neg (show ¬ i < 0 by omega)] at h
    simp at h
  have hw : ∀ (o : Option Int) r, wrapOpt none o = .ok r → (∀ k, o = some k → 0 ≤ k) := by
    intro o r hr k hk
    subst hk
    simp only [wrapOpt, wrap] at hr
    split at hr
    · rename_i hh; split at hh <;> simp at hh; omega
    · simp at hr
  simp only [inSlice, checkLength, wrap, bind, Except.bind, if_neg (show ¬ i < 0 by omega)] at h
  have hcan : ∃ c, canonize s none = .ok c := by
    cases hc : canonize s none with
    | ok c => exact ⟨c, rfl⟩
    | error e => rw [hc] at h; simp at h
  obtain ⟨c, hc⟩ := hcan
  have hpos : (∀ k, s.start = some k → 0 ≤ k) ∧ (∀ k, s.stop = some k → 0 ≤ k) := by
    simp only [canonize, hs0, if_false, bind, Except.bind, pure, Except.pure, throw, throwThe, MonadExceptOf.throw] at hc
    constructor
    · cases hw1 : wrapOpt none s.start with
      | error e => rw [hw1] at hc; simp at hc
      | ok r => exact hw _ r hw1
    · cases hw1 : wrapOpt none s.stop with
      | error e =>
        rw [hw1] at hc
        exfalso
        cases hw2 : wrapOpt none s.start with
        | error e => rw [hw2] at hc; simp at hc
        | ok o => rw [hw2] at hc; cases o <;> simp at hc <;> split at hc <;> simp at hc
      | ok r => exact hw _ r hw1
  have hacc : Accepted s n := by
    refine ⟨hs0, fun k hk => ?_, fun k hk => ?_⟩
    · have := hpos.1 k hk; have := hstart k hk; exact ⟨by omega, by omega, fun _ => by omega⟩
    · have := hpos.2 k hk; have := hstop k hk; exact ⟨by omega, by omega⟩
  obtain ⟨b', hb', hbm'⟩ := inSlice_slice (i := i) hn hacc (by omega) hi
  have hni : normIdx i n = i := by unfold normIdx; rw [if_neg (by omega)]
  rw [hni] at hbm'
  rw [← hbm']
  -- both calls compute the same thing
  have hsame : canonize s (some (n : Int)) = .ok c := by
    rw [← hc]
    have hwe : ∀ k, 0 ≤ k → k ≤ (n : Int) → wrap (some (n : Int)) k = wrap none k := by
      intro k h1 h2
      rw [wrap_some (by omega) h2]; simp only [wrap, normIdx, if_neg (show ¬ k < 0 by omega)]
    have hwo : ∀ o : Option Int, (∀ k, o = some k → 0 ≤ k ∧ k ≤ (n : Int)) → wrapOpt (some (n : Int)) o = wrapOpt none o := by
      intro o ho
      cases o with
      | none => rfl
      | some k => simp only [wrapOpt]; rw [hwe k (ho k rfl).1 (ho k rfl).2]
    have e1 := hwo s.start (fun k hk => ⟨hpos.1 k hk, by have := hstart k hk; omega⟩)
    have e2 := hwo s.stop (fun k hk => ⟨hpos.2 k hk, hstop k hk⟩)
    simp only [canonize, hs0, if_false, bind, Except.bind, pure, Except.pure, throw, throwThe, MonadExceptOf.throw, e1, e2] at hc ⊢
    cases hw1 : wrapOpt none s.start with
    | error e => simp only
    | ok o1 =>
      rw [hw1] at hc
      cases hw2 : wrapOpt none s.stop with
      | error e =>
        rw [hw2] at hc
        simp only at hc
        split at hc
        · simp at hc
        · split at hc <;> simp at hc
      | ok o2 =>
        rw [hw2] at hc
        cases o1 <;> cases o2 <;> simp only at hc ⊢
        · split at hc
          · simp at hc
          · simp at hc
        · split at hc
          · rename_i hp; simp [hp]
          · simp at hc
        · split at hc
          · simp at hc
          · rename_i hp; simp [hp]
  simp only [inSlice, checkLength_pos hn, wrap_some (show -(n : Int) ≤ i by omega) (Int.le_of_lt hi), hsame, bind, Except.bind, hni] at hb'
  simp only [hc] at h
  rw [h] at hb'
  simp at hb'
  rw [hb']

/-- a slice with negative bounds and step -/
example : Accepted ⟨some (-2), some 0, some (-3)⟩ 10 ∧ (⟨some (-2), some 0, some (-3)⟩ : Slice).indices 10 = [8, 5, 2] ∧
    indexInSlice (-5) ⟨some (-2), some 0, some (-3)⟩ (some 10) = .ok (some 1) := by decide
example : inSlice 4 (.slice ⟨some 0, some 10, some 2⟩) none = .ok true := by decide

/-- C11 is violated (1): Python clamps a stop beyond the end, `in_slice` raises. -/
theorem C11_out_of_range_refuted :
    (1 : Int) ∈ (⟨some 0, some 100, none⟩ : Slice).indices 3 ∧
    inSlice 1 (.slice ⟨some 0, some 100, none⟩) (some 3) = .error .IndexError := by decide

/-- C11 is violated (2): `start == length` with a negative step is not clamped to the last element: with step -2 the wrong elements
are reported, and with step -1 `index_in_slice` is off by one. -/
theorem C11_start_at_length_refuted :
    (⟨some 3, none, some (-2)⟩ : Slice).indices 3 = [2, 0] ∧
    inSlice 2 (.slice ⟨some 3, none, some (-2)⟩) (some 3) = .ok false ∧
    inSlice 1 (.slice ⟨some 3, none, some (-2)⟩) (some 3) = .ok true ∧
    (⟨some 3, none, some (-1)⟩ : Slice).indices 3 = [2, 1, 0] ∧
    indexInSlice 2 ⟨some 3, none, some (-1)⟩ (some 3) = .ok (some 1) := by decide

/-- C11 is violated (3): the nonexistent index `length` is accepted, and said to be "in" the int index `length`. -/
theorem C11_index_at_length_refuted : inSlice 3 (.int 3) (some 3) = .ok true := by decide

/-! ## C10 -/

/-- C10 (what holds): for every sequence and every list of updates that fit its length, the result of `fupdate` is what assigning
elementwise to a copy, left to right, gives.  The replacement of a slice may be a sequence, or an iterator, with at least as many items
as the slice selects; for a negative step the iterator must be a memoized one.
Missing: slices with limits beyond the ends (rejected), and the refutations below.  (That `seq` is not changed is built into the
model: no function of collections.py or fup.py used here assigns to it.) -/
theorem C10_fupdate_partial (l : List α) (us : List (Upd α)) (h : ∀ u ∈ us, Fits l.length u) :
    fupdate l us = .ok (us.foldl Spec.Slices.apply l) := by
  obtain ⟨s', e, ok, hl, hd⟩ := shadows_spec (.base l) trivial us h
  simp only [fupdate, e]
  rw [collect_spec s' ok s'.len 0 (by omega) [] (CI_nil _ _), List.drop_zero, hd]
  rfl

private theorem collect_ok (s : Seq α) (m k : Nat) (cs : List Nat) (r : List α) (h : s.collect k m cs = .ok r) (j : Nat)
    (hj : k ≤ j) (hjm : j < k + m) : ∃ cs a cs', s.getone j cs = (.ok a, cs') := by
  induction m generalizing k cs r with
  | zero => omega
  | succ m ih =>
    simp only [Seq.collect] at h
    split at h
    · simp at h
    · simp at h
    · rename_i a cs' hg
      split at h
      · rename_i l hl
        by_cases hkj : k = j
        · subst hkj; exact ⟨cs, a, cs', hg⟩
        · exact ih (k + 1) cs' l hl (by omega) (by omega)
      · simp at h

/-- C10, error branch: an index beyond the ends raises IndexError (unless it is exactly `len(seq)`, or the sequence is empty, see
the refutations). -/
theorem C10_fupdate_bad_index (l : List α) (k : Int) (a : α) (hl : l ≠ [])
    (hk : k < -(l.length : Int) ∨ (l.length : Int) < k) : fupdate l [.int k a] = .error .IndexError := by
  have hn : 0 < l.length := List.length_pos_iff.mpr hl
  have hin : inSlice ((0 : Nat) : Int) (.int k) (some l.length) = .error .IndexError := by
    simp only [inSlice, checkLength_pos hn, wrap_some (k := ((0 : Nat) : Int)) (n := l.length) (by omega) (by omega), bind, Except.bind,
      wrap_some_bad (k := k) (n := l.length) (by omega)]
  simp only [fupdate, shadows, shadow, Seq.len]
  obtain ⟨n, hn'⟩ : ∃ n, l.length = n + 1 := ⟨l.length - 1, by omega⟩
  rw [hn']
  simp only [Seq.collect, Seq.getone, Seq.len, hin]

/-- C10, error branch: too few replacement items (or a replacement that is not iterable) raise. -/
theorem C10_fupdate_too_few (l : List α) (s : Slice) (v : Repl α) (hacc : Accepted s l.length)
    (hv : match v with
      | .item _ => True
      | .seq vs => vs.length < (s.indices l.length).length
      | .iter _ items => ∃ m, m < (s.indices l.length).length ∧ items m = none) :
    ∃ e, fupdate l [.slice s v] = .error e := by
  have hmain : ∀ m, m < (s.indices l.length).length → (∀ c, ∃ e c', readRepl v (m : Int) c = (.error e, c')) →
      shadow (.base l) (.slice s v) = .ok (.shadowSlice (.base l) s v) → ∃ e, fupdate l [.slice s v] = .error e := by
    intro m hm hr hsh
    have hx := List.getElem?_eq_getElem hm
    obtain ⟨h0, h1⟩ := s.indices_range l.length (List.getElem_mem hm)
    cases hf : fupdate l [.slice s v] with
    | error e => exact ⟨e, rfl⟩
    | ok r =>
      simp only [fupdate, shadows, hsh] at hf
      obtain ⟨cs, a, cs', hg⟩ := collect_ok _ _ _ _ _ hf ((s.indices l.length)[m]).toNat (Nat.zero_le _)
        (by simp only [Seq.len]; omega)
      have hcast : ((((s.indices l.length)[m]).toNat : Nat) : Int) = (s.indices l.length)[m] := Int.toNat_of_nonneg h0
      rw [hcast] at hg
      have hnorm : normIdx (s.indices l.length)[m] l.length = (s.indices l.length)[m] := by
        unfold normIdx; rw [if_neg (by omega)]
      have hin := (C11_in_slice_partial s l.length (by omega) hacc _ (by omega) h1).1.mpr
        (by rw [hnorm]; exact List.getElem_mem hm)
      have hix := indexNoCheck_spec (by omega) hacc (by omega) h1 (m := m) (by rw [hnorm]; exact hx)
      obtain ⟨e, c', he⟩ := hr (cs.head?.getD 0)
      simp only [Seq.getone, Seq.len, hin, hix, he] at hg
      simp at hg
  cases v with
  | item a => exact ⟨.TypeError, rfl⟩
  | seq vs =>
    refine hmain vs.length hv (fun c => ⟨.IndexError, c, ?_⟩) rfl
    simp [readRepl]
  | iter memo items =>
    obtain ⟨m, hm, hnone⟩ := hv
    refine hmain m hm (fun c => ?_) rfl
    simp only [readRepl, Int.toNat_natCast, hnone]
    split
    · split <;> exact ⟨_, _, rfl⟩
    · exact ⟨_, _, rfl⟩

/-- C10, error branch: whatever the updates, a StopIteration of an exhausted replacement iterator never reaches the
caller, who could mistake it for the end of an iteration of their own. -/
theorem C10_fupdate_no_stopiteration (l : List α) (us : List (Upd α)) : fupdate l us ≠ .error .StopIteration := by
  have hs : ∀ (us : List (Upd α)) (s : Seq α), shadows s us ≠ .error .StopIteration := by
    intro us
    induction us with
    | nil => intro s; simp [shadows]
    | cons u us ih =>
      intro s
      match u with
      | .int k a => simpa [shadows, shadow] using ih _
      | .slice sl (.item a) => simp [shadows, shadow]
      | .slice sl (.seq v) => simpa [shadows, shadow] using ih _
      | .slice sl (.iter m v) => simpa [shadows, shadow] using ih _
  have hc : ∀ (s : Seq α) (m j : Nat) (cs : List Nat), s.collect j m cs ≠ .error .StopIteration := by
    intro s m
    induction m with
    | zero => intro j cs; simp [Seq.collect]
    | succ m ih =>
      intro j cs
      simp only [Seq.collect]
      split
      · simp
      · rename_i e _ hne _; intro h; simp only [Except.error.injEq] at h; subst h; simp_all
      · split
        · simp
        · rename_i e he; intro h; simp only [Except.error.injEq] at h; subst h; exact ih _ _ he
  simp only [fupdate]
  split
  · rename_i e he; intro h; simp only [Except.error.injEq] at h; subst h; exact hs _ _ he
  · exact hc _ _ _ _

/-- an iterator with too few items -/
example : fupdate [1, 2, 3] [.slice ⟨none, none, none⟩ (.iter false fun n => if n < 2 then some 9 else none)]
    = .error .RuntimeError := by decide

/-- two updates, the second reversing part of the first; and a memoized iterator read backwards -/
example : fupdate [0, 1, 2, 3, 4, 5, 6, 7, 8, 9]
    [.slice ⟨some 0, some 10, some 2⟩ (.seq [10, 20, 30, 40, 50]), .slice ⟨none, none, some (-3)⟩ (.iter true (fun n => some (100 + n))),
      .int (-10) 7] = .ok [7, 1, 20, 102, 30, 5, 101, 7, 50, 100] := by decide
example : ∀ u ∈ [Upd.slice ⟨some 0, some 10, some 2⟩ (.seq [10, 20, 30, 40, 50]), .int (-10) 7], Fits 10 u := by
  simp [Fits, Enough]; decide

/-- C10 is violated (1): index `len(seq)` is ignored instead of raising IndexError (for every sequence). -/
theorem C10_index_at_length_refuted (l : List α) (a : α) : fupdate l [.int l.length a] = .ok l := by
  simp only [fupdate, shadows, shadow, Seq.len]
  have key : ∀ m k cs, k + m = l.length → (Seq.shadowInt (.base l) l.length a).collect k m cs = .ok (l.drop k) := by
    intro m
    induction m with
    | zero => intro k cs hk; simp only [Seq.collect]; rw [List.drop_eq_nil_of_le (by omega)]
    | succ m ih =>
      intro k cs hk
      have hlt : k < l.length := by omega
      have hlen : (Seq.base l).len = l.length := rfl
      have hin : inSlice (k : Int) (.int l.length) (some ((Seq.base l).len : Int)) = .ok false := by
        rw [hlen, inSlice_int (by omega) (by omega) (by omega) (by omega) (by omega), normIdx_nat, normIdx_nat]
        simp; omega
      have hone : (Seq.shadowInt (.base l) l.length a).getone k cs = (.ok l[k], cs.head?.getD 0 :: cs.tail) := by
        rw [Seq.getone]
        simp only [hin]
        rw [if_neg (by simp only [Bool.or_eq_true, decide_eq_true_eq, hlen]; omega)]
        simp only [Seq.getone, normIdx_nat, Int.toNat_natCast, List.getElem?_eq_getElem hlt]
      simp only [Seq.collect, hone]
      rw [ih (k + 1) _ (by omega), List.drop_eq_getElem_cons hlt]
  rw [key _ 0 [] (by omega)]; rfl

/-- C10 is violated (2): on an empty sequence no index is rejected. -/
theorem C10_empty_refuted (k : Int) (a : α) : fupdate [] [.int k a] = .ok [] := rfl

/-- C10 is violated (3): a slice reaching beyond the end, which Python's slice assignment clamps, raises IndexError; and starting at
`len(seq)` with a negative step updates the wrong elements. -/
theorem C10_slice_limits_refuted :
    fupdate [1, 2, 3] [.slice ⟨some 0, some 5, none⟩ (.seq [10, 20, 30])] = .error .IndexError ∧
    fupdate [1, 2, 3, 4] [.slice ⟨some 4, none, some (-2)⟩ (.seq [10, 20, 30])] = .ok [30, 2, 20, 4] ∧
    assignSlice [1, 2, 3, 4] ⟨some 4, none, some (-2)⟩ [10, 20, 30] = [1, 20, 3, 10] := by decide

/-- C10, several updates: a too short replacement goes unnoticed when a later update covers the missing positions. -/
theorem C10_shadowed_error_unnoticed :
    fupdate [1, 2, 3] [.slice ⟨some 0, some 3, none⟩ (.seq [10, 20]), .int 2 99] = .ok [10, 20, 99] := by decide

end Unpy.Props
