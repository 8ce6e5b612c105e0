import Verif.Spec.Slices
import Verif.Proof.PySlice
namespace Unpy.Slices
open Unpy Unpy.Spec.Slices
universe u
variable {α : Type u}

theorem fmod_neg {k : Int} {n : Nat} (h1 : -(n : Int) ≤ k) (h2 : k < 0) : k.fmod n = k + n := by
  rw [Int.fmod_eq_emod_of_nonneg _ (by omega)]
  have : (k + n) % (n : Int) = k % n := by simp
  rw [← this, Int.emod_eq_of_lt (by omega) (by omega)]

theorem wrap_some {k : Int} {n : Nat} (h1 : -(n : Int) ≤ k) (h2 : k ≤ n) : wrap (some n) k = .ok (normIdx k n) := by
  unfold wrap normIdx
  simp only [h1, h2, decide_true, Bool.and_self, Bool.not_true, Bool.false_eq_true, if_false]
  split
  · rw [fmod_neg h1 (by omega)]
  · rfl

theorem wrap_some_bad {k : Int} {n : Nat} (h : ¬ (-(n : Int) ≤ k ∧ k ≤ n)) :
    wrap (some (n : Int)) k = .error .IndexError := by
  unfold wrap
  simp only
  rw [if_pos]
  simp only [Bool.not_eq_true', Bool.and_eq_false_iff, decide_eq_false_iff_not]
  omega

theorem checkLength_pos {n : Nat} (h : 0 < n) : checkLength (some (n : Int)) = .ok () := by
  simp [checkLength]; omega

/-- `_canonize_slice` gives Python's start and step, and Python's stop up to clamping -/
theorem canonize_spec {s : Slice} {n : Nat} (hn : 0 < n) (h : Accepted s n) :
    ∃ st, canonize s (some n) = .ok (s.startIn n, st, s.by) ∧
      (st = s.stopIn n ∨ (s.by < 0 ∧ st = n ∧ s.stopIn n = n - 1)) := by
  obtain ⟨h0, h1, h2⟩ := h
  have hm1 : wrap (some (n : Int)) (-1) = .ok ((n : Int) - 1) := by
    rw [wrap_some (by omega) (by omega)]; simp [normIdx]; omega
  have hstart : ∃ o, wrapOpt (some (n : Int)) s.start = .ok o ∧
      (match o with
        | some k => k = s.startIn n
        | none => (s.by > 0 → s.startIn n = 0) ∧ (s.by < 0 → s.startIn n = n - 1)) := by
    unfold Slice.startIn
    cases hk : s.start with
    | none =>
      refine ⟨none, rfl, ?_⟩
      simp only
      constructor <;> intro h
      · rw [if_neg (by omega)]
      · rw [if_pos h]
    | some k =>
      obtain ⟨ha, hb, hc⟩ := h1 k hk
      refine ⟨some (normIdx k n), by simp only [wrapOpt, wrap_some ha hb], ?_⟩
      simp only [normIdx]
      repeat' split
      all_goals omega
  have hstop : ∃ o, wrapOpt (some (n : Int)) s.stop = .ok o ∧
      (match o with
        | some k => k = s.stopIn n ∨ (s.by < 0 ∧ k = n ∧ s.stopIn n = n - 1)
        | none => (s.by > 0 → s.stopIn n = n) ∧ (s.by < 0 → s.stopIn n = -1)) := by
    unfold Slice.stopIn
    cases hk : s.stop with
    | none =>
      refine ⟨none, rfl, ?_⟩
      simp only
      constructor <;> intro h
      · rw [if_neg (by omega)]
      · rw [if_pos h]
    | some k =>
      obtain ⟨ha, hb⟩ := h2 k hk
      refine ⟨some (normIdx k n), by simp only [wrapOpt, wrap_some ha hb], ?_⟩
      simp only [normIdx]
      repeat' split
      all_goals omega
  obtain ⟨o1, e1, p1⟩ := hstart
  obtain ⟨o2, e2, p2⟩ := hstop
  unfold canonize
  simp only [e1, e2, bind, Except.bind, pure, Except.pure, throw, throwThe, MonadExceptOf.throw, h0, if_false, hm1]
  rcases Int.lt_or_gt_of_ne h0 with hs | hs
  · have hs' : ¬ s.by > 0 := by omega
    cases o1 <;> cases o2 <;> simp only [hs', if_false] at p1 p2 ⊢
    · exact ⟨_, by rw [p1.2 hs], .inl (p2.2 hs).symm⟩
    · exact ⟨_, by rw [p1.2 hs], p2⟩
    · exact ⟨_, by rw [p1], .inl (p2.2 hs).symm⟩
    · exact ⟨_, by rw [p1], p2⟩
  · cases o1 <;> cases o2 <;> simp only [hs, if_true] at p1 p2 ⊢
    · exact ⟨_, by rw [p1.1 trivial], .inl (p2.1 trivial).symm⟩
    · exact ⟨_, by rw [p1.1 trivial], p2⟩
    · exact ⟨_, by rw [p1], .inl (p2.1 trivial).symm⟩
    · exact ⟨_, by rw [p1], p2⟩

theorem fmod_zero_iff (a s : Int) : a.fmod s = 0 ↔ a % s = 0 := by
  rw [← Int.dvd_iff_fmod_eq_zero, Int.dvd_iff_emod_eq_zero]

theorem inSlice_slice {s : Slice} {n : Nat} (hn : 0 < n) (h : Accepted s n) {i : Int} (h1 : -(n : Int) ≤ i)
    (h2 : i < n) :
    ∃ b, inSlice i (.slice s) (some n) = .ok b ∧ (b = true ↔ normIdx i n ∈ s.indices n) := by
  obtain ⟨st, hc, hst⟩ := canonize_spec hn h
  have hi : normIdx i n < n := by unfold normIdx; split <;> omega
  unfold inSlice
  simp only [checkLength_pos hn, wrap_some h1 (Int.le_of_lt h2), hc, bind, Except.bind, pure, Except.pure]
  refine ⟨_, rfl, ?_⟩
  rw [List.mem_iff_getElem?]
  rcases Int.lt_trichotomy s.by 0 with hs | hs | hs
  · have hs' : ¬ s.by > 0 := by omega
    simp only [hs', if_false, Bool.and_eq_true, decide_eq_true_eq, fmod_zero_iff]
    constructor
    · rintro ⟨⟨ha, hb⟩, hd⟩
      refine ⟨((normIdx i n - s.startIn n) / s.by).toNat, ?_⟩
      unfold Slice.indices
      rw [pyRange_neg_iff hs]
      refine ⟨ha, by omega, hb, ?_⟩
      have := Int.ediv_nonneg_of_nonpos_of_nonpos (show normIdx i n - s.startIn n ≤ 0 by omega) (Int.le_of_lt hs)
      omega
    · rintro ⟨k, hk⟩
      unfold Slice.indices at hk
      rw [pyRange_neg_iff hs] at hk
      exact ⟨⟨hk.1, hk.2.2.1⟩, by omega⟩
  · exact absurd hs h.1
  · simp only [hs, if_true, Bool.and_eq_true, decide_eq_true_eq, fmod_zero_iff]
    constructor
    · rintro ⟨⟨ha, hb⟩, hd⟩
      refine ⟨((normIdx i n - s.startIn n) / s.by).toNat, ?_⟩
      unfold Slice.indices
      rw [pyRange_pos_iff hs]
      refine ⟨ha, by omega, hb, ?_⟩
      have := Int.ediv_nonneg (show 0 ≤ normIdx i n - s.startIn n by omega) (Int.le_of_lt hs)
      omega
    · rintro ⟨k, hk⟩
      unfold Slice.indices at hk
      rw [pyRange_pos_iff hs] at hk
      exact ⟨⟨hk.1, hk.2.2.1⟩, by omega⟩

theorem indexNoCheck_spec {s : Slice} {n : Nat} (hn : 0 < n) (h : Accepted s n) {i : Int} (h1 : -(n : Int) ≤ i)
    (h2 : i < n) {m : Nat} (hm : (s.indices n)[m]? = some (normIdx i n)) :
    indexNoCheck i s (some n) = .ok m := by
  obtain ⟨st, hc, hst⟩ := canonize_spec hn h
  unfold indexNoCheck
  simp only [checkLength_pos hn, wrap_some h1 (Int.le_of_lt h2), hc, bind, Except.bind, pure, Except.pure]
  congr 1
  unfold Slice.indices at hm
  rcases Int.lt_trichotomy s.by 0 with hs | hs | hs
  · rw [pyRange_neg_iff hs] at hm
    rw [hm.2.2.2, Int.fdiv_eq_ediv_of_dvd (Int.dvd_of_emod_eq_zero hm.2.2.1)]
  · exact absurd hs h.1
  · rw [pyRange_pos_iff hs] at hm
    rw [hm.2.2.2, Int.fdiv_eq_ediv_of_dvd (Int.dvd_of_emod_eq_zero hm.2.2.1)]

theorem inSlice_int {n : Nat} (hn : 0 < n) {i k : Int} (h1 : -(n : Int) ≤ i) (h2 : i ≤ n) (h3 : -(n : Int) ≤ k)
    (h4 : k ≤ n) : inSlice i (.int k) (some n) = .ok (decide (normIdx i n = normIdx k n)) := by
  unfold inSlice
  simp only [checkLength_pos hn, wrap_some h1 h2, wrap_some h3 h4, bind, Except.bind, pure, Except.pure]

end Unpy.Slices

namespace Unpy.Slices
open Unpy Unpy.Spec.Slices
universe u
variable {α : Type u}

theorem foldl_set_length (ps : List (Int × α)) (l : List α) :
    (ps.foldl (fun l p => l.set p.1.toNat p.2) l).length = l.length := by
  induction ps generalizing l with
  | nil => rfl
  | cons p ps ih => rw [List.foldl_cons, ih]; simp

theorem assignSlice_length (l : List α) (s : Slice) (vals : List α) : (assignSlice l s vals).length = l.length :=
  foldl_set_length _ _

theorem foldl_set_getElem? (ps : List (Int × α)) (hpos : ∀ p ∈ ps, 0 ≤ p.1) (hnd : (ps.map Prod.fst).Nodup)
    (l : List α) (j : Nat) (hj : j < l.length) :
    (ps.foldl (fun l p => l.set p.1.toNat p.2) l)[j]? =
      match ps.find? (fun p => p.1 = (j : Int)) with
      | some p => some p.2
      | none => l[j]? := by
  induction ps generalizing l with
  | nil => simp
  | cons p ps ih =>
    have hnd' := (List.nodup_cons.mp (by simpa using hnd : (p.1 :: ps.map Prod.fst).Nodup))
    rw [List.foldl_cons, ih (fun q hq => hpos q (by simp [hq])) hnd'.2 _ (by simpa using hj), List.find?_cons]
    by_cases h : p.1 = (j : Int)
    · simp only [h, decide_true]
      have : ps.find? (fun q => q.1 = (j : Int)) = none := by
        rw [List.find?_eq_none]
        intro q hq
        simp only [decide_eq_true_eq]
        intro hqj
        exact hnd'.1 (by rw [h, ← hqj]; exact List.mem_map_of_mem hq)
      rw [this]
      simp only
      have := hpos p (by simp)
      rw [List.getElem?_set]
      simp [hj]
    · simp only [h, decide_false]
      have := hpos p (by simp)
      rw [List.getElem?_set_ne (by omega)]

/-- pointwise description of assigning to a slice: position `j` gets the item for its place in the slice -/
theorem assignSlice_getElem? (l : List α) (s : Slice) (hs : s.by ≠ 0) (vals : List α)
    (hlen : (s.indices l.length).length ≤ vals.length) (j : Nat) (hj : j < l.length) :
    (∀ m : Nat, (s.indices l.length)[m]? = some (j : Int) → (assignSlice l s vals)[j]? = vals[m]?) ∧
    ((j : Int) ∉ s.indices l.length → (assignSlice l s vals)[j]? = l[j]?) := by
  have hz : ∀ p ∈ (s.indices l.length).zip vals, 0 ≤ p.1 := by
    intro p hp
    exact (s.indices_range _ (List.of_mem_zip hp).1).1
  have hfst : ((s.indices l.length).zip vals).map Prod.fst = s.indices l.length := by
    rw [List.map_fst_zip hlen]
  have hnd : (((s.indices l.length).zip vals).map Prod.fst).Nodup := by
    rw [hfst]; exact s.indices_nodup _ hs
  have key := foldl_set_getElem? _ hz hnd l j hj
  constructor
  · intro m hm
    unfold assignSlice
    rw [key]
    have hml : m < (s.indices l.length).length := by
      rcases Nat.lt_or_ge m (s.indices l.length).length with h | h
      · exact h
      · rw [List.getElem?_eq_none h] at hm; simp at hm
    have hv : vals[m]? = some (vals[m]'(by omega)) := List.getElem?_eq_getElem (by omega)
    have hmem : ((j : Int), vals[m]'(by omega)) ∈ (s.indices l.length).zip vals := by
      rw [List.mem_iff_getElem?]
      exact ⟨m, by rw [List.getElem?_zip_eq_some]; exact ⟨hm, hv⟩⟩
    cases hf : ((s.indices l.length).zip vals).find? (fun p => p.1 = (j : Int)) with
    | none =>
      rw [List.find?_eq_none] at hf
      exact (hf _ hmem (by simp)).elim
    | some p =>
      have hp1 : p.1 = (j : Int) := by simpa using List.find?_some hf
      have hp2 := List.mem_of_find?_eq_some hf
      obtain ⟨m', hm'⟩ := List.mem_iff_getElem?.mp hp2
      rw [List.getElem?_zip_eq_some] at hm'
      have : m' = m := by
        apply pyRange_inj hs (x := (j : Int)) (a := s.startIn l.length) (b := s.stopIn l.length)
        · rw [← hp1]; exact hm'.1
        · exact hm
      subst this
      rw [hm'.2]
  · intro hn
    unfold assignSlice
    rw [key]
    have : ((s.indices l.length).zip vals).find? (fun p => p.1 = (j : Int)) = none := by
      rw [List.find?_eq_none]
      intro p hp
      simp only [decide_eq_true_eq]
      intro e; exact hn (by rw [← e]; exact (List.of_mem_zip hp).1)
    rw [this]

/-- the list that a well-formed tower of shadowed sequences stands for -/
def den : Seq α → List α
  | .base l => l
  | .shadowInt s k a => Spec.Slices.apply (den s) (.int k a)
  | .shadowSlice s sl v => Spec.Slices.apply (den s) (.slice sl v)

theorem den_length (s : Seq α) : (den s).length = s.len := by
  induction s with
  | base l => rfl
  | shadowInt s k a ih => simp [den, Spec.Slices.apply, assignIndex, Seq.len, ih]
  | shadowSlice s sl v ih => simp [den, Spec.Slices.apply, assignSlice_length, Seq.len, ih]

/-- every layer fits -/
def OK : Seq α → Prop
  | .base _ => True
  | .shadowInt s k a => Fits s.len (.int k a) ∧ OK s
  | .shadowSlice s sl v => Fits s.len (.slice sl v) ∧ OK s

/-- the items that the iterators have delivered are those for positions before `k` -/
def CI : Seq α → List Nat → Nat → Prop
  | .base _, _, _ => True
  | .shadowInt s _ _, cs, k => CI s cs.tail k
  | .shadowSlice s sl _, cs, k =>
    (sl.by > 0 → ∀ (j m : Nat), k ≤ j → (sl.indices s.len)[m]? = some (j : Int) → cs.head?.getD 0 ≤ m) ∧ CI s cs.tail k

theorem CI_nil (s : Seq α) (k : Nat) : CI s [] k := by
  induction s with
  | base l => trivial
  | shadowInt s _ _ ih => exact ih
  | shadowSlice s sl v ih => exact ⟨fun _ _ _ _ _ => by simp, ih⟩

theorem CI_mono (s : Seq α) (cs : List Nat) {k k' : Nat} (hk : k ≤ k') (h : CI s cs k) : CI s cs k' := by
  induction s generalizing cs with
  | base l => trivial
  | shadowInt s _ _ ih => exact ih _ h
  | shadowSlice s sl v ih => exact ⟨fun hs j m hj hm => h.1 hs j m (by omega) hm, ih _ h.2⟩

theorem firstItems_length (n : Nat) (v : Repl α) (b : Bool) (h : Enough n b v) : (firstItems n v).length = n := by
  cases v with
  | item a => exact h.elim
  | seq l => simp only [firstItems, List.length_take]; exact Nat.min_eq_left h
  | iter memo items =>
    simp only [firstItems]
    have h1 := h.1
    clear h
    induction n with
    | zero => rfl
    | succ n ih =>
      rw [List.range_succ, List.filterMap_append, List.length_append, ih (fun m hm => h1 m (by omega))]
      obtain ⟨a, ha⟩ := Option.isSome_iff_exists.mp (h1 n (by omega))
      simp [ha]

theorem firstItems_iter (n : Nat) (memo : Bool) (items : Nat → Option α) (h : ∀ m, m < n → (items m).isSome) (m : Nat)
    (hm : m < n) : (firstItems n (.iter memo items))[m]? = items m := by
  simp only [firstItems]
  induction n with
  | zero => omega
  | succ n ih =>
    have hl : ((List.range n).filterMap items).length = n := firstItems_length n (.iter true items) false
      ⟨fun m hm => h m (by omega), fun _ => rfl⟩
    rw [List.range_succ, List.filterMap_append]
    by_cases hmn : m < n
    · rw [List.getElem?_append_left (by omega), ih (fun m hm => h m (by omega)) hmn]
    · have : m = n := by omega
      subst this
      rw [List.getElem?_append_right (by omega), hl]
      obtain ⟨a, ha⟩ := Option.isSome_iff_exists.mp (h m (by omega))
      simp [ha]

theorem normIdx_nat (k n : Nat) : normIdx (k : Int) n = k := by unfold normIdx; rw [if_neg (by omega)]

theorem getone_spec (s : Seq α) (hok : OK s) (k : Nat) (hk : k < s.len) (cs : List Nat) (hci : CI s cs k) :
    ∃ a cs', s.getone k cs = (.ok a, cs') ∧ (den s)[k]? = some a ∧ CI s cs' (k + 1) := by
  induction s generalizing cs with
  | base l =>
    simp only [Seq.len] at hk
    simp only [Seq.getone, normIdx_nat, Int.toNat_natCast, List.getElem?_eq_getElem hk]
    exact ⟨_, _, rfl, by simp [den, hk], trivial⟩
  | shadowInt s ix x ih =>
    simp only [Seq.len] at hk
    obtain ⟨⟨h1, h2⟩, hok'⟩ := hok
    have hn : 0 < s.len := by omega
    have hin := inSlice_int (i := (k : Int)) (k := ix) hn (by omega) (by omega) h1 (by omega)
    rw [normIdx_nat] at hin
    simp only [Seq.getone, hin]
    by_cases he : (k : Int) = normIdx ix s.len
    · simp only [he, decide_true]
      refine ⟨x, cs, rfl, ?_, CI_mono _ cs (by omega) hci⟩
      simp only [den, Spec.Slices.apply, assignIndex, den_length, ← he, Int.toNat_natCast]
      rw [List.getElem?_set_self (by rw [den_length]; exact hk)]
    · simp only [he, decide_false]
      obtain ⟨a, cs', e1, e2, e3⟩ := ih hok' hk cs.tail hci
      rw [if_neg (by simp; omega), e1]
      refine ⟨a, _, rfl, ?_, e3⟩
      simp only [den, Spec.Slices.apply, assignIndex, den_length]
      rw [List.getElem?_set_ne, e2]
      unfold normIdx at he ⊢
      split at he <;> omega
  | shadowSlice s sl v ih =>
    simp only [Seq.len] at hk
    obtain ⟨⟨hacc, hen⟩, hok'⟩ := hok
    have hn : 0 < s.len := by omega
    obtain ⟨b, hb, hbm⟩ := inSlice_slice (i := (k : Int)) hn hacc (by omega) (by omega)
    rw [normIdx_nat] at hbm
    simp only [Seq.getone, hb]
    have hdl := den_length s
    have hassign := assignSlice_getElem? (den s) sl hacc.1 (firstItems (sl.indices (den s).length).length v)
      (by rw [hdl]; exact Nat.le_of_eq (firstItems_length _ v _ hen).symm) k (by omega)
    cases b with
    | true =>
      obtain ⟨m, hm⟩ := List.mem_iff_getElem?.mp (hbm.mp rfl)
      have hmlt : m < (sl.indices s.len).length := by
        rcases Nat.lt_or_ge m (sl.indices s.len).length with h | h
        · exact h
        · rw [List.getElem?_eq_none h] at hm; simp at hm
      rw [indexNoCheck_spec hn hacc (by omega) (by omega) (m := m) (by rw [normIdx_nat]; exact hm)]
      simp only
      have hden : (den (.shadowSlice s sl v))[k]? = (firstItems (sl.indices s.len).length v)[m]? := by
        have := hassign.1 m (by rw [hdl]; exact hm)
        simp only [den, Spec.Slices.apply]
        rw [this, hdl]
      have hlater : sl.by > 0 → ∀ (j m' : Nat), k + 1 ≤ j → (sl.indices s.len)[m']? = some (j : Int) → m + 1 ≤ m' := by
        intro hs j m' hj hm'
        unfold Slice.indices at hm hm'
        rw [pyRange_getElem?] at hm hm'
        split at hm <;> split at hm'
        all_goals simp at hm hm'
        rcases Nat.lt_or_ge m m' with h | h
        · exact h
        · have := Int.mul_le_mul_of_nonneg_right (show (m' : Int) ≤ m by omega) (Int.le_of_lt hs)
          omega
      cases v with
      | item a => exact hen.elim
      | seq l =>
        have hl : m < l.length := by have : (sl.indices s.len).length ≤ l.length := hen; omega
        simp only [readRepl]
        rw [if_neg (by omega)]
        simp only [Int.toNat_natCast, List.getElem?_eq_getElem hl]
        refine ⟨l[m], _, rfl, ?_, ?_, CI_mono _ _ (by omega) hci.2⟩
        · rw [hden]; simp [firstItems, hmlt, hl]
        · intro hs j m' hj hm'
          simp only [List.head?_cons, Option.getD_some]
          exact hci.1 hs j m' (by omega) hm'
      | iter memo items =>
        obtain ⟨x, hx⟩ := Option.isSome_iff_exists.mp (hen.1 m hmlt)
        rw [firstItems_iter _ memo items hen.1 m hmlt] at hden
        simp only [readRepl, Int.toNat_natCast, hx]
        by_cases hc : (m : Int) < ((cs.head?.getD 0 : Nat) : Int)
        · rw [if_pos hc]
          have hmemo : memo = true := by
            rcases Int.lt_or_gt_of_ne hacc.1 with hs | hs
            · exact hen.2 (by simp [hs])
            · have := hci.1 hs k m (by omega) hm; omega
          subst hmemo
          simp only [if_true]
          refine ⟨x, _, rfl, by rw [hden, hx], ?_, CI_mono _ _ (by omega) hci.2⟩
          intro hs j m' hj hm'
          simp only [List.head?_cons, Option.getD_some]
          exact hci.1 hs j m' (by omega) hm'
        · rw [if_neg hc]
          refine ⟨x, _, rfl, by rw [hden, hx], ?_, CI_mono _ _ (by omega) hci.2⟩
          intro hs j m' hj hm'
          simp only [List.head?_cons, Option.getD_some]
          exact hlater hs j m' hj hm'
    | false =>
      simp only
      obtain ⟨a, cs', e1, e2, e3⟩ := ih hok' hk cs.tail hci.2
      rw [if_neg (by simp; omega), e1]
      refine ⟨a, _, rfl, ?_, ?_, e3⟩
      · have := hassign.2 (by rw [hdl]; intro hc; exact absurd (hbm.mpr hc) (by simp))
        simp only [den, Spec.Slices.apply]
        rw [this, e2]
      · intro hs j m' hj hm'
        simp only [List.head?_cons, Option.getD_some]
        exact hci.1 hs j m' (by omega) hm'

theorem collect_spec (s : Seq α) (hok : OK s) (m k : Nat) (hk : k + m = s.len) (cs : List Nat) (hci : CI s cs k) :
    s.collect k m cs = .ok ((den s).drop k) := by
  induction m generalizing k cs with
  | zero =>
    simp only [Seq.collect]
    rw [List.drop_eq_nil_of_le (by rw [den_length]; omega)]
  | succ m ih =>
    obtain ⟨a, cs', e1, e2, e3⟩ := getone_spec s hok k (by omega) cs hci
    simp only [Seq.collect, e1]
    rw [ih (k + 1) (by omega) cs' e3]
    simp only
    have hlt : k < (den s).length := by rw [den_length]; omega
    rw [List.drop_eq_getElem_cons hlt]
    rw [List.getElem?_eq_getElem hlt] at e2
    simp at e2; rw [e2]

theorem shadows_spec (s : Seq α) (hok : OK s) (us : List (Upd α)) (h : ∀ u ∈ us, Fits s.len u) :
    ∃ s', shadows s us = .ok s' ∧ OK s' ∧ s'.len = s.len ∧ den s' = us.foldl Spec.Slices.apply (den s) := by
  induction us generalizing s with
  | nil => exact ⟨s, rfl, hok, rfl, rfl⟩
  | cons u us ih =>
    have hu := h u (by simp)
    obtain ⟨s1, e1, ok1, l1, d1⟩ : ∃ s1, shadow s u = .ok s1 ∧ OK s1 ∧ s1.len = s.len ∧ den s1 = Spec.Slices.apply (den s) u := by
      cases u with
      | int k a => exact ⟨_, rfl, ⟨hu, hok⟩, rfl, rfl⟩
      | slice sl v =>
        cases v with
        | item a => exact hu.2.elim
        | seq l => exact ⟨_, rfl, ⟨hu, hok⟩, rfl, rfl⟩
        | iter m it => exact ⟨_, rfl, ⟨hu, hok⟩, rfl, rfl⟩
    obtain ⟨s', e2, ok2, l2, d2⟩ := ih s1 ok1 (fun u hu' => by rw [l1]; exact h u (by simp [hu']))
    refine ⟨s', by simp only [shadows, e1, e2], ok2, by rw [l2, l1], ?_⟩
    rw [d2, d1]; rfl

end Unpy.Slices
