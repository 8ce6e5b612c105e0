import Verif.Model.PySlice
namespace Unpy
universe u
variable {α : Type u}

theorem rangeLen_pos {a b s : Int} (hs : s > 0) (k : Nat) : k < rangeLen a b s ↔ a + (k : Int) * s < b := by
  unfold rangeLen
  rw [if_pos hs]
  have h1 : (k < ((b - a + s - 1) / s).toNat) ↔ ((k : Int) < (b - a + s - 1) / s) := by omega
  rw [h1]
  rw [show ((k : Int) < (b - a + s - 1) / s) ↔ ((k : Int) + 1 ≤ (b - a + s - 1) / s) from by omega]
  rw [Int.le_ediv_iff_mul_le hs, Int.add_mul]
  omega

theorem rangeLen_neg {a b s : Int} (hs : s < 0) (k : Nat) : k < rangeLen a b s ↔ a + (k : Int) * s > b := by
  unfold rangeLen
  rw [if_neg (by omega), if_pos hs]
  have h1 : (k < ((a - b + (-s) - 1) / (-s)).toNat) ↔ ((k : Int) < (a - b + (-s) - 1) / (-s)) := by omega
  rw [h1]
  rw [show ((k : Int) < (a - b + (-s) - 1) / (-s)) ↔ ((k : Int) + 1 ≤ (a - b + (-s) - 1) / (-s)) from by omega]
  rw [Int.le_ediv_iff_mul_le (by omega), Int.add_mul, Int.mul_neg]
  omega

@[simp] theorem pyRange_length (a b s : Int) : (pyRange a b s).length = rangeLen a b s := by simp [pyRange]

theorem pyRange_getElem? (a b s : Int) (k : Nat) :
    (pyRange a b s)[k]? = if k < rangeLen a b s then some (a + (k : Int) * s) else none := by
  simp only [pyRange, List.getElem?_map]
  split
  · rename_i h; simp [h]
  · rename_i h; simp; omega

theorem mem_pyRange {a b s x : Int} : x ∈ pyRange a b s ↔ ∃ k : Nat, k < rangeLen a b s ∧ x = a + (k : Int) * s := by
  simp only [pyRange, List.mem_map, List.mem_range]
  constructor
  · rintro ⟨k, h, e⟩; exact ⟨k, h, e.symm⟩
  · rintro ⟨k, h, e⟩; exact ⟨k, h, e.symm⟩

/-- the range hits `x` as its `k`-th item iff `x` is on the grid and within the limits -/
theorem pyRange_pos_iff {a b s x : Int} (hs : s > 0) (k : Nat) :
    (pyRange a b s)[k]? = some x ↔ a ≤ x ∧ x < b ∧ (x - a) % s = 0 ∧ (k : Int) = (x - a) / s := by
  rw [pyRange_getElem?]
  constructor
  · intro h
    split at h
    · rename_i hk
      simp only [Option.some.injEq] at h
      subst h
      rw [rangeLen_pos hs] at hk
      have e : a + (k : Int) * s - a = (k : Int) * s := by omega
      refine ⟨by have := Int.mul_nonneg (Int.natCast_nonneg k) (Int.le_of_lt hs); omega, hk, ?_, ?_⟩
      · rw [e]; exact Int.mul_emod_left _ _
      · rw [e, Int.mul_ediv_cancel _ (by omega)]
    · simp at h
  · rintro ⟨h1, h2, h3, h4⟩
    have e : (k : Int) * s = x - a := by
      rw [h4, Int.mul_comm]; exact Int.mul_ediv_cancel' (Int.dvd_of_emod_eq_zero h3)
    have hk : k < rangeLen a b s := by rw [rangeLen_pos hs, e]; omega
    rw [if_pos hk, e]; congr 1; omega

theorem pyRange_neg_iff {a b s x : Int} (hs : s < 0) (k : Nat) :
    (pyRange a b s)[k]? = some x ↔ x ≤ a ∧ b < x ∧ (x - a) % s = 0 ∧ (k : Int) = (x - a) / s := by
  rw [pyRange_getElem?]
  constructor
  · intro h
    split at h
    · rename_i hk
      simp only [Option.some.injEq] at h
      subst h
      rw [rangeLen_neg hs] at hk
      have e : a + (k : Int) * s - a = (k : Int) * s := by omega
      refine ⟨by have := Int.mul_nonpos_of_nonneg_of_nonpos (Int.natCast_nonneg k) (Int.le_of_lt hs); omega, hk, ?_, ?_⟩
      · rw [e]; exact Int.mul_emod_left _ _
      · rw [e, Int.mul_ediv_cancel _ (by omega)]
    · simp at h
  · rintro ⟨h1, h2, h3, h4⟩
    have e : (k : Int) * s = x - a := by
      rw [h4, Int.mul_comm]; exact Int.mul_ediv_cancel' (Int.dvd_of_emod_eq_zero h3)
    have hk : k < rangeLen a b s := by rw [rangeLen_neg hs, e]; omega
    rw [if_pos hk, e]; congr 1; omega

theorem pyRange_inj {a b s x : Int} (hs : s ≠ 0) {k k' : Nat} (h : (pyRange a b s)[k]? = some x)
    (h' : (pyRange a b s)[k']? = some x) : k = k' := by
  rw [pyRange_getElem?] at h h'
  split at h <;> split at h'
  all_goals simp at h h'
  have : (k : Int) * s = (k' : Int) * s := by omega
  have := Int.eq_of_mul_eq_mul_right hs this
  omega

theorem pyRange_nodup (a b : Int) {s : Int} (hs : s ≠ 0) : (pyRange a b s).Nodup := by
  unfold List.Nodup
  rw [List.pairwise_iff_getElem]
  intro i j hi hj hij he
  have hi' : (pyRange a b s)[i]? = some (pyRange a b s)[i] := by simp [hi]
  have hj' : (pyRange a b s)[j]? = some (pyRange a b s)[i] := by rw [he]; simp [hj]
  have := pyRange_inj hs hi' hj'
  omega

theorem Slice.startIn_bounds (s : Slice) (n : Nat) :
    (s.by < 0 → -1 ≤ s.startIn n ∧ s.startIn n ≤ n - 1 ) ∧
    (¬ s.by < 0 → 0 ≤ s.startIn n ∧ s.startIn n ≤ n) := by
  unfold Slice.startIn
  constructor <;> intro h <;> cases s.start <;> simp only [h, if_true, if_false] <;> (repeat' split) <;> omega

theorem Slice.stopIn_bounds (s : Slice) (n : Nat) :
    (s.by < 0 → -1 ≤ s.stopIn n ∧ s.stopIn n ≤ n - 1) ∧ (¬ s.by < 0 → 0 ≤ s.stopIn n ∧ s.stopIn n ≤ n) := by
  unfold Slice.stopIn
  constructor <;> intro h <;> cases s.stop <;> simp only [h, if_true, if_false] <;> (repeat' split) <;> omega

/-- a slice selects only existing positions -/
theorem Slice.indices_range (s : Slice) (n : Nat) {x : Int} (h : x ∈ s.indices n) : 0 ≤ x ∧ x < n := by
  obtain ⟨k, hk⟩ := List.mem_iff_getElem?.mp h
  have h1 := s.startIn_bounds n
  have h2 := s.stopIn_bounds n
  unfold Slice.indices at hk
  rcases Int.lt_trichotomy s.by 0 with hs | hs | hs
  · rw [pyRange_neg_iff hs] at hk
    have := h1.1 hs; have := h2.1 hs; omega
  · rw [pyRange_getElem?, hs] at hk; simp [rangeLen] at hk
  · rw [pyRange_pos_iff hs] at hk
    have := h1.2 (by omega); have := h2.2 (by omega); omega

theorem Slice.indices_nodup (s : Slice) (n : Nat) (h : s.by ≠ 0) : (s.indices n).Nodup := pyRange_nodup _ _ h

theorem filterMap_total {l : List Int} {f : Int → Option α} (h : ∀ x ∈ l, ∃ y, f x = some y) (k : Nat) :
    (l.filterMap f)[k]? = (l[k]?).bind f := by
  induction l generalizing k with
  | nil => simp
  | cons x l ih =>
    obtain ⟨y, hy⟩ := h x (by simp)
    rw [List.filterMap_cons, hy]
    cases k with
    | zero => simp [hy]
    | succ k => simp [ih (fun x hx => h x (by simp [hx]))]

/-- the `k`-th element of `l[s]` is the element at the `k`-th selected position -/
theorem pySlice_getElem? (l : List α) (s : Slice) (k : Nat) :
    (pySlice l s)[k]? = ((s.indices l.length)[k]?).bind (fun i => l[i.toNat]?) := by
  unfold pySlice
  apply filterMap_total
  intro x hx
  obtain ⟨h0, h1⟩ := s.indices_range l.length hx
  exact ⟨_, List.getElem?_eq_getElem (by omega)⟩

theorem filterMap_total_length {l : List Int} {f : Int → Option α} (h : ∀ x ∈ l, ∃ y, f x = some y) :
    (l.filterMap f).length = l.length := by
  induction l with
  | nil => rfl
  | cons x l ih =>
    obtain ⟨y, hy⟩ := h x (by simp)
    rw [List.filterMap_cons, hy]
    simp [ih (fun x hx => h x (by simp [hx]))]

theorem pySlice_length (l : List α) (s : Slice) : (pySlice l s).length = (s.indices l.length).length := by
  unfold pySlice
  apply filterMap_total_length
  intro x hx
  obtain ⟨h0, h1⟩ := s.indices_range l.length hx
  exact ⟨_, List.getElem?_eq_getElem (by omega)⟩

/-- a slice with step 1 is a contiguous part -/
theorem pySlice_unit (l : List α) (s : Slice) (h : s.by = 1) :
    pySlice l s = (l.drop (s.startIn l.length).toNat).take
      ((s.stopIn l.length).toNat - (s.startIn l.length).toNat) := by
  have h1 := (s.startIn_bounds l.length).2 (by omega)
  have h2 := (s.stopIn_bounds l.length).2 (by omega)
  apply List.ext_getElem?
  intro k
  rw [pySlice_getElem?, Slice.indices, pyRange_getElem?, h]
  have hk := rangeLen_pos (a := s.startIn l.length) (b := s.stopIn l.length) (s := 1) (by omega) k
  rw [List.getElem?_take, List.getElem?_drop]
  by_cases hc : k < rangeLen (s.startIn l.length) (s.stopIn l.length) 1
  · rw [if_pos hc]
    have := hk.mp hc
    rw [if_pos (by omega)]
    simp only [Option.bind_some]
    congr 1; omega
  · rw [if_neg hc]
    have : ¬ _ := fun hh => hc (hk.mpr hh)
    rw [if_neg (by omega)]; rfl

end Unpy
