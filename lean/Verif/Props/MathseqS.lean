import Verif.Proof.MathseqS
import Mathlib.Tactic.NormNum
/-!
# Property C56: `s(...)` expands the described sequence
-/
namespace Unpy.Props
open Unpy Unpy.Mathseq Unpy.Mathseq.Spec

/-! ## no ellipsis; cyclic sequences -/

/-- C56: without `...`, `s` yields just the given elements. -/
theorem C56_enumeration (fl : Fl) (spec : List Item) (h0 : spec ≠ []) (hd : .dots ∉ spec)
    (hl : ∀ l, spec.getLast? ≠ some (.list l)) : s fl spec = .ok (.fin (spec.map some)) := by
  unfold s
  rw [if_pos (by simpa using hd)]
  cases hx : spec.getLast? with
  | none => simp [List.getLast?_eq_none_iff] at hx; exact absurd hx h0
  | some x =>
    cases x with
    | list l => exact absurd hx (hl l)
    | num q => rfl
    | dots => rfl

example (fl : Fl) : s fl [.num 1, .num 5, .num 2] = .ok (.fin [some (.num 1), some (.num 5), some (.num 2)]) :=
  C56_enumeration fl _ (by simp) (by simp) (by simp)

/-- C56: a cyclic sequence: first the initial elements, then the repeating ones over and over. -/
theorem C56_cyclic (fl : Fl) (initial : List Item) (rep : List Rat) (hr : rep ≠ []) :
    ∃ f, s fl (initial ++ [.list rep, .dots]) = .ok (.inf f) ∧
      (∀ i (h : i < initial.length), f i = some initial[i]) ∧
      (∀ c i (h : i < rep.length), f (initial.length + (c * rep.length + i)) = some (.num rep[i])) := by
  refine ⟨cyclicTerm initial rep, ?_, ?_, ?_⟩
  · unfold s
    have e : initial ++ [.list rep, .dots] = (initial ++ [.list rep]) ++ [.dots] := by simp
    rw [if_neg (by simp), e, List.getLast?_concat]
    simp only [List.dropLast_concat, List.getLast?_concat]
  · intro i h
    rw [cyclicTerm, if_pos h, List.getElem?_eq_getElem h]
  · intro c i h
    rw [cyclicTerm, if_neg (by omega)]
    have e : (initial.length + (c * rep.length + i) - initial.length) % rep.length = i := by
      rw [Nat.add_sub_cancel_left, Nat.add_comm, Nat.add_mul_mod_self_right, Nat.mod_eq_of_lt h]
    rw [e, List.getElem?_eq_getElem h]
    rfl

example (fl : Fl) : ∃ f, s fl [.num 1, .list [2, 3], .dots] = .ok (.inf f) ∧ f 4 = some (.num 3) := by
  obtain ⟨f, h1, _, h3⟩ := C56_cyclic fl [.num 1] [2, 3] (by simp)
  exact ⟨f, h1, h3 1 1 (by simp)⟩

/-- C56: a malformed specification is a `SyntaxError`: nothing to repeat, nothing before the `...`, `...` before the last two
places only, or a list at the end without a `...` -/
theorem C56_syntax (fl : Fl) (initial : List Item) (rep : List Rat) (x y : Item) (hx : x ≠ .dots) (hy : y ≠ .dots) :
    s fl (initial ++ [.list [], .dots]) = .error .SyntaxError ∧
    s fl [.dots] = .error .SyntaxError ∧
    s fl [.dots, x] = .error .SyntaxError ∧
    (.dots ∈ initial → s fl (initial ++ [x, y]) = .error .SyntaxError) ∧
    (.dots ∉ initial → s fl (initial ++ [.list rep]) = .error .SyntaxError) := by
  refine ⟨?_, rfl, ?_, ?_, ?_⟩
  · unfold s
    have e : initial ++ [.list [], .dots] = (initial ++ [.list []]) ++ [.dots] := by simp
    rw [if_neg (by simp), e, List.getLast?_concat]
    simp only [List.dropLast_concat, List.getLast?_concat]
  · cases x with
    | dots => exact absurd rfl hx
    | list l => rfl
    | num q => rfl
  · intro h
    unfold s
    have e : initial ++ [x, y] = (initial ++ [x]) ++ [y] := by simp
    rw [if_neg (by simp [h]), e, List.getLast?_concat]
    simp only [List.dropLast_concat, List.getLast?_concat]
    cases y <;> first | exact absurd rfl hy | (cases x <;> first | exact absurd rfl hx | rfl)
  · intro h
    unfold s
    rw [if_pos (by simpa using h), List.getLast?_concat]

example (fl : Fl) : s fl [.num 1, .list [], .dots] = .error .SyntaxError := (C56_syntax fl [.num 1] [] (.num 0) (.num 0) (by simp) (by simp)).1

/-! ## infinite sequences -/

/-- C56: equal given terms give a constant sequence. -/
theorem C56_const (fl : Fl) (x : Rat) (n : Nat) :
    ∃ f, s fl ((List.replicate (n + 1) x).map .num ++ [.dots]) = .ok (.inf f) ∧ ∀ j, f j = some (.num x) := by
  rw [s_infinite fl _ (by simp), analyze_const]
  exact ⟨_, rfl, fun _ => rfl⟩

/-- C56: two or more terms of an arithmetic sequence give that sequence, whatever the tolerance of comparisons. -/
theorem C56_arith (fl : Fl) (hfl : ∀ x, fl.aeq x x = true) (x0 k : Rat) (hk : k ≠ 0) (n : Nat) (hn : 2 ≤ n) :
    ∃ f, s fl ((arithTerms x0 k n).map .num ++ [.dots]) = .ok (.inf f) ∧ ∀ j : Nat, f j = some (.num (x0 + j * k)) := by
  rw [s_infinite fl _ (by
    intro h; have := congrArg List.length h; simp [arithTerms] at this; omega), analyze_arith fl hfl x0 k hk n hn]
  exact ⟨_, rfl, fun _ => rfl⟩

example (log pow) : ∃ f, s (intFl log pow) [.num 1, .num 3, .dots] = .ok (.inf f) ∧ f 10 = some (.num 21) := by
  have := C56_arith (intFl log pow) (by simp [intFl, intAeq]) 1 2 (by decide) 2 (by decide)
  have e : (arithTerms 1 2 2).map Item.num ++ [.dots] = [.num 1, .num 3, .dots] := by decide +kernel
  rw [e] at this
  obtain ⟨f, h1, h2⟩ := this
  exact ⟨f, h1, by rw [h2]; norm_num⟩

/-- C56: three or more terms of a geometric sequence give that sequence (for exact comparison). -/
theorem C56_geom (fl : Fl) (hfl : Exact fl) (x0 k : Rat) (h0 : x0 ≠ 0) (hk : k ≠ 0) (hk1 : k ≠ 1) (n : Nat)
    (hn : 3 ≤ n) :
    ∃ f, s fl ((geomTerms x0 k n).map .num ++ [.dots]) = .ok (.inf f) ∧ ∀ j : Nat, f j = some (.num (x0 * k ^ j)) := by
  rw [s_infinite fl _ (by
    intro h; have := congrArg List.length h; simp [geomTerms] at this; omega), analyze_geom fl hfl x0 k h0 hk hk1 n hn]
  exact ⟨_, rfl, fun j => by simp only [term_geom fl x0 k hk]⟩

example (log pow) : ∃ f, s ⟨fun x y => decide (x = y), fun x => decide ((x.floor : Rat) = x), log, pow, false⟩
    [.num 1, .num (-2), .num 4, .dots] = .ok (.inf f) ∧ f 5 = some (.num (-32)) := by
  have := C56_geom ⟨fun x y => decide (x = y), fun x => decide ((x.floor : Rat) = x), log, pow, false⟩
    (fun x y => by simp) 1 (-2) (by decide) (by decide) (by decide) 3 (by decide)
  have e : (geomTerms 1 (-2) 3).map Item.num ++ [.dots] = [.num 1, .num (-2), .num 4, .dots] := by decide +kernel
  rw [e] at this
  obtain ⟨f, h1, h2⟩ := this
  exact ⟨f, h1, by rw [h2]; norm_num⟩

/-- C56: whatever is given: if `s` accepts it, the sequence begins with the given terms, unless it is taken as a power
sequence.  (For exact comparison.  Missing: power sequences, for which see `C56_given_power_refuted`.) -/
theorem C56_given_terms_partial (fl : Fl) (hfl : Exact fl) (x0 : Rat) (qs : List Rat) (it : Iter (Option Item))
    (h : s fl ((x0 :: qs).map .num ++ [.dots]) = .ok it) :
    ∃ f, it = .inf f ∧
      ((∀ j (hj : j < (x0 :: qs).length), f j = some (.num (x0 :: qs)[j])) ∨
       ∃ p : Rat, ∀ j, f j = some (.num (if rabs p ≥ 1 then fl.pow x0 (p ^ j) else fl.pow x0 (1 / ((1 / p) ^ j))))) := by
  rw [s_infinite fl _ (by simp)] at h
  cases ha : analyze fl (x0 :: qs) with
  | error e => rw [ha] at h; cases h
  | ok d =>
    rw [ha] at h
    cases h
    refine ⟨_, rfl, ?_⟩
    rcases analyze_fits hfl x0 qs d ha with ⟨p, rfl⟩ | hf
    · exact .inr ⟨p, fun j => rfl⟩
    · exact .inl fun j hj => by rw [hf j hj]

example (log pow) (it) (h : s ⟨fun x y => decide (x = y), fun x => decide ((x.floor : Rat) = x), log, pow, true⟩
    ([3, 5, 7, 9].map .num ++ [.dots]) = .ok it) : ∃ f, it = .inf f := by
  obtain ⟨f, h, _⟩ := C56_given_terms_partial _ (fun x y => by simp) 3 [5, 7, 9] it h
  exact ⟨f, h⟩

/-- C56 fails for power sequences: signs of the given terms are ignored.  `s(2, -4, 16, ...)` yields 2, 4, 16, ...
(`log` and `pow` are exact here, so it is no matter of rounding.) -/
theorem C56_given_power_refuted :
    ∃ log pow : Rat → Rat → Rat, log 4 2 = 2 ∧ log 16 4 = 2 ∧ pow 2 1 = 2 ∧ pow 2 2 = 4 ∧ pow 2 4 = 16 ∧
      ∃ f, s (intFl log pow) [.num 2, .num (-4), .num 16, .dots] = .ok (.inf f) ∧
        f 0 = some (.num 2) ∧ f 1 = some (.num 4) ∧ f 2 = some (.num 16) := by
  refine ⟨fun _ _ => 2, fun _ y => if y = 1 then 2 else if y = 2 then 4 else 16, rfl, rfl, by decide, by decide +kernel, by decide +kernel,
    fun j => some (.num (term (intFl (fun _ _ => 2) fun _ y => if y = 1 then 2 else if y = 2 then 4 else 16) (.power 2 2) j)),
    ?_, by decide +kernel, by decide +kernel, by decide +kernel⟩
  have := s_infinite (intFl (fun _ _ => 2) fun _ y => if y = 1 then 2 else if y = 2 then 4 else 16) [2, -4, 16] (by simp)
  simp only [List.map_cons, List.map_nil, List.cons_append, List.nil_append] at this
  rw [this]
  have : analyze (intFl (fun _ _ => 2) fun _ y => if y = 1 then 2 else if y = 2 then 4 else 16) [2, -4, 16] =
    .ok (.power 2 2) := by decide +kernel
  rw [this]

/-- C56 fails for large integers: the tolerance that is meant for floats makes `s(0, 10**9, 2*10**9 + 1, ...)` an
arithmetic sequence, which does not go through the given terms. -/
theorem C56_given_tolerance_refuted (log pow) :
    ∃ f, s (intFl log pow) [.num 0, .num 1000000000, .num 2000000001, .dots] = .ok (.inf f) ∧
      f 1 ≠ some (.num 1000000000) ∧ f 1 = some (.num (1000000000 + 1 / 2)) := by
  have := s_infinite (intFl log pow) [0, 1000000000, 2000000001] (by simp)
  simp only [List.map_cons, List.map_nil, List.cons_append, List.nil_append] at this
  rw [this]
  have : analyze (intFl log pow) [0, 1000000000, 2000000001] = .ok (.arith 0 (1000000000 + 1 / 2)) := by
    have h1 : (intFl log pow).aeq (2000000001 - 1000000000) (1000000000 - 0) = true := by
      show intAeq _ _ = true
      decide +kernel
    rw [analyze, analyze3]
    simp only
    rw [if_neg (by norm_num), if_pos h1]
    norm_num
  rw [this]
  refine ⟨_, rfl, ?_, ?_⟩ <;> norm_num [term]

/-! ## final element -/

/-- C56: an arithmetic sequence ends exactly at the given final element. -/
theorem C56_arith_final (fl : Fl) (hfl : ∀ x, fl.aeq x x = true) (hint : ExactInt fl) (x0 k : Rat) (hk : k ≠ 0) (n : Nat)
    (hn : 2 ≤ n) (m : Nat) (hm : 1 ≤ m) :
    s fl ((arithTerms x0 k n).map .num ++ [.dots, .num (x0 + m * k)]) =
      .ok (.fin ((arithTerms x0 k (m + 1)).map (fun q => some (.num q)))) := by
  rw [s_finite fl _ _ (by
    intro h; have := congrArg List.length h; simp [arithTerms] at this; omega), analyze_arith fl hfl x0 k hk n hn]
  have e : (x0 + m * k - x0) / k = ((m : Int) : Rat) := by field_simp; push_cast; ring
  simp only [nofterms, if_neg hk, e]
  rw [if_pos ⟨(hint _).mpr ⟨m, rfl⟩, by exact_mod_cast hm⟩]
  simp only [rround_int]
  have e2 : (1 + (m : Int)).toNat = m + 1 := by omega
  rw [e2]
  simp [arithTerms, term, Function.comp]

example (log pow) : s ⟨fun x y => decide (x = y), fun x => decide ((x.floor : Rat) = x), log, pow, true⟩
    [.num 1, .num 3, .dots, .num 9] = .ok (.fin [some (.num 1), some (.num 3), some (.num 5), some (.num 7), some (.num 9)]) := by
  have := C56_arith_final ⟨fun x y => decide (x = y), fun x => decide ((x.floor : Rat) = x), log, pow, true⟩
    (by simp) (fun q => by
      simp only [decide_eq_true_eq]
      exact ⟨fun h => ⟨_, h.symm⟩, by rintro ⟨n, rfl⟩; rw [Rat.floor_intCast]⟩) 1 2 (by decide) 2 (by decide) 4 (by decide)
  have e1 : (arithTerms 1 2 2).map Item.num ++ [.dots, .num (1 + ((4 : Nat) : Rat) * 2)] =
    [.num 1, .num 3, .dots, .num 9] := by decide +kernel
  have e2 : (arithTerms 1 2 (4 + 1)).map (fun q => some (Item.num q)) =
    [some (.num 1), some (.num 3), some (.num 5), some (.num 7), some (.num 9)] := by decide +kernel
  rw [e1, e2] at this
  exact this

/-- C56: a final element that is not in the sequence (after its first term) is rejected. -/
theorem C56_arith_final_rejected (fl : Fl) (hfl : ∀ x, fl.aeq x x = true) (hint : ExactInt fl) (x0 k elt : Rat)
    (hk : k ≠ 0) (n : Nat) (hn : 2 ≤ n) (he : ∀ m : Nat, 1 ≤ m → elt ≠ x0 + m * k) :
    s fl ((arithTerms x0 k n).map .num ++ [.dots, .num elt]) = .error .SyntaxError := by
  rw [s_finite fl _ _ (by
    intro h; have := congrArg List.length h; simp [arithTerms] at this; omega), analyze_arith fl hfl x0 k hk n hn]
  simp only [nofterms, if_neg hk]
  rw [if_neg]
  rintro ⟨h1, h2⟩
  obtain ⟨i, hi⟩ := (hint _).mp h1
  rw [hi] at h2
  have hi0 : 0 < i := by exact_mod_cast h2
  obtain ⟨m, rfl⟩ := Int.eq_ofNat_of_zero_le hi0.le
  refine he m (by omega) ?_
  rw [div_eq_iff hk] at hi
  have : ((m : Int) : Rat) = (m : Rat) := rfl
  rw [this] at hi
  linarith

example : ∀ m : Nat, 1 ≤ m → (10 : Rat) ≠ 1 + m * 2 := by
  intro m _ h
  have : (10 : Int) = 1 + m * 2 := by exact_mod_cast h
  omega

/-- C56: a geometric sequence ends exactly at the given final element, provided that `log` and `**` are exact on the
powers of its ratio.  (Missing: that proviso does not hold for all floats.) -/
theorem C56_geom_final_partial (fl : Fl) (hfl : Exact fl) (hint : ExactInt fl) (x0 k : Rat) (h0 : x0 ≠ 0) (hk : k ≠ 0)
    (hk1 : rabs k ≠ 1) (hlog : ∀ m : Nat, fl.log (rabs k ^ m) (rabs k) = m) (hpow : ∀ m : Nat, fl.pow k m = k ^ m)
    (n : Nat) (hn : 3 ≤ n) (m : Nat) (hm : 1 ≤ m) :
    s fl ((geomTerms x0 k n).map .num ++ [.dots, .num (x0 * k ^ m)]) =
      .ok (.fin ((geomTerms x0 k (m + 1)).map (fun q => some (.num q)))) := by
  have hk1' : k ≠ 1 := by rintro rfl; exact hk1 (by decide)
  rw [s_finite fl _ _ (by
    intro h; have := congrArg List.length h; simp [geomTerms] at this; omega), analyze_geom fl hfl x0 k h0 hk hk1' n hn]
  have e : rabs (x0 * k ^ m / x0) = rabs k ^ m := by
    rw [mul_div_cancel_left₀ _ h0, rabs_eq, rabs_eq, abs_pow]
  have hp : 0 < rabs k := by rw [rabs_eq]; exact abs_pos.mpr hk
  have hl : fl.logPy (rabs k ^ m) (rabs k) = .ok m := by
    unfold Fl.logPy
    rw [if_neg, if_neg hk1, hlog]
    rintro (h | h)
    · exact absurd (pow_pos hp m) (not_lt.mpr h)
    · exact absurd hp (not_lt.mpr h)
  simp only [nofterms, if_neg h0, e, hl]
  rw [if_pos ⟨(hint _).mpr ⟨m, rfl⟩, by exact_mod_cast hm⟩, hpow, if_neg (by simp [(hfl _ _).mpr])]
  have e3 : rround (m : Rat) = m := rround_int m
  have e2 : (1 + (m : Int)).toNat = m + 1 := by omega
  simp only [e3, e2]
  simp [geomTerms, term_geom fl x0 k hk, Function.comp]

/-- C56: a final element that is not in the geometric sequence (after its first term), and not 0, is rejected. -/
theorem C56_geom_final_rejected (fl : Fl) (hfl : Exact fl) (hint : ExactInt fl) (x0 k elt : Rat) (h0 : x0 ≠ 0)
    (hk : k ≠ 0) (hk1 : rabs k ≠ 1) (hpow : ∀ m : Nat, fl.pow k m = k ^ m) (n : Nat) (hn : 3 ≤ n) (hz : elt ≠ 0)
    (he : ∀ m : Nat, 1 ≤ m → elt ≠ x0 * k ^ m) :
    s fl ((geomTerms x0 k n).map .num ++ [.dots, .num elt]) = .error .SyntaxError := by
  have hk1' : k ≠ 1 := by rintro rfl; exact hk1 (by decide)
  rw [s_finite fl _ _ (by
    intro h; have := congrArg List.length h; simp [geomTerms] at this; omega), analyze_geom fl hfl x0 k h0 hk hk1' n hn]
  have hl : fl.logPy (rabs (elt / x0)) (rabs k) = .ok (fl.log (rabs (elt / x0)) (rabs k)) := by
    unfold Fl.logPy
    rw [if_neg, if_neg hk1]
    rw [rabs_eq, rabs_eq]
    rintro (h | h)
    · exact absurd (abs_pos.mpr (div_ne_zero hz h0)) (not_lt.mpr h)
    · exact absurd (abs_pos.mpr hk) (not_lt.mpr h)
  simp only [nofterms, if_neg h0, hl]
  split
  · rename_i e he
    exfalso
    split at he
    · split at he <;> cases he
    · cases he
  · rfl
  · rfl
  · rename_i t ht
    exfalso
    split at ht
    · rename_i h
      obtain ⟨i, hi⟩ := (hint _).mp h.1
      rw [hi] at h ht
      have hi0 : 0 < i := by exact_mod_cast h.2
      obtain ⟨m, rfl⟩ := Int.eq_ofNat_of_zero_le hi0.le
      have e : ((m : Int) : Rat) = (m : Rat) := rfl
      rw [e, hpow] at ht
      split at ht
      · cases ht
      · rename_i hne
        simp only [Bool.not_eq_true', Bool.not_eq_false] at hne
        rw [hfl] at hne
        exact he m (by omega) hne.symm
    · cases ht

/-- `log` and `**`, exact on powers of 2. -/
example : ∃ fl : Fl, Exact fl ∧ ExactInt fl ∧ (∀ m : Nat, fl.log (rabs (-2) ^ m) (rabs (-2)) = m) ∧
    (∀ m : Nat, fl.pow (-2) m = (-2) ^ m) ∧ rabs (-2) ≠ 1 ∧ (∀ m : Nat, 1 ≤ m → (3 : Rat) ≠ 1 * (-2) ^ m) := by
  refine ⟨⟨fun x y => decide (x = y), fun x => decide ((x.floor : Rat) = x), fun x _ => Nat.log2 x.num.toNat,
    fun x y => x ^ y.num.toNat, true⟩, fun x y => by simp, fun q => by
      simp only [decide_eq_true_eq]
      exact ⟨fun h => ⟨_, h.symm⟩, by rintro ⟨n, rfl⟩; rw [Rat.floor_intCast]⟩, ?_, ?_, by decide, ?_⟩
  · intro m
    have e : rabs (-2) = 2 := by decide
    have e2 : ((2 : Rat) ^ m).num = 2 ^ m := by
      have : ((2 : Rat) ^ m) = ((2 ^ m : Int) : Rat) := by push_cast; rfl
      rw [this]; rfl
    have e3 : ((2 : Int) ^ m).toNat = 2 ^ m := by
      have : ((2 : Int) ^ m) = ((2 ^ m : Nat) : Int) := by push_cast; rfl
      rw [this]; rfl
    simp only [e, e2, e3, Nat.log2_two_pow]
  · intro m; rfl
  · intro m hm h
    have h' : (3 : Rat) = (((-2) ^ m : Int) : Rat) := by push_cast; simpa using h
    have : (3 : Int) = (-2) ^ m := by exact_mod_cast h'
    obtain ⟨j, rfl⟩ : ∃ j, m = j + 1 := ⟨m - 1, by omega⟩
    rw [pow_succ] at this
    omega

/-- C56 fails: the first element as the final one is rejected, although it belongs to the sequence. -/
theorem C56_final_first_refuted (log pow) :
    s (intFl log pow) [.num 1, .num 2, .dots, .num 1] = .error .SyntaxError := by
  with_unfolding_all rfl

/-- C56 fails: a final element that precedes the last of the given terms is accepted, and then not all given terms are
included. -/
theorem C56_final_truncates_refuted (log pow) :
    s (intFl log pow) [.num 1, .num 2, .num 3, .dots, .num 2] = .ok (.fin [some (.num 1), some (.num 2)]) := by
  with_unfolding_all rfl

/-- C56 fails for large integers: a final element that does not belong to the sequence is accepted; the sequence then
ends with another one. -/
theorem C56_final_tolerance_refuted (log pow) :
    ∃ l, s (intFl log pow) [.num 0, .num 1000000000, .dots, .num 1000000000000000001] = .ok (.fin l) ∧
      some (.num 1000000000000000001) ∉ l := by
  have h := s_finite (intFl log pow) [0, 1000000000] 1000000000000000001 (by simp)
  simp only [List.map_cons, List.map_nil, List.cons_append, List.nil_append] at h
  have h2 : analyze (intFl log pow) [0, 1000000000] = .ok (.arith 0 1000000000) := by
    rw [analyze, analyze2]; norm_num
  have h3 : nofterms (intFl log pow) (.arith 0 1000000000) 1000000000000000001 = .ok (.n 1000000001) := by
    unfold nofterms
    simp only
    rw [if_neg (by decide), if_pos]
    · decide +kernel
    · show intAeq _ _ = true ∧ _
      decide +kernel
  rw [h, h2]
  simp only [h3]
  refine ⟨_, rfl, ?_⟩
  simp only [List.mem_map, List.mem_range, term, Option.some.injEq, Item.num.injEq, not_exists, not_and]
  intro j _ hj
  have : (0 : Int) + j * 1000000000 = 1000000000000000001 := by exact_mod_cast hj
  omega

/-- C56 fails: not every unrecognized specification is a `SyntaxError`. -/
theorem C56_errors_refuted (log pow) :
    s (intFl log pow) [.num 2, .num 1, .num 3, .dots] = .error .ZeroDivisionError ∧
    s (intFl log pow) [.num 0, .num 1, .num 3, .dots] = .error .ValueError ∧
    s (intFl log pow) [.num 1, .num (-1), .num 1, .dots, .num (-1)] = .error .ZeroDivisionError ∧
    s (intFl log pow) [.num 1, .num 2, .num 4, .dots, .num 0] = .error .ValueError := by
  refine ⟨?_, ?_, ?_, ?_⟩ <;> with_unfolding_all rfl

private theorem rabs_pos {q : Rat} (h : q ≠ 0) : ¬ rabs q ≤ 0 := by
  unfold rabs
  split
  · intro h'; linarith
  · intro h'; exact h (le_antisymm h' (not_lt.mp ‹_›))

private theorem analyze3_errors (fl : Fl) (a0 a1 a2 : Rat) (h0 : a0 ≠ 0) (h1 : a1 ≠ 0) (h2 : a2 ≠ 0) (h3 : rabs a1 ≠ 1) :
    (∃ d, analyze3 fl a0 a1 a2 = .ok d) ∨ analyze3 fl a0 a1 a2 = .error .SyntaxError := by
  have key : (∃ d, analyzePower fl a0 a1 a2 = .ok d) ∨ analyzePower fl a0 a1 a2 = .error .SyntaxError := by
    unfold analyzePower
    split
    · rename_i h
      have e1 : fl.logPy (rabs a1) (rabs a0) = .ok (fl.log (rabs a1) (rabs a0)) := by
        simp [Fl.logPy, rabs_pos h0, rabs_pos h1, h.1]
      have e2 : fl.logPy (rabs a2) (rabs a1) = .ok (fl.log (rabs a2) (rabs a1)) := by
        simp [Fl.logPy, rabs_pos h1, rabs_pos h2, h3]
      simp only [e1, e2]
      split
      · exact .inl ⟨_, rfl⟩
      · exact .inr rfl
    · exact .inr rfl
  unfold analyze3
  simp only []
  split
  · exact .inl ⟨_, rfl⟩
  · split
    · exact .inl ⟨_, rfl⟩
    · split
      · split
        · exact .inl ⟨_, rfl⟩
        · exact key
      · exact key

private theorem analyzeAll_errors (fl : Fl) : ∀ (qs : List Rat), (∀ q ∈ qs, q ≠ 0) → (∀ q ∈ qs.tail, rabs q ≠ 1) →
    (∃ ds, analyzeAll fl qs = .ok ds ∧ (3 ≤ qs.length → ds ≠ [])) ∨ analyzeAll fl qs = .error .SyntaxError
  | [], _, _ => .inl ⟨_, rfl, by simp⟩
  | [_], _, _ => .inl ⟨_, rfl, by simp⟩
  | [_, _], _, _ => .inl ⟨_, rfl, by simp⟩
  | a0 :: a1 :: a2 :: rest, h, h1 => by
      have ih := analyzeAll_errors fl (a1 :: a2 :: rest) (fun q hq => h q (by simp at hq ⊢; tauto)) (fun q hq => h1 q (by simp at hq ⊢; tauto))
      have h3 := analyze3_errors fl a0 a1 a2 (h a0 (by simp)) (h a1 (by simp)) (h a2 (by simp)) (h1 a1 (by simp))
      simp only [analyzeAll]
      rcases h3 with ⟨d, e⟩ | e
      · simp only [e]
        rcases ih with ⟨ds, e', _⟩ | e'
        · exact .inl ⟨d :: ds, by simp only [e'], by simp⟩
        · exact .inr (by simp only [e'])
      · exact .inr (by simp only [e])

/-- C56: terms none of which is 0, and none of which but the first is 1 or -1, either specify a sequence or are a `SyntaxError`.
(Missing: 0 and 1, for which see `C56_errors_refuted`.) -/
theorem C56_errors_partial (fl : Fl) (q : Rat) (qs : List Rat) (h0 : ∀ x ∈ q :: qs, x ≠ 0) (h1 : ∀ x ∈ qs, x ≠ 1 ∧ x ≠ -1) :
    (∃ f, s fl ((q :: qs).map .num ++ [.dots]) = .ok (.inf f)) ∨ s fl ((q :: qs).map .num ++ [.dots]) = .error .SyntaxError := by
  have h1' : ∀ x ∈ qs, rabs x ≠ 1 := by
    intro x hx e
    unfold rabs at e
    split at e
    · exact (h1 x hx).2 (by linarith)
    · exact (h1 x hx).1 e
  rw [s_infinite fl _ (by simp)]
  have key : (∃ d, analyze fl (q :: qs) = .ok d) ∨ analyze fl (q :: qs) = .error .SyntaxError := by
    match qs, h0, h1' with
    | [], _, _ => exact .inl ⟨_, rfl⟩
    | [_], _, _ => exact .inl ⟨_, rfl⟩
    | [a1, a2], h0, h1' => exact analyze3_errors fl q a1 a2 (h0 q (by simp)) (h0 a1 (by simp)) (h0 a2 (by simp)) (h1' a1 (by simp))
    | a1 :: a2 :: a3 :: rest, h0, h1' =>
      simp only [analyze]
      rcases analyzeAll_errors fl (q :: a1 :: a2 :: a3 :: rest) h0 h1' with ⟨ds, e, hne⟩ | e
      · simp only [e]
        cases ds with
        | nil => exact absurd rfl (hne (by simp))
        | cons d ds =>
          simp only []
          split
          · exact .inl ⟨_, rfl⟩
          · exact .inr rfl
      · exact .inr (by simp only [e])
  rcases key with ⟨d, e⟩ | e
  · simp only [e]; exact .inl ⟨_, rfl⟩
  · exact .inr (by simp only [e])

example : (∀ x ∈ [(1 : Rat), 2, 5], x ≠ 0) ∧ ∀ x ∈ [(2 : Rat), 5], x ≠ 1 ∧ x ≠ -1 := by
  constructor <;> intro x hx <;> simp at hx <;> rcases hx with rfl | rfl | rfl <;> norm_num

/-- C56: three terms that are neither arithmetic nor geometric are a `SyntaxError`, if they are no power sequence either: that is
so if the first is 1 or -1, the second or third is 0, or the logarithms differ.  (For exact comparison.  Missing: the logarithms are
those of floats.) -/
theorem C56_unrecognized_partial (fl : Fl) (hfl : Exact fl) (a0 a1 a2 : Rat) (h1 : a1 - a0 ≠ a2 - a1)
    (h2 : ¬ (a0 ≠ 0 ∧ a1 ≠ 0 ∧ a2 ≠ 0 ∧ a1 * a1 = a0 * a2))
    (h3 : (a0 = 1 ∨ a0 = -1) ∨ a1 = 0 ∨ a2 = 0 ∨
      (a0 ≠ 0 ∧ a1 ≠ 1 ∧ a1 ≠ -1 ∧ fl.log |a1| |a0| ≠ fl.log |a2| |a1|)) :
    s fl [.num a0, .num a1, .num a2, .dots] = .error .SyntaxError := by
  have abs : ∀ q : Rat, |q| = rabs q := by
    intro q
    unfold rabs
    split
    · exact abs_of_neg ‹_›
    · exact abs_of_nonneg (not_lt.mp ‹_›)
  simp only [abs] at h3
  have key : analyzePower fl a0 a1 a2 = .error .SyntaxError := by
    unfold analyzePower
    split
    · rename_i h
      rcases h3 with h3 | h3 | h3 | ⟨h0, ha, hb, h3⟩
      · exact absurd (by rcases h3 with rfl | rfl <;> norm_num [rabs]) h.1
      · exact absurd h3 h.2.1
      · exact absurd h3 h.2.2
      · have hr : rabs a1 ≠ 1 := by
          unfold rabs
          split
          · intro e; exact hb (by linarith)
          · exact ha
        have e1 : fl.logPy (rabs a1) (rabs a0) = .ok (fl.log (rabs a1) (rabs a0)) := by
          simp [Fl.logPy, rabs_pos h0, rabs_pos h.2.1, h.1]
        have e2 : fl.logPy (rabs a2) (rabs a1) = .ok (fl.log (rabs a2) (rabs a1)) := by
          simp [Fl.logPy, rabs_pos h.2.1, rabs_pos h.2.2, hr]
        simp only [e1, e2]
        rw [if_neg (fun e => h3 ((hfl _ _).mp e))]
    · rfl
  have e := s_infinite fl [a0, a1, a2] (by simp)
  have hd : ¬ (a2 - a1 = a1 - a0) := fun e => h1 e.symm
  have ha : analyze fl [a0, a1, a2] = .error .SyntaxError := by
    simp only [analyze, analyze3]
    rw [if_neg (fun h => hd h.1), if_neg (fun h => hd ((hfl _ _).mp h))]
    split
    · rename_i hn
      rw [if_neg]
      · exact key
      · intro h
        have := (hfl _ _).mp h
        refine h2 ⟨hn.1, hn.2.1, hn.2.2, ?_⟩
        rw [div_eq_div_iff hn.2.1 hn.1] at this
        linarith
    · exact key
  rw [ha] at e
  exact e

example : ¬ ((1 : Rat) ≠ 0 ∧ (2 : Rat) ≠ 0 ∧ (5 : Rat) ≠ 0 ∧ (2 : Rat) * 2 = 1 * 5) ∧ (2 : Rat) - 1 ≠ 5 - 2 := by norm_num

end Unpy.Props
