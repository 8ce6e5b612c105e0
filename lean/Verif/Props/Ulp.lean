import Verif.Proof.Ulp
import Verif.Spec.Ulp
/-! # C118: the unit in the last place -/
namespace Unpy.Props
open Unpy.Ulp Unpy.Spec.Ulp

private theorem ulp_of_floor {x : ℝ} (hx : x ≠ 0) {n : ℤ} (hf : ∀ l, Rounds (Real.logb 2 |x|) l → ⌊l⌋ = n) (hn : n < 1024) (hn0 : -1022 ≤ n) (r : Outcome) :
    Returns x r ↔ r = .value ((2 : ℝ) ^ (n - 52)) := by
  have hm : (2 : ℝ) ^ n * (2 : ℝ) ^ (-52 : ℤ) = (2 : ℝ) ^ (n - 52) := by rw [← mul_eps (n - 52)]; norm_num
  have hfl : IsFloat ((2 : ℝ) ^ (n - 52)) := isFloat_pow _ (by omega) (by omega)
  cases r with
  | valueError => simp [Returns, hx]
  | overflowError =>
    simp only [Returns, reduceCtorEq, iff_false, not_and, not_exists]
    intro _ l hl
    rw [hf l hl]; omega
  | value r =>
    simp only [Returns, Outcome.value.injEq]
    constructor
    · rintro ⟨_, l, hl, _, h⟩
      rw [hf l hl, hm] at h
      exact (rounds_self hfl).1 h
    · rintro rfl
      obtain ⟨l, hl⟩ := exists_round (Real.logb 2 |x|)
      exact ⟨hx, l, hl, by rw [hf l hl]; exact hn, by rw [hf l hl, hm]; exact (rounds_self hfl).2 rfl⟩

/-- C118: for every normal float that is not just below a power of two (whose 53 bits do not start with 44 ones), `ulp` returns the value of its least-significant bit.  Missing: the floats just
below a power of two, and those below the normal range, see the refutations. -/
theorem C118_ulp_partial (m e : ℤ) (hlo : 2 ^ 52 ≤ |m|) (hhi : |m| ≤ 2 ^ 53 - 2 ^ 9) (h1 : -1074 ≤ e) (h2 : e ≤ 971) :
    LastPlace (m * (2 : ℝ) ^ e) ((2 : ℝ) ^ e) ∧ ∀ r, Returns (m * (2 : ℝ) ^ e) r ↔ r = .value ((2 : ℝ) ^ e) := by
  have hm : m ≠ 0 := by rintro rfl; norm_num at hlo
  refine ⟨⟨m, e, rfl, rfl, by omega, h1, h2, .inl hlo⟩, fun r => ?_⟩
  have hf : ∀ l, Rounds (Real.logb 2 |(m : ℝ) * (2 : ℝ) ^ e|) l → ⌊l⌋ = e + 52 := by
    intro l hl
    refine floor_ok m e 43 hlo h1 h2 (by norm_num) (by norm_num) ?_ ?_ hl
    · by_cases h : e + 53 = 1024
      · right; rw [h]; norm_num
      · left
        have : |e + 53| ≤ 1023 := by rw [abs_le]; omega
        have : ((|e + 53| : ℤ) : ℝ) ≤ 1023 := by exact_mod_cast this
        norm_num at this ⊢
        linarith
    · have : ((|m| : ℤ) : ℝ) ≤ ((2 ^ 53 - 2 ^ 9 : ℤ) : ℝ) := by exact_mod_cast hhi
      norm_num at this ⊢
      linarith
  rw [ulp_of_floor (float_ne hm) hf (by omega) (by omega)]
  simp

/-- C118: for all floats from 1/4 up to 4 (not included), positive or negative, `ulp` returns the value of the least-significant bit. -/
theorem C118_ulp_near_one (m e : ℤ) (hlo : 2 ^ 52 ≤ |m|) (hhi : |m| < 2 ^ 53) (h1 : -54 ≤ e) (h2 : e ≤ -51) :
    LastPlace (m * (2 : ℝ) ^ e) ((2 : ℝ) ^ e) ∧ ∀ r, Returns (m * (2 : ℝ) ^ e) r ↔ r = .value ((2 : ℝ) ^ e) := by
  have hm : m ≠ 0 := by rintro rfl; norm_num at hlo
  refine ⟨⟨m, e, rfl, rfl, hhi, by omega, by omega, .inl hlo⟩, fun r => ?_⟩
  have hf : ∀ l, Rounds (Real.logb 2 |(m : ℝ) * (2 : ℝ) ^ e|) l → ⌊l⌋ = e + 52 := by
    intro l hl
    refine floor_ok m e 52 hlo (by omega) (by omega) (by norm_num) (by norm_num) ?_ ?_ hl
    · by_cases h : e + 53 = 2
      · right; rw [h]; norm_num
      · left
        have : |e + 53| ≤ 1 := by rw [abs_le]; omega
        have : ((|e + 53| : ℤ) : ℝ) ≤ 1 := by exact_mod_cast this
        norm_num at this ⊢
        linarith
    · have : |m| ≤ 2 ^ 53 - 1 := by omega
      have : ((|m| : ℤ) : ℝ) ≤ ((2 ^ 53 - 1 : ℤ) : ℝ) := by exact_mod_cast this
      norm_num at this ⊢
      linarith
  rw [ulp_of_floor (float_ne hm) hf (by omega) (by omega)]
  simp

/-- C118 is violated: for the float just below `2**n`, for each n from 3 to 1023, `ulp` returns twice the value of its least-significant bit, because the logarithm is rounded up to n. -/
theorem C118_below_power_refuted (n : ℤ) (h3 : 3 ≤ n) (h : n ≤ 1023) :
    LastPlace (((2 ^ 53 - 1 : ℤ) : ℝ) * (2 : ℝ) ^ (n - 53)) ((2 : ℝ) ^ (n - 53)) ∧
    ∀ r, Returns (((2 ^ 53 - 1 : ℤ) : ℝ) * (2 : ℝ) ^ (n - 53)) r ↔ r = .value (2 * (2 : ℝ) ^ (n - 53)) := by
  refine ⟨⟨2 ^ 53 - 1, n - 53, rfl, rfl, by norm_num, by omega, by omega, .inl (by norm_num)⟩, fun r => ?_⟩
  rw [ulp_of_floor (float_ne (by norm_num)) (fun l hl => floor_wrong n h3 (by omega) hl) (by omega) (by omega)]
  have : (2 : ℝ) ^ (n - 52) = 2 * (2 : ℝ) ^ (n - 53) := by
    rw [← zpow_one_add₀ (by norm_num : (2 : ℝ) ≠ 0)]; congr 1; omega
  rw [this]

/-- C118 is violated: `ulp` of the largest float raises OverflowError. -/
theorem C118_largest_refuted :
    LastPlace (((2 ^ 53 - 1 : ℤ) : ℝ) * (2 : ℝ) ^ (971 : ℤ)) ((2 : ℝ) ^ (971 : ℤ)) ∧ ∀ r, Returns (((2 ^ 53 - 1 : ℤ) : ℝ) * (2 : ℝ) ^ (971 : ℤ)) r ↔ r = .overflowError := by
  refine ⟨⟨2 ^ 53 - 1, 971, rfl, rfl, by norm_num, by norm_num, by norm_num, .inl (by norm_num)⟩, fun r => ?_⟩
  have hf : ∀ l, Rounds (Real.logb 2 |((2 ^ 53 - 1 : ℤ) : ℝ) * (2 : ℝ) ^ (971 : ℤ)|) l → ⌊l⌋ = 1024 := by
    intro l hl
    exact floor_wrong 1024 (by norm_num) (by norm_num) (by simpa using hl)
  have hx : ((2 ^ 53 - 1 : ℤ) : ℝ) * (2 : ℝ) ^ (971 : ℤ) ≠ 0 := float_ne (by norm_num)
  cases r with
  | valueError => simp only [Returns, hx, reduceCtorEq]
  | value r =>
    simp only [Returns, reduceCtorEq, iff_false, not_and, not_exists]
    intro _ l hl hlt
    rw [hf l hl] at hlt; omega
  | overflowError =>
    obtain ⟨l, hl⟩ := exists_round (Real.logb 2 |((2 ^ 53 - 1 : ℤ) : ℝ) * (2 : ℝ) ^ (971 : ℤ)|)
    simp only [Returns, iff_true]
    exact ⟨hx, l, hl, by rw [hf l hl]⟩

/-- C118 is violated: for the smallest floats (up to `2**-1024`), `ulp` returns 0; their least-significant bit is worth `2**-1074`. -/
theorem C118_subnormal_refuted (m : ℤ) (h0 : m ≠ 0) (h : |m| ≤ 2 ^ 50) :
    LastPlace (m * (2 : ℝ) ^ (-1074 : ℤ)) ((2 : ℝ) ^ (-1074 : ℤ)) ∧ ∀ r, Returns (m * (2 : ℝ) ^ (-1074 : ℤ)) r ↔ r = .value 0 := by
  have hx : (m : ℝ) * (2 : ℝ) ^ (-1074 : ℤ) ≠ 0 := float_ne h0
  refine ⟨⟨m, -1074, rfl, rfl, by omega, by norm_num, by norm_num, .inr rfl⟩, fun r => ?_⟩
  have hfl : ∀ l, Rounds (Real.logb 2 |(m : ℝ) * (2 : ℝ) ^ (-1074 : ℤ)|) l → ⌊l⌋ ≤ -1024 := by
    intro l hl
    rw [log_float m _ h0] at hl
    have hmpos : (0 : ℝ) < ((|m| : ℤ) : ℝ) := by exact_mod_cast abs_pos.2 h0
    have hle : Real.logb 2 ((|m| : ℤ) : ℝ) ≤ 50 := by
      have h' : ((|m| : ℤ) : ℝ) ≤ 2 ^ 50 := by exact_mod_cast h
      calc Real.logb 2 ((|m| : ℤ) : ℝ) ≤ Real.logb 2 ((2 : ℝ) ^ 50) := Real.logb_le_logb_of_le (by norm_num) hmpos h'
        _ = 50 := by rw [Real.logb_pow, Real.logb_self_eq_one (by norm_num)]; norm_num
    generalize Real.logb 2 ((|m| : ℤ) : ℝ) = L at hl hle
    have := round_le hl (isFloat_int (-1024) (by norm_num)) (by push_cast; linarith)
    exact Int.floor_le_iff.2 (by push_cast at this ⊢; linarith)
  have hz : IsFloat 0 := ⟨0, 0, by norm_num, by norm_num, by norm_num, by norm_num⟩
  have hr : ∀ n : ℤ, n ≤ -1024 → ∀ r, Rounds ((2 : ℝ) ^ n * (2 : ℝ) ^ (-52 : ℤ)) r ↔ r = 0 := by
    intro n hn r
    have hy0 : 0 < (2 : ℝ) ^ n * (2 : ℝ) ^ (-52 : ℤ) := by positivity
    have hy1 : (2 : ℝ) ^ n * (2 : ℝ) ^ (-52 : ℤ) ≤ (2 : ℝ) ^ (-1074 : ℤ) / 4 := by
      have : (2 : ℝ) ^ (-1074 : ℤ) / 4 = (2 : ℝ) ^ (-1076 : ℤ) := by
        rw [show (-1074 : ℤ) = -1076 + 2 by norm_num, zpow_add₀ (by norm_num : (2 : ℝ) ≠ 0)]; norm_num
      rw [this, ← zpow_add₀ (by norm_num : (2 : ℝ) ≠ 0)]
      exact zpow_le_zpow_right₀ (by norm_num) (by omega)
    generalize (2 : ℝ) ^ n * (2 : ℝ) ^ (-52 : ℤ) = y at hy0 hy1
    have hu : (0 : ℝ) < (2 : ℝ) ^ (-1074 : ℤ) := by positivity
    have hfar : ∀ w, IsFloat w → w ≠ 0 → (2 : ℝ) ^ (-1074 : ℤ) ≤ |w| := by
      rintro w ⟨k, e, _, he, _, rfl⟩ hw
      have hk : k ≠ 0 := by rintro rfl; simp at hw
      have h1 : (1 : ℝ) ≤ |(k : ℝ)| := by exact_mod_cast Int.one_le_abs hk
      have h2 : (2 : ℝ) ^ (-1074 : ℤ) ≤ (2 : ℝ) ^ e := zpow_le_zpow_right₀ (by norm_num) he
      have h3 : (0 : ℝ) < (2 : ℝ) ^ e := by positivity
      rw [abs_mul, abs_of_pos h3]
      nlinarith
    have hd : ∀ w, IsFloat w → w ≠ 0 → y < |w - y| := by
      intro w hw hw0
      have h1 := hfar w hw hw0
      have h2 := abs_sub_abs_le_abs_sub w y
      rw [abs_of_pos hy0] at h2
      linarith
    constructor
    · rintro ⟨hr, hmin⟩
      by_contra hne
      have h1 := hmin 0 hz
      have h2 := hd r hr hne
      rw [zero_sub, abs_neg, abs_of_pos hy0] at h1
      linarith
    · rintro rfl
      refine ⟨hz, fun w hw => ?_⟩
      rw [zero_sub, abs_neg, abs_of_pos hy0]
      by_cases hw0 : w = 0
      · subst hw0; rw [zero_sub, abs_neg, abs_of_pos hy0]
      · exact (hd w hw hw0).le
  cases r with
  | valueError => simp only [Returns, hx, reduceCtorEq]
  | overflowError =>
    simp only [Returns, reduceCtorEq, iff_false, not_and, not_exists]
    intro _ l hl
    have := hfl l hl; omega
  | value r =>
    simp only [Returns, Outcome.value.injEq]
    constructor
    · rintro ⟨_, l, hl, _, h⟩
      exact (hr _ (hfl l hl) r).1 h
    · rintro rfl
      obtain ⟨l, hl⟩ := exists_round (Real.logb 2 |(m : ℝ) * (2 : ℝ) ^ (-1074 : ℤ)|)
      exact ⟨hx, l, hl, by have := hfl l hl; omega, (hr _ (hfl l hl) 0).2 rfl⟩

/-- C118 is violated: `ulp` of zero raises ValueError; its least-significant bit is worth `2**-1074`. -/
theorem C118_zero_refuted : LastPlace 0 ((2 : ℝ) ^ (-1074 : ℤ)) ∧ ∀ r, Returns 0 r ↔ r = .valueError := by
  refine ⟨⟨0, -1074, by norm_num, rfl, by norm_num, by norm_num, by norm_num, .inr rfl⟩, fun r => ?_⟩
  cases r <;> simp [Returns]

-- 1.0 is 2**52 * 2**-52: the machine epsilon
example : ∀ r, Returns (((2 ^ 52 : ℤ) : ℝ) * (2 : ℝ) ^ (-52 : ℤ)) r ↔ r = .value ((2 : ℝ) ^ (-52 : ℤ)) :=
  (C118_ulp_partial (2 ^ 52) (-52) (by norm_num) (by norm_num) (by norm_num) (by norm_num)).2
-- just below 8
example : ∀ r, Returns (((2 ^ 53 - 1 : ℤ) : ℝ) * (2 : ℝ) ^ (-50 : ℤ)) r ↔ r = .value (2 * (2 : ℝ) ^ (-50 : ℤ)) :=
  (C118_below_power_refuted 3 (by norm_num) (by norm_num)).2

end Unpy.Props
