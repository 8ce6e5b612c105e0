import Verif.Model.Ulp
import Mathlib.Analysis.Complex.ExponentialBounds
import Mathlib.Tactic.Linarith
import Mathlib.Tactic.NormNum
import Mathlib.Data.Set.Finite.Basic
import Mathlib.Data.Set.Finite.Lattice
import Mathlib.Order.Interval.Finset.Defs
/-! # Proofs about `ulp` -/
namespace Unpy.Ulp

theorem finite_floats : {y | IsFloat y}.Finite := by
  have : {y | IsFloat y} ⊆ (fun p : ℤ × ℤ => (p.1 : ℝ) * (2 : ℝ) ^ p.2) '' (Set.Icc (-2 ^ 53) (2 ^ 53) ×ˢ Set.Icc (-1074) 971) := by
    rintro y ⟨m, e, hm, h1, h2, rfl⟩
    rw [abs_lt] at hm
    exact ⟨(m, e), ⟨⟨hm.1.le, hm.2.le⟩, ⟨h1, h2⟩⟩, rfl⟩
  exact Set.Finite.subset (Set.Finite.image _ ((Set.finite_Icc _ _).prod (Set.finite_Icc _ _))) this

/-- every number can be rounded -/
theorem exists_round (y : ℝ) : ∃ z, Rounds y z := by
  have h0 : IsFloat 0 := ⟨0, 0, by norm_num, by norm_num, by norm_num, by norm_num⟩
  obtain ⟨z, hz, hmin⟩ := Set.exists_min_image {y | IsFloat y} (fun z => |z - y|) finite_floats ⟨0, h0⟩
  exact ⟨z, hz, fun w hw => hmin w hw⟩

theorem rounds_self {y z : ℝ} (hy : IsFloat y) : Rounds y z ↔ z = y := by
  constructor
  · rintro ⟨_, h⟩
    have := h y hy
    rw [sub_self, abs_zero] at this
    have := abs_nonpos_iff.1 this
    linarith
  · rintro rfl
    exact ⟨hy, fun w _ => by rw [sub_self, abs_zero]; exact abs_nonneg _⟩

/-- rounding does not go below a float below -/
theorem round_ge {y z w : ℝ} (h : Rounds y z) (hw : IsFloat w) (hle : w ≤ y) : w ≤ z := by
  by_contra hlt
  have := h.2 w hw
  rw [abs_of_nonpos (by linarith), abs_of_nonpos (by linarith)] at this
  linarith

theorem round_le {y z w : ℝ} (h : Rounds y z) (hw : IsFloat w) (hle : y ≤ w) : z ≤ w := by
  by_contra hlt
  have := h.2 w hw
  rw [abs_of_nonneg (by linarith), abs_of_nonneg (by linarith)] at this
  linarith

theorem isFloat_int (n : ℤ) (h : |n| < 2 ^ 53) : IsFloat n := ⟨n, 0, h, by norm_num, by norm_num, by simp⟩

theorem isFloat_pow (e : ℤ) (h1 : -1074 ≤ e) (h2 : e ≤ 971) : IsFloat ((2 : ℝ) ^ e) := ⟨1, e, by norm_num, h1, h2, by simp⟩

theorem logb_pow_two (e : ℤ) : Real.logb 2 ((2 : ℝ) ^ e) = e := by
  rw [← Real.rpow_intCast, Real.logb_rpow (by norm_num) (by norm_num)]

theorem log_two_lt_one : Real.log 2 < 1 := by
  have := Real.log_lt_sub_one_of_pos (x := 2) (by norm_num) (by norm_num)
  linarith

theorem logb_lt {t : ℝ} (h0 : 0 < t) (h1 : t < 1) : Real.logb 2 (1 - t) < -t := by
  have h := Real.log_le_sub_one_of_pos (x := 1 - t) (by linarith)
  have h2 : 0 < Real.log 2 := Real.log_pos (by norm_num)
  rw [Real.logb, div_lt_iff₀ h2]
  nlinarith [log_two_lt_one]

theorem logb_gt : -(2 : ℝ) ^ (-52 : ℤ) < Real.logb 2 (1 - (2 : ℝ) ^ (-53 : ℤ)) := by
  have h2 : 0.6931471803 < Real.log 2 := Real.log_two_gt_d9
  have ht : (2 : ℝ) ^ (-53 : ℤ) = 1 / 9007199254740992 := by norm_num
  have hs : (2 : ℝ) ^ (-52 : ℤ) = 2 / 9007199254740992 := by norm_num
  rw [hs, ht]
  have h := Real.log_le_sub_one_of_pos (x := (1 - 1 / 9007199254740992 : ℝ)⁻¹) (by norm_num)
  rw [Real.log_inv] at h
  rw [Real.logb, lt_div_iff₀ (by linarith)]
  have : (1 - 1 / 9007199254740992 : ℝ)⁻¹ - 1 < 2 / 9007199254740992 * 0.6931471803 := by norm_num
  nlinarith

/-- the logarithm of a float -/
theorem log_float (m e : ℤ) (hm : m ≠ 0) : Real.logb 2 |(m : ℝ) * (2 : ℝ) ^ e| = Real.logb 2 (|m| : ℤ) + e := by
  have h2 : (0 : ℝ) < (2 : ℝ) ^ e := by positivity
  have h1 : |(m : ℝ)| ≠ 0 := by simpa using hm
  rw [abs_mul, abs_of_pos h2, Real.logb_mul h1 h2.ne', logb_pow_two, Int.cast_abs]

theorem float_ne {m e : ℤ} (hm : m ≠ 0) : (m : ℝ) * (2 : ℝ) ^ e ≠ 0 := by
  have h2 : (0 : ℝ) < (2 : ℝ) ^ e := by positivity
  exact mul_ne_zero (by exact_mod_cast hm) h2.ne'

/-- the exponent that is found is right, if the float is not just below a power of two -/
theorem floor_ok (m e k : ℤ) (hlo : 2 ^ 52 ≤ |m|) (h1 : -1074 ≤ e) (h2 : e ≤ 971) (hk0 : 0 ≤ k) (hk : k ≤ 52) (hN : (|e + 53| : ℤ) * (2 : ℝ) ^ k + 1 < 2 ^ 53 ∨ (0 < e + 53 ∧ ((e + 53 : ℤ) : ℝ) * (2 : ℝ) ^ k ≤ 2 ^ 53))
    (hhi : (|m| : ℤ) ≤ (2 : ℝ) ^ 53 * (1 - (2 : ℝ) ^ (-(k + 1)))) {l : ℝ} (hl : Rounds (Real.logb 2 |(m : ℝ) * (2 : ℝ) ^ e|) l) : ⌊l⌋ = e + 52 := by
  have hm : m ≠ 0 := by rintro rfl; norm_num at hlo
  rw [log_float m e hm] at hl
  have hmpos : (0 : ℝ) < ((|m| : ℤ) : ℝ) := by exact_mod_cast abs_pos.2 hm
  have hge : (52 : ℝ) ≤ Real.logb 2 (|m| : ℤ) := by
    rw [Real.le_logb_iff_rpow_le (by norm_num) hmpos]
    have : ((2 ^ 52 : ℤ) : ℝ) ≤ ((|m| : ℤ) : ℝ) := by exact_mod_cast hlo
    have h52 : (2 : ℝ) ^ (52 : ℝ) = (2 : ℝ) ^ (52 : ℕ) := by rw [← Real.rpow_natCast]; norm_num
    rw [h52]
    push_cast at this ⊢
    linarith
  have hsp : (0 : ℝ) < (2 : ℝ) ^ (-k) := by positivity
  have hhalf : (2 : ℝ) ^ (-(k + 1)) = (2 : ℝ) ^ (-k) / 2 := by
    rw [neg_add, zpow_add₀ (by norm_num)]; norm_num; ring
  have hs1 : (2 : ℝ) ^ (-k) ≤ 1 := by
    rw [zpow_neg]
    exact inv_le_one_of_one_le₀ (one_le_zpow₀ (by norm_num) hk0)
  have hlt : Real.logb 2 (|m| : ℤ) < 53 - (2 : ℝ) ^ (-k) / 2 := by
    have hpos : (0 : ℝ) < 2 ^ 53 * (1 - (2 : ℝ) ^ (-(k + 1))) := by rw [hhalf]; nlinarith
    calc Real.logb 2 (|m| : ℤ) ≤ Real.logb 2 (2 ^ 53 * (1 - (2 : ℝ) ^ (-(k + 1)))) := Real.logb_le_logb_of_le (by norm_num) hmpos hhi
      _ = 53 + Real.logb 2 (1 - (2 : ℝ) ^ (-(k + 1))) := by
        rw [Real.logb_mul (by norm_num) (by rw [hhalf]; linarith)]
        congr 1
        rw [Real.logb_pow, Real.logb_self_eq_one (by norm_num)]; norm_num
      _ < 53 - (2 : ℝ) ^ (-k) / 2 := by
        have := logb_lt (t := (2 : ℝ) ^ (-k) / 2) (by linarith) (by linarith)
        rw [hhalf]; linarith
  clear hhi
  generalize Real.logb 2 ((|m| : ℤ) : ℝ) = L at hl hge hlt
  have habs : |e + 52| < 2 ^ 53 := by rw [abs_lt]; constructor <;> norm_num <;> omega
  have hlow := round_ge hl (isFloat_int (e + 52) habs) (by push_cast; linarith)
  rw [Int.floor_eq_iff]
  refine ⟨hlow, ?_⟩
  -- the float below the next integer
  have hw : IsFloat (((e + 53 : ℤ) : ℝ) - (2 : ℝ) ^ (-k)) := by
    obtain ⟨j, rfl⟩ := Int.eq_ofNat_of_zero_le hk0
    refine ⟨(e + 53) * 2 ^ j - 1, -(j : ℤ), ?_, by omega, by omega, ?_⟩
    · have hcast : ((((e + 53) * 2 ^ j - 1 : ℤ)) : ℝ) = ((e + 53 : ℤ) : ℝ) * (2 : ℝ) ^ (j : ℤ) - 1 := by push_cast; rw [zpow_natCast]
      have : |(((e + 53) * 2 ^ j - 1 : ℤ) : ℝ)| < ((2 ^ 53 : ℤ) : ℝ) := by
        rw [hcast]
        push_cast
        have hp : (0 : ℝ) < (2 : ℝ) ^ (j : ℤ) := by positivity
        rcases hN with h | ⟨h0, h⟩
        · push_cast at h
          have h3 := abs_le.1 (le_refl |((e : ℝ) + 53)|)
          rw [abs_lt]
          constructor <;> nlinarith [h3.1, h3.2]
        · push_cast at h
          have h0' : (1 : ℝ) ≤ (e : ℝ) + 53 := by exact_mod_cast h0
          have hj1 : (1 : ℝ) ≤ (2 : ℝ) ^ (j : ℤ) := one_le_zpow₀ (by norm_num) hk0
          rw [abs_lt]
          constructor <;> nlinarith
      exact_mod_cast this
    · push_cast
      rw [sub_mul, mul_assoc, ← zpow_natCast, ← zpow_add₀ (by norm_num : (2 : ℝ) ≠ 0)]
      simp
  by_contra hcon
  push_cast at hcon
  rw [not_lt] at hcon
  have h := hl.2 _ hw
  push_cast at h
  rw [abs_of_nonneg (by linarith)] at h
  rcases le_total (L + e) ((e : ℝ) + 53 - (2 : ℝ) ^ (-k)) with hc | hc
  · rw [abs_of_nonneg (by linarith)] at h
    linarith
  · rw [abs_of_nonpos (by linarith)] at h
    linarith

theorem mul_eps (e : ℤ) : (2 : ℝ) ^ (e + 52) * (2 : ℝ) ^ (-52 : ℤ) = (2 : ℝ) ^ e := by
  rw [← zpow_add₀ (by norm_num : (2 : ℝ) ≠ 0)]; congr 1; omega

/-- just below a power of two, the exponent that is found is that of the power -/
theorem floor_wrong (N : ℤ) (h3 : 3 ≤ N) (hN : N ≤ 1024) {l : ℝ} (hl : Rounds (Real.logb 2 |((2 ^ 53 - 1 : ℤ) : ℝ) * (2 : ℝ) ^ (N - 53)|) l) : ⌊l⌋ = N := by
  rw [log_float _ _ (by norm_num)] at hl
  have hL : Real.logb 2 ((|2 ^ 53 - 1| : ℤ) : ℝ) = 53 + Real.logb 2 (1 - (2 : ℝ) ^ (-53 : ℤ)) := by
    have : (((|2 ^ 53 - 1| : ℤ)) : ℝ) = 2 ^ 53 * (1 - (2 : ℝ) ^ (-53 : ℤ)) := by norm_num
    rw [this, Real.logb_mul (by norm_num) (by norm_num), Real.logb_pow, Real.logb_self_eq_one (by norm_num)]
    norm_num
  have hgt := logb_gt
  have hlt := logb_lt (t := (2 : ℝ) ^ (-53 : ℤ)) (by positivity) (by norm_num)
  rw [hL] at hl
  push_cast at hl
  obtain ⟨δ, hδ⟩ : ∃ δ, Real.logb 2 (1 - (2 : ℝ) ^ (-53 : ℤ)) = δ := ⟨_, rfl⟩
  rw [hδ] at hl hgt hlt
  have hp53 : (0 : ℝ) < (2 : ℝ) ^ (-53 : ℤ) := by positivity
  have h52 : (2 : ℝ) ^ (-51 : ℤ) = 2 * (2 : ℝ) ^ (-52 : ℤ) := by norm_num
  have hNf : IsFloat N := isFloat_int N (by rw [abs_lt]; constructor <;> norm_num <;> omega)
  have hle := round_le hl hNf (by linarith)
  have hge : (N : ℝ) ≤ l := by
    by_contra hcon
    rw [not_le] at hcon
    -- no float is between the predecessor and `N`
    have h2 : (2 : ℝ) ≤ l := by
      have h2f : IsFloat ((2 : ℤ) : ℝ) := isFloat_int 2 (by norm_num)
      have h3' : (3 : ℝ) ≤ N := by exact_mod_cast h3
      have : (2 : ℝ) ^ (-52 : ℤ) < 1 := by norm_num
      have := round_ge hl h2f (by push_cast; linarith)
      simpa using this
    have hpred : l ≤ N - (2 : ℝ) ^ (-51 : ℤ) := by
      obtain ⟨m, e, hm, he1, he2, rfl⟩ := hl.1
      have hep : (0 : ℝ) < (2 : ℝ) ^ e := by positivity
      have he : -51 ≤ e := by
        by_contra hlt'
        have hle' : (2 : ℝ) ^ e ≤ (2 : ℝ) ^ (-52 : ℤ) := zpow_le_zpow_right₀ (by norm_num) (by omega)
        have hm' : (m : ℝ) < 2 ^ 53 := by exact_mod_cast (abs_lt.1 hm).2
        have : (m : ℝ) * (2 : ℝ) ^ e < 2 := by
          calc (m : ℝ) * (2 : ℝ) ^ e < 2 ^ 53 * (2 : ℝ) ^ e := by nlinarith
            _ ≤ 2 ^ 53 * (2 : ℝ) ^ (-52 : ℤ) := by nlinarith
            _ = 2 := by norm_num
        linarith
      obtain ⟨j, hj⟩ := Int.eq_ofNat_of_zero_le (show 0 ≤ e + 51 by omega)
      have hee : (2 : ℝ) ^ e = (2 : ℝ) ^ j * (2 : ℝ) ^ (-51 : ℤ) := by
        rw [← zpow_natCast, ← zpow_add₀ (by norm_num : (2 : ℝ) ≠ 0)]; congr 1; omega
      have hu : (0 : ℝ) < (2 : ℝ) ^ (-51 : ℤ) := by positivity
      rw [hee] at hcon ⊢
      have hNN : (N : ℝ) = (N * 2 ^ 51 : ℤ) * (2 : ℝ) ^ (-51 : ℤ) := by push_cast; rw [mul_assoc]; norm_num
      have hlt' : ((m * 2 ^ j : ℤ) : ℝ) < ((N * 2 ^ 51 : ℤ) : ℝ) := by
        by_contra hnot
        rw [not_lt] at hnot
        have : (N : ℝ) ≤ (m : ℝ) * ((2 : ℝ) ^ j * (2 : ℝ) ^ (-51 : ℤ)) := by
          rw [hNN, ← mul_assoc]
          have hc : ((m * 2 ^ j : ℤ) : ℝ) = (m : ℝ) * (2 : ℝ) ^ j := by push_cast; rfl
          rw [← hc]
          nlinarith
        linarith
      have hint : m * 2 ^ j + 1 ≤ N * 2 ^ 51 := by
        have : m * 2 ^ j < N * 2 ^ 51 := by exact_mod_cast hlt'
        omega
      have hint' : ((m * 2 ^ j + 1 : ℤ) : ℝ) ≤ ((N * 2 ^ 51 : ℤ) : ℝ) := by exact_mod_cast hint
      rw [hNN, ← mul_assoc]
      have hc : ((m * 2 ^ j + 1 : ℤ) : ℝ) = (m : ℝ) * (2 : ℝ) ^ j + 1 := by push_cast; rfl
      rw [hc] at hint'
      nlinarith
    have h := hl.2 N hNf
    rw [abs_of_nonpos (by linarith), abs_of_nonneg (by linarith)] at h
    linarith
  have : l = N := le_antisymm hle hge
  rw [this, Int.floor_intCast]

end Unpy.Ulp
