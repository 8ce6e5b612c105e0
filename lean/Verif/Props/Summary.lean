import Verif.Model.Summary
import Verif.Proof.Ulp
import Mathlib.Algebra.Order.Round
/-! # C121: the summary of a test session -/
namespace Unpy.Props
open Unpy.Ulp Unpy.Summary

/-- C121: the text of a summary, without the colors: all four numbers, the percentage, and the warnings if there are any. -/
theorem C121_text (passes fails errors warns : Nat) (p : ℤ) :
    String.join ((summarize (passes + fails + errors) fails errors warns p).map (·.1)) =
      "Pass " ++ toString passes ++ ", Fail " ++ toString fails ++ ", Error " ++ toString errors ++ ", Total " ++ toString (passes + fails + errors) ++ " (" ++ toString p ++ "% pass)" ++
        if warns = 0 then "" else " + " ++ toString warns ++ " Warn" := by
  have hp : ((passes + fails + errors : Nat) : ℤ) - fails - errors = (passes : ℤ) := by push_cast; omega
  have hs : toString ((passes : Nat) : ℤ) = toString passes := rfl
  have h1 : (" (" : String) = " " ++ "(" := rfl
  have h2 : (" + " : String) = " " ++ "+ " := rfl
  have h3 : ("Pass " : String) = "Pass" ++ " " := rfl
  have h4 : (", Fail " : String) = ", " ++ ("Fail" ++ " ") := rfl
  have h5 : (", Error " : String) = ", " ++ ("Error" ++ " ") := rfl
  have h6 : (", Total " : String) = ", " ++ ("Total" ++ " ") := rfl
  simp only [summarize, hp, hs]
  by_cases hw : warns = 0
  · subst hw; simp [-String.reduceAppend, String.join, String.append_assoc, h1, h3, h4, h5, h6]
  · have : warns > 0 := by omega
    simp [-String.reduceAppend, hw, this, String.join, String.append_assoc, h1, h2, h3, h4, h5, h6]

/-- C121: the percentage is shown in the color for "all is well" exactly if no test failed or errored. -/
theorem C121_ok (passes fails errors warns : Nat) (p : ℤ) :
    ("(" ++ toString p ++ "% pass)", [Style.bright, Style.summaryOk]) ∈ summarize (passes + fails + errors) fails errors warns p ↔ fails = 0 ∧ errors = 0 := by
  have hp : ((passes + fails + errors : Nat) : ℤ) - fails - errors = (passes : ℤ) := by push_cast; omega
  have hiff : ((passes : ℤ) = ((passes + fails + errors : Nat) : ℤ)) ↔ fails = 0 ∧ errors = 0 := by push_cast; omega
  simp only [summarize, hp]
  by_cases h : fails = 0 ∧ errors = 0
  · have := hiff.2 h
    simp only [h, and_self, iff_true]
    simp
  · have h' : ¬ (passes : ℤ) = ((passes + fails + errors : Nat) : ℤ) := fun e => h (hiff.1 e)
    simp only [h, h', if_false, iff_false]
    split <;> simp <;> (repeat' split) <;> simp

/-- C121: the name of each count is in its own color if the count is not zero, and grey if it is. -/
theorem C121_colors (passes fails errors warns : Nat) (p : ℤ) :
    let shown (name : String) (c : Style) := (name, [Style.bright, c]) ∈ summarize (passes + fails + errors) fails errors warns p
    (shown "Pass" .pass ↔ passes ≠ 0) ∧ (shown "Pass" .greyedOut ↔ passes = 0) ∧
    (shown "Fail" .fail ↔ fails ≠ 0) ∧ (shown "Fail" .greyedOut ↔ fails = 0) ∧
    (shown "Error" .error ↔ errors ≠ 0) ∧ (shown "Error" .greyedOut ↔ errors = 0) ∧
    (shown "Total" .heading ↔ passes + fails + errors ≠ 0) ∧ (shown "Total" .greyedOut ↔ passes + fails + errors = 0) := by
  have hp : ((passes + fails + errors : Nat) : ℤ) - fails - errors = (passes : ℤ) := by push_cast; omega
  have hne : ∀ (c : String) (s : String) (t : String), c.toList.head? ≠ some '(' → c ≠ "(" ++ s ++ t := by
    intro c s t h e
    subst e
    simp at h
  have hne' : ∀ (c : String) (s : String) (t : String), c.toList.head? ≠ some '+' → c ≠ "+ " ++ s ++ t := by
    intro c s t h e
    subst e
    simp at h
  have e1 := hne "Pass" (toString p) "% pass)" (by decide)
  have e2 := hne "Fail" (toString p) "% pass)" (by decide)
  have e3 := hne "Error" (toString p) "% pass)" (by decide)
  have e4 := hne "Total" (toString p) "% pass)" (by decide)
  have w1 := hne' "Pass" (toString warns) " Warn" (by decide)
  have w2 := hne' "Fail" (toString warns) " Warn" (by decide)
  have w3 := hne' "Error" (toString warns) " Warn" (by decide)
  have w4 := hne' "Total" (toString warns) " Warn" (by decide)
  clear hne hne'
  simp only [summarize, hp]
  generalize "(" ++ toString p ++ "% pass)" = pc at *
  generalize "+ " ++ toString warns ++ " Warn" = wc at *
  refine ⟨?_, ?_, ?_, ?_, ?_, ?_, ?_, ?_⟩ <;>
  · by_cases a : passes = 0 <;> by_cases b : fails = 0 <;> by_cases c : errors = 0 <;> by_cases d : warns > 0 <;>
      simp [a, b, c, d, e1, e2, e3, e4, w1, w2, w3, w4]

private theorem round_err {y z : ℝ} (n : ℤ) (h1 : -1000 ≤ n) (h2 : n ≤ 900) (h : Rounds y z) (hy : |y| ≤ (2 : ℝ) ^ n) : |z - y| ≤ (2 : ℝ) ^ (n - 53) := by
  have hu : (0 : ℝ) < (2 : ℝ) ^ (n - 52) := by positivity
  have hn : (2 : ℝ) ^ n = 2 ^ 52 * (2 : ℝ) ^ (n - 52) := by
    rw [← zpow_natCast, ← zpow_add₀ (by norm_num : (2 : ℝ) ≠ 0)]; congr 1; push_cast; omega
  have hh : (2 : ℝ) ^ (n - 53) = (2 : ℝ) ^ (n - 52) / 2 := by
    rw [show n - 52 = n - 53 + 1 by omega, zpow_add₀ (by norm_num : (2 : ℝ) ≠ 0)]; norm_num
  generalize hU : (2 : ℝ) ^ (n - 52) = u at hu hn hh
  have hr := abs_sub_round (y / u)
  have hk : |round (y / u)| < 2 ^ 53 := by
    have h3 : |y / u| ≤ 2 ^ 52 := by
      rw [abs_div, abs_of_pos hu, div_le_iff₀ hu, ← hn]; exact hy
    have h4 : |((round (y / u) : ℤ) : ℝ)| < ((2 ^ 53 : ℤ) : ℝ) := by
      rw [abs_le] at hr h3
      rw [abs_lt]; push_cast
      constructor <;> linarith [hr.1, hr.2, h3.1, h3.2]
    exact_mod_cast h4
  have hw := h.2 (round (y / u) * u) ⟨_, n - 52, hk, by omega, by omega, by rw [hU]⟩
  refine hw.trans ?_
  have : (round (y / u) : ℝ) * u - y = -((y / u - round (y / u)) * u) := by field_simp; ring
  rw [this, abs_neg, abs_mul, abs_of_pos hu, hh]
  nlinarith

private theorem float_zero : IsFloat 0 := by simpa using isFloat_int 0 (by norm_num)
private theorem float_one : IsFloat 1 := by simpa using isFloat_int 1 (by norm_num)
private theorem float_neg_one : IsFloat (-1) := by simpa using isFloat_int (-1) (by norm_num)

private theorem percentage_close {runs fails errors : Nat} {p : ℤ} (h0 : 0 < runs) (hle : fails + errors ≤ runs) (h : Percentage runs fails errors p) :
    ∃ c : ℝ, p = trunc c ∧ |c - 100 * (((runs - fails - errors : Nat) : ℝ) / runs)| ≤ (2 : ℝ) ^ (-43 : ℤ) := by
  obtain ⟨f, e, a, b, c, hfe, ha, hb, hc, hp⟩ := h
  rw [if_pos (by omega)] at hfe
  obtain ⟨hf, he⟩ := hfe
  have hr : (0 : ℝ) < runs := by exact_mod_cast h0
  have hF0 : (0 : ℝ) ≤ (fails : ℝ) / runs := by positivity
  have hE0 : (0 : ℝ) ≤ (errors : ℝ) / runs := by positivity
  have hsum : (fails : ℝ) / runs + (errors : ℝ) / runs ≤ 1 := by
    rw [← add_div, div_le_one hr]; exact_mod_cast hle
  have hT : ((runs - fails - errors : Nat) : ℝ) / runs = 1 - (fails : ℝ) / runs - (errors : ℝ) / runs := by
    have : ((runs - fails - errors : Nat) : ℝ) = runs - fails - errors := by
      rw [Nat.cast_sub (by omega), Nat.cast_sub (by omega)]
    rw [this]; field_simp
  rw [hT]
  generalize (fails : ℝ) / runs = F at *
  generalize (errors : ℝ) / runs = E at *
  have hf0 := round_ge hf float_zero hF0
  have hf1 := round_le hf float_one (by linarith)
  have he0 := round_ge he float_zero hE0
  have he1 := round_le he float_one (by linarith)
  have ha0 := round_ge ha float_zero (by linarith)
  have ha1 := round_le ha float_one (by linarith)
  have hb0 := round_ge hb float_neg_one (by linarith)
  have hb1 := round_le hb float_one (by linarith)
  have e1 := round_err 0 (by norm_num) (by norm_num) hf (by rw [abs_le]; norm_num; constructor <;> linarith)
  have e2 := round_err 0 (by norm_num) (by norm_num) he (by rw [abs_le]; norm_num; constructor <;> linarith)
  have e3 := round_err 0 (by norm_num) (by norm_num) ha (by rw [abs_le]; norm_num; constructor <;> linarith)
  have e4 := round_err 0 (by norm_num) (by norm_num) hb (by rw [abs_le]; norm_num; constructor <;> linarith)
  have e5 := round_err 7 (by norm_num) (by norm_num) hc (by rw [abs_le]; norm_num; constructor <;> linarith)
  refine ⟨c, hp, ?_⟩
  rw [abs_le] at e1 e2 e3 e4 e5 ⊢
  norm_num at e1 e2 e3 e4 e5 ⊢
  constructor <;> linarith [e1.1, e1.2, e2.1, e2.2, e3.1, e3.2, e4.1, e4.2, e5.1, e5.2]

/-- C121: the percentage shown is that of the tests that passed, rounded down, except that it can be one less if it is a whole number (but not if no test passed, or all of them).
Missing: that one, `C121_percentage_refuted`. -/
theorem C121_percentage_partial (passes fails errors : Nat) (h0 : 0 < passes + fails + errors) (hlt : passes + fails + errors < 2 ^ 40) (p : ℤ) (h : Percentage (passes + fails + errors) fails errors p) :
    p = ((100 * passes / (passes + fails + errors) : Nat) : ℤ) ∨
    (p = ((100 * passes / (passes + fails + errors) : Nat) : ℤ) - 1 ∧ passes + fails + errors ∣ 100 * passes ∧ 0 < passes ∧ 0 < fails + errors) := by
  obtain ⟨runs, hruns⟩ : ∃ runs, passes + fails + errors = runs := ⟨_, rfl⟩
  rw [hruns] at h0 hlt h ⊢
  have hr : (0 : ℝ) < runs := by exact_mod_cast h0
  by_cases hz : fails + errors = 0
  · -- all exact
    left
    obtain ⟨rfl, rfl⟩ : fails = 0 ∧ errors = 0 := by omega
    obtain rfl : passes = runs := by omega
    obtain ⟨f, e, a, b, c, hfe, ha, hb, hc, rfl⟩ := h
    rw [if_pos (by omega)] at hfe
    simp only [Nat.cast_zero, zero_div] at hfe
    have hf := (rounds_self float_zero).1 hfe.1
    have he := (rounds_self float_zero).1 hfe.2
    subst hf; subst he
    rw [sub_zero] at ha
    have ha' := (rounds_self float_one).1 ha
    subst ha'
    rw [sub_zero] at hb
    have hb' := (rounds_self float_one).1 hb
    subst hb'
    have h100 : IsFloat 100 := by simpa using isFloat_int 100 (by norm_num)
    have hc' := (rounds_self (by simpa using h100)).1 hc
    subst hc'
    rw [Nat.mul_div_cancel _ h0]
    simp [trunc]
  · obtain ⟨c, rfl, hc⟩ := percentage_close h0 (by omega) h
    have hpa : (runs - fails - errors : Nat) = passes := by omega
    rw [hpa] at hc
    have hr40 : (runs : ℝ) < ((2 ^ 40 : Nat) : ℝ) := Nat.cast_lt.2 hlt
    have hinv : (2 : ℝ) ^ (-40 : ℤ) < 1 / runs := by
      rw [lt_div_iff₀ hr]; push_cast at hr40; norm_num only at hr40 ⊢; linarith
    obtain ⟨q, s, hq, hs, hqs⟩ : ∃ q s : Nat, 100 * passes / runs = q ∧ s < runs ∧ 100 * passes = runs * q + s :=
      ⟨_, 100 * passes % runs, rfl, Nat.mod_lt _ h0, (Nat.div_add_mod _ _).symm⟩
    have hT : 100 * ((passes : ℝ) / runs) = q + s / runs := by
      have : (100 : ℝ) * passes = runs * q + s := by exact_mod_cast hqs
      field_simp
      linarith
    rw [hq]
    rw [hT, abs_le] at hc
    have h43 : (2 : ℝ) ^ (-43 : ℤ) = (2 : ℝ) ^ (-40 : ℤ) / 8 := by norm_num
    have h40 : (0 : ℝ) < (2 : ℝ) ^ (-40 : ℤ) := by positivity
    have h40' : (2 : ℝ) ^ (-40 : ℤ) < 1 := by norm_num
    rw [h43] at hc
    generalize (2 : ℝ) ^ (-40 : ℤ) = η at *
    by_cases hs0 : s = 0
    · subst hs0
      simp only [Nat.cast_zero, zero_div, add_zero] at hc
      by_cases hp0 : passes = 0
      · left
        subst hp0
        have hq0 : q = 0 := by
          rcases Nat.mul_eq_zero.1 (show runs * q = 0 by omega) with h | h <;> omega
        subst hq0
        simp only [Nat.cast_zero] at hc ⊢
        unfold trunc
        split
        · rw [Int.floor_eq_iff]; push_cast; constructor <;> linarith [hc.1, hc.2]
        · rw [Int.ceil_eq_iff]; push_cast; constructor <;> linarith [hc.1, hc.2]
      · have hq1 : (1 : ℝ) ≤ q := by
          have : q ≠ 0 := by rintro rfl; omega
          exact_mod_cast Nat.one_le_iff_ne_zero.2 this
        unfold trunc
        rw [if_pos (by linarith [hc.1])]
        rcases lt_or_ge c q with hcq | hcq
        · right
          refine ⟨?_, ⟨q, by omega⟩, by omega, by omega⟩
          rw [Int.floor_eq_iff]; push_cast; constructor <;> linarith [hc.1, hc.2]
        · left
          rw [Int.floor_eq_iff]; push_cast; constructor <;> linarith [hc.1, hc.2]
    · left
      have hs1 : (1 : ℝ) ≤ s := by exact_mod_cast Nat.one_le_iff_ne_zero.2 hs0
      have hs2 : (s : ℝ) + 1 ≤ runs := by exact_mod_cast hs
      have hl : η < (s : ℝ) / runs := lt_of_lt_of_le hinv (div_le_div_of_nonneg_right hs1 hr.le)
      have hu : (s : ℝ) / runs + 1 / runs ≤ 1 := by rw [← add_div, div_le_one hr]; exact hs2
      have hq0 : (0 : ℝ) ≤ q := Nat.cast_nonneg q
      unfold trunc
      rw [if_pos (by linarith [hc.1]), Int.floor_eq_iff]
      push_cast
      constructor <;> linarith [hc.1, hc.2]

/-- a float above a power of two is a multiple of the last place there -/
private theorem float_grid {z : ℝ} (n : ℤ) (hz : IsFloat z) (h : (2 : ℝ) ^ n ≤ z) : ∃ j : ℤ, z = j * (2 : ℝ) ^ (n - 52) := by
  obtain ⟨m, e, hm, _, _, rfl⟩ := hz
  have he : n - 52 ≤ e := by
    by_contra hlt
    have hle : (2 : ℝ) ^ e ≤ (2 : ℝ) ^ (n - 53) := zpow_le_zpow_right₀ (by norm_num) (by omega)
    have hm' : (m : ℝ) < 2 ^ 53 := by exact_mod_cast (abs_lt.1 hm).2
    have hep : (0 : ℝ) < (2 : ℝ) ^ e := by positivity
    have hn : (2 : ℝ) ^ n = 2 ^ 53 * (2 : ℝ) ^ (n - 53) := by
      rw [← zpow_natCast, ← zpow_add₀ (by norm_num : (2 : ℝ) ≠ 0)]; congr 1; push_cast; omega
    nlinarith
  obtain ⟨k, hk⟩ := Int.eq_ofNat_of_zero_le (show 0 ≤ e - (n - 52) by omega)
  refine ⟨m * 2 ^ k, ?_⟩
  push_cast
  rw [mul_assoc, ← zpow_natCast, ← zpow_add₀ (by norm_num : (2 : ℝ) ≠ 0)]
  congr 2
  omega

/-- C121 is violated: with five tests, four of which fail, 20 percent pass, but 19 is shown: `4 / 5` is rounded up. -/
theorem C121_percentage_refuted (p : ℤ) : Percentage 5 4 0 p ↔ p = 19 := by
  have h53 : (2 : ℝ) ^ (-53 : ℤ) = 1 / 9007199254740992 := by norm_num
  have key : ∀ f, Rounds ((4 : ℕ) / (5 : ℕ) : ℝ) f → f = 7205759403792794 * (2 : ℝ) ^ (-53 : ℤ) := by
    intro f hf
    have hhalf : IsFloat ((2 : ℝ) ^ (-1 : ℤ)) := isFloat_pow _ (by norm_num) (by norm_num)
    have hge := round_ge hf hhalf (by norm_num)
    obtain ⟨j, hj⟩ := float_grid (-1) hf.1 hge
    have hw := hf.2 (3602879701896397 * (2 : ℝ) ^ (-52 : ℤ)) ⟨3602879701896397, -52, by norm_num, by norm_num, by norm_num, by norm_num⟩
    rw [hj, show (-1 : ℤ) - 52 = -53 by norm_num] at hw
    rw [h53] at hw
    have h52 : (2 : ℝ) ^ (-52 : ℤ) = 1 / 4503599627370496 := by norm_num
    rw [h52] at hw
    have hval : |(3602879701896397 : ℝ) * (1 / 4503599627370496) - ((4 : ℕ) / (5 : ℕ) : ℝ)| = 1 / 22517998136852480 := by
      push_cast; rw [abs_of_nonneg (by norm_num)]; norm_num
    rw [hval, abs_le] at hw
    push_cast at hw
    have hj1 : (7205759403792793 : ℝ) < j := by linarith [hw.1]
    have hj2 : (j : ℝ) < 7205759403792795 := by linarith [hw.2]
    have hj1' : (7205759403792793 : ℤ) < j := by exact_mod_cast hj1
    have hj2' : j < (7205759403792795 : ℤ) := by exact_mod_cast hj2
    have : j = 7205759403792794 := by omega
    rw [hj, this]; norm_num
  have hfl : IsFloat (1801439850948198 * (2 : ℝ) ^ (-53 : ℤ)) := ⟨1801439850948198, -53, by norm_num, by norm_num, by norm_num, by norm_num⟩
  have hsub : (1 : ℝ) - 7205759403792794 * (2 : ℝ) ^ (-53 : ℤ) = 1801439850948198 * (2 : ℝ) ^ (-53 : ℤ) := by norm_num
  have hround : ∀ c, Rounds (100 * (1801439850948198 * (2 : ℝ) ^ (-53 : ℤ))) c → trunc c = 19 := by
    intro c hc
    have h19 : IsFloat 19 := by simpa using isFloat_int 19 (by norm_num)
    have hlo := round_ge hc h19 (by norm_num)
    have hw := hc.2 (5629499534213119 * (2 : ℝ) ^ (-48 : ℤ)) ⟨5629499534213119, -48, by norm_num, by norm_num, by norm_num, by norm_num⟩
    have hhi : c < 20 := by
      by_contra hge
      rw [not_lt] at hge
      have hval : |(5629499534213119 : ℝ) * (2 : ℝ) ^ (-48 : ℤ) - 100 * (1801439850948198 * (2 : ℝ) ^ (-53 : ℤ))| ≤ 1 / 1000000000000000 := by
        rw [abs_le]; norm_num
      have hpos := le_abs_self (c - 100 * (1801439850948198 * (2 : ℝ) ^ (-53 : ℤ)))
      rw [h53] at hw hval hpos
      linarith
    unfold trunc
    rw [if_pos (by linarith), Int.floor_eq_iff]
    push_cast
    constructor <;> linarith
  constructor
  · rintro ⟨f, e, a, b, c, hfe, ha, hb, hc, rfl⟩
    rw [if_pos (by norm_num)] at hfe
    have hf := key f hfe.1
    have he : e = 0 := (rounds_self float_zero).1 (by simpa using hfe.2)
    subst hf; subst he
    rw [hsub] at ha
    have ha' := (rounds_self hfl).1 ha
    subst ha'
    rw [sub_zero] at hb
    have hb' := (rounds_self hfl).1 hb
    subst hb'
    exact hround c hc
  · rintro rfl
    obtain ⟨f, hf⟩ := exists_round ((4 : ℕ) / (5 : ℕ) : ℝ)
    obtain ⟨c, hc⟩ := exists_round (100 * (1801439850948198 * (2 : ℝ) ^ (-53 : ℤ)))
    refine ⟨f, 0, 1801439850948198 * (2 : ℝ) ^ (-53 : ℤ), 1801439850948198 * (2 : ℝ) ^ (-53 : ℤ), c, ?_, ?_, ?_, hc, (hround c hc).symm⟩
    · rw [if_pos (by norm_num)]
      exact ⟨hf, by simpa using (rounds_self float_zero).2 rfl⟩
    · rw [key f hf, hsub]; exact (rounds_self hfl).2 rfl
    · rw [sub_zero]; exact (rounds_self hfl).2 rfl

/-- C121: an empty session shows 100 percent. -/
theorem C121_empty (p : ℤ) : Percentage 0 0 0 p ↔ p = 100 := by
  have h100 : IsFloat 100 := by simpa using isFloat_int 100 (by norm_num)
  constructor
  · rintro ⟨f, e, a, b, c, hfe, ha, hb, hc, rfl⟩
    simp only [ne_eq, not_true, if_false] at hfe
    obtain ⟨rfl, rfl⟩ := hfe
    rw [sub_zero] at ha
    have ha' := (rounds_self float_one).1 ha
    subst ha'
    rw [sub_zero] at hb
    have hb' := (rounds_self float_one).1 hb
    subst hb'
    rw [mul_one] at hc
    have hc' := (rounds_self h100).1 hc
    subst hc'
    simp [trunc]
  · rintro rfl
    refine ⟨0, 0, 1, 1, 100, by simp, ?_, ?_, ?_, by simp [trunc]⟩
    · rw [sub_zero]; exact (rounds_self float_one).2 rfl
    · rw [sub_zero]; exact (rounds_self float_one).2 rfl
    · rw [mul_one]; exact (rounds_self h100).2 rfl

example : String.join ((summarize 5 1 1 2 60).map (·.1)) = "Pass 3, Fail 1, Error 1, Total 5 (60% pass) + 2 Warn" := C121_text 3 1 1 2 60
-- some percentage comes out
example : ∃ p, Percentage 5 4 0 p := ⟨19, (C121_percentage_refuted 19).2 rfl⟩

end Unpy.Props
