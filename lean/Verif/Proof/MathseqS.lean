import Verif.Spec.Mathseq
import Mathlib.Tactic.FieldSimp
import Mathlib.Tactic.Ring
import Mathlib.Tactic.Linarith
import Mathlib.Data.Rat.Floor
/-!
# Helper lemmas for `s`
-/
namespace Unpy.Mathseq
open Unpy Unpy.Mathseq.Spec

/-- Constant, arithmetic or geometric, through three given numbers. -/
def Through (d : Desc) (a0 a1 a2 : Rat) : Prop :=
  (d = .const a0 ∧ a1 = a0 ∧ a2 = a0) ∨
  (∃ k, d = .arith a0 k ∧ k ≠ 0 ∧ a1 = a0 + k ∧ a2 = a1 + k) ∨
  (∃ k, d = .geom a0 k ∧ a0 ≠ 0 ∧ k ≠ 0 ∧ a1 = a0 * k ∧ a2 = a1 * k)

def isPower : Desc → Bool
  | .power _ _ => true
  | _ => false

theorem analyzePower_power {fl : Fl} {a0 a1 a2 : Rat} {d : Desc} (h : analyzePower fl a0 a1 a2 = .ok d) :
    ∃ p, d = .power a0 p := by
  unfold analyzePower at h
  split at h
  · split at h
    · cases h
    · split at h
      · cases h
      · split at h
        · cases h; exact ⟨_, rfl⟩
        · cases h
  · cases h

theorem analyze3_through {fl : Fl} (hfl : Exact fl) {a0 a1 a2 : Rat} {d : Desc} (h : analyze3 fl a0 a1 a2 = .ok d) :
    Through d a0 a1 a2 ∨ ∃ p, d = .power a0 p := by
  unfold analyze3 at h
  simp only at h
  split at h
  · rename_i hc
    cases h
    left; left
    exact ⟨rfl, by linarith [hc.1, hc.2], by linarith [hc.1, hc.2]⟩
  · rename_i hc
    split at h
    · rename_i ha
      rw [hfl] at ha
      rw [if_pos ha.symm] at h
      cases h
      left; right; left
      exact ⟨_, rfl, fun h0 => hc ⟨ha, h0⟩, by ring, by linarith⟩
    · split at h
      · rename_i hz
        obtain ⟨z0, z1, z2⟩ := hz
        split at h
        · rename_i hr
          rw [hfl] at hr
          cases h
          left; right; right
          refine ⟨a1 / a0, ?_, z0, div_ne_zero z1 z0, by field_simp, ?_⟩
          · congr 1
            split
            · rename_i h; exact h.2.1
            · rw [hr]; ring
          · rw [← hr]; field_simp
        · exact .inr (analyzePower_power h)
      · exact .inr (analyzePower_power h)

theorem same_trans {fl : Fl} (hfl : Exact fl) {d d' d'' : Desc} (h1 : d.same fl d' = true) (h2 : d.same fl d'' = true) :
    d'.same fl d'' = true := by
  cases d <;> cases d' <;> simp [Desc.same] at h1 <;> cases d'' <;> simp [Desc.same] at h2 ⊢ <;>
    (rw [hfl] at *; rw [h1, h2])

def Fits (fl : Fl) (d : Desc) (qs : List Rat) : Prop := ∀ j (h : j < qs.length), qs[j] = term fl d j

theorem term_geom (fl : Fl) (x0 k : Rat) (hk : k ≠ 0) (j : Nat) : term fl (.geom x0 k) j = x0 * k ^ j := by
  simp only [term]
  split
  · rfl
  · rw [one_div, inv_pow, div_inv_eq_mul]

theorem through_fits {fl : Fl} {d : Desc} {a0 a1 a2 : Rat} (h : Through d a0 a1 a2) : Fits fl d [a0, a1, a2] := by
  intro j hj
  rcases h with ⟨rfl, rfl, rfl⟩ | ⟨k, rfl, _, rfl, rfl⟩ | ⟨k, rfl, _, hk, rfl, rfl⟩
  · match j with
    | 0 | 1 | 2 => rfl
  · match j with
    | 0 => simp [term]
    | 1 => simp [term]
    | 2 => simp [term]; ring
  · rw [term_geom _ _ _ hk]
    match j with
    | 0 => simp
    | 1 => simp
    | 2 => simp; ring

theorem fits_cons {fl : Fl} (hfl : Exact fl) {d d' : Desc} {a0 a1 a2 a3 : Rat} {l : List Rat} (h : Through d a0 a1 a2)
    (h' : Through d' a1 a2 a3) (hs : d.same fl d' = true) (hf : Fits fl d' l) : Fits fl d (a0 :: l) := by
  intro j hj
  have key : term fl d 0 = a0 ∧ ∀ j, term fl d' j = term fl d (j + 1) := by
    rcases h with ⟨rfl, rfl, rfl⟩ | ⟨k, rfl, _, rfl, rfl⟩ | ⟨k, rfl, _, hk, rfl, rfl⟩
    · rcases h' with ⟨rfl, _, _⟩ | ⟨k', rfl, _, _, _⟩ | ⟨k', rfl, _, _, _, _⟩
      · exact ⟨rfl, fun _ => rfl⟩
      · cases hs
      · cases hs
    · rcases h' with ⟨rfl, _, _⟩ | ⟨k', rfl, _, _, _⟩ | ⟨k', rfl, _, _, _, _⟩
      · cases hs
      · simp only [Desc.same] at hs
        rw [hfl] at hs
        subst hs
        refine ⟨by simp [term], fun j => ?_⟩
        simp only [term]; push_cast; ring
      · cases hs
    · rcases h' with ⟨rfl, _, _⟩ | ⟨k', rfl, _, _, _⟩ | ⟨k', rfl, _, hk', _, _⟩
      · cases hs
      · cases hs
      · simp only [Desc.same] at hs
        rw [hfl] at hs
        subst hs
        refine ⟨by rw [term_geom _ _ _ hk]; simp, fun j => ?_⟩
        rw [term_geom _ _ _ hk, term_geom _ _ _ hk]; ring
  match j with
  | 0 => exact key.1.symm
  | j + 1 =>
    rw [List.getElem_cons_succ, ← key.2]
    exact hf j (by simpa using hj)

theorem analyzeAll_fits {fl : Fl} (hfl : Exact fl) (rest : List Rat) (a0 a1 a2 : Rat) (d : Desc) (ds : List Desc)
    (h : analyzeAll fl (a0 :: a1 :: a2 :: rest) = .ok (d :: ds)) (hs : ds.all (fun d' => d.same fl d') = true) :
    (isPower d = true ∧ ∃ p, d = .power a0 p) ∨ (Through d a0 a1 a2 ∧ Fits fl d (a0 :: a1 :: a2 :: rest)) := by
  induction rest generalizing a0 a1 a2 d ds with
  | nil =>
    rw [analyzeAll] at h
    split at h
    · cases h
    · rename_i d1 h1
      rw [analyzeAll] at h
      cases h
      rcases analyze3_through hfl h1 with ht | ⟨p, rfl⟩
      · exact .inr ⟨ht, through_fits ht⟩
      · exact .inl ⟨rfl, p, rfl⟩
      · simp
  | cons a3 rest ih =>
    rw [analyzeAll] at h
    split at h
    · cases h
    · rename_i d1 h1
      split at h
      · cases h
      · rename_i ds1 h2
        cases h
        rcases analyze3_through hfl h1 with ht | ⟨p, rfl⟩
        · right
          have : ∃ d' ds', ds = d' :: ds' := by
            rw [analyzeAll] at h2
            split at h2
            · cases h2
            · split at h2
              · cases h2
              · cases h2; exact ⟨_, _, rfl⟩
          obtain ⟨d', ds', rfl⟩ := this
          rw [List.all_cons, Bool.and_eq_true, List.all_eq_true] at hs
          rcases ih a1 a2 a3 d' ds' h2 (by
            rw [List.all_eq_true]; intro x hx; exact same_trans hfl hs.1 (hs.2 x hx)) with ⟨hp, _⟩ | ⟨ht', hf⟩
          · exfalso
            rcases ht with ⟨rfl, _⟩ | ⟨k, rfl, _⟩ | ⟨k, rfl, _⟩ <;> cases d' <;> simp [isPower, Desc.same] at hp hs
          · exact ⟨ht, fits_cons hfl ht ht' hs.1 hf⟩
        · exact .inl ⟨rfl, p, rfl⟩

theorem analyze_fits {fl : Fl} (hfl : Exact fl) (q : Rat) (qs : List Rat) (d : Desc) (h : analyze fl (q :: qs) = .ok d) :
    (∃ p, d = .power q p) ∨ Fits fl d (q :: qs) := by
  match qs, h with
  | [], h =>
    rw [analyze] at h; cases h
    right
    intro j hj
    match j with
    | 0 => rfl
  | [a1], h =>
    rw [analyze] at h; cases h
    right
    unfold analyze2
    simp only
    intro j hj
    split
    · rename_i h0
      match j with
      | 0 => rfl
      | 1 => simp [term]; linarith
    · match j with
      | 0 => simp [term]
      | 1 => simp [term]
  | [a1, a2], h =>
    rw [analyze] at h
    rcases analyze3_through hfl h with ht | ⟨p, rfl⟩
    · exact .inr (through_fits ht)
    · exact .inl ⟨p, rfl⟩
  | a1 :: a2 :: a3 :: rest, h =>
    rw [analyze] at h
    · split at h
      · cases h
      · cases h
      · rename_i d1 ds h1
        split at h
        · rename_i hs
          cases h
          rcases analyzeAll_fits hfl _ _ _ _ _ _ h1 hs with ⟨_, p, rfl⟩ | ⟨_, hf⟩
          · exact .inl ⟨p, rfl⟩
          · exact .inr hf
        · cases h
    all_goals simp

theorem nums_map (qs : List Rat) : nums (qs.map Item.num) = .ok qs := by
  induction qs with
  | nil => rfl
  | cons q qs ih => rw [List.map_cons, nums, ih]

/-- `s` of a nonempty list of numbers followed by `...`. -/
theorem s_infinite (fl : Fl) (qs : List Rat) (h : qs ≠ []) :
    s fl (qs.map Item.num ++ [.dots]) =
      match analyze fl qs with
      | .error e => .error e
      | .ok desc => .ok (.inf (fun j => some (.num (term fl desc j)))) := by
  unfold s
  rw [if_neg (by simp)]
  rw [List.getLast?_concat]
  simp only [List.dropLast_concat]
  obtain ⟨l, q, rfl⟩ : ∃ l q, qs = l ++ [q] := ⟨_, _, (List.dropLast_concat_getLast h).symm⟩
  have hl : ((l ++ [q]).map Item.num).getLast? = some (.num q) := by simp
  rw [hl]
  simp only [nums_map]
  cases analyze fl (l ++ [q]) <;> rfl

/-- `s` of a nonempty list of numbers followed by `...` and a number. -/
theorem s_finite (fl : Fl) (qs : List Rat) (elt : Rat) (h : qs ≠ []) :
    s fl (qs.map Item.num ++ [.dots, .num elt]) =
      match analyze fl qs with
      | .error e => .error e
      | .ok desc =>
        match nofterms fl desc elt with
        | .error e => .error e
        | .ok .no => .error .SyntaxError
        | .ok .infty => .error .SyntaxError
        | .ok (.n n) => .ok (.fin ((List.range n).map (fun j => some (.num (term fl desc j))))) := by
  unfold s
  have e : qs.map Item.num ++ [.dots, .num elt] = (qs.map Item.num ++ [.dots]) ++ [.num elt] := by simp
  rw [if_neg (by simp), e, List.getLast?_concat]
  simp only [List.dropLast_concat, List.getLast?_concat, nums_map]
  rw [if_neg (by simpa using h)]
  cases analyze fl qs with
  | error e => rfl
  | ok d =>
    simp only
    cases nofterms fl d elt with
    | error e => rfl
    | ok t => cases t <;> rfl

theorem arithTerms_succ (x0 k : Rat) (n : Nat) : arithTerms x0 k (n + 1) = x0 :: arithTerms (x0 + k) k n := by
  unfold arithTerms
  rw [List.range_succ_eq_map, List.map_cons, List.map_map]
  congr 1
  · simp
  · apply List.map_congr_left
    intro j _
    simp only [Function.comp]
    push_cast; ring

theorem geomTerms_succ (x0 k : Rat) (n : Nat) : geomTerms x0 k (n + 1) = x0 :: geomTerms (x0 * k) k n := by
  unfold geomTerms
  rw [List.range_succ_eq_map, List.map_cons, List.map_map]
  congr 1
  · simp
  · apply List.map_congr_left
    intro j _
    simp only [Function.comp]
    rw [pow_succ]; ring

theorem analyze3_arith (fl : Fl) (hfl : ∀ x, fl.aeq x x = true) (x0 k : Rat) (hk : k ≠ 0) :
    analyze3 fl x0 (x0 + k) (x0 + k + k) = .ok (.arith x0 k) := by
  unfold analyze3
  have e1 : x0 + k - x0 = k := by ring
  have e2 : x0 + k + k - (x0 + k) = k := by ring
  simp only [e1, e2]
  rw [if_neg (by simp [hk]), if_pos (hfl k)]
  simp

theorem analyze3_geom (fl : Fl) (hfl : Exact fl) (x0 k : Rat) (h0 : x0 ≠ 0) (hk : k ≠ 0) (hk1 : k ≠ 1) :
    analyze3 fl x0 (x0 * k) (x0 * k * k) = .ok (.geom x0 k) := by
  unfold analyze3
  have ne : x0 * k * k - x0 * k ≠ x0 * k - x0 := by
    intro h
    have : x0 * ((k - 1) * (k - 1)) = 0 := by linarith [h]
    rcases mul_eq_zero.mp this with h | h
    · exact h0 h
    · rcases mul_eq_zero.mp h with h | h <;> exact hk1 (by linarith)
  have e1 : x0 * k / x0 = k := by field_simp
  have e2 : x0 * k * k / (x0 * k) = k := by field_simp
  have hx : x0 * k ≠ 0 := mul_ne_zero h0 hk
  simp only [e1, e2]
  rw [if_neg (fun h => ne h.1), if_neg (by rw [hfl]; exact ne), if_pos ⟨h0, hx, mul_ne_zero hx hk⟩,
    if_pos ((hfl k k).mpr rfl)]
  congr 2
  split
  · rename_i h; exact h.2.1
  · ring

theorem analyzeAll_arith (fl : Fl) (hfl : ∀ x, fl.aeq x x = true) (k : Rat) (hk : k ≠ 0) (n : Nat) (x0 : Rat) :
    ∃ ds, analyzeAll fl (arithTerms x0 k (n + 3)) = .ok (.arith x0 k :: ds) ∧
      ds.all (fun d' => (Desc.arith x0 k).same fl d') = true := by
  induction n generalizing x0 with
  | zero =>
    refine ⟨[], ?_, rfl⟩
    rw [arithTerms_succ, arithTerms_succ, arithTerms_succ, analyzeAll, analyze3_arith fl hfl x0 k hk]
    rw [analyzeAll]
    simp [arithTerms]
  | succ n ih =>
    obtain ⟨ds, h1, h2⟩ := ih (x0 + k)
    refine ⟨.arith (x0 + k) k :: ds, ?_, ?_⟩
    · rw [arithTerms_succ x0 k (n + 3)]
      rw [arithTerms_succ, arithTerms_succ] at h1 ⊢
      rw [analyzeAll, analyze3_arith fl hfl x0 k hk, h1]
    · rw [List.all_cons, Bool.and_eq_true]
      refine ⟨hfl k, ?_⟩
      rw [List.all_eq_true] at h2 ⊢
      intro d hd
      have := h2 d hd
      cases d <;> simpa [Desc.same] using this

theorem analyzeAll_geom (fl : Fl) (hfl : Exact fl) (k : Rat) (hk : k ≠ 0) (hk1 : k ≠ 1) (n : Nat) (x0 : Rat)
    (h0 : x0 ≠ 0) :
    ∃ ds, analyzeAll fl (geomTerms x0 k (n + 3)) = .ok (.geom x0 k :: ds) ∧
      ds.all (fun d' => (Desc.geom x0 k).same fl d') = true := by
  induction n generalizing x0 with
  | zero =>
    refine ⟨[], ?_, rfl⟩
    rw [geomTerms_succ, geomTerms_succ, geomTerms_succ, analyzeAll, analyze3_geom fl hfl x0 k h0 hk hk1]
    rw [analyzeAll]
    simp [geomTerms]
  | succ n ih =>
    obtain ⟨ds, h1, h2⟩ := ih (x0 * k) (mul_ne_zero h0 hk)
    refine ⟨.geom (x0 * k) k :: ds, ?_, ?_⟩
    · rw [geomTerms_succ x0 k (n + 3)]
      rw [geomTerms_succ, geomTerms_succ] at h1 ⊢
      rw [analyzeAll, analyze3_geom fl hfl x0 k h0 hk hk1, h1]
    · rw [List.all_cons, Bool.and_eq_true]
      refine ⟨(hfl k k).mpr rfl, ?_⟩
      rw [List.all_eq_true] at h2 ⊢
      intro d hd
      have := h2 d hd
      cases d <;> simpa [Desc.same] using this

theorem analyze_of_all {fl : Fl} {a0 a1 a2 a3 : Rat} {rest : List Rat} {d : Desc} {ds : List Desc}
    (h1 : analyzeAll fl (a0 :: a1 :: a2 :: a3 :: rest) = .ok (d :: ds))
    (h2 : ds.all (fun d' => d.same fl d') = true) : analyze fl (a0 :: a1 :: a2 :: a3 :: rest) = .ok d := by
  rw [analyze]
  · rw [h1]; simp only [h2, if_true]
  all_goals simp

theorem analyze_arith (fl : Fl) (hfl : ∀ x, fl.aeq x x = true) (x0 k : Rat) (hk : k ≠ 0) (n : Nat) (hn : 2 ≤ n) :
    analyze fl (arithTerms x0 k n) = .ok (.arith x0 k) := by
  match n, hn with
  | 2, _ =>
    rw [arithTerms_succ, arithTerms_succ, show arithTerms (x0 + k + k) k 0 = [] from rfl, analyze, analyze2]
    have e1 : x0 + k - x0 = k := by ring
    simp only [e1, if_neg hk]
  | 3, _ =>
    rw [arithTerms_succ, arithTerms_succ, arithTerms_succ, show arithTerms (x0 + k + k + k) k 0 = [] from rfl, analyze,
      analyze3_arith fl hfl x0 k hk]
  | n + 4, _ =>
    obtain ⟨ds, h1, h2⟩ := analyzeAll_arith fl hfl k hk (n + 1) x0
    rw [arithTerms_succ, arithTerms_succ, arithTerms_succ, arithTerms_succ] at h1 ⊢
    exact analyze_of_all h1 h2

theorem analyze_geom (fl : Fl) (hfl : Exact fl) (x0 k : Rat) (h0 : x0 ≠ 0) (hk : k ≠ 0) (hk1 : k ≠ 1) (n : Nat)
    (hn : 3 ≤ n) : analyze fl (geomTerms x0 k n) = .ok (.geom x0 k) := by
  match n, hn with
  | 3, _ =>
    rw [geomTerms_succ, geomTerms_succ, geomTerms_succ, show geomTerms (x0 * k * k * k) k 0 = [] from rfl, analyze,
      analyze3_geom fl hfl x0 k h0 hk hk1]
  | n + 4, _ =>
    obtain ⟨ds, h1, h2⟩ := analyzeAll_geom fl hfl k hk hk1 (n + 1) x0 h0
    rw [geomTerms_succ, geomTerms_succ, geomTerms_succ, geomTerms_succ] at h1 ⊢
    exact analyze_of_all h1 h2

theorem analyzeAll_const (fl : Fl) (x : Rat) (n : Nat) :
    ∃ ds, analyzeAll fl (List.replicate (n + 3) x) = .ok (.const x :: ds) ∧
      ds.all (fun d' => (Desc.const x).same fl d') = true := by
  have h3 : analyze3 fl x x x = .ok (.const x) := by unfold analyze3; simp
  induction n with
  | zero =>
    refine ⟨[], ?_, rfl⟩
    simp [List.replicate, analyzeAll, h3]
  | succ n ih =>
    obtain ⟨ds, h1, h2⟩ := ih
    refine ⟨.const x :: ds, ?_, ?_⟩
    · simp only [List.replicate] at h1 ⊢
      rw [analyzeAll, h3, h1]
    · rw [List.all_cons, Bool.and_eq_true]
      exact ⟨rfl, h2⟩

theorem analyze_const (fl : Fl) (x : Rat) (n : Nat) : analyze fl (List.replicate (n + 1) x) = .ok (.const x) := by
  match n with
  | 0 => rfl
  | 1 => simp [List.replicate, analyze, analyze2]
  | 2 => simp [List.replicate, analyze, analyze3]
  | n + 3 =>
    obtain ⟨ds, h1, h2⟩ := analyzeAll_const fl x (n + 1)
    simp only [List.replicate] at h1 ⊢
    exact analyze_of_all h1 h2

theorem rround_int (n : Int) : rround (n : Rat) = n := by
  unfold rround
  apply Int.le_antisymm
  · rw [← Int.lt_add_one_iff, Rat.floor_lt_iff]; push_cast; linarith
  · rw [Rat.le_floor_iff]; linarith

theorem rabs_eq (x : Rat) : rabs x = |x| := by
  unfold rabs
  split
  · rename_i h; exact (abs_of_neg h).symm
  · rename_i h; exact (abs_of_nonneg (not_lt.mp h)).symm

end Unpy.Mathseq
