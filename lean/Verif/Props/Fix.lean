import Verif.Proof.Fix
import Verif.Proof.FixTco
/-!
# C60: `@fix`;  C80: `@fixtco`
-/
namespace Unpy.Props
open Unpy

section Fix
open Unpy.Fix Unpy.Fix.Spec
variable {F A V E : Type} [DecidableEq F] [DecidableEq A]

/-- C60.  Whenever plain recursion terminates, `@fix` gives the same result (a value or an exception), after any history
of earlier calls, with or without `memo`, and with no deeper nesting of calls. -/
theorem C60_ordinary (d : Defs F A E V) (st : St F A E V) (hst : Reach d st) (f : F) (a : A) (n : Nat) (x : Out E V)
    (h : plain d.body n f a = some x) : ∃ st', callFix d n f a st = some (x, st') := by
  have hv := reach_visited hst
  have ha : Above d n st.visited := by rw [hv]; intro k hk; cases hk
  obtain ⟨⟨r, st'⟩, hq⟩ := callFix_enough d n n (Nat.le_refl _) f a st x (reach_memoOk hst) h ha
  obtain ⟨_, _, h3⟩ := callFix_inv d n f a st r st' (reach_memoOk hst) hq (.inl ⟨n, x, h, ha⟩)
  exact ⟨st', by rw [hq, h3 n x h]⟩

/-- Any result `@fix` gives agrees with plain recursion, if that terminates at all: so bottom is used, or affects the
result, only if plain recursion does not terminate. -/
theorem C60_sound (d : Defs F A E V) (st : St F A E V) (hst : Reach d st) (f : F) (a : A) (fuel : Nat) (r : Out E V)
    (st' : St F A E V) (h : callFix d fuel f a st = some (r, st')) (n : Nat) (x : Out E V)
    (hx : plain d.body n f a = some x) : r = x := by
  have hv := reach_visited hst
  exact (callFix_inv d fuel f a st r st' (reach_memoOk hst) h
    (.inl ⟨n, x, hx, by rw [hv]; intro k hk; cases hk⟩)).2.2 n x hx

/-- If only finitely many calls are reachable, `@fix` terminates, whatever the functions do. -/
theorem C60_terminates (d : Defs F A E V) (st : St F A E V) (hst : Reach d st) (U : List (F × A))
    (hU : ∀ f a, (f, a) ∈ U → CallsIn U (d.body f a)) (f : F) (a : A) (hf : (f, a) ∈ U) :
    ∃ r st', callFix d (U.length + 1) f a st = some (r, st') := by
  obtain ⟨⟨r, st'⟩, h⟩ := callFix_finite d U hU (U.length + 1) f a st hf
    (Nat.lt_succ_of_le (List.length_filter_le _ _))
  exact ⟨r, st', h⟩

/-- Without `memo`, a call gives bottom exactly when the same call is already active, and otherwise runs the body: the
result is that of recursion with an explicit call stack, after any history.
(Missing: `memo`, see `C60_memo_history_refuted`.) -/
theorem C60_bottom_exact_partial (d : Defs F A E V) (hmemo : ∀ f, d.memo f = false) (st : St F A E V) (hst : Reach d st)
    (f : F) (a : A) (fuel : Nat) :
    (callFix d fuel f a st).map Prod.fst = guarded d.body d.bottom fuel [] f a := by
  rw [callFix_guarded d hmemo fuel f a st, reach_visited hst]

/-- With `memo` (the default), that fails: results computed inside a cycle, from bottom, are remembered.  Here `f(1)` is
`[1] + f(2)`, `f(2)` is `[2] + f(1)`, and bottom is `[]`.  As a first call, `f(2)` gives `[2, 1]`; after `f(1)`, it gives `[2]`. -/
theorem C60_memo_history_refuted : ∃ (d : Defs Unit Nat Unit (List Nat)) (st st1 st2 : St Unit Nat Unit (List Nat)),
    (∀ f, d.memo f = true) ∧ Reach d st ∧
    guarded d.body d.bottom 3 [] () 2 = some (.ok [2, 1]) ∧
    callFix d 3 () 2 Fix.init = some (.ok [2, 1], st1) ∧
    callFix d 3 () 2 st = some (.ok [2], st2) := by
  let d : Defs Unit Nat Unit (List Nat) :=
    ⟨fun _ a => .call () (3 - a) (fun r => match r with | .ok v => .ret (a :: v) | .error e => .raise e),
      fun _ => true, fun _ _ => .ok [], ()⟩
  refine ⟨d, ⟨[], [(((), 1), .ok [1, 2]), (((), 2), .ok [2])]⟩, _, _, fun _ => rfl, ?_, rfl, rfl, rfl⟩
  exact Reach.call (fuel := 3) (f := ()) (a := 1) (r := .ok [1, 2]) Reach.init rfl

/-- Nothing is left behind: after any call, returning or raising, at any nesting, the set of active calls is what it was;
between outermost calls it is empty. -/
theorem C60_no_trace (d : Defs F A E V) (fuel : Nat) (f : F) (a : A) (st st' : St F A E V) (r : Out E V)
    (h : callFix d fuel f a st = some (r, st')) : st'.visited = st.visited ∧ (Reach d st → st'.visited = []) :=
  ⟨callFix_visited d fuel f a st r st' h, fun hs => by rw [callFix_visited d fuel f a st r st' h, reach_visited hs]⟩

/-- 4 + 3 + 2 + 1 + 0 terminates; it is computed after a call of `f(2)`. -/
example : ∃ (d : Defs Unit Nat Unit Nat) (st : St Unit Nat Unit Nat), Reach d st ∧ st.memo ≠ [] ∧
    plain d.body 5 () 4 = some (.ok 10) ∧ (callFix d 5 () 4 st).map Prod.fst = some (.ok 10) := by
  let d : Defs Unit Nat Unit Nat :=
    ⟨fun _ a => if a = 0 then .ret 0 else .call () (a - 1) (fun r => match r with | .ok v => .ret (a + v) | .error e => .raise e),
      fun _ => true, fun _ _ => .ok 0, ()⟩
  refine ⟨d, ⟨[], [(((), 2), .ok 3), (((), 1), .ok 1), (((), 0), .ok 0)]⟩, ?_, by simp, rfl, rfl⟩
  exact Reach.call (fuel := 3) (f := ()) (a := 2) (r := .ok 3) Reach.init rfl

/-- `f(k) = f((k + 1) % 3)` never terminates plainly; only three calls are reachable. -/
example : ∃ (d : Defs Unit Nat Unit Nat) (U : List (Unit × Nat)), (∀ f a, (f, a) ∈ U → CallsIn U (d.body f a)) ∧
    ((), 0) ∈ U ∧ plain d.body 50 () 0 = none ∧ (callFix d 4 () 0 Fix.init).map Prod.fst = some (.ok 77) ∧
    guarded d.body d.bottom 4 [] () 0 = some (.ok 77) := by
  refine ⟨⟨fun _ a => .call () ((a + 1) % 3) (fun r => match r with | .ok v => .ret v | .error e => .raise e),
      fun _ => false, fun _ _ => .ok 77, ()⟩, [((), 0), ((), 1), ((), 2)], ?_, by simp, by decide, rfl, rfl⟩
  intro f a h
  refine CallsIn.call ?_ ?_
  · have : (a + 1) % 3 < 3 := Nat.mod_lt _ (by omega)
    generalize (a + 1) % 3 = m at this
    match m, this with
    | 0, _ => simp
    | 1, _ => simp
    | 2, _ => simp
  · intro r
    cases r
    · exact CallsIn.raise _
    · exact CallsIn.ret _

end Fix

section FixTco
open Unpy.FixTco Unpy.FixTco.Spec
variable {F A V E : Type} [DecidableEq F] [DecidableEq A]

/-- C80.  If the functions do not catch exceptions, then whenever plain recursion terminates (tail calls being calls),
`@fixtco` gives the same result, after any history of earlier calls, with or without `memo`.
(Missing: functions that catch exceptions, see `C80_leak_refuted`.) -/
theorem C80_ordinary_partial (d : Defs F A E V) (hpr : ∀ f a, Propagates (d.body f a)) (st : St F A E V) (hst : Reach d st)
    (f : F) (a : A) (n : Nat) (x : Out E V) (h : plain d.body n f a = some x) :
    ∃ st', go d (2 * n) (.call f a) st = some (x, st') := by
  have hv := reach_visited hst
  have ha : Above d n st.visited := by rw [hv]; intro k hk; cases hk
  obtain ⟨⟨r, st'⟩, hq⟩ := (go_enough d hpr (2 * n)).1 n (Nat.le_refl _) f a st x (reach_memoOk hpr hst) h ha
  obtain ⟨_, _, h3⟩ := (go_good d hpr (2 * n)).1 f a st r st' (reach_memoOk hpr hst) hq (.inl ⟨n, x, h, ha⟩)
  exact ⟨st', by rw [hq, h3 n x h]⟩

/-- If they do catch exceptions, this fails: the jump targets of a chain that raises stay in the set of active calls until
the outermost call is over.  Here `f(0)` calls `f(1)`, which jumps to `f(2)`, which raises; `f(0)` catches that, and jumps to
`f(2)`.  Plain recursion raises; `@fixtco` returns bottom. -/
theorem C80_leak_refuted : ∃ (d : Defs Unit Nat String Nat) (st' : St Unit Nat String Nat),
    plain d.body 3 () 0 = some (.error "e") ∧ (∀ f a o, d.bottom o f a = .ok 77) ∧
    go d 5 (.call () 0) FixTco.init = some (.ok 77, st') := by
  refine ⟨⟨fun _ a => match a with
      | 0 => .call () 1 (fun _ => .jump () 2)
      | 1 => .jump () 2
      | _ => .raise "e", fun _ => false, fun _ _ _ => .ok 77, "KeyError"⟩, _, rfl, fun _ _ _ => rfl, rfl⟩

/-- If only finitely many calls are reachable, by calls and jumps, `@fixtco` terminates, whatever the functions do; so
infinite chains of tail calls are broken too. -/
theorem C80_terminates (d : Defs F A E V) (st : St F A E V) (U : List (F × A))
    (hU : ∀ f a, (f, a) ∈ U → CallsIn U (d.body f a)) (f : F) (a : A) (hf : (f, a) ∈ U) :
    ∃ r st', go d (4 * U.length + 1) (.call f a) st = some (r, st') := by
  have hl : free U st.visited ≤ 2 * U.length := by
    have := List.length_filter_le (fun k => decide (k ∉ st.visited)) (keys U)
    have h2 : (keys U).length = 2 * U.length := by simp [keys]; omega
    rw [h2] at this
    exact this
  obtain ⟨⟨r, st'⟩, h⟩ := (go_finite d U hU (4 * U.length + 1)).1 f a st hf (by omega)
  exact ⟨r, st', h⟩

/-- Between outermost calls, the set of active calls is empty. -/
theorem C80_no_trace (d : Defs F A E V) (st : St F A E V) (h : Reach d st) : st.visited = [] := reach_visited h

private theorem documented_chain (m : Nat) (hm : 0 < m) (memo : Bool) (bot : Nat) (e : String) (k : Nat) :
    ∀ i mm, i + k = m → ∃ vis' , go (⟨fun (_ : Unit) a => .jump () ((a + 1) % m), fun _ => memo, fun _ _ _ => .ok bot, e⟩ :
        Defs Unit Nat String Nat) (k + 1)
      (.tramp () () (i % m) (((List.range i).map (fun j => ⟨true, (), (j + 1) % m⟩)).reverse))
      ⟨((List.range i).map (fun j => (⟨true, (), (j + 1) % m⟩ : Key Unit Nat))).reverse ++ [⟨false, (), 0⟩], mm⟩ =
        some (.ok bot, ⟨vis', mm⟩) := by
  induction k with
  | zero =>
    intro i mm hi
    have hi : i = m := by omega
    subst hi
    refine ⟨[⟨false, (), 0⟩], ?_⟩
    rw [go]
    simp only [run]
    have hmem : (⟨true, (), (i % i + 1) % i⟩ : Key Unit Nat) ∈
        ((List.range i).map (fun j => (⟨true, (), (j + 1) % i⟩ : Key Unit Nat))).reverse ++ [⟨false, (), 0⟩] := by
      rw [List.mem_append, List.mem_reverse, List.mem_map]
      exact .inl ⟨0, List.mem_range.mpr hm, by simp⟩
    rw [if_pos hmem, removeAll_append]
  | succ k ih =>
    intro i mm hi
    obtain ⟨vis', hv⟩ := ih (i + 1) mm (by omega)
    refine ⟨vis', ?_⟩
    rw [go]
    simp only [run]
    have hnm : (⟨true, (), (i % m + 1) % m⟩ : Key Unit Nat) ∉
        ((List.range i).map (fun j => (⟨true, (), (j + 1) % m⟩ : Key Unit Nat))).reverse ++ [⟨false, (), 0⟩] := by
      rw [List.mem_append, List.mem_reverse, List.mem_map]
      rintro (⟨j, hj, he⟩ | h)
      · rw [List.mem_range] at hj
        have h1 : i % m = i := Nat.mod_eq_of_lt (by omega)
        have h2 : (j + 1) % m = j + 1 := Nat.mod_eq_of_lt (by omega)
        rw [h1, h2] at he
        injection he with _ _ he
        by_cases hl : i + 1 < m
        · rw [Nat.mod_eq_of_lt hl] at he; omega
        · have : i + 1 = m := by omega
          rw [this, Nat.mod_self] at he; omega
      · rw [List.mem_singleton] at h
        cases h
    rw [if_neg hnm]
    have e1 : (i % m + 1) % m = (i + 1) % m := by rw [Nat.mod_add_mod]
    rw [List.range_succ, List.map_append, List.reverse_append] at hv
    rw [e1]
    exact hv

/-- The documented example, `f(k) = jump(f, (k + 1) % 5000)`, for every modulus: the result is bottom. -/
theorem C80_documented (m : Nat) (hm : 0 < m) (memo : Bool) (bot : Nat) (e : String) :
    ∃ st', go ⟨fun (_ : Unit) a => .jump () ((a + 1) % m), fun _ => memo, fun _ _ _ => .ok bot, e⟩ (m + 2) (.call () 0)
      FixTco.init = some (.ok bot, st') := by
  obtain ⟨vis', h⟩ := documented_chain m hm memo bot e m 0 [] (by omega)
  simp only [List.range_zero, List.map_nil, List.reverse_nil, List.nil_append, Nat.zero_mod] at h
  rw [go]
  simp only [FixTco.init, List.not_mem_nil, not_false_eq_true, if_true, List.isEmpty_nil, lookup, List.find?_nil, Option.map_none, h]
  cases memo
  · exact ⟨_, rfl⟩
  · exact ⟨_, rfl⟩

/-- A chain of jumps that terminates, with a call in it, after another call; and hypotheses of the theorems above. -/
example : ∃ (d : Defs Unit Nat Unit Nat) (st : St Unit Nat Unit Nat), (∀ f a, Propagates (d.body f a)) ∧ Reach d st ∧
    st.memo ≠ [] ∧ plain d.body 5 () 4 = some (.ok 7) ∧ (go d 10 (.call () 4) st).map Prod.fst = some (.ok 7) := by
  let d : Defs Unit Nat Unit Nat :=
    ⟨fun _ a => if a = 0 then .ret 7 else if a = 2 then .call () 1 (fun r => match r with | .ok v => .ret v | .error e => .raise e)
      else .jump () (a - 1), fun _ => true, fun _ _ _ => .ok 0, ()⟩
  refine ⟨d, ⟨[], [(((), 1), .ok 7)]⟩, ?_, ?_, by simp, rfl, rfl⟩
  · intro f a
    change Propagates (if a = 0 then _ else if a = 2 then _ else _)
    split
    · exact .ret _
    · split
      · exact .call (fun _ => rfl) (fun v => .ret v)
      · exact .jump _ _
  · exact Reach.call (fuel := 4) (f := ()) (a := 1) (r := .ok 7) Reach.init rfl

end FixTco
end Unpy.Props
