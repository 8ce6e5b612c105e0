import Verif.Spec.FixShared
/-!
# C80: `fixtco` and functions that return the same jump again
-/
namespace Unpy.Props
open Unpy.FixShared Unpy.Spec.FixShared
variable {F A V : Type} [DecidableEq F] [DecidableEq A]

/-- the value, and the number of jumps to it -/
private inductive Steps (d : Defs F A V) : Nat → F → A → V → Prop where
  | ret {f a v} (h : d.body f a = .ret v) : Steps d 0 f a v
  | jump {n f a g b v} (h : d.body f a = .jump g b) (hv : Steps d n g b v) : Steps d (n + 1) f a v

omit [DecidableEq F] [DecidableEq A] in
private theorem steps_of (d : Defs F A V) {f : F} {a : A} {v : V} (h : Value d f a v) : ∃ n, Steps d n f a v := by
  induction h with
  | ret h => exact ⟨0, .ret h⟩
  | jump h _ ih => obtain ⟨n, hn⟩ := ih; exact ⟨n + 1, .jump h hn⟩

omit [DecidableEq F] [DecidableEq A] in
private theorem steps_det (d : Defs F A V) {n m : Nat} {f : F} {a : A} {v w : V} (h : Steps d n f a v) (h' : Steps d m f a w) : n = m ∧ v = w := by
  induction h generalizing m w with
  | ret h => cases h' <;> simp_all
  | jump h _ ih =>
    cases h' with
    | ret h2 => rw [h] at h2; simp at h2
    | jump h2 hv2 =>
      rw [h] at h2; injection h2 with e1 e2; subst e1; subst e2
      obtain ⟨e, e'⟩ := ih hv2
      exact ⟨by omega, e'⟩

private theorem tramp_ok (d : Defs F A V) (hm : ∀ f, d.memoized f = false) {n : Nat} {f : F} {a : A} {v : V} (h : Steps d n f a v)
    (st : St F A V) (ht : st.target = .fn f) (hv : ∀ k ∈ st.visited, ∃ g m w, k.1 = .fn g ∧ n ≤ m ∧ Steps d m g k.2 w) (fuel : Nat) (hf : n + 2 ≤ fuel) :
    ∃ st', trampoline d fuel a st = some (v, st') ∧ st'.results = st.results := by
  induction h generalizing st fuel with
  | ret h =>
    obtain ⟨k, rfl⟩ : ∃ k, fuel = k + 2 := ⟨fuel - 2, by omega⟩
    simp [trampoline, spy, ht, callFn, hm, h]
  | @jump n f a g b v h hs ih =>
    obtain ⟨k, rfl⟩ : ∃ k, fuel = k + 2 := ⟨fuel - 2, by omega⟩
    have hnot : (Target.fn g, b) ∉ st.visited := by
      intro hin
      obtain ⟨g', m, w, e, hle, hst⟩ := hv _ hin
      simp at e; subst e
      have := (steps_det d hs hst).1
      omega
    have := ih { st with
        visited := (Target.fn g, b) :: st.visited, cleanup := (Target.fn g, b) :: st.cleanup, target := Target.fn g
        jumps := (st.jumps ++ [(Target.fn g, b)]).set st.jumps.length (Target.spy, b)
        memo := ((f, a), Ret.jump st.jumps.length) :: st.memo } rfl (by
      intro k hk
      simp at hk
      rcases hk with rfl | hk
      · exact ⟨g, n, v, rfl, by omega, hs⟩
      · obtain ⟨g', m, w, e, hle, hst⟩ := hv k hk
        exact ⟨g', m, w, e, by omega, hst⟩) (k + 1) (by omega)
    obtain ⟨st', h1, h2⟩ := this
    refine ⟨st', ?_, h2⟩
    rw [trampoline]
    simp [spy, ht, callFn, hm, h, hnot]
    simpa using h1

private theorem calls_ok (d : Defs F A V) (hm : ∀ f, d.memoized f = false) {cs : List (F × A)} {vs : List V} (h : Values d cs vs) :
    ∃ N, ∀ fuel, N ≤ fuel → ∀ st : St F A V, st.visited = [] → (∀ e ∈ st.results, Value d e.1.1 e.1.2 e.2) → ∃ st', calls d fuel cs st = some (vs, st') ∧ st'.visited = [] := by
  induction h with
  | nil => exact ⟨0, fun fuel _ st h1 _ => ⟨st, rfl, h1⟩⟩
  | @cons f a v cs vs h _ ih =>
    obtain ⟨N, hN⟩ := ih
    obtain ⟨n, hs⟩ := steps_of d h
    refine ⟨max N (n + 2), fun fuel hf st hvis hres => ?_⟩
    have hcall : ∃ st', call d fuel f a st = some (v, st') ∧ st'.visited = [] ∧ ∀ e ∈ st'.results, Value d e.1.1 e.1.2 e.2 := by
      unfold call
      cases hr : st.results.find? (fun e => e.1 = (f, a)) with
      | some e =>
        obtain ⟨k, w⟩ := e
        have h1 := List.mem_of_find?_eq_some hr
        have h2 := List.find?_some hr
        simp at h2; subst h2
        have h3 := hres _ h1
        obtain ⟨m, h4⟩ := steps_of d h3
        have := (steps_det d hs h4).2
        subst this
        exact ⟨st, rfl, hvis, hres⟩
      | none =>
        obtain ⟨st', h1, h2⟩ := tramp_ok d hm hs { st with entered := [(f, a)], target := .fn f, cleanup := [] } rfl (by simp [hvis]) fuel (by omega)
        refine ⟨_, by rw [h1], rfl, ?_⟩
        intro e he
        simp [h2] at he
        rcases he with rfl | he
        · exact h
        · exact hres e he
    obtain ⟨st1, h1, h2, h3⟩ := hcall
    obtain ⟨st2, h4, h5⟩ := hN fuel (by omega) st1 h2 h3
    exact ⟨st2, by simp [calls, h1, h4], h5⟩

/-- C80: with jumps as objects that `fixtco` changes: as long as each jump is a new object, every sequence of calls whose ordinary values exist returns just these values, and nothing is left in `visited`.
(Missing: functions that return the same jump object again, see `C80_memoized_refuted`.) -/
theorem C80_jump_objects_partial (d : Defs F A V) (hm : ∀ f, d.memoized f = false) (cs : List (F × A)) (vs : List V) (h : Values d cs vs) :
    ∃ N, ∀ fuel, N ≤ fuel → ∃ st, calls d fuel cs {} = some (vs, st) ∧ st.visited = [] := by
  obtain ⟨N, hN⟩ := calls_ok d hm h
  exact ⟨N, fun fuel hf => hN fuel hf {} rfl (by simp)⟩

private theorem spy_spy (d : Defs F A V) (fuel : Nat) (a : A) (st : St F A V) (h : st.target = .spy) : spy d fuel a st = none := by
  induction fuel with
  | zero => rfl
  | succ n ih => simp [spy, h, ih]

/-- `def countdown(n): return 0 if n == 0 else jump(countdown, n - 1)`, with or without `@memoize` under the `@fixtco` -/
def countdown (memoized : Bool) : Defs Unit Nat Nat where
  body _ n := match n with | 0 => .ret 0 | n + 1 => .jump () n
  memoized _ := memoized
  bottom := 99

example : (∀ f, (countdown false).memoized f = false) ∧ Values (countdown false) [((), 1), ((), 2)] [0, 0] :=
  ⟨fun _ => rfl, .cons (.jump rfl (.ret rfl)) (.cons (.jump rfl (.jump rfl (.ret rfl))) .nil)⟩
example : ((calls (countdown false) 9 [((), 1), ((), 2)] {}).map Prod.fst) = some [0, 0] := by decide

/-- C80 is violated by functions that return the same jump object again, such as memoized ones: `fixtco` replaces the target of the jump with a function of its own, and when it meets the same jump again, this
function calls itself forever.  For the memoized `countdown`, the ordinary values exist, and the call with 1 returns 0, but a call with 2 after that does not return (in Python: RecursionError). -/
theorem C80_memoized_refuted :
    Values (countdown true) [((), 1), ((), 2)] [0, 0] ∧
      (calls (countdown true) 9 [((), 1)] {}).map Prod.fst = some [0] ∧ ∀ fuel, calls (countdown true) fuel [((), 1), ((), 2)] {} = none := by
  refine ⟨.cons (.jump rfl (.ret rfl)) (.cons (.jump rfl (.jump rfl (.ret rfl))) .nil), by decide, fun fuel => ?_⟩
  match fuel with
  | 0 => rfl
  | 1 => rfl
  | 2 => rfl
  | 3 => rfl
  | 4 => rfl
  | 5 => rfl
  | n + 6 => simp [calls, call, trampoline, spy, callFn, countdown, spy_spy]

/-- `f(0)` jumps to `f(1)`, and `f(1)` to `f(0)` -/
def circle (memoized : Bool) : Defs Unit Nat Nat where
  body _ n := .jump () (1 - n)
  memoized _ := memoized
  bottom := 99

/-- C80 is violated: nor does `fixtco` find the cycles of such functions. -/
theorem C80_memoized_cycle_refuted :
    (calls (circle false) 9 [((), 0)] {}).map Prod.fst = some [99] ∧ ∀ fuel, calls (circle true) fuel [((), 0)] {} = none := by
  refine ⟨by decide, fun fuel => ?_⟩
  match fuel with
  | 0 => rfl
  | 1 => rfl
  | 2 => rfl
  | 3 => rfl
  | 4 => rfl
  | 5 => rfl
  | n + 6 => simp [calls, call, trampoline, spy, callFn, circle, spy_spy]

end Unpy.Props
