import Verif.Model.FixLazy
import Verif.Proof.Fix
namespace Unpy.Fix
open Unpy Unpy.Fix.Spec

variable {F A V E : Type}

theorem runPure_lazy (c : F → A → Option (Out E V)) (c' : F → Obj A → Option (Out E V))
    (h : ∀ f a p, c' f (a, p) = c f a) (p : List Nat) (x : Prog F A E V) : ∀ n,
    runPure c' (lazyProg p n x) = runPure c x := by
  induction x with
  | ret v => intro n; rfl
  | raise e => intro n; rfl
  | call f a k ih =>
    intro n
    simp only [lazyProg, runPure, h]
    cases c f a with
    | none => rfl
    | some r => exact ih r (n + 1)

/-- Without `fix`, lazy functions compute what the others do. -/
theorem plain_lazy (d : Defs F A E V) : ∀ (n : Nat) (f : F) (a : A) (p : List Nat),
    plain (lazyDefs d).body n f (a, p) = plain d.body n f a
  | 0, _, _, _ => rfl
  | n + 1, f, a, p => runPure_lazy _ _ (plain_lazy d n) p (d.body f a) 0

variable [DecidableEq F] [DecidableEq A]

/-- What is in the memo has been computed by calls that terminate. -/
def MemoT (d : Defs F A E V) (st : St F (Obj A) E V) : Prop :=
  ∀ e ∈ st.memo, ∃ n, plain d.body n e.1.1 e.1.2.1 = some e.2

theorem run_visited (d : Defs F A E V) (fuel : Nat) (p : Prog F A E V) : ∀ (st1 : St F A E V) r1 st2,
    run (callFix d fuel) p st1 = some (r1, st2) → st2.visited = st1.visited := by
  induction p with
  | ret v => intro st1 r1 st2 h; cases h; rfl
  | raise e => intro st1 r1 st2 h; cases h; rfl
  | call f1 a1 k ihk =>
    intro st1 r1 st2 h
    rw [run] at h
    cases hcall : callFix d fuel f1 a1 st1 with
    | none => rw [hcall] at h; cases h
    | some q =>
      obtain ⟨r2, st3⟩ := q
      rw [hcall] at h
      rw [ihk r2 st3 r1 st2 h, callFix_visited d fuel f1 a1 st1 r2 st3 hcall]

theorem callMemo_visited (d : Defs F A E V) (fuel : Nat) (f : F) (a : A) (st1 : St F A E V) (r1 : Out E V)
    (st2 : St F A E V) (h : callMemo d (callFix d fuel) f a st1 = some (r1, st2)) : st2.visited = st1.visited := by
  unfold callMemo at h
  split at h
  · split at h
    · cases h; rfl
    · split at h
      · cases h
      · rename_i r2 st3 hr
        cases h
        exact run_visited d fuel _ _ _ st3 hr
  · exact run_visited d fuel _ _ _ _ h

/-- In lazy code, what `fix` gives is what plain recursion gives. -/
theorem callFix_lazy (d : Defs F A E V) (fuel : Nat) : ∀ (f : F) (a : A) (p : List Nat) (st : St F (Obj A) E V) (r : Out E V)
    (st' : St F (Obj A) E V), (∀ k ∈ st.visited, k.2.2.length < p.length) → MemoT d st →
    callFix (lazyDefs d) fuel f (a, p) st = some (r, st') → (∃ n, plain d.body n f a = some r) ∧ MemoT d st' := by
  induction fuel with
  | zero => intro f a p st r st' _ _ h; cases h
  | succ fuel ih =>
    intro f a p st r st' hv hm h
    have hrun : ∀ (x : Prog F A E V) (n : Nat) (st1 : St F (Obj A) E V) (r1 : Out E V) (st2 : St F (Obj A) E V),
        (∀ k ∈ st1.visited, k.2.2.length < p.length + 1) → MemoT d st1 →
        run (callFix (lazyDefs d) fuel) (lazyProg p n x) st1 = some (r1, st2) →
        (∃ m, runPure (plain d.body m) x = some r1) ∧ MemoT d st2 := by
      intro x
      induction x with
      | ret v => intro n st1 r1 st2 _ hm1 h; cases h; exact ⟨⟨0, rfl⟩, hm1⟩
      | raise e => intro n st1 r1 st2 _ hm1 h; cases h; exact ⟨⟨0, rfl⟩, hm1⟩
      | call g b k ihk =>
        intro n st1 r1 st2 hv1 hm1 h
        rw [lazyProg, run] at h
        cases hc : callFix (lazyDefs d) fuel g (b, n :: p) st1 with
        | none => rw [hc] at h; cases h
        | some q =>
          obtain ⟨r2, st3⟩ := q
          rw [hc] at h
          obtain ⟨⟨m1, h1⟩, hm3⟩ := ih g b (n :: p) st1 r2 st3 hv1 hm1 hc
          have hv3 : st3.visited = st1.visited := callFix_visited _ _ _ _ _ _ _ hc
          obtain ⟨⟨m2, h2⟩, hm2⟩ := ihk r2 (n + 1) st3 r1 st2 (by rw [hv3]; exact hv1) hm3 h
          refine ⟨⟨max m1 m2, ?_⟩, hm2⟩
          rw [runPure, plain_mono d.body (Nat.le_max_left m1 m2) g b r2 h1]
          exact runPure_mono (fun f a r => plain_mono d.body (Nat.le_max_right m1 m2) f a r) _ _ h2
    have hbody : ∀ (st1 : St F (Obj A) E V) (r1 : Out E V) (st2 : St F (Obj A) E V),
        (∀ k ∈ st1.visited, k.2.2.length < p.length + 1) → MemoT d st1 →
        run (callFix (lazyDefs d) fuel) ((lazyDefs d).body f (a, p)) st1 = some (r1, st2) →
        (∃ m, plain d.body m f a = some r1) ∧ MemoT d st2 := by
      intro st1 r1 st2 hv1 hm1 h1
      obtain ⟨⟨m, hm2⟩, h3⟩ := hrun (d.body f a) 0 st1 r1 st2 hv1 hm1 h1
      exact ⟨⟨m + 1, hm2⟩, h3⟩
    have hmemo : ∀ (st1 : St F (Obj A) E V) (r1 : Out E V) (st2 : St F (Obj A) E V),
        (∀ k ∈ st1.visited, k.2.2.length < p.length + 1) → MemoT d st1 →
        callMemo (lazyDefs d) (callFix (lazyDefs d) fuel) f (a, p) st1 = some (r1, st2) →
        (∃ m, plain d.body m f a = some r1) ∧ MemoT d st2 := by
      intro st1 r1 st2 hv1 hm1 h1
      unfold callMemo at h1
      split at h1
      · split at h1
        · rename_i r2 hl
          cases h1
          refine ⟨?_, hm1⟩
          unfold lookup at hl
          cases hfd : st1.memo.find? (fun e => e.1 = (f, (a, p))) with
          | none => rw [hfd] at hl; cases hl
          | some e =>
            rw [hfd] at hl
            have he := List.find?_some hfd
            have hmem := hm1 e (List.mem_of_find?_eq_some hfd)
            simp only [decide_eq_true_eq] at he
            rw [he] at hmem
            simp only [Option.map_some, Option.some.injEq] at hl
            rw [← hl]
            exact hmem
        · split at h1
          · cases h1
          · rename_i r2 st3 hr
            cases h1
            obtain ⟨h2, h3⟩ := hbody _ _ _ hv1 hm1 hr
            refine ⟨h2, fun e he => ?_⟩
            simp only [List.mem_cons] at he
            rcases he with rfl | he
            · exact h2
            · exact h3 e he
      · exact hbody _ _ _ hv1 hm1 h1
    rw [callFix] at h
    have hnot : (f, (a, p)) ∉ st.visited := fun hm => Nat.lt_irrefl _ (hv _ hm)
    simp only [hnot, not_false_eq_true, if_true] at h
    split at h
    · cases h
    · rename_i r1 st2 hcm
      have hvis := callMemo_visited _ _ _ _ _ _ _ hcm
      obtain ⟨h1, h2⟩ := hmemo { st with visited := (f, (a, p)) :: st.visited } r1 st2 (by
        intro k hk
        simp only [List.mem_cons] at hk
        rcases hk with rfl | hk
        · exact Nat.lt_succ_self _
        · exact Nat.lt_succ_of_lt (hv k hk)) hm hcm
      split at h
      · cases h; exact ⟨h1, h2⟩
      · split at h
        · cases h; exact ⟨h1, h2⟩
        · rename_i hmem
          exact absurd (by rw [hvis]; simp) hmem

theorem reach_memoT (d : Defs F A E V) (st : St F (Obj A) E V) (h : Reach (lazyDefs d) st) : MemoT d st := by
  induction h with
  | init => intro e he; cases he
  | @call st st' fuel f a r hr hc ih =>
    have hv := reach_visited hr
    exact (callFix_lazy d fuel f a.1 a.2 st r st' (by rw [hv]; simp) ih hc).2

end Unpy.Fix
