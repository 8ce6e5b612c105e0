import Verif.Proof.Memo
/-!
# C03: memoize
-/
namespace Unpy.Props
open Unpy.Memo Unpy.Spec.Memo
universe u v
variable {K : Type u} {Out : Type v} [DecidableEq K]

private theorem inv_of_acyclic {body : K → List Out → K ⊕ Out} (h : Acyclic body) (todo : Nat → List K)
    (sched : List Nat) : Inv body (run body todo sched) :=
  run_inv (R := fun a b => Reaches body b a) (fun _ _ _ h1 h2 => .trans h2 h1) h
    (fun _ _ _ hb => .one hb) todo sched

/-- C03: under every schedule of every set of threads, the original function is evaluated at most
once for each argument binding (`evals` is the list of argument bindings with which the original has
been entered). -/
theorem C03_memoize_evaluates_at_most_once (body : K → List Out → K ⊕ Out) (h : Acyclic body)
    (todo : Nat → List K) (sched : List Nat) : (run body todo sched).evals.Nodup :=
  (inv_of_acyclic h todo sched).nodup

/-- C03: every completed call delivers what the plain function computes on those arguments. -/
theorem C03_memoize_transparent (body : K → List Out → K ⊕ Out) (h : Acyclic body)
    (todo : Nat → List K) (sched : List Nat) :
    ∀ d ∈ (run body todo sched).log, Computes body d.key d.out := by
  intro d hd
  have inv := inv_of_acyclic h todo sched
  exact (inv.memoOK _ _ _ (inv.log d hd)).1

/-- C03: any two completed calls with the same binding, by any threads, deliver the same outcome and
indeed the same object (`id` is the evaluation which created the value or exception instance); that
evaluation was one with this binding. -/
theorem C03_memoize_same_object (body : K → List Out → K ⊕ Out) (h : Acyclic body)
    (todo : Nat → List K) (sched : List Nat) :
    ∀ d ∈ (run body todo sched).log, (run body todo sched).evals[d.id]? = some d.key ∧
      ∀ d' ∈ (run body todo sched).log, d'.key = d.key → d'.out = d.out ∧ d'.id = d.id := by
  intro d hd
  have inv := inv_of_acyclic h todo sched
  refine ⟨(inv.memoOK _ _ _ (inv.log d hd)).2, ?_⟩
  intro d' hd' hk
  have h1 := inv.log d hd
  have h2 := inv.log d' hd'
  rw [hk, h1] at h2
  simp at h2
  exact ⟨h2.1.symm, h2.2.symm⟩

/-- C03 (the calls do complete): whatever has happened before, an idle thread that is about to call
with `k` while no other thread is evaluating gets the outcome the plain function computes, after
finitely many steps of its own. -/
theorem C03_memoize_completes (body : K → List Out → K ⊕ Out) (h : Acyclic body)
    (todo : Nat → List K) (sched : List Nat) (t : Nat) (k : K) (ks : List K) (out : Out)
    (hidle : ((run body todo sched).threads t).frames = [])
    (htodo : ((run body todo sched).threads t).todo = k :: ks)
    (hfree : (run body todo sched).owner = none) (hc : Computes body k out) :
    ∃ n id, ((run body todo (sched ++ List.replicate n t)).threads t) = ⟨[], ks⟩ ∧
      (run body todo (sched ++ List.replicate n t)).log.getLast? = some ⟨t, k, out, id⟩ := by
  have inv := inv_of_acyclic h todo sched
  have hR : ∀ k subs k', body k subs = .inl k' → Reaches body k k' := fun _ _ _ hb => .one hb
  have tr : ∀ a b c, Reaches body b a → Reaches body c b → Reaches body c a :=
    fun _ _ _ h1 h2 => .trans h2 h1
  have inv1 := step_inv (R := fun a b => Reaches body b a) tr h hR inv t
  have e1 : ((step body (run body todo sched) t).threads t) = ⟨[⟨k, .probe⟩], ks⟩ ∧
      (step body (run body todo sched) t).owner = none := by
    simp [step, hidle, htodo, St.setThread, hfree]
  obtain ⟨n, id, h1, h2, h3⟩ := finish_call (R := fun a b => Reaches body b a) tr h hR t hc
    (finish_run (R := fun a b => Reaches body b a) tr h hR t hc) _ [] inv1 (by rw [e1.1]) (.inl e1.2)
  have e : ∀ n, run body todo (sched ++ List.replicate n t) = steps body t n (run body todo sched) := by
    intro n; simp [run, steps, List.foldl_append]
  refine ⟨n + 1, id, ?_, ?_⟩
  · rw [e, steps_succ]
    rw [e1.1] at h2
    revert h1 h2
    generalize (steps body t n (step body (run body todo sched) t)).threads t = th
    intro h1 h2
    cases th; simp_all [receive]
  · rw [e, steps_succ]; exact h3

/-- C03: a thread that has released the lock always finds its entry (no KeyError at fun.py:93). -/
theorem C03_memoize_entry_present (body : K → List Out → K ⊕ Out) (h : Acyclic body)
    (todo : Nat → List K) (sched : List Nat) (t : Nat) (k : K) (rest : List (Frame K Out))
    (hf : ((run body todo sched).threads t).frames = ⟨k, .reread⟩ :: rest) :
    ∃ r, lookup (run body todo sched).memo k = some r := by
  have inv := inv_of_acyclic h todo sched
  have := inv.chain t
  rw [hf] at this
  have h1 := this.1
  unfold FrOK at h1
  exact Option.ne_none_iff_exists'.mp h1

/-! Non-vacuity: recursive Fibonacci, where 13 is an unlucky number that raises. -/

/-- `fib(k)`; outcomes: `ok value` or `error ()` -/
def fibBody (k : Nat) (subs : List (Except Unit Nat)) : Nat ⊕ Except Unit Nat :=
  if k = 13 then .inr (.error ()) else
  match k, subs with
  | 0, _ => .inr (.ok 0)
  | 1, _ => .inr (.ok 1)
  | n + 2, [] => .inl (n + 1)
  | n + 2, [.ok _] => .inl n
  | _ + 2, .ok a :: .ok b :: _ => .inr (.ok (a + b))
  | _ + 2, _ => .inr (.error ())

theorem fibBody_acyclic : Acyclic fibBody := by
  have : ∀ a b, Reaches fibBody a b → b < a := by
    intro a b h
    induction h with
    | one hb =>
      rename_i k subs k'
      unfold fibBody at hb
      split at hb
      · simp at hb
      · split at hb <;> simp at hb <;> omega
    | trans _ _ ih1 ih2 => omega
  intro k h
  exact absurd (this k k h) (Nat.lt_irrefl k)

/-- two threads racing for `fib(3)`: thread 1 probes before thread 0 stores, waits for the lock and
then finds the entry; each of 3, 2, 1, 0 is evaluated once -/
example : (run fibBody (fun t => if t < 2 then [3] else [])
      ([0, 0, 1, 1] ++ List.replicate 30 0 ++ List.replicate 10 1)).evals = [3, 2, 1, 0] ∧
    ((run fibBody (fun t => if t < 2 then [3] else [])
      ([0, 0, 1, 1] ++ List.replicate 30 0 ++ List.replicate 10 1)).log.map
        (fun d => (d.thread, d.key, d.out, d.id))).drop 4 =
      [(0, 3, .ok 2, 0), (1, 3, .ok 2, 0)] := by decide
example : Acyclic fibBody := fibBody_acyclic
/-- a memoized exception -/
example : ((run fibBody (fun t => if t = 0 then [13, 13] else []) (List.replicate 12 0)).log.map
        (fun d => (d.thread, d.key, d.out, d.id))) =
      [(0, 13, .error (), 0), (0, 13, .error (), 0)] := by decide

end Unpy.Props
