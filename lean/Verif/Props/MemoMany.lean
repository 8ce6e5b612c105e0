import Verif.Proof.MemoMany
/-!
# C148: several memoized functions that call each other, in several threads
-/
namespace Unpy.Props
open Unpy.Memo (Stage Frame Thread Delivery)
open Unpy.MemoMany Unpy.Spec.Memo Unpy.Spec.MemoMany
universe u v w
variable {K : Type u} {Out : Type v} {F : Type w} [DecidableEq K] [DecidableEq F]

/-- C148: whichever memoized functions call each other (`fn k` is the function that the call `k` calls), under every schedule of
every set of threads, no call is evaluated twice. -/
theorem C148_evaluates_at_most_once (fn : K → F) (body : K → List Out → K ⊕ Out) (h : Acyclic body)
    (todo : Nat → List K) (sched : List Nat) : (run fn body todo sched).evals.Nodup :=
  (run_inv h todo sched).nodup

/-- C148: every completed call delivers what the plain functions compute, and any two completed calls of the same function with
the same arguments deliver the same object (`id` is the evaluation that made it). -/
theorem C148_transparent (fn : K → F) (body : K → List Out → K ⊕ Out) (h : Acyclic body)
    (todo : Nat → List K) (sched : List Nat) :
    ∀ d ∈ (run fn body todo sched).log, Computes body d.key d.out ∧ (run fn body todo sched).evals[d.id]? = some d.key ∧
      ∀ d' ∈ (run fn body todo sched).log, d'.key = d.key → d'.out = d.out ∧ d'.id = d.id := by
  intro d hd
  have inv := run_inv (fn := fn) h todo sched
  have h1 := inv.log d hd
  refine ⟨(inv.memoOK _ _ _ h1).1, (inv.memoOK _ _ _ h1).2, fun d' hd' hk => ?_⟩
  have h2 := inv.log d' hd'
  rw [hk, h1] at h2
  simp at h2
  exact ⟨h2.1.symm, h2.2.symm⟩

/-- C148: if the functions are in layers, so that each calls only itself and functions in lower layers, then the threads never
get into a deadlock: whatever has happened, they can still complete all their calls.  (Missing: memoized functions that call
each other, as they may deadlock; see `C148_deadlock_refuted`.) -/
theorem C148_no_deadlock_partial (fn : K → F) (layer : F → Nat) (body : K → List Out → K ⊕ Out) (h : Acyclic body)
    (ht : Total body) (hl : Layered fn layer body) (todo : Nat → List K) (N : Nat) (hN : ∀ t, N ≤ t → todo t = [])
    (sched : List Nat) :
    ∃ more : List Nat, ∀ t, (run fn body todo (sched ++ more)).threads t = ⟨[], []⟩ ∧
      ∀ k ∈ todo t, ∃ d ∈ (run fn body todo (sched ++ more)).log, d.thread = t ∧ d.key = k := by
  obtain ⟨more, hm⟩ := all_finish h ht hl N _ (run fn body todo sched) (run_inv h todo sched)
    (fun t ht => idle_run todo sched t (hN t ht)) rfl
  have e : run fn body todo (sched ++ more) = more.foldl (step fn body) (run fn body todo sched) := by
    simp [run, List.foldl_append]
  refine ⟨more, fun t => ⟨by rw [e]; exact hm t, fun k hk => ?_⟩⟩
  rcases served_run (fn := fn) (body := body) todo (sched ++ more) t k hk with h1 | ⟨fr, h1, _⟩ | h1
  · rw [e, hm t] at h1; simp at h1
  · rw [e, hm t] at h1; simp at h1
  · exact h1

/-! `even` and `odd`, defined by each other: `even(n)` is `n == 0 or odd(n - 1)`, `odd(n)` is `n != 0 and even(n - 1)`. -/

/-- a call: `(true, n)` is `even(n)`, `(false, n)` is `odd(n)` -/
def evenOdd (k : Bool × Nat) (subs : List Bool) : (Bool × Nat) ⊕ Bool :=
  match k, subs with
  | (b, 0), _ => .inr b
  | (b, n + 1), [] => .inl (!b, n)
  | (_, _ + 1), v :: _ => .inr v

private theorem evenOdd_reaches {a b : Bool × Nat} (h : Reaches evenOdd a b) : b.2 < a.2 := by
  induction h with
  | one hb =>
    unfold evenOdd at hb
    split at hb <;> cases hb <;> simp
  | trans _ _ ih1 ih2 => omega

private theorem evenOdd_acyclic : Acyclic evenOdd := fun _ h => absurd (evenOdd_reaches h) (Nat.lt_irrefl _)

private theorem evenOdd_total : Total evenOdd := by
  intro ⟨b, n⟩
  induction n generalizing b with
  | zero => exact ⟨b, .ret rfl⟩
  | succ n ih =>
    obtain ⟨o, h⟩ := ih (!b)
    exact ⟨o, .call rfl h (.ret rfl)⟩

private def evenOddTodo (t : Nat) : List (Bool × Nat) := if t = 0 then [(true, 2)] else if t = 1 then [(false, 2)] else []
private def evenOddSched : List Nat := [0, 0, 0, 0, 1, 1, 1, 1, 0, 0, 1, 1]

/-- C148 refuted: memoized functions that call each other may deadlock, as each has a lock of its own: while one thread
evaluates `even(2)` and needs `odd(1)`, another evaluates `odd(2)` and needs `even(1)`.  From then on neither gets any further,
whatever happens. -/
theorem C148_deadlock_refuted :
    ∃ (fn : Bool × Nat → Bool) (body : Bool × Nat → List Bool → (Bool × Nat) ⊕ Bool) (todo : Nat → List (Bool × Nat))
      (sched : List Nat), Acyclic body ∧ Total body ∧ (∀ t, 2 ≤ t → todo t = []) ∧
      todo 0 = [(true, 2)] ∧ todo 1 = [(false, 2)] ∧
      ∀ more, (run fn body todo (sched ++ more)).log = [] ∧
        ((run fn body todo (sched ++ more)).threads 0).frames ≠ [] ∧
        ((run fn body todo (sched ++ more)).threads 1).frames ≠ [] := by
  refine ⟨Prod.fst, evenOdd, evenOddTodo, evenOddSched, evenOdd_acyclic, evenOdd_total, ?_, rfl, rfl, ?_⟩
  · intro t ht
    unfold evenOddTodo
    rw [if_neg (by omega), if_neg (by omega)]
  · intro more
    have stuck : ∀ t, step Prod.fst evenOdd (run Prod.fst evenOdd evenOddTodo evenOddSched) t =
        run Prod.fst evenOdd evenOddTodo evenOddSched := by
      intro t
      match t with
      | 0 =>
        have h1 : ((run Prod.fst evenOdd evenOddTodo evenOddSched).threads 0).frames =
            [⟨(false, 1), .wait⟩, ⟨(true, 2), .run 0 []⟩] := rfl
        have h2 : (run Prod.fst evenOdd evenOddTodo evenOddSched).owner false = some (1, 1) := by decide
        generalize run Prod.fst evenOdd evenOddTodo evenOddSched = st at h1 h2 ⊢
        simp [step, h1, h2]
      | 1 =>
        have h1 : ((run Prod.fst evenOdd evenOddTodo evenOddSched).threads 1).frames =
            [⟨(true, 1), .wait⟩, ⟨(false, 2), .run 1 []⟩] := rfl
        have h2 : (run Prod.fst evenOdd evenOddTodo evenOddSched).owner true = some (0, 1) := by decide
        generalize run Prod.fst evenOdd evenOddTodo evenOddSched = st at h1 h2 ⊢
        simp [step, h1, h2]
      | t + 2 =>
        have h1 := idle_run (fn := Prod.fst) (body := evenOdd) evenOddTodo evenOddSched (t + 2) (by simp [evenOddTodo])
        generalize run Prod.fst evenOdd evenOddTodo evenOddSched = st at h1 ⊢
        simp [step, h1]
    have e : run Prod.fst evenOdd evenOddTodo (evenOddSched ++ more) = run Prod.fst evenOdd evenOddTodo evenOddSched := by
      show List.foldl _ _ _ = _
      rw [List.foldl_append]
      show List.foldl (step Prod.fst evenOdd) (run Prod.fst evenOdd evenOddTodo evenOddSched) more = _
      induction more with
      | nil => rfl
      | cons t more ih => rw [List.foldl_cons, stuck t]; exact ih
    rw [e]
    decide

/-- `even` and `odd` in one thread: each call is evaluated once, and the answer is right -/
example : (run Prod.fst evenOdd (fun t => if t = 0 then [(true, 2), (false, 1)] else []) (List.replicate 30 0)).log.map
    (fun d => (d.key, d.out)) = [((true, 0), true), ((false, 1), true), ((true, 2), true), ((false, 1), true)] ∧
  (run Prod.fst evenOdd (fun t => if t = 0 then [(true, 2), (false, 1)] else []) (List.replicate 30 0)).evals =
    [(true, 2), (false, 1), (true, 0)] := by decide

/-- two functions in layers: `(true, n)` is `f(n) = f(n - 1) + g(n)`, `(false, n)` is `g(n) = n * g(n - 1)` -/
private def layers (k : Bool × Nat) (subs : List Nat) : (Bool × Nat) ⊕ Nat :=
  match k, subs with
  | (true, 0), _ => .inr 0
  | (true, n + 1), [] => .inl (true, n)
  | (true, n + 1), [_] => .inl (false, n + 1)
  | (true, _ + 1), a :: b :: _ => .inr (a + b)
  | (false, 0), _ => .inr 1
  | (false, n + 1), [] => .inl (false, n)
  | (false, n + 1), a :: _ => .inr ((n + 1) * a)

private theorem layers_layered : Layered Prod.fst (fun b => if b then 1 else 0) layers := by
  intro k subs k' h
  unfold layers at h
  split at h <;> cases h <;> simp

private theorem layers_total : Total layers := by
  have g : ∀ n, ∃ out, Computes layers (false, n) out := by
    intro n
    induction n with
    | zero => exact ⟨1, .ret rfl⟩
    | succ n ih => obtain ⟨o, h⟩ := ih; exact ⟨(n + 1) * o, .call rfl h (.ret rfl)⟩
  intro ⟨b, n⟩
  cases b with
  | false => exact g n
  | true =>
    induction n with
    | zero => exact ⟨0, .ret rfl⟩
    | succ n ih =>
      obtain ⟨o, h⟩ := ih
      obtain ⟨p, hp⟩ := g (n + 1)
      exact ⟨o + p, .call rfl h (.call rfl hp (.ret rfl))⟩

private theorem layers_acyclic : Acyclic layers := by
  have : ∀ a b, Reaches layers a b → 2 * b.2 + (if b.1 then 1 else 0) < 2 * a.2 + (if a.1 then 1 else 0) := by
    intro a b h
    induction h with
    | one hb =>
      unfold layers at hb
      split at hb <;> cases hb <;> simp <;> omega
    | trans _ _ ih1 ih2 => exact Nat.lt_trans ih2 ih1
  exact fun k h => absurd (this k k h) (Nat.lt_irrefl _)

/-- two threads that call both functions, one of them just waiting for the other -/
example : ∃ more : List Nat, ∀ t, (run Prod.fst layers (fun t => if t < 2 then [(true, 3), (false, 2)] else [])
    ([0, 0, 0, 0, 1, 1, 1] ++ more)).threads t = ⟨[], []⟩ := by
  obtain ⟨more, h⟩ := C148_no_deadlock_partial Prod.fst _ layers layers_acyclic layers_total layers_layered
    (fun t => if t < 2 then [(true, 3), (false, 2)] else []) 2 (fun t ht => by simp; omega) [0, 0, 0, 0, 1, 1, 1]
  exact ⟨more, fun t => (h t).1⟩

end Unpy.Props
