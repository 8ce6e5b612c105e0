import Verif.Proof.GMemoManyLive
/-!
# C152: memoized generators that use each other, in several threads
-/
namespace Unpy.Props
open Unpy.GMemoSelf (Out)
open Unpy.GMemoMany Unpy.Spec.GMemoMany
variable {G S V E : Type} [DecidableEq G]

/-- C152: whichever memoized generators use each other, as long as no item is needed to compute itself, and however the threads that
use them are scheduled, each instance delivers the items of its sequence, in order, from the first one on; and each memo holds the
items of its sequence from the first one on, so that each item has been computed once. -/
theorem C152_transparent (p : Prog G S V E) (o : G → Nat → Out V E) (sts : G → Nat → Option (S × (Nat → Nat)))
    (hsol : Solves p o sts) (hac : Acyclic p o sts) (outer : Nat → Nat → G) (todo : Nat → List Nat) (sched : List Nat) :
    (∀ t i, ∃ n, n ≤ (todo t).count i ∧ (run p outer todo sched).delivered t i = (List.range n).map (o (outer t i))) ∧
    ∀ g, ∃ n, ((run p outer todo sched).gens g).memo = (List.range n).map (o g) := by
  have inv := run_inv (outer := outer) (todo := todo) hsol hac sched
  refine ⟨fun t i => ⟨_, ?_, inv.log t i⟩, fun g => ?_⟩
  · have := inv.served t i; omega
  · obtain ⟨n, hn, _⟩ := inv.gen g; exact ⟨n, hn⟩

/-- C152: if the generators are in layers, so that each uses only its own earlier items and generators in lower layers, then the
threads never get into a deadlock: whatever has happened, they can still complete all their calls of `next`.  (Missing: generators
that use each other, as they may deadlock; see `C152_deadlock_refuted`.) -/
theorem C152_no_deadlock_partial (p : Prog G S V E) (o : G → Nat → Out V E) (sts : G → Nat → Option (S × (Nat → Nat)))
    (hsol : Solves p o sts) (layer : G → Nat) (hl : Layered p o sts layer) (outer : Nat → Nat → G) (todo : Nat → List Nat)
    (N : Nat) (hN : ∀ t, N ≤ t → todo t = []) (sched : List Nat) :
    ∃ more : List Nat, ∀ t, ((run p outer todo (sched ++ more)).threads t).frames = [] ∧
      ∀ i, (run p outer todo (sched ++ more)).delivered t i = (List.range ((todo t).count i)).map (o (outer t i)) := by
  have hac := layered_acyclic hl
  have inv := run_inv (outer := outer) (todo := todo) hsol hac sched
  have hidle : ∀ (sched : List Nat) (st : St G S V E), Inv p o sts outer todo st → ∀ t, Idle st t → Idle (sched.foldl (step p outer) st) t := by
    intro sched
    induction sched with
    | nil => intro st _ t h; exact h
    | cons t' sched ih =>
      intro st inv t h
      refine ih _ (step_inv hsol hac st inv t') t ?_
      by_cases e : t = t'
      · subst e; rw [step_idle h]; exact h
      · unfold Idle; rw [(step_other (t := t') inv).1 t e]; exact h
  have inv0 : Inv p o sts outer todo (init p todo) := run_inv (outer := outer) (todo := todo) hsol hac []
  obtain ⟨more, hm⟩ := all_finish hsol hl N _ (run p outer todo sched) inv
    (fun t ht => hidle sched _ inv0 t ⟨rfl, hN t ht⟩) rfl
  have e : run p outer todo (sched ++ more) = more.foldl (step p outer) (run p outer todo sched) := by
    simp [run, List.foldl_append]
  have inv' := run_inv (outer := outer) (todo := todo) hsol hac (sched ++ more)
  rw [e] at inv'
  refine ⟨more, fun t => ?_⟩
  rw [e]
  obtain ⟨h1, h2⟩ := hm t
  refine ⟨h1, fun i => ?_⟩
  have := inv'.served t i
  rw [h1, h2] at this
  rw [inv'.log t i, ← this]
  rfl

/-! Two generators that use each other: `def a(): yield 0; for x in b(): yield x + 1` and
`def b(): yield 10; for x in a(): yield x + 1`.  The state is the number of the item, and the item of the other one. -/

namespace GMemoManyDemo

def eachOther : Prog Bool (Nat × Option Nat) Nat String where
  start _ := (0, none)
  step g s := match s with
    | (0, _) => .yield (if g then 0 else 10) (1, none)
    | (n + 1, none) => .ask 0 (fun r => match r with | .item x => (n + 1, some x) | _ => (n + 1, some 0))
    | (n + 1, some x) => .yield (x + 1) (n + 2, none)
  inner g _ := !g
  busy := "ValueError: generator already executing"

private def val : Bool → Nat → Nat
  | g, 0 => if g then 0 else 10
  | g, n + 1 => val (!g) n + 1

private def mutSts (_ : Bool) (n : Nat) : Option ((Nat × Option Nat) × (Nat → Nat)) := some ((n, none), fun i => if i = 0 then n - 1 else 0)

private theorem mut_solves : Solves eachOther (fun g n => .item (val g n)) mutSts := by
  intro g
  refine ⟨?_, fun n => ?_⟩
  · simp [mutSts, eachOther]
  · cases n with
    | zero =>
      have h : Goes eachOther (fun g n => .item (val g n)) g ((0, none), fun i => if i = 0 then 0 - 1 else 0) (.item (if g then 0 else 10))
          (some ((1, none), fun i => if i = 0 then 0 - 1 else 0)) := .yield rfl
      exact h
    | succ n =>
      have h1 : Goes eachOther (fun g n => .item (val g n)) g ((n + 1, some (val (!g) n)), taken (fun i => if i = 0 then n else 0) 0)
          (.item (val (!g) n + 1)) (some ((n + 2, none), taken (fun i => if i = 0 then n else 0) 0)) := .yield rfl
      have e : taken (fun i => if i = 0 then n else 0) 0 = fun i => if i = 0 then n + 1 else 0 := by
        funext i; by_cases h : i = 0 <;> simp [taken, h]
      have h2 : Goes eachOther (fun g n => .item (val g n)) g ((n + 1, none), fun i => if i = 0 then n else 0) (.item (val (!g) n + 1))
          (some ((n + 2, none), taken (fun i => if i = 0 then n else 0) 0)) := .ask (i := 0) rfl h1
      rw [e] at h2
      exact h2

private theorem mut_asks {g : Bool} {c : (Nat × Option Nat) × (Nat → Nat)} {g' : Bool} {m : Nat}
    (h : Asks eachOther (fun g n => .item (val g n)) g c g' m) : c.1.1 ≠ 0 ∧ c.1.2 = none ∧ m = c.2 0 := by
  induction h with
  | @here s pos i k hs =>
    obtain ⟨n, x⟩ := s
    cases n with
    | zero => cases hs
    | succ n => cases x with
      | none => cases hs; simp
      | some x => cases hs
  | @later s pos i k g' m hs ha ih =>
    obtain ⟨n, x⟩ := s
    cases n with
    | zero => cases hs
    | succ n => cases x with
      | none => cases hs; exact absurd ih.2.1 (by simp)
      | some x => cases hs

private theorem mut_acyclic : Acyclic eachOther (fun g n => .item (val g n)) mutSts := by
  have : ∀ a b, Needs eachOther (fun g n => .item (val g n)) mutSts a b → b.2 < a.2 := by
    intro a b h
    induction h with
    | one h ha =>
      cases h
      have := mut_asks ha
      simp at this ⊢
      omega
    | trans _ _ ih1 ih2 => omega
  exact fun a h => absurd (this a a h) (Nat.lt_irrefl _)

end GMemoManyDemo
open GMemoManyDemo

private def mutOuter (t _ : Nat) : Bool := t = 0
private def mutTodo (t : Nat) : List Nat := if t < 2 then [0, 0] else []
private def mutSched : List Nat := List.replicate 7 0 ++ List.replicate 7 1 ++ [0, 0, 1, 1]

/-- C152 refuted: memoized generators that use each other may deadlock, because the lock is held while an item is computed.  `a` and `b`
yield a number each, and then one more than each item of the other.  While one thread computes the second item of `a`, which needs the
first of `b`, another computes the second item of `b`, which needs the first of `a`.  Both of these items have been computed, but neither
thread gets any further, whatever happens. -/
theorem C152_deadlock_refuted :
    ∃ (p : Prog Bool (Nat × Option Nat) Nat String) (o : Bool → Nat → Out Nat String) (sts : Bool → Nat → Option ((Nat × Option Nat) × (Nat → Nat)))
      (outer : Nat → Nat → Bool) (todo : Nat → List Nat) (sched : List Nat),
      Solves p o sts ∧ Acyclic p o sts ∧ (∀ t, 2 ≤ t → todo t = []) ∧ todo 0 = [0, 0] ∧ todo 1 = [0, 0] ∧
      ∀ more, (run p outer todo (sched ++ more)).log = [((0, 0), .item 0), ((1, 0), .item 10)] ∧
        ((run p outer todo (sched ++ more)).threads 0).frames ≠ [] ∧ ((run p outer todo (sched ++ more)).threads 1).frames ≠ [] := by
  refine ⟨eachOther, _, mutSts, mutOuter, mutTodo, mutSched, mut_solves, mut_acyclic, ?_, rfl, rfl, ?_⟩
  · intro t ht
    unfold mutTodo
    rw [if_neg (by omega)]
  · intro more
    have stuck : ∀ t, step eachOther mutOuter (run eachOther mutOuter mutTodo mutSched) t = run eachOther mutOuter mutTodo mutSched := by
      intro t
      match t with
      | 0 =>
        have h1 : ((run eachOther mutOuter mutTodo mutSched).threads 0).frames = [⟨false, 0, 0, .wait⟩, ⟨true, 0, 1, .run⟩] := rfl
        have h2 : ((run eachOther mutOuter mutTodo mutSched).gens false).lock = some (1, 1) := by decide
        rw [step_wait _ _ h1, h2]; rfl
      | 1 =>
        have h1 : ((run eachOther mutOuter mutTodo mutSched).threads 1).frames = [⟨true, 0, 0, .wait⟩, ⟨false, 0, 1, .run⟩] := rfl
        have h2 : ((run eachOther mutOuter mutTodo mutSched).gens true).lock = some (0, 1) := by decide
        rw [step_wait _ _ h1, h2]; rfl
      | t + 2 =>
        have inv := fun s => run_inv (outer := mutOuter) (todo := mutTodo) mut_solves mut_acyclic s
        have h1 : Idle (run eachOther mutOuter mutTodo mutSched) (t + 2) := by
          have : ∀ (sched : List Nat), Idle (run eachOther mutOuter mutTodo sched) (t + 2) := by
            intro sched
            have hs := (inv sched).served (t + 2)
            have hh : ∀ (sched : List Nat) (st : St Bool (Nat × Option Nat) Nat String), Inv eachOther (fun g n => .item (val g n)) mutSts mutOuter mutTodo st →
                Idle st (t + 2) → Idle (sched.foldl (step eachOther mutOuter) st) (t + 2) := by
              intro sched
              induction sched with
              | nil => intro st _ h; exact h
              | cons t' sched ih =>
                intro st i h
                refine ih _ (step_inv mut_solves mut_acyclic st i t') ?_
                by_cases e : t + 2 = t'
                · subst e; rw [step_idle h]; exact h
                · unfold Idle; rw [(step_other (t := t') i).1 _ e]; exact h
            exact hh sched _ (inv []) ⟨rfl, by simp [init, mutTodo]⟩
          exact this mutSched
        exact step_idle h1
    have e : run eachOther mutOuter mutTodo (mutSched ++ more) = run eachOther mutOuter mutTodo mutSched := by
      show List.foldl _ _ _ = _
      rw [List.foldl_append]
      show List.foldl (step eachOther mutOuter) (run eachOther mutOuter mutTodo mutSched) more = _
      induction more with
      | nil => rfl
      | cons t more ih => rw [List.foldl_cons, stuck t]; exact ih
    rw [e]
    decide

/-- in one thread they are fine -/
example : (run eachOther mutOuter (fun t => if t = 0 then [0, 0, 1, 0] else []) (List.replicate 60 0)).log =
    [((0, 0), .item 0), ((0, 0), .item 11), ((0, 1), .item 0), ((0, 0), .item 2)] := by decide

/-! Generators in layers: the natural numbers, and their sums: `yield 0; for x, n in zip(sums(), nats()): yield x + n` -/

namespace GMemoManyDemo

def layered : Prog Bool (Nat × Nat × Nat) Nat String where
  start _ := (0, 0, 0)
  step g s := match g, s with
    | false, (n, _, _) => .yield n (n + 1, 0, 0)
    | true, (0, _, _) => .yield 0 (1, 0, 0)
    | true, (n + 1, 0, _) => .ask 0 (fun r => match r with | .item x => (n + 1, 1, x) | _ => (n + 1, 1, 0))
    | true, (n + 1, 1, x) => .ask 1 (fun r => match r with | .item y => (n + 1, 2, x + y) | _ => (n + 1, 2, 0))
    | true, (n + 1, _ + 2, x) => .yield x (n + 2, 0, 0)
  inner g i := if g ∧ i = 0 then true else false
  busy := "ValueError: generator already executing"

private def tri : Nat → Nat
  | 0 => 0
  | n + 1 => tri n + n

private def layO (g : Bool) (n : Nat) : Out Nat String := .item (if g then tri n else n)

private def layPos (n : Nat) (i : Nat) : Nat := if i < 2 then n else 0

private def laySts (g : Bool) (n : Nat) : Option ((Nat × Nat × Nat) × (Nat → Nat)) :=
  some ((n, 0, 0), if g then layPos (n - 1) else fun _ => 0)

private theorem lay_taken (n : Nat) : taken (taken (layPos n) 0) 1 = layPos (n + 1) := by
  funext i
  by_cases h0 : i = 0
  · subst h0; simp [taken, layPos]
  · by_cases h1 : i = 1
    · subst h1; simp [taken, layPos]
    · simp [taken, layPos, h0, h1, show ¬ i < 2 by omega]

private theorem lay_solves : Solves layered layO laySts := by
  intro g
  refine ⟨?_, fun n => ?_⟩
  · cases g
    · rfl
    · simp only [laySts, layered, if_true]
      congr 2
      funext i; simp [layPos]
  · cases g with
    | false =>
      have h : Goes layered layO false ((n, 0, 0), fun _ => 0) (.item n) (some ((n + 1, 0, 0), fun _ => 0)) := .yield rfl
      exact h
    | true =>
      cases n with
      | zero =>
        have h : Goes layered layO true ((0, 0, 0), layPos 0) (.item 0) (some ((1, 0, 0), layPos 0)) := .yield rfl
        exact h
      | succ n =>
        have h1 : Goes layered layO true ((n + 1, 2, tri n + n), taken (taken (layPos n) 0) 1) (.item (tri n + n))
            (some ((n + 2, 0, 0), taken (taken (layPos n) 0) 1)) := .yield rfl
        have h2 : Goes layered layO true ((n + 1, 1, tri n), taken (layPos n) 0) (.item (tri n + n))
            (some ((n + 2, 0, 0), taken (taken (layPos n) 0) 1)) := by
          refine .ask (i := 1) rfl ?_
          exact h1
        have h3 : Goes layered layO true ((n + 1, 0, 0), layPos n) (.item (tri n + n))
            (some ((n + 2, 0, 0), taken (taken (layPos n) 0) 1)) := by
          refine .ask (i := 0) rfl ?_
          exact h2
        rw [lay_taken] at h3
        exact h3

private theorem lay_asks {g : Bool} {c : (Nat × Nat × Nat) × (Nat → Nat)} {g' : Bool} {m : Nat} (h : Asks layered layO g c g' m) :
    g = true ∧ c.1.1 ≠ 0 ∧ (g' = false ∨ (g' = true ∧ m = c.2 0 ∧ c.1.2.1 = 0)) := by
  induction h with
  | @here s pos i k hs =>
    obtain ⟨n, ph, x⟩ := s
    cases g with
    | false => cases hs
    | true => match n, ph with
      | 0, _ => cases hs
      | n + 1, 0 => cases hs; exact ⟨rfl, by simp, .inr ⟨rfl, rfl, rfl⟩⟩
      | n + 1, 1 => cases hs; exact ⟨rfl, by simp, .inl rfl⟩
      | n + 1, _ + 2 => cases hs
  | @later s pos i k g' m hs ha ih =>
    obtain ⟨n, ph, x⟩ := s
    cases g with
    | false => cases hs
    | true => match n, ph with
      | 0, _ => cases hs
      | n + 1, 0 =>
        cases hs
        obtain ⟨_, h2, h3⟩ := ih
        refine ⟨rfl, by simp, .inl ?_⟩
        rcases h3 with h | ⟨_, _, h⟩
        · exact h
        · simp [layO] at h
      | n + 1, 1 =>
        cases hs
        obtain ⟨_, h2, h3⟩ := ih
        refine ⟨rfl, by simp, .inl ?_⟩
        rcases h3 with h | ⟨_, _, h⟩
        · exact h
        · simp [layO] at h
      | n + 1, _ + 2 => cases hs

private theorem lay_layered : Layered layered layO laySts (fun g => if g then 1 else 0) := by
  intro g n c g' m h ha
  obtain ⟨h1, h2, h3⟩ := lay_asks ha
  subst h1
  cases h
  rcases h3 with rfl | ⟨rfl, h3, _⟩
  · exact .inr (by simp)
  · refine .inl ⟨rfl, ?_⟩
    simp [layPos] at h2 h3
    omega

end GMemoManyDemo

/-- two threads that use both generators, one of them waiting for the other: they can still finish, and get the right items -/
example : ∃ more : List Nat, ∀ t, ((run layered (fun _ i => i = 0) (fun t => if t < 2 then [0, 0, 1, 0] else []) ([0, 0, 0, 1, 1, 1] ++ more)).threads t).frames = [] ∧
    ∀ i, (run layered (fun _ i => i = 0) (fun t => if t < 2 then [0, 0, 1, 0] else []) ([0, 0, 0, 1, 1, 1] ++ more)).delivered t i =
      (List.range ((if t < 2 then [0, 0, 1, 0] else [] : List Nat).count i)).map (layO (i = 0)) :=
  C152_no_deadlock_partial layered layO laySts lay_solves _ lay_layered (fun _ i => i = 0) (fun t => if t < 2 then [0, 0, 1, 0] else []) 2
    (fun t ht => by simp; omega) [0, 0, 0, 1, 1, 1]

end Unpy.Props
