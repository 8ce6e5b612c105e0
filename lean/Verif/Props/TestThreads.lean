import Verif.Spec.TestThreads
/-!
# C140: tests in several threads
-/
namespace Unpy.Props
open Unpy.TestThreads Unpy.TestThreads.Spec

/-! ## Invariants -/

private def pend (c : Counter) : List Act → Int
  | [] => 0
  | .update c' d :: rest => (if c' = c then d else 0) + pend c rest
  | .begin :: rest => pend c rest
  | .report :: rest => pend c rest

private def pendTh (c : Counter) (th : Thread) : Int :=
  match th.phase with
  | .wrote => pend c th.todo.tail
  | _ => pend c th.todo

private def holds : Phase → Bool
  | .locked => true
  | .got _ => true
  | .wrote => true
  | _ => false

private def isUpdate : List Act → Bool
  | .update _ _ :: _ => true
  | _ => false

private structure Ok (s : State) (i : Nat) (th : Thread) : Prop where
  lock : holds th.phase = true → s.lock = some i
  head : holds th.phase = true → isUpdate th.todo = true
  got : ∀ v c d rest, th.phase = .got v → th.todo = .update c d :: rest → s.count c = v
  reading : ∀ vs, th.phase = .reading vs → isUpdate th.todo = false ∧ vs.length + 1 < 5

private structure Inv (total : Counter → Int) (s : State) : Prop where
  ok : ∀ i th, s.threads[i]? = some th → Ok s i th
  owner : ∀ i, s.lock = some i → ∃ th, s.threads[i]? = some th ∧ holds th.phase = true
  sum : ∀ c, s.count c + (s.threads.map (pendTh c)).sum = total c

private theorem sum_set (f : Thread → Int) : (l : List Thread) → (i : Nat) → (a b : Thread) → l[i]? = some a → ((l.set i b).map f).sum = (l.map f).sum - f a + f b
  | [], i, a, b, h => by simp at h
  | x :: l, 0, a, b, h => by
    simp at h; subst h
    simp only [List.set_cons_zero, List.map_cons, List.sum_cons]; omega
  | x :: l, i + 1, a, b, h => by
    simp only [List.getElem?_cons_succ] at h
    simp only [List.set_cons_succ, List.map_cons, List.sum_cons, sum_set f l i a b h]; omega

private theorem sum_set_nat (f : Thread → Nat) : (l : List Thread) → (i : Nat) → (a b : Thread) → l[i]? = some a → ((l.set i b).map f).sum + f a = (l.map f).sum + f b
  | [], i, a, b, h => by simp at h
  | x :: l, 0, a, b, h => by
    simp at h; subst h
    simp only [List.set_cons_zero, List.map_cons, List.sum_cons]; omega
  | x :: l, i + 1, a, b, h => by
    simp only [List.getElem?_cons_succ] at h
    have := sum_set_nat f l i a b h
    simp only [List.set_cons_succ, List.map_cons, List.sum_cons]; omega

/-- What one step of a thread does, as far as the invariants go. -/
private structure Good (s : State) (i : Nat) (th : Thread) (r : (Counter → Int) × Option Nat × Thread) : Prop where
  ok : Ok ⟨r.1, r.2.1, s.threads⟩ i r.2.2
  sum : ∀ c, r.1 c + pendTh c r.2.2 = s.count c + pendTh c th
  /-- others do not notice -/
  count : r.1 ≠ s.count → s.lock = some i
  lock : (r.2.1 = s.lock ∧ holds r.2.2.phase = holds th.phase) ∨ (s.lock = none ∧ r.2.1 = some i ∧ holds r.2.2.phase = true) ∨ (s.lock = some i ∧ r.2.1 = none)

private theorem read_step (s : State) (i : Nat) (th : Thread) (act : Act) (rest : List Act) (ht : th.todo = act :: rest) (hu : isUpdate th.todo = false) (vs : List Int)
    (hp : (th.phase = .start ∧ vs = []) ∨ th.phase = .reading vs) (hl : vs.length < 4) :
    ∃ v, stepThread s i th = (s.count, s.lock, { th with phase := .reading (vs ++ [v]) }) ∧ vs.length < 3 ∨
      stepThread s i th = (s.count, s.lock, finish th act rest (vs ++ [v])) ∧ vs.length = 3 := by
  obtain ⟨todo, phase, begins, reports⟩ := th
  simp only at ht hp; subst ht
  have hs : stepThread s i ⟨act :: rest, phase, begins, reports⟩ = (match order[vs.length]? with
    | some c =>
      if vs.length + 1 = order.length then (s.count, s.lock, finish ⟨act :: rest, phase, begins, reports⟩ act rest (vs ++ [s.count c]))
      else (s.count, s.lock, { (⟨act :: rest, phase, begins, reports⟩ : Thread) with phase := .reading (vs ++ [s.count c]) })
    | none => (s.count, s.lock, ⟨act :: rest, phase, begins, reports⟩)) := by
    rcases hp with ⟨rfl, rfl⟩ | rfl <;> cases act <;> first | rfl | simp [isUpdate] at hu
  rw [hs]
  have h4 : vs.length = 0 ∨ vs.length = 1 ∨ vs.length = 2 ∨ vs.length = 3 := by omega
  rcases h4 with h4 | h4 | h4 | h4 <;> simp only [h4, order]
  · exact ⟨s.count .run, .inl ⟨rfl, by omega⟩⟩
  · exact ⟨s.count .failed, .inl ⟨rfl, by omega⟩⟩
  · exact ⟨s.count .errored, .inl ⟨rfl, by omega⟩⟩
  · exact ⟨s.count .warned, .inr ⟨rfl, trivial⟩⟩

private theorem finish_facts (th : Thread) (act : Act) (rest : List Act) (vs : List Int) : (finish th act rest vs).todo = rest ∧ (finish th act rest vs).phase = .start := by
  unfold finish
  split <;> exact ⟨rfl, rfl⟩

private theorem pend_read {act : Act} {rest : List Act} (c : Counter) (hu : isUpdate (act :: rest) = false) : pend c (act :: rest) = pend c rest := by
  cases act <;> first | rfl | simp [isUpdate] at hu

private theorem step_good {s : State} {i : Nat} {th : Thread} (h : Ok s i th) : Good s i th (stepThread s i th) := by
  cases ht : th.todo with
  | nil =>
    have hs : stepThread s i th = (s.count, s.lock, th) := by simp only [stepThread, ht]
    rw [hs]
    exact ⟨⟨h.lock, h.head, h.got, h.reading⟩, fun _ => rfl, fun h => absurd rfl h, .inl ⟨rfl, rfl⟩⟩
  | cons act rest =>
    cases hu : isUpdate th.todo with
    | false =>
      have hh : holds th.phase = false := by
        cases hb : holds th.phase with
        | false => rfl
        | true => rw [h.head hb] at hu; cases hu
      have hw : ∀ c, pendTh c th = pend c rest := by
        intro c
        rw [ht] at hu
        cases hp : th.phase <;> simp only [pendTh, hp, ht, pend_read c hu, List.tail_cons]
      have hex : ∃ vs : List Int, ((th.phase = .start ∧ vs = []) ∨ th.phase = .reading vs) ∧ vs.length < 4 := by
        cases hp : th.phase with
        | start => exact ⟨[], .inl ⟨rfl, rfl⟩, by simp⟩
        | reading vs => exact ⟨vs, .inr rfl, by have := (h.reading vs hp).2; omega⟩
        | locked => rw [hp] at hh; cases hh
        | got v => rw [hp] at hh; cases hh
        | wrote => rw [hp] at hh; cases hh
      obtain ⟨vs, hp, hl⟩ := hex
      obtain ⟨v, ⟨hs, hl'⟩ | ⟨hs, hl'⟩⟩ := read_step s i th act rest ht hu vs hp hl
      · rw [hs]
        refine ⟨⟨fun h => by simp [holds] at h, fun h => by simp [holds] at h, fun _ _ _ _ h _ => by simp at h, ?_⟩, ?_, fun h => absurd rfl h, .inl ⟨rfl, hh.symm ▸ rfl⟩⟩
        · intro vs' h'
          simp only [Phase.reading.injEq] at h'
          exact ⟨hu, by rw [← h']; simp; omega⟩
        · intro c
          rw [hw]
          show s.count c + pend c th.todo = _
          rw [ht] at hu ⊢
          rw [pend_read c hu]
      · rw [hs]
        obtain ⟨f1, f2⟩ := finish_facts th act rest (vs ++ [v])
        refine ⟨⟨fun h => by simp [holds, f2] at h, fun h => by simp [holds, f2] at h, fun _ _ _ _ h _ => by simp [f2] at h, fun _ h => by simp [f2] at h⟩, ?_, fun h => absurd rfl h, .inl ⟨rfl, ?_⟩⟩
        · intro c
          rw [hw]
          simp only [pendTh, f1, f2]
        · show holds (finish th act rest (vs ++ [v])).phase = holds th.phase
          rw [hh, f2]; rfl
    | true =>
      cases act with
      | begin => rw [ht] at hu; simp [isUpdate] at hu
      | report => rw [ht] at hu; simp [isUpdate] at hu
      | update c d =>
        cases hp : th.phase with
        | reading vs => have := (h.reading vs hp).1; rw [hu] at this; cases this
        | start =>
          by_cases hl : s.lock = none
          · have hs : stepThread s i th = (s.count, some i, { th with phase := .locked }) := by simp only [stepThread, ht, hp, hl, if_true]
            rw [hs]
            refine ⟨⟨fun _ => rfl, fun _ => hu, fun _ _ _ _ h _ => by simp at h, fun _ h => by simp at h⟩, ?_, fun h => absurd rfl h, .inr (.inl ⟨hl, rfl, rfl⟩)⟩
            intro c'; simp only [pendTh, hp]
          · have hs : stepThread s i th = (s.count, s.lock, th) := by simp only [stepThread, ht, hp, hl, if_false]
            rw [hs]
            exact ⟨⟨h.lock, h.head, h.got, h.reading⟩, fun _ => rfl, fun h => absurd rfl h, .inl ⟨rfl, rfl⟩⟩
        | locked =>
          have hs : stepThread s i th = (s.count, s.lock, { th with phase := .got (s.count c) }) := by simp only [stepThread, ht, hp]
          rw [hs]
          refine ⟨⟨fun _ => h.lock (by rw [hp]; rfl), fun _ => hu, ?_, fun _ h => by simp at h⟩, ?_, fun h => absurd rfl h, .inl ⟨rfl, by rw [hp]; rfl⟩⟩
          · intro v c' d' rest' hv ht'
            simp only [ht, List.cons.injEq, Act.update.injEq] at ht'
            simp only [Phase.got.injEq] at hv
            rw [← ht'.1.1]; exact hv
          · intro c'; simp only [pendTh, hp]
        | got v =>
          have hs : stepThread s i th = (set s.count c (v + d), s.lock, { th with phase := .wrote }) := by simp only [stepThread, ht, hp]
          have hl : s.lock = some i := h.lock (by rw [hp]; rfl)
          have hv := h.got v c d rest hp ht
          rw [hs]
          refine ⟨⟨fun _ => hl, fun _ => hu, fun _ _ _ _ h _ => by simp at h, fun _ h => by simp at h⟩, ?_, fun _ => hl, .inl ⟨rfl, by rw [hp]; rfl⟩⟩
          intro c'
          simp only [pendTh, hp, ht, List.tail_cons, pend, Unpy.TestThreads.set]
          by_cases hc : c' = c
          · subst hc; simp only [if_true]; omega
          · simp only [hc, if_false, Ne.symm hc]; omega
        | wrote =>
          have hs : stepThread s i th = (s.count, none, { th with todo := rest, phase := .start }) := by simp only [stepThread, ht, hp]
          have hl : s.lock = some i := h.lock (by rw [hp]; rfl)
          rw [hs]
          refine ⟨⟨fun h => by simp [holds] at h, fun h => by simp [holds] at h, fun _ _ _ _ h _ => by simp at h, fun _ h => by simp at h⟩, ?_, fun h => absurd rfl h, .inr (.inr ⟨hl, rfl⟩)⟩
          intro c'
          simp only [pendTh, hp, ht, List.tail_cons]

private theorem step_inv {total : Counter → Int} {s : State} (h : Inv total s) (i : Nat) : Inv total (step s i) := by
  unfold step
  cases hth : s.threads[i]? with
  | none => exact h
  | some th =>
    have hi : i < s.threads.length := by
      rcases Nat.lt_or_ge i s.threads.length with h' | h'
      · exact h'
      · rw [List.getElem?_eq_none h'] at hth; cases hth
    have g := step_good (h.ok i th hth)
    simp only
    generalize stepThread s i th = r at g ⊢
    refine ⟨?_, ?_, ?_⟩
    · intro j th' hj
      rw [List.getElem?_set] at hj
      by_cases hij : i = j
      · subst hij
        simp only [if_true, hi, Option.some.injEq] at hj
        subst hj
        exact ⟨g.ok.lock, g.ok.head, g.ok.got, g.ok.reading⟩
      · simp only [hij, if_false] at hj
        have o := h.ok j th' hj
        refine ⟨?_, o.head, ?_, o.reading⟩
        · intro hh
          have hl := o.lock hh
          rcases g.lock with ⟨e, _⟩ | ⟨e, _⟩ | ⟨e, _⟩
          · simp only [e, hl]
          · rw [e] at hl; cases hl
          · rw [e] at hl; exact absurd (Option.some.inj hl) hij
        · intro v c d rest hv ht
          have hl := o.lock (by rw [hv]; rfl)
          have hc : r.1 = s.count := by
            by_cases hc : r.1 = s.count
            · exact hc
            · have := g.count hc
              rw [this] at hl; exact absurd (Option.some.inj hl) hij
          simp only [hc]
          exact o.got v c d rest hv ht
    · intro j hj
      simp only at hj
      by_cases hij : i = j
      · subst hij
        refine ⟨r.2.2, by rw [List.getElem?_set]; simp [hi], ?_⟩
        rcases g.lock with ⟨e, e'⟩ | ⟨_, _, e⟩ | ⟨_, e⟩
        · rw [e] at hj
          obtain ⟨th', ht', hh⟩ := h.owner i hj
          rw [hth] at ht'
          rw [e', Option.some.inj ht', hh]
        · exact e
        · rw [e] at hj; cases hj
      · rcases g.lock with ⟨e, _⟩ | ⟨_, e, _⟩ | ⟨_, e⟩
        · rw [e] at hj
          obtain ⟨th', ht', hh⟩ := h.owner j hj
          exact ⟨th', by rw [List.getElem?_set]; simp only [hij, if_false, ht'], hh⟩
        · rw [e] at hj; exact absurd (Option.some.inj hj) hij
        · rw [e] at hj; cases hj
    · intro c
      simp only [sum_set (pendTh c) s.threads i th r.2.2 hth]
      have := g.sum c
      have := h.sum c
      omega

private theorem exec_inv {total : Counter → Int} : (schedule : List Nat) → {s : State} → Inv total s → Inv total (exec s schedule)
  | [], _, h => h
  | i :: is, s, h => exec_inv is (s := step s i) (step_inv h i)

/-! ## What the threads do -/

private theorem pend_append (c : Counter) : (l m : List Act) → pend c (l ++ m) = pend c l + pend c m
  | [], m => by simp [pend]
  | .update c' d :: l, m => by simp only [List.cons_append, pend, pend_append c l m]; omega
  | .begin :: l, m => by simp only [List.cons_append, pend, pend_append c l m]
  | .report :: l, m => by simp only [List.cons_append, pend, pend_append c l m]

private theorem tally_cons (o : Outcome) (os : List Outcome) (c : Counter) : tally (o :: os) c = tally [o] c + tally os c := by
  cases o <;> cases c <;> simp [tally, List.count_cons] <;> omega

private theorem tally_append (os ps : List Outcome) (c : Counter) : tally (os ++ ps) c = tally os c + tally ps c := by
  cases c <;> simp [tally]

private theorem pend_updates (o : Outcome) (c : Counter) : pend c (acts (updates o)) = (tally [o] c : Int) := by
  cases o <;> cases c <;> simp [updates, acts, pend, tally]

private theorem pend_main (c : Counter) : (p : Code) → pend c (mainActs p) = (tally (tests p) c : Int)
  | .done => by cases c <;> rfl
  | .test o rest => by
    rw [tests, tally_cons]
    simp only [mainActs, pend_append, pend_updates, pend_main c rest]
    omega
  | .testset body rest => by
    rw [tests, tally_append]
    simp only [mainActs, pend, pend_append, pend_main c body, pend_main c rest]
    omega

private theorem tally_nil (c : Counter) : tally [] c = 0 := by cases c <;> rfl

private theorem pend_other (c : Counter) : (p : Code) → pend c (otherActs p) = (tally (firstTests p) c : Int)
  | .done => by cases c <;> rfl
  | .test .passed rest => by
    rw [firstTests, tally_cons]
    simp only [otherActs, pend_append, pend_updates, if_true, pend_other c rest]
    omega
  | .test .failed rest => by simp only [firstTests, otherActs, pend_append, pend_updates, reduceCtorEq, if_false, pend]; omega
  | .test .errored rest => by simp only [firstTests, otherActs, pend_append, pend_updates, reduceCtorEq, if_false, pend]; omega
  | .test .warned rest => by simp only [firstTests, otherActs, pend_append, pend_updates, reduceCtorEq, if_false, pend]; omega
  | .testset body rest => by simp [firstTests, otherActs, pend, tally_nil]

private def total (main : Code) (others : List Code) (c : Counter) : Int :=
  (tally (tests main) c : Int) + ((others.map (fun p => (tally (firstTests p) c : Int))).sum)

private theorem init_inv (main : Code) (others : List Code) : Inv (total main others) (init main others) := by
  refine ⟨?_, fun i h => by simp [init] at h, ?_⟩
  · intro i th h
    have hp : th.phase = .start := by
      have hm := List.mem_of_getElem? h
      simp only [init, List.mem_cons, List.mem_map] at hm
      rcases hm with rfl | ⟨c, _, rfl⟩ <;> rfl
    exact ⟨fun h => by simp [holds, hp] at h, fun h => by simp [holds, hp] at h, fun _ _ _ _ h _ => by simp [hp] at h, fun _ h => by simp [hp] at h⟩
  · intro c
    have h1 : others.map ((pendTh c) ∘ fun p => thread (otherActs p)) = others.map (fun p => (tally (firstTests p) c : Int)) := by
      apply List.map_congr_left
      intro p _
      exact pend_other c p
    have h2 : pendTh c (thread (mainActs main)) = (tally (tests main) c : Int) := pend_main c main
    simp only [init, List.map_cons, List.map_map, List.sum_cons, h1, h2, total]
    omega

private theorem finished_pend {s : State} {tot : Counter → Int} (hi : Inv tot s) (hf : Finished s) (c : Counter) : (s.threads.map (pendTh c)).sum = 0 := by
  have h : s.threads.map (pendTh c) = s.threads.map (fun _ => 0) := by
    apply List.map_congr_left
    intro th hth
    cases hp : th.phase <;> simp [pendTh, hp, hf th hth, pend]
  rw [h]
  generalize s.threads = l
  induction l with
  | nil => rfl
  | cons _ _ ih => simp [ih]

/-- C140: in whatever order the threads run, when they are done, every test that ran has been counted once: as run, unless it is a warning, and as failed, errored or warned if it is.
In the main thread, that is every test; another thread ends with its first test that does not pass, and does not get into a testset.  (Missing: the tests after that, see
`C140_ends_refuted` and `C140_testset_refuted`.) -/
theorem C140_counts_partial (main : Code) (others : List Code) (schedule : List Nat) (hf : Finished (exec (init main others) schedule)) (c : Counter) :
    (exec (init main others) schedule).count c = (tally (tests main) c : Int) + (others.map (fun p => (tally (firstTests p) c : Int))).sum := by
  have hi := exec_inv schedule (init_inv main others)
  have := hi.sum c
  rw [finished_pend hi hf c] at this
  simp only [total] at this
  omega

/-- Three threads; the last one gets to its second test, which fails, but not to the third. -/
private def c140Main : Code := .testset (.test .passed (.testset (.test .failed .done) (.test .warned .done))) .done
private def c140Other : Code := .test .passed (.test .failed (.test .passed .done))

private def roundRobin : List Nat := (List.replicate 60 [2, 0, 1]).flatten

private def finished (s : State) : Bool := s.threads.all (fun th => th.todo.isEmpty)

private theorem finished_iff (s : State) : finished s = true ↔ Finished s := by
  simp [finished, Finished, List.all_eq_true]

example : Finished (exec (init c140Main [c140Other, c140Other]) roundRobin) :=
  (finished_iff _).1 (by decide +kernel)

example : [Counter.run, .failed, .errored, .warned].map (exec (init c140Main [c140Other, c140Other]) roundRobin).count = [6, 3, 0, 1] := by decide +kernel

/-! ## Progress -/

private def ahead : Phase → Nat
  | .start => 0
  | .locked => 1
  | .got _ => 2
  | .wrote => 3
  | .reading vs => vs.length

private def work (th : Thread) : Nat := 4 * th.todo.length - ahead th.phase

private theorem step_work {s : State} {i : Nat} {th : Thread} (h : Ok s i th) (hne : th.todo ≠ []) (hl : s.lock = none ∨ holds th.phase = true) :
    work (stepThread s i th).2.2 < work th := by
  cases ht : th.todo with
  | nil => exact absurd ht hne
  | cons act rest =>
    cases hu : isUpdate th.todo with
    | false =>
      have hh : holds th.phase = false := by
        cases hb : holds th.phase with
        | false => rfl
        | true => rw [h.head hb] at hu; cases hu
      have hex : ∃ vs : List Int, ((th.phase = .start ∧ vs = []) ∨ th.phase = .reading vs) ∧ vs.length < 4 ∧ ahead th.phase = vs.length := by
        cases hp : th.phase with
        | start => exact ⟨[], .inl ⟨rfl, rfl⟩, by simp, rfl⟩
        | reading vs => exact ⟨vs, .inr rfl, by have := (h.reading vs hp).2; omega, rfl⟩
        | locked => rw [hp] at hh; cases hh
        | got v => rw [hp] at hh; cases hh
        | wrote => rw [hp] at hh; cases hh
      obtain ⟨vs, hp, hlen, ha⟩ := hex
      obtain ⟨v, ⟨hs, hl'⟩ | ⟨hs, hl'⟩⟩ := read_step s i th act rest ht hu vs hp hlen
      · rw [hs]
        show 4 * th.todo.length - (vs ++ [v]).length < 4 * th.todo.length - ahead th.phase
        rw [ha, ht]
        simp only [List.length_cons, List.length_append, List.length_nil]
        omega
      · rw [hs]
        obtain ⟨f1, f2⟩ := finish_facts th act rest (vs ++ [v])
        show 4 * (finish th act rest (vs ++ [v])).todo.length - ahead (finish th act rest (vs ++ [v])).phase < 4 * th.todo.length - ahead th.phase
        rw [ha, ht, f1, f2]
        simp only [List.length_cons, ahead]
        omega
    | true =>
      cases act with
      | begin => rw [ht] at hu; simp [isUpdate] at hu
      | report => rw [ht] at hu; simp [isUpdate] at hu
      | update c d =>
        cases hp : th.phase with
        | reading vs => have := (h.reading vs hp).1; rw [hu] at this; cases this
        | start =>
          rcases hl with hl | hl
          · simp only [stepThread, ht, hp, hl, if_true, work, ahead, List.length_cons]; omega
          · rw [hp] at hl; cases hl
        | locked => simp only [stepThread, ht, hp, work, ahead, List.length_cons]; omega
        | got v => simp only [stepThread, ht, hp, work, ahead, List.length_cons]; omega
        | wrote => simp only [stepThread, ht, hp, work, ahead, List.length_cons]; omega

private theorem can_finish {total : Counter → Int} : (n : Nat) → (s : State) → Inv total s → (s.threads.map work).sum ≤ n → ∃ more, Finished (exec s more)
  | n, s, hi, hn => by
    by_cases hf : Finished s
    · exact ⟨[], hf⟩
    have hex : ∃ (i : Nat) (th : Thread), s.threads[i]? = some th ∧ th.todo ≠ [] ∧ (s.lock = none ∨ holds th.phase = true) := by
      cases hl : s.lock with
      | some i =>
        obtain ⟨th, ht, hh⟩ := hi.owner i hl
        refine ⟨i, th, ht, ?_, .inr hh⟩
        have := (hi.ok i th ht).head hh
        intro he; rw [he] at this; simp [isUpdate] at this
      | none =>
        simp only [Finished] at hf
        have ⟨th, hm, hne⟩ : ∃ th ∈ s.threads, th.todo ≠ [] := by
          apply Classical.byContradiction
          intro hno
          exact hf fun th hm => Classical.byContradiction fun h => hno ⟨th, hm, h⟩
        obtain ⟨i, ht⟩ := List.getElem?_of_mem hm
        exact ⟨i, th, ht, hne, .inl rfl⟩
    obtain ⟨i, th, ht, hne, hl⟩ := hex
    have hw := step_work (hi.ok i th ht) hne hl
    have hs : step s i = ⟨(stepThread s i th).1, (stepThread s i th).2.1, s.threads.set i (stepThread s i th).2.2⟩ := by simp only [step, ht]
    have hsum := sum_set_nat work s.threads i th (stepThread s i th).2.2 ht
    have hlt : ((step s i).threads.map work).sum < (s.threads.map work).sum := by rw [hs]; show (List.map work (s.threads.set i _)).sum < _; omega
    cases n with
    | zero => omega
    | succ n =>
      obtain ⟨more, hm⟩ := can_finish n (step s i) (step_inv hi i) (by omega)
      exact ⟨i :: more, hm⟩

/-- C140: the threads do not block each other: whatever they have done so far, they can all come to their end. -/
theorem C140_no_deadlock (main : Code) (others : List Code) (schedule : List Nat) : ∃ more, Finished (exec (init main others) (schedule ++ more)) := by
  obtain ⟨more, hm⟩ := can_finish _ _ (exec_inv schedule (init_inv main others)) (Nat.le_refl _)
  refine ⟨more, ?_⟩
  rw [exec, List.foldl_append]
  exact hm

/-! ## Reports -/

private def alone (count : Counter → Int) (todo : List Act) (bs rs : List (List Int)) : State := ⟨count, none, [⟨todo, .start, bs, rs⟩]⟩

private def Reaches (s s' : State) : Prop := ∃ n, exec s (List.replicate n 0) = s'

private theorem Reaches.trans {a b c : State} (h : Reaches a b) (h' : Reaches b c) : Reaches a c := by
  obtain ⟨n, rfl⟩ := h
  obtain ⟨m, rfl⟩ := h'
  refine ⟨n + m, ?_⟩
  rw [← List.replicate_append_replicate]
  simp only [exec, List.foldl_append]

private theorem reach_update (count : Counter → Int) (c : Counter) (d : Int) (k : List Act) (bs rs : List (List Int)) :
    Reaches (alone count (.update c d :: k) bs rs) (alone (Unpy.TestThreads.set count c (count c + d)) k bs rs) := ⟨4, rfl⟩

private def seenNow (count : Counter → Int) : List Int := [count .run, count .failed, count .errored, count .warned]

private theorem reach_begin (count : Counter → Int) (k : List Act) (bs rs : List (List Int)) :
    Reaches (alone count (.begin :: k) bs rs) (alone count k (seenNow count :: bs) rs) := ⟨4, rfl⟩

private theorem reach_report (count : Counter → Int) (k : List Act) (b : List Int) (bs rs : List (List Int)) :
    Reaches (alone count (.report :: k) (b :: bs) rs) (alone count k bs (List.zipWith (· - ·) (seenNow count) b :: rs)) := ⟨4, rfl⟩

private def plus (count : Counter → Int) (os : List Outcome) : Counter → Int := fun c => count c + (tally os c : Int)

private theorem reach_test (count : Counter → Int) (o : Outcome) (k : List Act) (bs rs : List (List Int)) :
    Reaches (alone count (acts (updates o) ++ k) bs rs) (alone (plus count [o]) k bs rs) := by
  have fix : ∀ f g : Counter → Int, (∀ c, f c = g c) → Reaches (alone f k bs rs) (alone g k bs rs) := by
    intro f g h
    rw [show f = g from funext h]; exact ⟨0, rfl⟩
  cases o
  · refine (reach_update ..).trans (fix _ _ ?_)
    intro c; cases c <;> simp [Unpy.TestThreads.set, plus, tally]
  · refine (reach_update ..).trans ((reach_update ..).trans (fix _ _ ?_))
    intro c; cases c <;> simp [Unpy.TestThreads.set, plus, tally]
  · refine (reach_update ..).trans ((reach_update ..).trans (fix _ _ ?_))
    intro c; cases c <;> simp [Unpy.TestThreads.set, plus, tally]
  · refine (reach_update ..).trans ((reach_update ..).trans ((reach_update ..).trans (fix _ _ ?_)))
    intro c; cases c <;> simp [Unpy.TestThreads.set, plus, tally] <;> omega

private theorem plus_plus (count : Counter → Int) (os ps : List Outcome) : plus (plus count os) ps = plus count (os ++ ps) := by
  funext c
  simp only [plus, tally_append]; omega

private theorem reach_main : (p : Code) → (count : Counter → Int) → (k : List Act) → (bs rs : List (List Int)) →
    Reaches (alone count (mainActs p ++ k) bs rs) (alone (plus count (tests p)) k bs ((summaries p).reverse ++ rs))
  | .done, count, k, bs, rs => by
    rw [show plus count (tests .done) = count from by funext c; cases c <;> simp [plus, tests, tally]]
    exact ⟨0, rfl⟩
  | .test o rest, count, k, bs, rs => by
    have h1 := reach_test count o (mainActs rest ++ k) bs rs
    have h2 := reach_main rest (plus count [o]) k bs rs
    rw [plus_plus] at h2
    rw [mainActs, List.append_assoc]
    exact h1.trans h2
  | .testset body rest, count, k, bs, rs => by
    have h1 := reach_begin count (mainActs body ++ (.report :: (mainActs rest ++ k))) bs rs
    have h2 := reach_main body count (.report :: (mainActs rest ++ k)) (seenNow count :: bs) rs
    have h3 := reach_report (plus count (tests body)) (mainActs rest ++ k) (seenNow count) bs ((summaries body).reverse ++ rs)
    have h4 := reach_main rest (plus count (tests body)) k bs (List.zipWith (· - ·) (seenNow (plus count (tests body))) (seenNow count) :: ((summaries body).reverse ++ rs))
    have hz : List.zipWith (· - ·) (seenNow (plus count (tests body))) (seenNow count) = summary (tests body) := by
      simp only [seenNow, plus, List.zipWith_cons_cons, List.zipWith_nil_right, summary, List.map_cons, List.map_nil]
      simp only [List.cons.injEq, and_true]
      refine ⟨?_, ?_, ?_, ?_⟩ <;> omega
    rw [hz, plus_plus] at h4
    rw [hz] at h3
    have e1 : mainActs (.testset body rest) ++ k = .begin :: (mainActs body ++ (.report :: (mainActs rest ++ k))) := by simp [mainActs]
    have e2 : (summaries (.testset body rest)).reverse ++ rs = (summaries rest).reverse ++ (summary (tests body) :: ((summaries body).reverse ++ rs)) := by simp [summaries]
    rw [e1, e2]
    exact h1.trans (h2.trans (h3.trans h4))

private theorem alone_schedule : (schedule : List Nat) → (s : State) → s.threads.length = 1 → ∃ n, exec s schedule = exec s (List.replicate n 0)
  | [], s, _ => ⟨0, rfl⟩
  | i :: is, s, h => by
    have hlen : (step s i).threads.length = 1 := by
      unfold step
      cases s.threads[i]? with
      | none => exact h
      | some th => simp [h]
    obtain ⟨n, hn⟩ := alone_schedule is (step s i) hlen
    cases i with
    | zero => exact ⟨n + 1, hn⟩
    | succ i =>
      have hs : step s (i + 1) = s := by
        unfold step
        rw [List.getElem?_eq_none (by omega)]
      rw [hs] at hn
      exact ⟨n, by show exec (step s (i + 1)) is = _; rw [hs]; exact hn⟩

private theorem finished_stays {s : State} (h : Finished s) (n : Nat) : exec s (List.replicate n 0) = s := by
  induction n with
  | zero => rfl
  | succ n ih =>
    have hs : step s 0 = s := by
      unfold step
      cases ht : s.threads[0]? with
      | none => rfl
      | some th =>
        have : stepThread s 0 th = (s.count, s.lock, th) := by simp only [stepThread, h th (List.mem_of_getElem? ht)]
        simp only [this]
        have hset : s.threads.set 0 th = s.threads := by
          cases hl : s.threads with
          | nil => rfl
          | cons a l => rw [hl] at ht; simp at ht; simp [ht]
        rw [hset]
    show exec (step s 0) (List.replicate n 0) = s
    rw [hs, ih]

/-- C140: if all tests run in the main thread, then each testset reports the numbers of the tests in it, those in nested testsets included.
(Missing: tests in other threads at the same time, see `C140_report_refuted`.) -/
theorem C140_reports_partial (main : Code) (schedule : List Nat) (hf : Finished (exec (init main []) schedule)) :
    (exec (init main []) schedule).threads.map (·.reports.reverse) = [summaries main] := by
  obtain ⟨n, hn⟩ := alone_schedule schedule (init main []) rfl
  obtain ⟨m, hm⟩ := reach_main main (fun _ => 0) [] [] []
  have e0 : alone (fun _ => 0) (mainActs main ++ []) [] [] = init main [] := by rw [List.append_nil]; rfl
  rw [e0] at hm
  have hfm : Finished (exec (init main []) (List.replicate m 0)) := by
    rw [hm]; intro th hth
    simp only [alone, List.mem_singleton] at hth
    rw [hth]
  rw [hn] at hf ⊢
  have key : ∀ a b, Finished (exec (init main []) (List.replicate a 0)) → exec (init main []) (List.replicate (a + b) 0) = exec (init main []) (List.replicate a 0) := by
    intro a b ha
    rw [← List.replicate_append_replicate]
    have := finished_stays ha b
    simpa only [exec, List.foldl_append] using this
  have : exec (init main []) (List.replicate n 0) = exec (init main []) (List.replicate m 0) := by
    rcases Nat.le_total n m with h | h
    · obtain ⟨d, rfl⟩ := Nat.exists_eq_add_of_le h
      exact (key n d hf).symm
    · obtain ⟨d, rfl⟩ := Nat.exists_eq_add_of_le h
      exact key m d hfm
  rw [this, hm]
  simp [alone]

example : summaries c140Main = [[1, 1, 0, 0], [2, 1, 0, 1]] := rfl

example : (exec (init c140Main []) (List.replicate 60 0)).threads.map (·.reports.reverse) = [summaries c140Main] :=
  C140_reports_partial _ _ ((finished_iff _).1 (by decide +kernel))

/-! ## Refutations -/

/-- C140, refuted for reports: the testset of the main thread has one test, which passes; but while it runs, a test fails in another thread, and
the testset reports two tests, of which one failed. -/
theorem C140_report_refuted : ∃ (main other : Code) (schedule : List Nat),
    Finished (exec (init main [other]) schedule) ∧ summaries main = [[1, 0, 0, 0]] ∧
    (exec (init main [other]) schedule).threads.map (·.reports) = [[[2, 1, 0, 0]], []] :=
  ⟨.testset (.test .passed .done) .done, .test .failed .done, List.replicate 8 0 ++ (List.replicate 8 1 ++ List.replicate 4 0),
    (finished_iff _).1 (by decide +kernel), rfl, by decide +kernel⟩

/-- C140, refuted for the numbers of a report: a warning in another thread, which is no test, may be among the tests run. -/
theorem C140_warning_refuted : ∃ (main other : Code) (schedule : List Nat),
    Finished (exec (init main [other]) schedule) ∧ tests other = [.warned] ∧ summaries main = [[0, 0, 0, 0]] ∧
    (exec (init main [other]) schedule).threads.map (·.reports) = [[[1, 0, 0, 0]], []] :=
  ⟨.testset .done .done, .test .warned .done, List.replicate 4 0 ++ (List.replicate 4 1 ++ (List.replicate 4 0 ++ List.replicate 8 1)),
    (finished_iff _).1 (by decide +kernel), rfl, rfl, by decide +kernel⟩

/-- C140, refuted for tests after one that does not pass, in another thread: they are not run, so whatever they are and however the threads are scheduled, they are not
counted. -/
theorem C140_ends_refuted (main rest rest' : Code) (o : Outcome) (ho : o ≠ .passed) (others : List Code) (schedule : List Nat) :
    exec (init main (.test o rest :: others)) schedule = exec (init main (.test o rest' :: others)) schedule := by
  have h : otherActs (.test o rest) = otherActs (.test o rest') := by simp only [otherActs, ho, if_false]
  simp only [init, List.map_cons, h]

/-- C140, refuted for testsets in other threads: nothing in them, and nothing after them, is run. -/
theorem C140_testset_refuted (main body rest : Code) (others : List Code) (schedule : List Nat) :
    exec (init main (.testset body rest :: others)) schedule = exec (init main (.testset .done .done :: others)) schedule := rfl

end Unpy.Props
