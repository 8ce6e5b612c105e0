import Verif.Proof.Intern
/-!
# Interned symbols (C49) and singletons (C50)
-/
namespace Unpy.Props
open Unpy Unpy.Intern Unpy.Spec.Intern
variable {K : Type} [DecidableEq K]

/-- a thread takes several steps -/
private theorem reach_many {st : St K} (h : Reach st) (ts : List Nat) :
    Reach (ts.foldl (fun s t => stepT s t true) st) := by
  induction ts generalizing st with
  | nil => exact h
  | cons t ts ih => exact ih (.step h (.thread t true))

/-- `sym("a")` in thread 0, and a second one in thread 1, at the same time -/
private def two : St String := [0, 1, 0, 0, 0, 0, 0, 1, 1, 1, 1].foldl (fun s t => stepT s t true)
  ((init.go 0 (.lookup "a" none)).go 1 (.lookup "a" none))

private theorem reach_two : Reach two :=
  reach_many (.step (.step .init (.startNew 0 "a" rfl)) (.startNew 1 "a" rfl)) _

/-! ## C49 -/

/-- C49: at any time there is at most one live object for a name: the results of `sym(name)`, in any thread, that
are still referenced are one object. -/
theorem C49_unique {st : St K} (h : Reach st) {i j : Nat} {k : K} (hi : Alive st i) (hj : Alive st j)
    (hki : IsFor st i k) (hkj : IsFor st j k) : i = j := by
  obtain ⟨k1, h1, h2⟩ := (inv_reach h).ref i hi
  obtain ⟨k2, h3, h4⟩ := (inv_reach h).ref j hj
  have e1 : k1 = k := by have := h1.symm.trans hki; simpa using this
  have e2 : k2 = k := by have := h3.symm.trans hkj; simpa using this
  rw [e1] at h2; rw [e2] at h4
  simpa using h2.symm.trans h4

/-- both threads hold the object -/
example : Reach two ∧ two.held = [0] ∧ (two.threads 1).ref = some 0 ∧ two.keys = ["a"] :=
  ⟨reach_two, by decide, by decide, by decide⟩

/-- C49: `sym(k)` returns an object for `k`; so objects returned for distinct names are distinct.  (The key of a
gensym is its UUID, which differs from all other UUIDs and from all names.) -/
theorem C49_returns {st : St K} (h : Reach st) {k c i} (hl : (k, c, .ok i) ∈ st.log) :
    IsFor st i k ∧ ∀ k' c' j, (k', c', .ok j) ∈ st.log → k' ≠ k → j ≠ i := by
  have h1 := ((inv_reach h).lg _ hl).1 i rfl
  refine ⟨h1.1, fun k' c' j hl' hne e => hne ?_⟩
  have h2 := (((inv_reach h).lg _ hl').1 j rfl).1
  subst e
  simpa using h2.symm.trans h1.1

example : ∃ st : St String, Reach st ∧ ("a", none, .ok 0) ∈ st.log ∧ ("b", none, .ok 1) ∈ st.log :=
  ⟨[1, 1, 1, 1, 1, 1].foldl (fun s t => stepT s t true)
      (([0, 0, 0, 0, 0, 0].foldl (fun s t => stepT s t true) (init.go 0 (.lookup "a" none))).go 1 (.lookup "b" none)),
    reach_many (.step (reach_many (.step .init (.startNew 0 "a" rfl)) _) (.startNew 1 "b" rfl)) _,
    by decide, by decide⟩

/-- C49: the name of an object does not change. -/
theorem C49_stable {st st' : St K} (hs : Step st st') {i k} (hk : IsFor st i k) : IsFor st' i k := by
  cases hs with
  | thread t b =>
    unfold stepT
    cases st.threads t with
    | make k' c => exact getElem?_append_some hk
    | new k' c r => cases c <;> cases r <;> exact hk
    | callLock k' => simp only; split <;> exact hk
    | lock k' c => simp only; split <;> exact hk
    | callCheck k' => simp only; split <;> exact hk
    | check k' c => simp only; split <;> exact hk
    | lookup k' c => simp only; split <;> exact hk
    | fetch k' c => simp only; split <;> exact hk
    | _ => exact hk
  | _ => exact hk

example : Step two { two with held := [] } := .drop 0

/-- C49: while some reference to the symbol of that name exists, the accesses to the dictionary find it: `sym(k)`
then returns that object (and no KeyError is raised). -/
theorem C49_found {st : St K} (h : Reach st) {j k} (hj : Alive st j) (hk : IsFor st j k) {t c b} :
    (st.threads t = .lookup k c → (stepT st t b).threads t = .new k c (.ok j)) ∧
    (st.threads t = .check k c → (stepT st t b).threads t = .fetch k c) ∧
    (st.threads t = .fetch k c → (stepT st t b).threads t = .unlock k c (.ok j)) := by
  obtain ⟨k1, h1, h2⟩ := (inv_reach h).ref j hj
  have e1 : k1 = k := by have := h1.symm.trans hk; simpa using this
  subst e1
  refine ⟨fun ht => ?_, fun ht => ?_, fun ht => ?_⟩ <;> simp [stepT, ht, h2, St.go]

example : ∃ st : St String, Reach st ∧ Alive st 0 ∧ IsFor st 0 "a" ∧ st.threads 1 = .fetch "a" none :=
  ⟨[0, 1, 0, 0, 0, 0, 0, 1, 1].foldl (fun s t => stepT s t true)
      ((init.go 0 (.lookup "a" none)).go 1 (.lookup "a" none)),
    reach_many (.step (.step .init (.startNew 0 "a" rfl)) (.startNew 1 "a" rfl)) _,
    .inl (by decide), by rfl, by rfl⟩

/-- What C49 might suggest, but is false: that `sym(name)` always returns.  Between its check that the name is there
and its access to it, another thread may drop the last reference to the symbol; then it raises KeyError. -/
theorem C49_keyerror_refuted : ∃ st : St String, Reach st ∧ ("a", none, .error (some .KeyError)) ∈ st.log := by
  let s1 : St String := [0, 1, 0, 0, 0, 0, 0, 1, 1].foldl (fun s t => stepT s t true)
    ((init.go 0 (.lookup "a" none)).go 1 (.lookup "a" none))
  have h1 : Reach s1 := reach_many (.step (.step .init (.startNew 0 "a" rfl)) (.startNew 1 "a" rfl)) _
  have h2 : Reach { s1 with held := s1.held.erase 0 } := .step h1 (.drop 0)
  have h3 : Reach { s1 with held := s1.held.erase 0, table := fun k' => if k' = "a" then none else s1.table k' } := by
    refine .step h2 (.gc (k := "a") (i := 0) rfl (by decide) ?_)
    intro t
    match t with
    | 0 => simp [s1, stepT, St.go, init, acquire, release, St.finish, Stage.ref]
    | 1 => simp [s1, stepT, St.go, init, acquire, release, St.finish, Stage.ref]
    | t + 2 => simp [s1, stepT, St.go, init, acquire, release, St.finish, Stage.ref]
  exact ⟨_, reach_many h3 [1, 1, 1], by decide⟩

/-! ## C50 -/

/-- C50: at any time there is at most one live instance of a singleton class. -/
theorem C50_unique {st : St K} (h : Reach st) {i j : Nat} {cls : K} (hi : Alive st i) (hj : Alive st j)
    (hki : IsFor st i cls) (hkj : IsFor st j cls) : i = j := C49_unique h hi hj hki hkj

/-- `A()` in threads 0 and 1 -/
private def twoCalls : St String := [0, 1, 0, 1, 0, 0, 0, 0, 0, 0, 0, 1, 1, 1].foldl (fun s t => stepT s t true)
  ((init.go 0 (.callLock "A")).go 1 (.callLock "A"))

private theorem reach_twoCalls : Reach twoCalls :=
  reach_many (.step (.step .init (.startCall 0 "A" rfl)) (.startCall 1 "A" rfl)) _

example : Reach twoCalls ∧ twoCalls.held = [0] ∧
    twoCalls.log = [("A", some 1, .error (some .TypeError)), ("A", some 0, .ok 0)] :=
  ⟨reach_twoCalls, by decide, by decide⟩

/-- C50: while an instance is alive, calling the class raises TypeError: the check fails, and so ends the call. -/
theorem C50_construct_again {st : St K} (h : Reach st) {j cls} (hj : Alive st j) (hk : IsFor st j cls) {t b}
    (ht : st.threads t = .callCheck cls) :
    ∃ n, (stepT st t b).threads t = .callUnlock cls n (.error (some .TypeError)) := by
  obtain ⟨k1, h1, h2⟩ := (inv_reach h).ref j hj
  have e1 : k1 = cls := by have := h1.symm.trans hk; simpa using this
  subst e1
  exact ⟨st.keys.length, by simp [stepT, ht, h2, St.go]⟩

example : ∃ st : St String, Reach st ∧ Alive st 0 ∧ IsFor st 0 "A" ∧ st.threads 1 = .callCheck "A" :=
  ⟨[0, 1, 0, 1, 0, 0, 0, 0, 0, 0, 0, 1].foldl (fun s t => stepT s t true)
      ((init.go 0 (.callLock "A")).go 1 (.callLock "A")),
    reach_many (.step (.step .init (.startCall 0 "A" rfl)) (.startCall 1 "A" rfl)) _,
    .inl (by decide), by rfl, by rfl⟩

/-- C50: if the check passes, no instance is alive, and none comes into being until the call creates its own. -/
theorem C50_construct_check {st : St K} (h : Reach st) {t cls n}
    (ht : st.threads t = .lookup cls (some n) ∨ st.threads t = .lock cls (some n) ∨
      st.threads t = .check cls (some n) ∨ st.threads t = .make cls (some n)) :
    ∀ j, Alive st j → ¬ IsFor st j cls := by
  intro j hj hk
  obtain ⟨k1, h1, h2⟩ := (inv_reach h).ref j hj
  have e1 : k1 = cls := by have := h1.symm.trans hk; simpa using this
  subst e1
  have hs := (inv_reach h).stg t
  have : st.table k1 = none := by
    rcases ht with e | e | e | e <;> rw [e] at hs
    · exact (hs n rfl).1
    · exact (hs n rfl).1
    · exact (hs n rfl).1
    · exact hs.1
  rw [this] at h2; cases h2

example : ∃ st : St String, Reach st ∧ st.threads 0 = .make "A" (some 0) :=
  ⟨[0, 0, 0, 0, 0].foldl (fun s t => stepT s t true) (init.go 0 (.callLock "A")),
    reach_many (.step .init (.startCall 0 "A" rfl)) _, by rfl⟩

/-- C50: a call of the class that returns, returns an instance of that class created after its check (`n` objects
had been created at that moment); one that raises, raises TypeError or what `__init__` raised. -/
theorem C50_construct_outcome {st : St K} (h : Reach st) {cls n r} (hl : (cls, some n, r) ∈ st.log) :
    (∀ i, r = .ok i → IsFor st i cls ∧ n ≤ i) ∧ (∀ e, r = .error e → e = some .TypeError ∨ e = none) := by
  have hi := (inv_reach h).lg _ hl
  exact ⟨fun i hr => ⟨(hi.1 i hr).1, (hi.1 i hr).2 n rfl⟩, fun e he => (hi.2 e n rfl he).symm⟩

example : ("A", some 1, .error (some .TypeError)) ∈ twoCalls.log ∧ ("A", some 0, .ok 0) ∈ twoCalls.log := by decide

/-- C50: `n` is the number of objects that existed when the check was made. -/
theorem C50_construct_n {st : St K} {t b cls c} (ht : st.threads t = .callCheck cls)
    (h : (stepT st t b).threads t = .lookup cls c) : c = some st.keys.length := by
  simp only [stepT, ht] at h
  split at h <;> simp [St.go] at h
  exact h.symm

example : (stepT (init.go 0 (.callCheck "A")) 0 true).threads 0 = .lookup "A" (some 0) := by rfl

/-- C50: unpickling, while an instance is alive, returns that instance. -/
theorem C50_unpickle {st : St K} (h : Reach st) {cls i} (hl : (cls, none, .ok i) ∈ st.log) (hi : Alive st i) {j}
    (hj : Alive st j) (hk : IsFor st j cls) : i = j :=
  C49_unique h hi hj (C49_returns h hl).1 hk

example : ∃ st : St String, Reach st ∧ ("A", some 0, .ok 0) ∈ st.log ∧ ("A", none, .ok 0) ∈ st.log ∧ st.held = [0, 0] :=
  ⟨[1, 1].foldl (fun s t => stepT s t true) (twoCalls.go 1 (.lookup "A" none)),
    reach_many (.step reach_twoCalls (.startNew 1 "A" (by rfl))) _, by decide, by decide, by decide⟩

/-- Unpickling a singleton can raise KeyError in the same way as in `C49_keyerror_refuted`. -/
theorem C50_keyerror_refuted : ∃ st : St String, Reach st ∧ ("a", none, .error (some .KeyError)) ∈ st.log :=
  C49_keyerror_refuted

end Unpy.Props
