import Verif.Model.Lazy
/-!
# C62: Lazy promises
-/
namespace Unpy.Props
open Unpy.LazyP
universe u v
variable {V : Type u} {E : Type v}

/-- The outcome of forcing, seen from outside, if the thunk's (only) run does `o`. -/
def forcedOutcome : ThunkOut V E → Forced V E
  | .ret v => .returns (.inl v)
  | .exc e => .raises (.inr e)
  | .base e => .raises (.inr e)

/-- While a thread evaluates the thunk and stores its outcome, no other thread is inside `force`. -/
def FirstForceAlone (thunk : Nat → ThunkOut V E) (sched : List Nat) : Prop :=
  ∀ pre suf, sched = pre ++ suf → ∀ t t', t ≠ t' →
    ((∃ id, (run thunk pre).threads t = .run id) ∨ (∃ b, (run thunk pre).threads t = .setFlag b)) →
    (run thunk pre).threads t' = .idle

private def bOf : ThunkOut V E → Bool
  | .ret _ => true
  | _ => false
private def vOf : ThunkOut V E → V ⊕ E
  | .ret v => .inl v
  | .exc e => .inr e
  | .base e => .inr e

private inductive Ph (thunk : Nat → ThunkOut V E) (st : St V E) : Prop
  | fresh : st.value = none → st.flag = none → st.runs = 0 → (∀ t, st.threads t = .idle) →
      st.log = [] → Ph thunk st
  | running (t : Nat) : st.value = none → st.flag = none → st.runs = 1 → st.threads t = .run 0 →
      (∀ t', t' ≠ t → st.threads t' = .idle) → st.log = [] → Ph thunk st
  | storing (t : Nat) : st.value = some (vOf (thunk 0)) → st.flag = none → st.runs = 1 →
      st.threads t = .setFlag (bOf (thunk 0)) →
      (∀ t', t' ≠ t → st.threads t' = .idle) → st.log = [] → Ph thunk st
  | settled : st.value = some (vOf (thunk 0)) → st.flag = some (bOf (thunk 0)) → st.runs = 1 →
      (∀ t, st.threads t = .idle ∨ st.threads t = .readFlag ∨ st.threads t = .readValue (bOf (thunk 0))) →
      (∀ e ∈ st.log, e.2 = forcedOutcome (thunk 0)) → Ph thunk st

private theorem ph_step (thunk : Nat → ThunkOut V E) (hb : ∀ n e, thunk n ≠ .base e) {st : St V E}
    (h : Ph thunk st) (t : Nat)
    (halone : ∀ t0, t0 ≠ t → ((∃ id, (step thunk st t).threads t0 = .run id) ∨
      (∃ b, (step thunk st t).threads t0 = .setFlag b)) → (step thunk st t).threads t = .idle) :
    Ph thunk (step thunk st t) := by
  cases h with
  | fresh h1 h2 h3 h4 h5 =>
    refine .running t ?_ ?_ ?_ ?_ ?_ ?_ <;> simp [step, h4, h1, St.set, h2, h3, h5]
  | running t0 h1 h2 h3 h4 h5 h6 =>
    by_cases e : t = t0
    · subst e
      cases hth : thunk 0 with
      | ret v =>
        refine .storing t ?_ ?_ ?_ ?_ ?_ ?_ <;> simp [step, h4, hth, St.set, vOf, bOf, h2, h3, h6]
        intro t' hne; simp [hne]; exact h5 t' hne
      | exc x =>
        refine .storing t ?_ ?_ ?_ ?_ ?_ ?_ <;> simp [step, h4, hth, St.set, vOf, bOf, h2, h3, h6]
        intro t' hne; simp [hne]; exact h5 t' hne
      | base x => exact absurd hth (hb 0 x)
    · have hidle := h5 t e
      have := halone t0 (fun h => e h.symm) (by
        left; refine ⟨0, ?_⟩
        simp [step, hidle, h1, St.set, fun h => e (Eq.symm h), h4]
        intro h; exact absurd h.symm e)
      simp [step, hidle, h1, St.set] at this
  | storing t0 h1 h2 h3 h4 h5 h6 =>
    by_cases e : t = t0
    · subst e
      refine .settled ?_ ?_ ?_ ?_ ?_
      · simp [step, h4, St.set, h1]
      · simp [step, h4, St.set]
      · simp [step, h4, St.set, h3]
      · intro t'
        by_cases e' : t' = t
        · simp [step, h4, St.set, e']
        · simp [step, h4, St.set, e', h5 t' e']
      · simp [step, h4, St.set, h6]
    · have hidle := h5 t e
      have := halone t0 (fun h => e h.symm) (by
        right; refine ⟨bOf (thunk 0), ?_⟩
        simp [step, hidle, h1, St.set, h4]
        intro h; exact absurd h.symm e)
      simp [step, hidle, h1, St.set] at this
  | settled h1 h2 h3 h4 h5 =>
    have hoth : ∀ s, (s = .idle ∨ s = .readFlag ∨ s = .readValue (bOf (thunk 0))) → ∀ t',
        (if t' = t then s else st.threads t') = .idle ∨ (if t' = t then s else st.threads t') = .readFlag ∨
        (if t' = t then s else st.threads t') = .readValue (bOf (thunk 0)) := by
      intro s hs t'
      split
      · exact hs
      · exact h4 t'
    rcases h4 t with h | h | h
    · have e : step thunk st t = st.set t .readFlag := by simp [step, h, h1]
      rw [e]
      exact .settled h1 h2 h3 (hoth _ (by simp)) h5
    · have e : step thunk st t = st.set t (.readValue (bOf (thunk 0))) := by
        simp only [step, h, h2]
        cases bOf (thunk 0) <;> simp
      rw [e]
      exact .settled h1 h2 h3 (hoth _ (by simp)) h5
    · have e : step thunk st t = { st.set t .idle with log := st.log ++ [(t, forcedOutcome (thunk 0))] } := by
        simp only [step, h, h1]
        cases hth : thunk 0 <;> simp [bOf, vOf, forcedOutcome]
      rw [e]
      refine .settled h1 h2 h3 (hoth _ (by simp)) ?_
      intro e' he'
      have he' : e' ∈ st.log ++ [(t, forcedOutcome (thunk 0))] := he'
      rcases List.mem_append.mp he' with h' | h'
      · exact h5 e' h'
      · simp at h'; rw [h']

private theorem ph_run (thunk : Nat → ThunkOut V E) (hb : ∀ n e, thunk n ≠ .base e) (sched : List Nat)
    (h : FirstForceAlone thunk sched) : Ph thunk (run thunk sched) := by
  suffices H : ∀ (suf pre : List Nat), sched = pre ++ suf → Ph thunk (run thunk pre) → Ph thunk (run thunk sched) from
    H sched [] rfl (.fresh rfl rfl rfl (fun _ => rfl) rfl)
  intro suf
  induction suf with
  | nil => intro pre e hi; rw [e]; simpa using hi
  | cons t suf ih =>
    intro pre he hi
    apply ih (pre ++ [t]) (by rw [he]; simp)
    have e : run thunk (pre ++ [t]) = step thunk (run thunk pre) t := by simp [run, List.foldl_append]
    rw [e]
    refine ph_step thunk hb hi t ?_
    intro t0 hne hr
    rw [← e] at hr ⊢
    exact h (pre ++ [t]) suf (by rw [he]; simp) t0 t hne hr

/-- C62: under every schedule in which the first `force` runs alone (any further forces may overlap each
other), the thunk runs at most once, and every completed force, by any thread, gives the outcome of
that one run: the same value returned, or the same exception instance raised.
(`hb`: the thunk does not raise a `BaseException` outside `Exception`, see below.)
Missing: schedules in which other threads force the promise during its evaluation, refuted below. -/
theorem C62_lazy_once_partial (thunk : Nat → ThunkOut V E) (hb : ∀ n e, thunk n ≠ .base e)
    (sched : List Nat) (h : FirstForceAlone thunk sched) :
    (run thunk sched).runs ≤ 1 ∧ ∀ e ∈ (run thunk sched).log, e.2 = forcedOutcome (thunk 0) := by
  cases ph_run thunk hb sched h with
  | fresh h1 h2 h3 h4 h5 => simp [h3, h5]
  | running t h1 h2 h3 h4 h5 h6 => simp [h3, h6]
  | storing t h1 h2 h3 h4 h5 h6 => simp [h3, h6]
  | settled h1 h2 h3 h4 h5 => exact ⟨by omega, h5⟩

/-- C62 in a single-threaded program: any number of forces one after the other meets the condition.
(Missing: several threads, see `C62_lazy_race_runs_twice_refuted`.) -/
theorem C62_lazy_single_threaded_partial (thunk : Nat → ThunkOut V E) (hb : ∀ n e, thunk n ≠ .base e) (n : Nat) :
    (run thunk (List.replicate n 0)).runs ≤ 1 ∧
      ∀ e ∈ (run thunk (List.replicate n 0)).log, e.2 = forcedOutcome (thunk 0) := by
  apply C62_lazy_once_partial thunk hb
  have key : ∀ (pre : List Nat), (∀ t ∈ pre, t = 0) → ∀ (st : St V E), (∀ t, t ≠ 0 → st.threads t = .idle) →
      ∀ t, t ≠ 0 → (pre.foldl (step thunk) st).threads t = .idle := by
    intro pre
    induction pre with
    | nil => intro _ st h; exact h
    | cons t0 pre ih =>
      intro hp st hst
      have h0 : t0 = 0 := hp t0 (by simp)
      subst h0
      apply ih (fun t ht => hp t (List.mem_cons_of_mem _ ht))
      intro t ht
      simp only [step]
      repeat' split
      all_goals simp [St.set, ht, hst t ht]
  intro pre suf he t t' hne hr
  have hp : ∀ t ∈ pre, t = 0 := by
    intro x hx
    have : x ∈ List.replicate n 0 := by rw [he]; simp [hx]
    exact (List.mem_replicate.mp this).2
  have hidle := key pre hp init (fun _ _ => rfl)
  by_cases ht : t = 0
  · exact hidle t' (fun e => hne (by rw [ht, e]))
  · have := hidle t ht
    rcases hr with ⟨id, hr⟩ | ⟨b, hr⟩ <;>
      (unfold run at hr; rw [this] at hr; simp at hr)

/-- n consecutive forces in one thread really complete (5 steps for the first, 3 for each later one) -/
example : (run (V := Nat) (E := Unit) (fun n => .ret (100 + n)) (List.replicate 11 0)).log =
    [(0, .returns (.inl 100)), (0, .returns (.inl 100)), (0, .returns (.inl 100))] := by decide
example : (run (V := Nat) (E := Unit) (fun _ => .exc ()) (List.replicate 8 0)).log =
    [(0, .raises (.inr ())), (0, .raises (.inr ()))] := by decide

/-- C62 is violated under concurrency (1): two threads forcing a fresh promise both run the thunk and
can get different values. -/
theorem C62_lazy_race_runs_twice_refuted :
    (run (V := Nat) (E := Unit) (fun n => .ret (100 + n)) [0, 1, 0, 0, 0, 0, 1, 1, 1, 1]).runs = 2 ∧
    (run (V := Nat) (E := Unit) (fun n => .ret (100 + n)) [0, 1, 0, 0, 0, 0, 1, 1, 1, 1]).log =
      [(0, .returns (.inl 100)), (1, .returns (.inl 101))] := by decide

/-- C62 is violated under concurrency (2): if the thunk raises, a second thread that comes between
lines 66 and 67 gets the exception instance *returned* as if it were the value. -/
theorem C62_lazy_race_returns_exception_refuted :
    (run (V := Nat) (E := Unit) (fun _ => .exc ()) [0, 0, 1, 1, 1, 0, 0, 0]).log =
      [(1, .returns (.inr ())), (0, .raises (.inr ()))] := by decide

/-- C62, limit of the statement: a `BaseException` outside `Exception` is not cached; each force then
runs the thunk again until a run completes. -/
theorem C62_lazy_base_exception_not_cached :
    (run (V := Nat) (E := Unit) (fun n => if n = 0 then .base () else .ret n) (List.replicate 10 0)).log =
      [(0, .raises (.inr ())), (0, .returns (.inl 1)), (0, .returns (.inl 1))] := by decide

end Unpy.Props
