import Verif.Spec.Intern
namespace Unpy.Intern
open Unpy.Spec.Intern
variable {K : Type} [DecidableEq K]

def c01 : Option Nat → Nat
  | none => 0
  | some _ => 1

/-- how many times a thread has acquired the lock -/
def depth : Stage K → Nat
  | .idle | .callLock _ => 0
  | .callCheck _ => 1
  | .lookup _ c | .lock _ c | .new _ c _ => c01 c
  | .check _ c | .make _ c | .fetch _ c | .unlock _ c _ => 1 + c01 c
  | .callUnlock _ _ _ => 1

def cnt (o : Option (Nat × Nat)) (t : Nat) : Nat :=
  match o with
  | none => 0
  | some (t', n) => if t' = t then n else 0

/-- an object that is to be returned is for the key, and, by a constructor, new -/
def OutOk (keys : List K) (k : K) (c : Option Nat) (r : Outcome) : Prop :=
  (∀ i, r = .ok i → keys[i]? = some k ∧ ∀ n, c = some n → n ≤ i) ∧
  ∀ e n, c = some n → r = .error e → e = none ∨ e = some .TypeError

def StageOk (table : K → Option Nat) (keys : List K) : Stage K → Prop
  | .lookup k c | .lock k c | .check k c => ∀ n, c = some n → table k = none ∧ n ≤ keys.length
  | .make k c => table k = none ∧ ∀ n, c = some n → n ≤ keys.length
  | .fetch _ c => c = none
  | .unlock k c r | .new k c r => OutOk keys k c r
  | .callUnlock k n r => OutOk keys k (some n) r
  | _ => True

structure Inv (st : St K) : Prop where
  tab : ∀ k i, st.table k = some i → st.keys[i]? = some k
  ref : ∀ i, Alive st i → ∃ k, st.keys[i]? = some k ∧ st.table k = some i
  lk : ∀ t, depth (st.threads t) = cnt st.owner t
  stg : ∀ t, StageOk st.table st.keys (st.threads t)
  lg : ∀ e ∈ st.log, OutOk st.keys e.1 e.2.1 e.2.2

theorem inv_init : Inv (init : St K) where
  tab := by simp [init]
  ref := by simp [init, Alive, Stage.ref]
  lk := by simp [init, depth, cnt]
  stg := by simp [init, StageOk]
  lg := by simp [init]

theorem Inv.excl {st : St K} (h : Inv st) {t t'} (h1 : 0 < depth (st.threads t)) (h2 : 0 < depth (st.threads t')) :
    t = t' := by
  rw [h.lk] at h1 h2
  unfold cnt at h1 h2
  cases ho : st.owner with
  | none => simp [ho] at h1
  | some o =>
    simp only [ho] at h1 h2
    split at h1
    · split at h2
      · rename_i a b; rw [← a, ← b]
      · omega
    · omega

/-- a step of one thread that changes neither the dictionary nor the references outside -/
theorem inv_go {st : St K} (h : Inv st) (t : Nat) (s : Stage K) (o : Option (Nat × Nat))
    (hok : StageOk st.table st.keys s)
    (href : ∀ i, s.ref = some i → ∃ k, st.keys[i]? = some k ∧ st.table k = some i)
    (hd : ∀ t', cnt o t' = if t' = t then depth s else cnt st.owner t') :
    Inv { st.go t s with owner := o } where
  tab := h.tab
  ref := by
    intro i hi
    rcases hi with hi | ⟨t', hi⟩
    · exact h.ref i (.inl hi)
    · simp only [St.go] at hi
      split at hi
      · exact href i hi
      · exact h.ref i (.inr ⟨t', hi⟩)
  lk := by
    intro t'
    rw [hd t']
    simp only [St.go]
    split
    · rfl
    · exact h.lk t'
  stg := by
    intro t'
    simp only [St.go]
    split
    · exact hok
    · exact h.stg t'
  lg := h.lg

theorem inv_go' {st : St K} (h : Inv st) (t : Nat) (s : Stage K)
    (hok : StageOk st.table st.keys s)
    (href : ∀ i, s.ref = some i → ∃ k, st.keys[i]? = some k ∧ st.table k = some i)
    (hd : depth s = depth (st.threads t)) : Inv (st.go t s) := by
  refine inv_go h t s st.owner hok href ?_
  intro t'
  split
  · rename_i e; rw [e, hd, h.lk]
  · rfl

theorem acquire_cnt {o o' : Option (Nat × Nat)} {t} {p} (h : acquire o t = some p) (ho : o' = some p) (t') :
    cnt o' t' = if t' = t then cnt o t + 1 else cnt o t' := by
  subst ho
  unfold acquire at h
  split at h
  · simp at h; subst h
    simp only [cnt]
    by_cases e : t = t' <;> simp [e, eq_comm]
  · split at h
    · rename_i e
      simp at h; subst h; subst e
      simp only [cnt]
      split <;> split <;> simp_all
    · simp at h

theorem release_cnt {o : Option (Nat × Nat)} {t : Nat} (h : 0 < cnt o t) (t') :
    cnt (release o) t' = if t' = t then cnt o t - 1 else cnt o t' := by
  match o with
  | none => simp [cnt] at h
  | some (t0, n) =>
    simp only [cnt] at h
    split at h
    · rename_i e
      subst e
      match n with
      | 0 => omega
      | 1 =>
        simp only [release, cnt]
        by_cases e : t' = t0 <;> simp [e]
        intro h; exact absurd h.symm e
      | n + 2 =>
        simp only [release, cnt]
        by_cases e : t' = t0
        · simp [e]
        · simp [e, Ne.symm e]
    · omega

theorem inv_finish {st : St K} (h : Inv st) (t : Nat) (k : K) (c : Option Nat) (r : Outcome) (o : Option (Nat × Nat))
    (hr : (st.threads t).ref = refOf r) (hok : OutOk st.keys k c r)
    (hd : ∀ t', cnt o t' = if t' = t then 0 else cnt st.owner t') : Inv { st.finish t k c r with owner := o } where
  tab := h.tab
  ref := by
    intro i hi
    rcases hi with hi | ⟨t', hi⟩
    · simp only [St.finish, List.mem_append] at hi
      rcases hi with hi | hi
      · refine h.ref i (.inr ⟨t, ?_⟩)
        rw [hr]
        simpa using hi
      · exact h.ref i (.inl hi)
    · simp only [St.finish, St.go] at hi
      split at hi
      · simp [Stage.ref] at hi
      · exact h.ref i (.inr ⟨t', hi⟩)
  lk := by
    intro t'
    rw [hd t']
    simp only [St.finish, St.go]
    split
    · rfl
    · exact h.lk t'
  stg := by
    intro t'
    simp only [St.finish, St.go]
    split
    · trivial
    · exact h.stg t'
  lg := by
    intro e he
    simp only [St.finish, List.mem_cons] at he
    rcases he with rfl | he
    · exact hok
    · exact h.lg e he

theorem getElem?_append_some {l : List K} {i : Nat} {a b : K} (h : l[i]? = some a) : (l ++ [b])[i]? = some a := by
  rw [List.getElem?_append_left]
  · exact h
  · exact (List.getElem?_eq_some_iff.mp h).1

theorem OutOk.mono {keys : List K} {k c r} (b : K) (h : OutOk keys k c r) : OutOk (keys ++ [b]) k c r :=
  ⟨fun i hi => ⟨getElem?_append_some (h.1 i hi).1, (h.1 i hi).2⟩, h.2⟩

theorem inv_stepT {st : St K} (h : Inv st) (t : Nat) (b : Bool) : Inv (stepT st t b) := by
  unfold stepT
  have hs := h.stg t
  have hl := h.lk t
  cases hth : st.threads t with
  | idle => exact h
  | callLock k =>
    simp only
    rw [hth] at hl
    cases ha : acquire st.owner t with
    | none => exact h
    | some o =>
      refine inv_go h t _ _ trivial (by simp [Stage.ref]) ?_
      intro t'
      rw [acquire_cnt ha rfl, ← hl]; rfl
  | callCheck k =>
    simp only
    split
    · exact inv_go' h t _ ⟨by intro i hi; (cases hi), by intro e n _ he; cases he; exact .inr rfl⟩
        (by simp [Stage.ref, refOf]) (by rw [hth]; rfl)
    · rename_i hn
      refine inv_go' h t _ ?_ (by simp [Stage.ref]) (by rw [hth]; rfl)
      intro n hn'
      exact ⟨Option.not_isSome_iff_eq_none.mp hn, by cases hn'; exact Nat.le_refl _⟩
  | lookup k c =>
    simp only
    rw [hth] at hs
    cases ht : st.table k with
    | none => exact inv_go' h t _ hs (by simp [Stage.ref]) (by rw [hth]; rfl)
    | some i =>
      refine inv_go' h t _ ?_ ?_ (by rw [hth]; rfl)
      · refine ⟨?_, by intro e n _ he; cases he⟩
        intro j hj
        cases hj
        refine ⟨h.tab k i ht, fun n hn => ?_⟩
        have := (hs n hn).1
        rw [ht] at this; cases this
      · intro j hj
        simp [Stage.ref, refOf] at hj
        subst hj
        exact ⟨k, h.tab k i ht, ht⟩
  | lock k c =>
    simp only
    rw [hth] at hs hl
    cases ha : acquire st.owner t with
    | none => exact h
    | some o =>
      refine inv_go h t _ _ hs (by simp [Stage.ref]) ?_
      intro t'
      rw [acquire_cnt ha rfl, ← hl]
      simp [depth, Nat.add_comm]
  | check k c =>
    simp only
    rw [hth] at hs
    split
    · rename_i hn
      refine inv_go' h t _ ⟨by simpa using hn, fun n hc => (hs n hc).2⟩ (by simp [Stage.ref]) (by rw [hth]; rfl)
    · rename_i hn
      refine inv_go' h t _ ?_ (by simp [Stage.ref]) (by rw [hth]; rfl)
      cases c with
      | none => rfl
      | some n => have := (hs n rfl).1; simp [this] at hn
  | make k c =>
    simp only
    rw [hth] at hs
    have hd : 0 < depth (st.threads t) := by rw [hth]; simp [depth]; omega
    have hnew : st.keys[st.keys.length]? = none := by simp
    refine ⟨?_, ?_, ?_, ?_, ?_⟩
    · intro k' i hi
      simp only at hi
      split at hi
      · rename_i e; cases hi; simp [e]
      · exact getElem?_append_some (h.tab k' i hi)
    · intro i hi
      have : i = st.keys.length ∨ Alive st i := by
        rcases hi with hi | ⟨t', hi⟩
        · exact .inr (.inl hi)
        · simp only [St.go] at hi
          split at hi
          · simp [Stage.ref, refOf] at hi; exact .inl hi.symm
          · exact .inr (.inr ⟨t', hi⟩)
      rcases this with rfl | hi
      · exact ⟨k, by simp, by simp⟩
      · obtain ⟨k', h1, h2⟩ := h.ref i hi
        refine ⟨k', getElem?_append_some h1, ?_⟩
        have : k' ≠ k := by
          rintro rfl
          rw [hs.1] at h2; cases h2
        simp [this, h2]
    · intro t'
      simp only [St.go]
      split
      · rename_i e; subst e; rw [← h.lk, hth]; rfl
      · exact h.lk t'
    · intro t'
      simp only [St.go]
      split
      · refine ⟨?_, by intro e n _ he; cases he⟩
        intro i hi
        cases hi
        exact ⟨by simp, hs.2⟩
      · rename_i hne
        have hst := h.stg t'
        have hno : ¬ 0 < depth (st.threads t') := fun hp => hne (h.excl hp hd)
        generalize st.threads t' = s at hst hno
        cases s with
        | idle => trivial
        | callLock _ => trivial
        | callCheck _ => trivial
        | lookup k' c' => intro n hn; subst hn; exact absurd (by simp [depth, c01]) hno
        | lock k' c' => intro n hn; subst hn; exact absurd (by simp [depth, c01]) hno
        | check k' c' => exact absurd (by simp [depth]; omega) hno
        | make k' c' => exact absurd (by simp [depth]; omega) hno
        | fetch k' c' => exact absurd (by simp [depth]; omega) hno
        | unlock k' c' r => exact OutOk.mono k hst
        | new k' c' r => exact OutOk.mono k hst
        | callUnlock k' n r => exact OutOk.mono k hst
    · intro e he
      exact OutOk.mono k (h.lg e he)
  | fetch k c =>
    simp only
    rw [hth] at hs
    cases ht : st.table k with
    | none =>
      exact inv_go' h t _ ⟨by intro i hi; (cases hi), by intro e n hc; rw [show c = none from hs] at hc; cases hc⟩
        (by simp [Stage.ref, refOf]) (by rw [hth]; rfl)
    | some i =>
      refine inv_go' h t _ ?_ ?_ (by rw [hth]; rfl)
      · refine ⟨?_, by intro e n _ he; cases he⟩
        intro j hj
        cases hj
        refine ⟨h.tab k i ht, fun n hn => ?_⟩
        have hc : c = none := hs
        rw [hc] at hn; cases hn
      · intro j hj
        simp [Stage.ref, refOf] at hj
        subst hj
        exact ⟨k, h.tab k i ht, ht⟩
  | unlock k c r =>
    simp only
    rw [hth] at hs hl
    refine inv_go h t _ _ hs ?_ ?_
    · intro i hi
      exact h.ref i (.inr ⟨t, by rw [hth]; exact hi⟩)
    · intro t'
      rw [release_cnt (t := t) (by rw [← hl]; simp [depth]; omega), ← hl]
      simp [depth]
  | new k c r =>
    rw [hth] at hs hl
    cases c with
    | none =>
      refine inv_finish h t k none r st.owner (by rw [hth]; rfl) hs ?_
      intro t'
      split
      · rename_i e; rw [e, ← hl]; rfl
      · rfl
    | some n =>
      cases r with
      | error e => exact inv_go' h t _ hs (by simp [Stage.ref, refOf]) (by rw [hth]; rfl)
      | ok i =>
        cases b with
        | false => exact inv_go' h t _ ⟨by intro i hi; (simp at hi), by intro e n _ he; simp at he; exact .inl he.symm⟩ (by simp [Stage.ref, refOf]) (by rw [hth]; rfl)
        | true =>
          refine inv_go' h t _ hs ?_ (by rw [hth]; rfl)
          intro j hj
          exact h.ref j (.inr ⟨t, by rw [hth]; exact hj⟩)
  | callUnlock k n r =>
    simp only
    rw [hth] at hs hl
    refine inv_finish h t k (some n) r _ (by rw [hth]; rfl) hs ?_
    intro t'
    rw [release_cnt (t := t) (by rw [← hl]; simp [depth]), ← hl]
    simp [depth]

theorem inv_step {st st' : St K} (h : Inv st) (hs : Step st st') : Inv st' := by
  cases hs with
  | startNew t k hi =>
    exact inv_go' h t _ (by intro n hn; cases hn) (by simp [Stage.ref]) (by rw [hi]; rfl)
  | startCall t k hi => exact inv_go' h t _ trivial (by simp [Stage.ref]) (by rw [hi]; rfl)
  | thread t b => exact inv_stepT h t b
  | copy i hi =>
    refine ⟨h.tab, ?_, h.lk, h.stg, h.lg⟩
    rintro j (hj | hj)
    · rcases List.mem_cons.mp hj with rfl | hj
      · exact h.ref j (.inl hi)
      · exact h.ref j (.inl hj)
    · exact h.ref j (.inr hj)
  | drop i =>
    refine ⟨h.tab, ?_, h.lk, h.stg, h.lg⟩
    rintro j (hj | hj)
    · exact h.ref j (.inl (List.mem_of_mem_erase hj))
    · exact h.ref j (.inr hj)
  | @gc k i ht hh hr =>
    refine ⟨?_, ?_, h.lk, ?_, h.lg⟩
    · intro k' j hj
      simp only at hj
      split at hj
      · cases hj
      · exact h.tab k' j hj
    · intro j hj
      obtain ⟨k', h1, h2⟩ := h.ref j hj
      refine ⟨k', h1, ?_⟩
      have : k' ≠ k := by
        rintro rfl
        rw [ht] at h2; cases h2
        rcases hj with hj | ⟨t, hj⟩
        · exact hh hj
        · exact hr t hj
      simp [this, h2]
    · intro t
      have hst := h.stg t
      generalize st.threads t = s at hst ⊢
      have key : ∀ k', st.table k' = none → (if k' = k then none else st.table k') = none := by
        intro k' hk'; split <;> simp [hk']
      cases s with
      | idle => trivial
      | callLock _ => trivial
      | callCheck _ => trivial
      | lookup k' c' => exact fun n hn => ⟨key _ (hst n hn).1, (hst n hn).2⟩
      | lock k' c' => exact fun n hn => ⟨key _ (hst n hn).1, (hst n hn).2⟩
      | check k' c' => exact fun n hn => ⟨key _ (hst n hn).1, (hst n hn).2⟩
      | make k' c' => exact ⟨key _ hst.1, hst.2⟩
      | fetch k' c' => exact hst
      | unlock k' c' r => exact hst
      | new k' c' r => exact hst
      | callUnlock k' n r => exact hst

theorem inv_reach {st : St K} (h : Reach st) : Inv st := by
  induction h with
  | init => exact inv_init
  | step _ hs ih => exact inv_step ih hs

end Unpy.Intern
