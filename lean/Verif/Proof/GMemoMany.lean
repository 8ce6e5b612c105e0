import Verif.Spec.GMemoMany
namespace Unpy.GMemoMany
open Unpy.GMemoSelf (Out)
open Unpy.Spec.GMemoMany

variable {G S V E : Type}

def upTo (o : Nat → Out V E) (n : Nat) : List (Out V E) := (List.range n).map o

theorem upTo_get (o : Nat → Out V E) (n i : Nat) : (upTo o n)[i]? = if i < n then some (o i) else none := by
  unfold upTo
  by_cases h : i < n <;> simp [h]

theorem upTo_succ (o : Nat → Out V E) (n : Nat) : upTo o (n + 1) = upTo o n ++ [o n] := by
  simp [upTo, List.range_succ]

@[simp] theorem upTo_length (o : Nat → Out V E) (n : Nat) : (upTo o n).length = n := by simp [upTo]

theorem taken_eq_bump (pos : Nat → Nat) (i : Nat) : taken pos i = bump pos i := rfl

/-- Does a call hold the lock? -/
def holds : Stage V E → Bool
  | .wait => false
  | _ => true

/-- The generators that a thread is executing. -/
def runGs : List (Frame G V E) → List G
  | [] => []
  | f :: fs => match f.stage with
    | .run => f.g :: runGs fs
    | _ => runGs fs

theorem mem_runGs {g : G} : ∀ {fs : List (Frame G V E)}, g ∈ runGs fs ↔ ∃ f ∈ fs, f.g = g ∧ f.stage = .run
  | [] => by simp [runGs]
  | f :: fs => by
    have ih := mem_runGs (g := g) (fs := fs)
    obtain ⟨fg, fi, fj, fst⟩ := f
    cases fst with
    | run =>
      simp only [runGs, List.mem_cons, ih]
      constructor
      · rintro (rfl | ⟨f', h, h1, h2⟩)
        · exact ⟨_, .inl rfl, rfl, rfl⟩
        · exact ⟨f', .inr h, h1, h2⟩
      · rintro ⟨f', rfl | h, h1, h2⟩
        · exact .inl h1.symm
        · exact .inr ⟨f', h, h1, h2⟩
    | wait | check | done r =>
      simp only [runGs, List.mem_cons, ih]
      constructor
      · rintro ⟨f', h, h1, h2⟩
        exact ⟨f', .inr h, h1, h2⟩
      · rintro ⟨f', rfl | h, h1, h2⟩
        · cases h2
        · exact ⟨f', h, h1, h2⟩

/-- How many times thread `t` holds a lock. -/
def own (t : Nat) : Option (Nat × Nat) → Nat
  | none => 0
  | some (t', n) => if t' = t then n else 0

variable [DecidableEq G]

/-- How many of the calls hold the lock of `g`. -/
def held (g : G) : List (Frame G V E) → Nat
  | [] => 0
  | f :: fs => (if f.g = g ∧ holds f.stage = true then 1 else 0) + held g fs

omit [DecidableEq G] in
theorem release_own (t t' n : Nat) (h : 0 < n) : own t' (release (some (t, n))) = if t' = t then n - 1 else 0 := by
  match n, h with
  | 1, _ => simp [release, own]
  | n + 2, _ =>
    simp only [release, own]
    by_cases e : t' = t
    · simp [e]
    · simp [e, Ne.symm e]

theorem held_pos {g : G} {fs : List (Frame G V E)} (h : g ∈ runGs fs) : 0 < held g fs := by
  induction fs with
  | nil => cases h
  | cons f fs ih =>
    rw [mem_runGs] at h
    obtain ⟨f', hf, h1, h2⟩ := h
    simp only [List.mem_cons] at hf
    rcases hf with rfl | hf
    · simp only [held, h1, h2, holds, and_self, if_true]; omega
    · have := ih (mem_runGs.2 ⟨f', hf, h1, h2⟩)
      simp only [held]; omega

/-- The calls in progress in a thread: each is made by the one below, which is executing a generator, the lowest by the thread. -/
def Chain (p : Prog G S V E) (outer : Nat → Nat → G) (t : Nat) (gens : G → Gen S V E) (pos : Nat → Nat) : List (Frame G V E) → Prop
  | [] => True
  | [f] => f.g = outer t f.i ∧ f.j = pos f.i
  | f :: h :: rest => h.stage = .run ∧ f.g = p.inner h.g f.i ∧ f.j = (gens h.g).pos f.i ∧
      (∃ s k, (gens h.g).state = some s ∧ p.step h.g s = .ask f.i k) ∧ Chain p outer t gens pos (h :: rest)

omit [DecidableEq G] in
theorem chain_tail {p : Prog G S V E} {outer t gens pos f} : ∀ {rest : List (Frame G V E)},
    Chain p outer t gens pos (f :: rest) → ∀ h ∈ rest, h.stage = .run
  | [], _, h, hm => by cases hm
  | h :: rest, hc, h', hm => by
    simp only [List.mem_cons] at hm
    rcases hm with rfl | hm
    · exact hc.1
    · exact chain_tail hc.2.2.2.2 h' hm

omit [DecidableEq G] in
theorem chain_stage {p : Prog G S V E} {outer t gens pos g i j} {s s' : Stage V E} {rest : List (Frame G V E)}
    (hc : Chain p outer t gens pos (⟨g, i, j, s⟩ :: rest)) : Chain p outer t gens pos (⟨g, i, j, s'⟩ :: rest) := by
  cases rest with
  | nil => exact hc
  | cons h rest => exact hc

omit [DecidableEq G] in
theorem chain_congr {p : Prog G S V E} {outer t gens gens' pos f} : ∀ {rest : List (Frame G V E)},
    (∀ g ∈ runGs rest, (gens' g).pos = (gens g).pos ∧ (gens' g).state = (gens g).state) →
    Chain p outer t gens pos (f :: rest) → Chain p outer t gens' pos (f :: rest)
  | [], _, hc => hc
  | h :: rest, hs, hc => by
    obtain ⟨h1, h2, h3, h4, h5⟩ := hc
    have hm : h.g ∈ runGs (h :: rest) := mem_runGs.2 ⟨h, by simp, rfl, h1⟩
    obtain ⟨e1, e2⟩ := hs h.g hm
    refine ⟨h1, h2, by rw [e1]; exact h3, by rw [e2]; exact h4, chain_congr (fun g hg => hs g ?_) h5⟩
    rw [mem_runGs] at hg ⊢
    obtain ⟨f', hf, a, b⟩ := hg
    exact ⟨f', by simp [hf], a, b⟩

section
variable (p : Prog G S V E) (o : G → Nat → Out V E) (sts : G → Nat → Option (S × (Nat → Nat)))

/-- A generator and its memo. -/
def GenOk (g : G) (x : Gen S V E) : Prop :=
  ∃ n, x.memo = upTo (o g) n ∧
    match x.running with
    | true => ∃ s c, x.state = some s ∧ Goes p o g (s, x.pos) (o g n) (sts g (n + 1)) ∧ sts g n = some c ∧
        ∀ g' m, Asks p o g (s, x.pos) g' m → Asks p o g c g' m
    | false => sts g n = x.state.map (fun s => (s, x.pos))

/-- A call in progress. -/
def FrameOk (gens : G → Gen S V E) (f : Frame G V E) : Prop :=
  match f.stage with
  | .run => (gens f.g).running = true ∧ f.j = (gens f.g).memo.length
  | .done r => r = o f.g f.j ∧ f.j < (gens f.g).memo.length
  | _ => True

/-- The instance on which a thread has called `next` -/
def active (i : Nat) (fs : List (Frame G V E)) : Nat := match fs.getLast? with
  | some f => if f.i = i then 1 else 0
  | none => 0

variable (outer : Nat → Nat → G) (todo : Nat → List Nat)

structure Inv (st : St G S V E) : Prop where
  gen : ∀ g, GenOk p o sts g (st.gens g)
  gpos : ∀ g i, (st.gens g).pos i ≤ (st.gens (p.inner g i)).memo.length
  tpos : ∀ t i, (st.threads t).pos i ≤ (st.gens (outer t i)).memo.length
  chain : ∀ t, Chain p outer t st.gens (st.threads t).pos (st.threads t).frames
  frame : ∀ t, ∀ f ∈ (st.threads t).frames, FrameOk o st.gens f
  lock : ∀ t g, held g (st.threads t).frames = own t (st.gens g).lock
  lockPos : ∀ g t, (st.gens g).lock ≠ some (t, 0)
  nodup : ∀ t, (runGs (st.threads t).frames).Nodup
  running : ∀ g, (st.gens g).running = true → ∃ t, g ∈ runGs (st.threads t).frames
  log : ∀ t i, st.delivered t i = upTo (o (outer t i)) ((st.threads t).pos i)
  served : ∀ t i, (st.threads t).pos i + (st.threads t).todo.count i + active i (st.threads t).frames = (todo t).count i

variable {p o sts outer todo}

omit [DecidableEq G] in
theorem frameOk_congr {gens gens' : G → Gen S V E} {f : Frame G V E} (h : FrameOk o gens f)
    (mono : (gens f.g).memo.length ≤ (gens' f.g).memo.length)
    (same : f.stage = .run → (gens' f.g).running = (gens f.g).running ∧ (gens' f.g).memo = (gens f.g).memo) : FrameOk o gens' f := by
  obtain ⟨g, i, j, stage⟩ := f
  cases stage with
  | wait => trivial
  | check => trivial
  | run =>
    obtain ⟨e1, e2⟩ := same rfl
    exact ⟨by rw [e1]; exact h.1, by rw [e2]; exact h.2⟩
  | done r => exact ⟨h.1, Nat.lt_of_lt_of_le h.2 mono⟩

/-- A step of thread `t` that changes only generators that no other thread is executing. -/
structure Upd (st : St G S V E) (t : Nat) (st' : St G S V E) : Prop where
  thr : ∀ t', t' ≠ t → st'.threads t' = st.threads t'
  mono : ∀ g, (st.gens g).memo.length ≤ (st'.gens g).memo.length
  keep : ∀ t', t' ≠ t → ∀ g, own t' (st'.gens g).lock = own t' (st.gens g).lock
  same : ∀ t', t' ≠ t → ∀ g, g ∈ runGs (st.threads t').frames → (st'.gens g).state = (st.gens g).state ∧
    (st'.gens g).pos = (st.gens g).pos ∧ (st'.gens g).running = (st.gens g).running ∧ (st'.gens g).memo = (st.gens g).memo
  log : ∀ t', t' ≠ t → ∀ i, st'.delivered t' i = st.delivered t' i

theorem inv_of_upd {st st' : St G S V E} {t : Nat} (inv : Inv p o sts outer todo st) (u : Upd st t st')
    (gen : ∀ g, GenOk p o sts g (st'.gens g))
    (gpos : ∀ g i, (st'.gens g).pos i ≤ (st'.gens (p.inner g i)).memo.length)
    (tpos : ∀ i, (st'.threads t).pos i ≤ (st'.gens (outer t i)).memo.length)
    (chain : Chain p outer t st'.gens (st'.threads t).pos (st'.threads t).frames)
    (frame : ∀ f ∈ (st'.threads t).frames, FrameOk o st'.gens f)
    (lock : ∀ g, held g (st'.threads t).frames = own t (st'.gens g).lock)
    (lockPos : ∀ g t', (st'.gens g).lock ≠ some (t', 0))
    (nodup : (runGs (st'.threads t).frames).Nodup)
    (running : ∀ g, (st'.gens g).running = true → ∃ t', g ∈ runGs (st'.threads t').frames)
    (log : ∀ i, st'.delivered t i = upTo (o (outer t i)) ((st'.threads t).pos i))
    (served : ∀ i, (st'.threads t).pos i + (st'.threads t).todo.count i + active i (st'.threads t).frames = (todo t).count i) :
    Inv p o sts outer todo st' := by
  refine ⟨gen, gpos, ?_, ?_, ?_, ?_, lockPos, ?_, running, ?_, ?_⟩
  all_goals intro t'; by_cases e : t' = t
  · subst e; exact tpos
  · rw [u.thr t' e]; intro i; exact Nat.le_trans (inv.tpos t' i) (u.mono _)
  · subst e; exact chain
  · rw [u.thr t' e]
    have hc := inv.chain t'
    have hs := u.same t' e
    cases hf : (st.threads t').frames with
    | nil => trivial
    | cons f rest =>
      rw [hf] at hc hs
      refine chain_congr (fun g hg => ?_) hc
      have := hs g (by
        rw [mem_runGs] at hg ⊢
        obtain ⟨f', a, b⟩ := hg
        exact ⟨f', by simp [a], b⟩)
      exact ⟨this.2.1, this.1⟩
  · subst e; exact frame
  · rw [u.thr t' e]
    intro f hf
    refine frameOk_congr (inv.frame t' f hf) (u.mono _) (fun hr => ?_)
    have := u.same t' e f.g (mem_runGs.2 ⟨f, hf, rfl, hr⟩)
    exact ⟨this.2.2.1, this.2.2.2⟩
  · subst e; exact lock
  · rw [u.thr t' e]; intro g; rw [u.keep t' e g]; exact inv.lock t' g
  · subst e; exact nodup
  · rw [u.thr t' e]; exact inv.nodup t'
  · subst e; exact log
  · rw [u.thr t' e]; intro i; rw [u.log t' e i]; exact inv.log t' i
  · subst e; exact served
  · rw [u.thr t' e]; exact inv.served t'

/-- Thread `t` holds the lock of `g`: no other thread does. -/
theorem not_running_elsewhere {st : St G S V E} (inv : Inv p o sts outer todo st) {t : Nat} {g : G}
    (h : 0 < held g (st.threads t).frames) : ∀ t', t' ≠ t → g ∉ runGs (st.threads t').frames := by
  intro t' e hm
  have h1 := held_pos hm
  rw [inv.lock] at h h1
  cases hl : (st.gens g).lock with
  | none => rw [hl] at h; simp [own] at h
  | some q =>
    obtain ⟨a, n⟩ := q
    rw [hl] at h h1
    simp only [own] at h h1
    by_cases e1 : a = t
    · subst e1; rw [if_neg (Ne.symm e)] at h1; omega
    · rw [if_neg e1] at h; omega

omit [DecidableEq G] in
theorem active_stage (k : Nat) (g : G) (i j : Nat) (s s' : Stage V E) (rest : List (Frame G V E)) :
    active k (⟨g, i, j, s⟩ :: rest) = active k (⟨g, i, j, s'⟩ :: rest) := by
  cases rest with
  | nil => rfl
  | cons h rest => simp [active, List.getLast?_cons_cons]

@[simp] theorem setGen_threads (st : St G S V E) (g : G) (x : Gen S V E) : (st.setGen g x).threads = st.threads := rfl
@[simp] theorem setGen_log (st : St G S V E) (g : G) (x : Gen S V E) : (st.setGen g x).log = st.log := rfl
@[simp] theorem setThread_gens (st : St G S V E) (t : Nat) (x : Thread G V E) : (st.setThread t x).gens = st.gens := rfl
@[simp] theorem setThread_log (st : St G S V E) (t : Nat) (x : Thread G V E) : (st.setThread t x).log = st.log := rfl
theorem setGen_gens (st : St G S V E) (g : G) (x : Gen S V E) (g' : G) : (st.setGen g x).gens g' = if g' = g then x else st.gens g' := rfl
theorem setThread_threads (st : St G S V E) (t : Nat) (x : Thread G V E) (t' : Nat) :
    (st.setThread t x).threads t' = if t' = t then x else st.threads t' := rfl

omit [DecidableEq G] in
theorem runGs_cons_of (f : Frame G V E) (fs : List (Frame G V E)) (h : f.stage = .run) : runGs (f :: fs) = f.g :: runGs fs := by
  simp [runGs, h]

omit [DecidableEq G] in
theorem runGs_cons_ne (f : Frame G V E) (fs : List (Frame G V E)) (h : f.stage ≠ .run) : runGs (f :: fs) = runGs fs := by
  obtain ⟨g, i, j, s⟩ := f
  cases s with
  | run => exact absurd rfl h
  | wait => rfl
  | check => rfl
  | done r => rfl

omit [DecidableEq G] in
theorem mem_runGs_tail {f : Frame G V E} {fs : List (Frame G V E)} {g : G} (h : g ∈ runGs fs) : g ∈ runGs (f :: fs) := by
  rw [mem_runGs] at h ⊢
  obtain ⟨f', a, b⟩ := h
  exact ⟨f', by simp [a], b⟩

/-- The call on top goes on, changing its generator. -/
theorem retop_inv {st : St G S V E} (inv : Inv p o sts outer todo st) {t : Nat} {g : G} {i j : Nat} {s s' : Stage V E}
    {rest : List (Frame G V E)} (hf : (st.threads t).frames = ⟨g, i, j, s⟩ :: rest) (x' : Gen S V E)
    (hpos : x'.pos = (st.gens g).pos) (hmono : (st.gens g).memo.length ≤ x'.memo.length) (hgen : GenOk p o sts g x')
    (hframe : ∀ gens : G → Gen S V E, gens g = x' → FrameOk o gens ⟨g, i, j, s'⟩)
    (hlock : own t x'.lock = (if holds s' = true then 1 else 0) + held g rest)
    (hkeep : ∀ t', t' ≠ t → own t' x'.lock = own t' (st.gens g).lock) (hlp : ∀ t', x'.lock ≠ some (t', 0))
    (hsame : (x'.state = (st.gens g).state ∧ x'.running = (st.gens g).running ∧ x'.memo = (st.gens g).memo) ∨
      (holds s = true ∧ g ∉ runGs rest))
    (hnd : s' = .run → g ∉ runGs rest)
    (hrun : x'.running = true → s' = .run ∨ ((st.gens g).running = true ∧ s ≠ .run)) :
    Inv p o sts outer todo ((st.setThread t { st.threads t with frames := ⟨g, i, j, s'⟩ :: rest }).setGen g x') := by
  have hmono' : ∀ g', (st.gens g').memo.length ≤
      (((st.setThread t { st.threads t with frames := ⟨g, i, j, s'⟩ :: rest }).setGen g x').gens g').memo.length := by
    intro g'
    rw [setGen_gens]
    split
    · next e => subst e; exact hmono
    · exact Nat.le_refl _
  have hpos' : ∀ g', (((st.setThread t { st.threads t with frames := ⟨g, i, j, s'⟩ :: rest }).setGen g x').gens g').pos =
      (st.gens g').pos := by
    intro g'
    rw [setGen_gens]
    split
    · next e => subst e; exact hpos
    · rfl
  have hth : ((st.setThread t { st.threads t with frames := ⟨g, i, j, s'⟩ :: rest }).setGen g x').threads t =
      { st.threads t with frames := ⟨g, i, j, s'⟩ :: rest } := by simp [setThread_threads]
  refine inv_of_upd inv (t := t) ⟨?_, hmono', ?_, ?_, fun _ _ _ => rfl⟩ ?_ ?_ ?_ ?_ ?_ ?_ ?_ ?_ ?_ ?_ ?_
  · intro t' e; simp [setThread_threads, e]
  · intro t' e g'
    rw [setGen_gens]
    split
    · next e' => subst e'; exact hkeep t' e
    · rfl
  · intro t' e g' hg'
    rw [setGen_gens]
    split
    · next e' =>
      subst e'
      rcases hsame with h | h
      · exact ⟨h.1, hpos, h.2⟩
      · refine absurd hg' (not_running_elsewhere inv (t := t) ?_ t' e)
        rw [hf]; simp only [held, h.1, and_self, if_true]; omega
    · exact ⟨rfl, rfl, rfl, rfl⟩
  · intro g'
    rw [setGen_gens]
    split
    · next e' => subst e'; exact hgen
    · exact inv.gen g'
  · intro g' i'
    rw [hpos']
    exact Nat.le_trans (inv.gpos g' i') (hmono' _)
  · intro i'
    rw [hth]
    exact Nat.le_trans (inv.tpos t i') (hmono' _)
  · rw [hth]
    have hc := inv.chain t
    rw [hf] at hc
    refine chain_congr (fun g' hg' => ⟨hpos' g', ?_⟩) (chain_stage (s' := s') hc)
    rw [setGen_gens]
    split
    · next e' =>
      subst e'
      rcases hsame with h | h
      · exact h.1
      · exact absurd hg' h.2
    · rfl
  · rw [hth]
    intro f hfm
    simp only [List.mem_cons] at hfm
    rcases hfm with rfl | hfm
    · exact hframe _ (by simp [setGen_gens])
    · refine frameOk_congr (inv.frame t f (by rw [hf]; simp [hfm])) (hmono' _) (fun hr => ?_)
      rw [setGen_gens]
      split
      · next e' =>
        rcases hsame with h | h
        · rw [e']; exact h.2
        · exact absurd (mem_runGs.2 ⟨f, hfm, e', hr⟩) h.2
      · exact ⟨rfl, rfl⟩
  · intro g'
    rw [hth, setGen_gens]
    split
    · next e' => subst e'; rw [hlock]; simp [held]
    · next e' =>
      have := inv.lock t g'
      rw [hf] at this
      simp only [held, Ne.symm e', false_and, if_false] at this ⊢
      exact this
  · intro g' t'
    rw [setGen_gens]
    split
    · exact hlp t'
    · exact inv.lockPos g' t'
  · rw [hth]
    have := inv.nodup t
    rw [hf] at this
    have hr : (runGs rest).Nodup := by
      by_cases hs : s = .run
      · rw [runGs_cons_of _ _ hs] at this; exact (List.nodup_cons.1 this).2
      · rw [runGs_cons_ne _ _ hs] at this; exact this
    by_cases hs : s' = .run
    · rw [runGs_cons_of _ _ hs]; exact List.nodup_cons.2 ⟨hnd hs, hr⟩
    · rw [runGs_cons_ne _ _ hs]; exact hr
  · intro g' hg'
    rw [setGen_gens] at hg'
    have key : ∀ g', (st.gens g').running = true → (g' = g → s ≠ .run) →
        ∃ t', g' ∈ runGs (((st.setThread t { st.threads t with frames := ⟨g, i, j, s'⟩ :: rest }).setGen g x').threads t').frames := by
      intro g' hr hne
      obtain ⟨t', ht'⟩ := inv.running g' hr
      refine ⟨t', ?_⟩
      by_cases e : t' = t
      · subst e
        rw [hth]
        rw [hf] at ht'
        refine mem_runGs_tail ?_
        by_cases hs : s = .run
        · rw [runGs_cons_of _ _ hs, List.mem_cons] at ht'
          rcases ht' with rfl | h
          · exact absurd hs (hne rfl)
          · exact h
        · rw [runGs_cons_ne _ _ hs] at ht'; exact ht'
      · simp [setThread_threads, e]; exact ht'
    split at hg'
    · next e' =>
      subst e'
      rcases hrun hg' with h | h
      · exact ⟨t, by rw [hth, runGs_cons_of _ _ h]; simp⟩
      · exact key g' h.1 (fun _ => h.2)
    · next e' => exact key g' hg' (fun h => absurd h e')
  · intro i'; rw [hth]; exact inv.log t i'
  · intro i'
    rw [hth]
    have := inv.served t i'
    rw [hf, active_stage i' g i j s s' rest] at this
    exact this

omit [DecidableEq G] in
/-- What an executing generator waits for, it needs. -/
theorem needs_of_chain {gens : G → Gen S V E} {t : Nat} {pos : Nat → Nat} (hg : ∀ g, GenOk p o sts g (gens g)) :
    ∀ (rest : List (Frame G V E)) (f : Frame G V E), (∀ h ∈ rest, FrameOk o gens h) → Chain p outer t gens pos (f :: rest) →
      ∀ h ∈ rest, Needs p o sts (h.g, h.j) (f.g, f.j)
  | [], _, _, _, _, hm => by cases hm
  | h :: rest, f, hfr, hc, h', hm => by
    obtain ⟨h1, h2, h3, ⟨s, k, h4, h5⟩, h6⟩ := hc
    have hone : Needs p o sts (h.g, h.j) (f.g, f.j) := by
      have hfo := hfr h (by simp)
      unfold FrameOk at hfo
      rw [h1] at hfo
      obtain ⟨n, hn, hx⟩ := hg h.g
      rw [hfo.1] at hx
      obtain ⟨s', c, e1, _, e3, e4⟩ := hx
      rw [h4] at e1
      cases e1
      have : h.j = n := by rw [hfo.2, hn, upTo_length]
      rw [this, h2, h3]
      exact .one e3 (e4 _ _ (.here h5))
    simp only [List.mem_cons] at hm
    rcases hm with rfl | hm
    · exact hone
    · exact .trans (needs_of_chain hg rest h (fun x hx => hfr x (by simp [hx])) h6 h' hm) hone

omit [DecidableEq G] in
theorem goes_next {g : G} {s : S} {pos : Nat → Nat} {i : Nat} {k : Out V E → S} {r c} (h : Goes p o g (s, pos) r c)
    (hs : p.step g s = .ask i k) : Goes p o g (k (o (p.inner g i) (pos i)), taken pos i) r c := by
  cases h with
  | yield h => rw [hs] at h; cases h
  | raise h => rw [hs] at h; cases h
  | stop h => rw [hs] at h; cases h
  | ask h h' => rw [hs] at h; cases h; exact h'

/-- An instance's position is at most at the end of the memo. -/
theorem frame_pos {st : St G S V E} (inv : Inv p o sts outer todo st) {t : Nat} {f : Frame G V E} {rest : List (Frame G V E)}
    (hf : (st.threads t).frames = f :: rest) : f.j ≤ (st.gens f.g).memo.length := by
  have hc := inv.chain t
  rw [hf] at hc
  cases rest with
  | nil => rw [hc.2, hc.1]; exact inv.tpos t f.i
  | cons h rest => rw [hc.2.2.1, hc.2.1]; exact inv.gpos h.g f.i

/-- A generator that is being executed is not asked for the item it is computing. -/
theorem not_busy (hac : Acyclic p o sts) {st : St G S V E} (inv : Inv p o sts outer todo st) {t : Nat} {g : G} {i j : Nat} {s : Stage V E}
    {rest : List (Frame G V E)} (hf : (st.threads t).frames = ⟨g, i, j, s⟩ :: rest) (hs : holds s = true) (hj : (st.gens g).memo.length ≤ j) :
    g ∉ runGs rest := by
  intro hm
  rw [mem_runGs] at hm
  obtain ⟨h, hm, e1, e2⟩ := hm
  have hc := inv.chain t
  have hfr := inv.frame t
  rw [hf] at hc hfr
  have hn := needs_of_chain inv.gen rest _ (fun x hx => hfr x (by simp [hx])) hc h hm
  have hle := frame_pos inv hf
  have hfo := hfr h (by simp [hm])
  unfold FrameOk at hfo
  rw [e2] at hfo
  have : h.j = j := by rw [hfo.2, e1]; simp only at hle; omega
  rw [this, e1] at hn
  exact hac _ hn

theorem lock_top {st : St G S V E} (inv : Inv p o sts outer todo st) {t : Nat} {g : G} {i j : Nat} {s : Stage V E}
    {rest : List (Frame G V E)} (hf : (st.threads t).frames = ⟨g, i, j, s⟩ :: rest) :
    own t (st.gens g).lock = (if holds s = true then 1 else 0) + held g rest := by
  rw [← inv.lock t g, hf]; simp [held]

/-- An item is computed. -/
theorem finish_inv {st : St G S V E} (inv : Inv p o sts outer todo st) {t : Nat} {g : G} {i j : Nat} {s : Stage V E}
    {rest : List (Frame G V E)} (hf : (st.threads t).frames = ⟨g, i, j, s⟩ :: rest) (hs : holds s = true) (hnr : g ∉ runGs rest)
    (hj : j = (st.gens g).memo.length) (so : Option S) (r : Out V E)
    (hso : sts g (j + 1) = so.map (fun s => (s, (st.gens g).pos))) (hr : r = o g j) :
    Inv p o sts outer todo ((st.setThread t { st.threads t with frames := ⟨g, i, j, .done r⟩ :: rest }).setGen g
      { st.gens g with state := so, running := false, memo := (st.gens g).memo ++ [r] }) := by
  obtain ⟨n, hn, _⟩ := inv.gen g
  have hjn : j = n := by rw [hj, hn, upTo_length]
  refine retop_inv inv hf _ rfl ?_ ?_ ?_ ?_ ?_ ?_ ?_ ?_ ?_
  · simp
  · refine ⟨n + 1, ?_, ?_⟩
    · simp only; rw [hn, upTo_succ, hr, hjn]
    · simp only; rw [← hjn]; exact hso
  · intro gens e
    exact ⟨hr, by simp only [e, List.length_append, List.length_cons]; omega⟩
  · rw [lock_top inv hf, hs]; rfl
  · intro _ _; rfl
  · exact inv.lockPos g
  · exact .inr ⟨hs, hnr⟩
  · intro h; cases h
  · intro h; cases h

theorem push_inv {st : St G S V E} (inv : Inv p o sts outer todo st) {t : Nat} {fs : List (Frame G V E)} {f : Frame G V E} {todo' : List Nat}
    (hc : Chain p outer t st.gens (st.threads t).pos (f :: fs)) (hs : f.stage = .wait) (hfs : fs = (st.threads t).frames)
    (hserved : ∀ i, todo'.count i + active i (f :: fs) = (st.threads t).todo.count i + active i (st.threads t).frames) :
    Inv p o sts outer todo (st.setThread t { st.threads t with frames := f :: fs, todo := todo' }) := by
  subst hfs
  have hth : (st.setThread t { st.threads t with frames := f :: (st.threads t).frames, todo := todo' }).threads t =
      { st.threads t with frames := f :: (st.threads t).frames, todo := todo' } := by simp [setThread_threads]
  have hrg : runGs (f :: (st.threads t).frames) = runGs (st.threads t).frames := runGs_cons_ne _ _ (by rw [hs]; intro h; cases h)
  refine inv_of_upd inv (t := t) ⟨?_, fun _ => Nat.le_refl _, fun _ _ _ => rfl, fun _ _ _ _ => ⟨rfl, rfl, rfl, rfl⟩, fun _ _ _ => rfl⟩
    inv.gen inv.gpos ?_ ?_ ?_ ?_ inv.lockPos ?_ ?_ ?_ ?_
  · intro t' e; simp [setThread_threads, e]
  · rw [hth]; exact inv.tpos t
  · rw [hth]; exact hc
  · rw [hth]
    intro x hx
    simp only [List.mem_cons] at hx
    rcases hx with rfl | hx
    · unfold FrameOk; rw [hs]; trivial
    · exact inv.frame t x hx
  · intro g
    rw [hth]
    simp only [held, hs, holds, Bool.false_eq_true, and_false, if_false, Nat.zero_add]
    exact inv.lock t g
  · rw [hth]; simp only [hrg]; exact inv.nodup t
  · intro g hg
    obtain ⟨t', ht'⟩ := inv.running g hg
    refine ⟨t', ?_⟩
    by_cases e : t' = t
    · subst e; rw [hth]; simp only [hrg]; exact ht'
    · simp [setThread_threads, e]; exact ht'
  · intro i; rw [hth]; exact inv.log t i
  · intro i
    rw [hth]
    have := inv.served t i
    have h2 := hserved i
    simp only
    omega

/-- The lock is released. -/
theorem release_facts {st : St G S V E} (inv : Inv p o sts outer todo st) {t : Nat} {g : G} {i j : Nat} {s : Stage V E}
    {rest : List (Frame G V E)} (hf : (st.threads t).frames = ⟨g, i, j, s⟩ :: rest) (hs : holds s = true) :
    own t (release (st.gens g).lock) = held g rest ∧ (∀ t', t' ≠ t → own t' (release (st.gens g).lock) = own t' (st.gens g).lock) ∧
      ∀ t', release (st.gens g).lock ≠ some (t', 0) := by
  have h := lock_top inv hf
  rw [hs] at h
  simp only [if_true] at h
  cases hl : (st.gens g).lock with
  | none => rw [hl] at h; simp only [own] at h; omega
  | some q =>
    obtain ⟨a, n⟩ := q
    rw [hl] at h
    simp only [own] at h
    by_cases e : a = t
    · subst e
      rw [if_pos rfl] at h
      have hn : 0 < n := by omega
      refine ⟨?_, ?_, ?_⟩
      · rw [release_own _ _ _ hn]; simp; omega
      · intro t' e; rw [release_own _ _ _ hn]; simp [e, own, Ne.symm e]
      · intro t'
        match n, hn with
        | 1, _ => simp [release]
        | n + 2, _ => simp [release]
    · rw [if_neg e] at h; omega

omit [DecidableEq G] in
theorem delivered_append (st : St G S V E) (gens : G → Gen S V E) (threads : Nat → Thread G V E) (t i t' i' : Nat) (r : Out V E) :
    (St.delivered ⟨gens, threads, st.log ++ [((t, i), r)]⟩ t' i') = st.delivered t' i' ++ (if t = t' ∧ i = i' then [r] else []) := by
  by_cases h : t = t' ∧ i = i'
  · obtain ⟨rfl, rfl⟩ := h; simp [St.delivered]
  · have : ¬ ((t, i) = (t', i')) := by simpa using h
    simp [St.delivered, h]

theorem deliver_inv {st : St G S V E} (inv : Inv p o sts outer todo st) {t : Nat} {g : G} {i j : Nat} {r : Out V E}
    {rest : List (Frame G V E)} (hf : (st.threads t).frames = ⟨g, i, j, .done r⟩ :: rest) :
    Inv p o sts outer todo (deliver p (st.setGen g { st.gens g with lock := release (st.gens g).lock }) t i r rest) := by
  obtain ⟨hr1, hr2, hr3⟩ := release_facts inv hf rfl
  have hfo : r = o g j ∧ j < (st.gens g).memo.length := inv.frame t ⟨g, i, j, .done r⟩ (by rw [hf]; simp)
  have hc := inv.chain t
  have hnd := inv.nodup t
  have hsv := inv.served t
  have hfr := inv.frame t
  have hlk := inv.lock t
  rw [hf] at hc hnd hsv hfr hlk
  rw [runGs_cons_ne _ _ (by simp)] at hnd
  cases rest with
  | nil =>
    obtain ⟨c1, c2⟩ := hc
    simp only at c1 c2
    simp only [deliver, setGen_threads]
    generalize hst' : ({ ((st.setGen g { st.gens g with lock := release (st.gens g).lock }).setThread t
      { st.threads t with frames := [], pos := bump (st.threads t).pos i }) with
        log := (st.setGen g { st.gens g with lock := release (st.gens g).lock }).log ++ [((t, i), r)] } : St G S V E) = st'
    have hgens : ∀ g', st'.gens g' = if g' = g then { st.gens g with lock := release (st.gens g).lock } else st.gens g' := by
      intro g'; subst hst'; rfl
    have hmemo : ∀ g', (st'.gens g').memo = (st.gens g').memo := by
      intro g'; rw [hgens]; split
      · next e => subst e; rfl
      · rfl
    have hthr : ∀ t', st'.threads t' = if t' = t then { st.threads t with frames := [], pos := bump (st.threads t).pos i } else st.threads t' := by
      intro t'; subst hst'; rfl
    have hth := hthr t
    rw [if_pos rfl] at hth
    have hdel : ∀ t' i', st'.delivered t' i' = st.delivered t' i' ++ (if t = t' ∧ i = i' then [r] else []) := by
      intro t' i'; subst hst'; exact delivered_append _ _ _ _ _ _ _ _
    have hpos : ∀ i', bump (st.threads t).pos i i' ≤ (st.gens (outer t i')).memo.length := by
      intro i'
      unfold bump
      split
      · next e => subst e; rw [← c1, ← c2]; exact hfo.2
      · exact inv.tpos t i'
    refine inv_of_upd inv (t := t) ⟨?_, ?_, ?_, ?_, ?_⟩ ?_ ?_ ?_ ?_ ?_ ?_ ?_ ?_ ?_ ?_ ?_
    · intro t' e; rw [hthr, if_neg e]
    · intro g'; rw [hmemo]; exact Nat.le_refl _
    · intro t' e g'; rw [hgens]; split
      · next e' => subst e'; exact hr2 t' e
      · rfl
    · intro t' e g' _; rw [hgens]; split
      · next e' => subst e'; exact ⟨rfl, rfl, rfl, rfl⟩
      · exact ⟨rfl, rfl, rfl, rfl⟩
    · intro t' e i'; rw [hdel]; simp [Ne.symm e]
    · intro g'; rw [hgens]; split
      · next e' => subst e'; exact inv.gen g'
      · exact inv.gen g'
    · intro g' i'
      rw [hmemo, hgens]; split
      · next e' => subst e'; exact inv.gpos g' i'
      · exact inv.gpos g' i'
    · intro i'; rw [hth, hmemo]; exact hpos i'
    · rw [hth]; trivial
    · rw [hth]; intro f hm; cases hm
    · intro g'
      rw [hth, hgens]; split
      · next e' => subst e'; rw [hr1]
      · next e' =>
        have := hlk g'
        simp only [held, Ne.symm e', false_and, if_false] at this
        exact this
    · intro g' t'
      rw [hgens]; split
      · exact hr3 t'
      · exact inv.lockPos g' t'
    · rw [hth]; exact List.nodup_nil
    · intro g' hg'
      have : (st.gens g').running = true := by
        rw [hgens] at hg'
        split at hg'
        · next e' => subst e'; exact hg'
        · exact hg'
      obtain ⟨t', ht'⟩ := inv.running g' this
      refine ⟨t', ?_⟩
      by_cases e : t' = t
      · subst e; rw [hf] at ht'; simp [runGs] at ht'
      · rw [hthr, if_neg e]; exact ht'
    · intro i'
      rw [hth, hdel, inv.log t i']
      simp only [bump]
      by_cases e : i' = i
      · subst e; simp only [and_self, if_true]; rw [upTo_succ, ← c2, ← c1, hfo.1]
      · simp [e, Ne.symm e]
    · intro i'
      rw [hth]
      have := hsv i'
      simp only [active, List.getLast?_nil, bump] at this ⊢
      simp only [List.getLast?_singleton] at this
      by_cases e : i' = i
      · subst e; simp at this ⊢; omega
      · simp [e, Ne.symm e] at this ⊢; omega
  | cons h rest =>
    obtain ⟨c1, c2, c3, ⟨s, k, c4, c5⟩, c6⟩ := hc
    simp only at c1 c2 c3 c4 c5
    have hst1 : ((st.setGen g { st.gens g with lock := release (st.gens g).lock }).gens h.g).state = some s := by
      rw [setGen_gens]; split
      · next e => rw [← e]; exact c4
      · exact c4
    have hps1 : ((st.setGen g { st.gens g with lock := release (st.gens g).lock }).gens h.g).pos = (st.gens h.g).pos := by
      rw [setGen_gens]; split
      · next e => rw [← e]
      · rfl
    simp only [deliver, hst1, c5, hps1]
    generalize hst' : ((((st.setGen g { st.gens g with lock := release (st.gens g).lock }).setThread t
      { (st.setGen g { st.gens g with lock := release (st.gens g).lock }).threads t with frames := h :: rest }).setGen h.g
        { (st.setGen g { st.gens g with lock := release (st.gens g).lock }).gens h.g with state := some (k r), pos := bump (st.gens h.g).pos i }) : St G S V E) = st'
    have hlock : ∀ g', (st'.gens g').lock = if g' = g then release (st.gens g).lock else (st.gens g').lock := by
      intro g'; subst hst'
      simp only [setGen_gens, setThread_gens]
      by_cases e1 : g' = h.g
      · subst e1; by_cases e2 : h.g = g
        · simp [e2]
        · simp [e2]
      · by_cases e2 : g' = g
        · subst e2; simp [e1]
        · simp [e1, e2]
    have hmemo : ∀ g', (st'.gens g').memo = (st.gens g').memo ∧ (st'.gens g').running = (st.gens g').running := by
      intro g'; subst hst'
      simp only [setGen_gens, setThread_gens]
      by_cases e1 : g' = h.g
      · subst e1; by_cases e2 : h.g = g
        · simp [e2]
        · simp [e2]
      · by_cases e2 : g' = g
        · subst e2; simp [e1]
        · simp [e1, e2]
    have hsp : ∀ g', g' ≠ h.g → (st'.gens g').state = (st.gens g').state ∧ (st'.gens g').pos = (st.gens g').pos := by
      intro g' e1; subst hst'
      simp only [setGen_gens, setThread_gens]
      by_cases e2 : g' = g
      · subst e2; simp [e1]
      · simp [e1, e2]
    have hsph : (st'.gens h.g).state = some (k r) ∧ (st'.gens h.g).pos = bump (st.gens h.g).pos i := by
      subst hst'; simp [setGen_gens]
    have hthr : ∀ t', st'.threads t' = if t' = t then { st.threads t with frames := h :: rest } else st.threads t' := by
      intro t'; subst hst'; rfl
    have hth := hthr t
    rw [if_pos rfl] at hth
    have hdel : ∀ t' i', st'.delivered t' i' = st.delivered t' i' := by
      intro t' i'; subst hst'; rfl
    have hfh := hfr h (by simp)
    unfold FrameOk at hfh
    rw [c1] at hfh
    have hhm : h.g ∈ runGs (h :: rest) := mem_runGs.2 ⟨h, by simp, rfl, c1⟩
    rw [runGs_cons_of _ _ c1] at hnd
    have hnin := (List.nodup_cons.1 hnd).1
    have hels : ∀ t', t' ≠ t → h.g ∉ runGs (st.threads t').frames :=
      not_running_elsewhere inv (by rw [hf]; exact held_pos (mem_runGs_tail hhm))
    refine inv_of_upd inv (t := t) ⟨?_, ?_, ?_, ?_, ?_⟩ ?_ ?_ ?_ ?_ ?_ ?_ ?_ ?_ ?_ ?_ ?_
    · intro t' e; rw [hthr, if_neg e]
    · intro g'; rw [(hmemo g').1]; exact Nat.le_refl _
    · intro t' e g'; rw [hlock]; split
      · next e' => subst e'; exact hr2 t' e
      · rfl
    · intro t' e g' hg'
      have hne : g' ≠ h.g := by rintro rfl; exact hels t' e hg'
      exact ⟨(hsp g' hne).1, (hsp g' hne).2, (hmemo g').2, (hmemo g').1⟩
    · intro t' e i'; rw [hdel]
    · intro g'
      obtain ⟨n, hn, hx⟩ := inv.gen g'
      refine ⟨n, by rw [(hmemo g').1]; exact hn, ?_⟩
      rw [(hmemo g').2]
      by_cases e : g' = h.g
      · subst e
        rw [hfh.1] at hx ⊢
        obtain ⟨s', c, e1, e2, e3, e4⟩ := hx
        rw [c4] at e1; cases e1
        refine ⟨k r, c, hsph.1, ?_, e3, ?_⟩
        · rw [hsph.2, hfo.1, c2, c3, ← taken_eq_bump]; exact goes_next e2 c5
        · intro g'' m ha
          rw [hsph.2, hfo.1, c2, c3, ← taken_eq_bump] at ha
          exact e4 g'' m (.later c5 ha)
      · rw [(hsp g' e).1, (hsp g' e).2]; exact hx
    · intro g' i'
      rw [(hmemo _).1]
      by_cases e : g' = h.g
      · subst e
        rw [hsph.2]
        unfold bump
        split
        · next e' => subst e'; rw [← c2, ← c3]; exact hfo.2
        · exact inv.gpos h.g i'
      · rw [(hsp g' e).2]; exact inv.gpos g' i'
    · intro i'; rw [hth, (hmemo _).1]; exact inv.tpos t i'
    · rw [hth]
      refine chain_congr (fun g' hg' => ?_) c6
      have hne : g' ≠ h.g := by rintro rfl; exact hnin hg'
      exact ⟨(hsp g' hne).2, (hsp g' hne).1⟩
    · rw [hth]
      intro f hm
      exact frameOk_congr (hfr f (by simp at hm ⊢; exact .inr hm)) (by rw [(hmemo _).1]; exact Nat.le_refl _) (fun _ => ⟨(hmemo _).2, (hmemo _).1⟩)
    · intro g'
      rw [hth, hlock]; split
      · next e' => subst e'; rw [hr1]
      · next e' =>
        have := hlk g'
        rw [held] at this
        simp only [Ne.symm e', false_and, if_false, Nat.zero_add] at this
        exact this
    · intro g' t'
      rw [hlock]; split
      · exact hr3 t'
      · exact inv.lockPos g' t'
    · rw [hth, runGs_cons_of _ _ c1]; exact hnd
    · intro g' hg'
      rw [(hmemo g').2] at hg'
      obtain ⟨t', ht'⟩ := inv.running g' hg'
      refine ⟨t', ?_⟩
      by_cases e : t' = t
      · subst e; rw [hf, runGs_cons_ne _ _ (by simp)] at ht'; rw [hth]; exact ht'
      · rw [hthr, if_neg e]; exact ht'
    · intro i'; rw [hth, hdel]; exact inv.log t i'
    · intro i'
      rw [hth]
      have := hsv i'
      simp only [active, List.getLast?_cons_cons] at this ⊢
      exact this

omit [DecidableEq G] in
theorem sol_none {g : G} {n : Nat} (hsol : Solves p o sts) (h : sts g n = none) : o g n = .stopped ∧ sts g (n + 1) = none := by
  have := (hsol g).2 n
  rw [h] at this
  exact this

omit [DecidableEq G] in
theorem sol_some {g : G} {n : Nat} {c} (hsol : Solves p o sts) (h : sts g n = some c) : Goes p o g c (o g n) (sts g (n + 1)) := by
  have := (hsol g).2 n
  rw [h] at this
  exact this

section
variable (p outer)
variable {st : St G S V E} {t : Nat} {g : G} {i j : Nat} {rest : List (Frame G V E)}

theorem step_nil (hf : (st.threads t).frames = []) : step p outer st t = match (st.threads t).todo with
    | [] => st
    | i :: is => st.setThread t { st.threads t with frames := [⟨outer t i, i, (st.threads t).pos i, .wait⟩], todo := is } := by
  simp only [step, hf]
  rfl

theorem step_wait (hf : (st.threads t).frames = ⟨g, i, j, .wait⟩ :: rest) : step p outer st t = match (st.gens g).lock with
    | none => (st.setThread t { st.threads t with frames := ⟨g, i, j, .check⟩ :: rest }).setGen g { st.gens g with lock := some (t, 1) }
    | some (t', n) => if t' = t then
        (st.setThread t { st.threads t with frames := ⟨g, i, j, .check⟩ :: rest }).setGen g { st.gens g with lock := some (t, n + 1) } else st := by
  simp only [step, hf]
  rfl

theorem step_check (hf : (st.threads t).frames = ⟨g, i, j, .check⟩ :: rest) : step p outer st t = match (st.gens g).memo[j]? with
    | some r => st.setThread t { st.threads t with frames := ⟨g, i, j, .done r⟩ :: rest }
    | none =>
      if (st.gens g).running then (st.setThread t { st.threads t with frames := ⟨g, i, j, .done (.raised p.busy)⟩ :: rest }).setGen g
        { st.gens g with memo := (st.gens g).memo ++ [.raised p.busy] }
      else match (st.gens g).state with
        | none => (st.setThread t { st.threads t with frames := ⟨g, i, j, .done .stopped⟩ :: rest }).setGen g
          { st.gens g with memo := (st.gens g).memo ++ [.stopped] }
        | some _ => (st.setThread t { st.threads t with frames := ⟨g, i, j, .run⟩ :: rest }).setGen g { st.gens g with running := true } := by
  simp only [step, hf]
  rfl

theorem step_run (hf : (st.threads t).frames = ⟨g, i, j, .run⟩ :: rest) : step p outer st t = match (st.gens g).state with
    | none => st
    | some s => match p.step g s with
      | .yield v s => (st.setThread t { st.threads t with frames := ⟨g, i, j, .done (.item v)⟩ :: rest }).setGen g
          { st.gens g with state := some s, running := false, memo := (st.gens g).memo ++ [.item v] }
      | .raise e => (st.setThread t { st.threads t with frames := ⟨g, i, j, .done (.raised e)⟩ :: rest }).setGen g
          { st.gens g with state := none, running := false, memo := (st.gens g).memo ++ [.raised e] }
      | .stop => (st.setThread t { st.threads t with frames := ⟨g, i, j, .done .stopped⟩ :: rest }).setGen g
          { st.gens g with state := none, running := false, memo := (st.gens g).memo ++ [.stopped] }
      | .ask i' _ => st.setThread t { st.threads t with frames := ⟨p.inner g i', i', (st.gens g).pos i', .wait⟩ :: ⟨g, i, j, .run⟩ :: rest } := by
  simp only [step, hf]
  rfl

theorem step_done {r : Out V E} (hf : (st.threads t).frames = ⟨g, i, j, .done r⟩ :: rest) : step p outer st t =
    deliver p (st.setGen g { st.gens g with lock := release (st.gens g).lock }) t i r rest := by
  simp only [step, hf]
end

theorem step_inv (hsol : Solves p o sts) (hac : Acyclic p o sts) (st : St G S V E) (inv : Inv p o sts outer todo st) (t : Nat) :
    Inv p o sts outer todo (step p outer st t) := by
  cases hf : (st.threads t).frames with
  | nil =>
    rw [step_nil p outer hf]
    cases htd : (st.threads t).todo with
    | nil => exact inv
    | cons i is =>
      refine push_inv (t := t) (fs := []) (f := ⟨outer t i, i, (st.threads t).pos i, .wait⟩) inv ⟨rfl, rfl⟩ rfl hf.symm (fun i' => ?_)
      rw [htd, hf]
      simp only [active, List.getLast?_singleton, List.getLast?_nil, List.count_cons]
      by_cases e : i = i' <;> simp [e]
  | cons f rest =>
    obtain ⟨g, i, j, stage⟩ := f
    have hle : j ≤ (st.gens g).memo.length := frame_pos inv hf
    have hlt := lock_top inv hf
    obtain ⟨n, hn, hx⟩ := inv.gen g
    have hlen : (st.gens g).memo.length = n := by rw [hn, upTo_length]
    cases stage with
    | wait =>
      rw [step_wait p outer hf]
      simp only [holds, Bool.false_eq_true, if_false, Nat.zero_add] at hlt
      have key : ∀ c, (st.gens g).lock = none ∧ c = 0 ∨ (st.gens g).lock = some (t, c) →
          Inv p o sts outer todo ((st.setThread t { st.threads t with frames := ⟨g, i, j, .check⟩ :: rest }).setGen g
            { st.gens g with lock := some (t, c + 1) }) := by
        intro c hcl
        refine retop_inv inv hf _ rfl (Nat.le_refl _) (inv.gen g) (fun _ _ => trivial) ?_ ?_ ?_ (.inl ⟨rfl, rfl, rfl⟩) ?_ ?_
        · simp only [holds, own, if_true]
          rw [← hlt]
          rcases hcl with ⟨h1, rfl⟩ | h1
          · rw [h1]; rfl
          · rw [h1]; simp only [own, if_true]; omega
        · intro t' e
          simp only [own, Ne.symm e, if_false]
          rcases hcl with ⟨h1, rfl⟩ | h1
          · rw [h1]
          · rw [h1]; simp [own, Ne.symm e]
        · intro t'; simp
        · intro h; cases h
        · intro h; exact .inr ⟨h, by intro h; cases h⟩
      cases hl : (st.gens g).lock with
      | none => exact key 0 (.inl ⟨hl, rfl⟩)
      | some q =>
        obtain ⟨a, c⟩ := q
        simp only
        split
        · next e => subst e; exact key c (.inr hl)
        · exact inv
    | check =>
      rw [step_check p outer hf]
      cases hm : (st.gens g).memo[j]? with
      | some r =>
        simp only
        have h2 := upTo_get (o g) n j
        rw [← hn, hm] at h2
        split at h2
        · next hlt' =>
          cases h2
          have := retop_inv (s' := .done (o g j)) inv hf (st.gens g) rfl (Nat.le_refl _) (inv.gen g)
            (fun gens e => ⟨rfl, by simp only [e]; omega⟩) hlt (fun _ _ => rfl) (inv.lockPos g) (.inl ⟨rfl, rfl, rfl⟩)
            (fun h => by cases h) (fun h => .inr ⟨h, by simp⟩)
          have e : (st.setThread t { st.threads t with frames := ⟨g, i, j, .done (o g j)⟩ :: rest }).setGen g (st.gens g) =
              st.setThread t { st.threads t with frames := ⟨g, i, j, .done (o g j)⟩ :: rest } := by
            simp only [St.setGen, St.setThread, St.mk.injEq, and_true]
            funext g'
            split
            · next e => rw [e]
            · rfl
          rw [e] at this
          exact this
        · cases h2
      | none =>
        simp only
        have hjn : j = n := by
          have h2 := List.getElem?_eq_none_iff.1 hm
          omega
        have hnr : g ∉ runGs rest := not_busy hac inv hf rfl (by omega)
        cases hrun : (st.gens g).running with
        | true =>
          exfalso
          obtain ⟨t', ht'⟩ := inv.running g hrun
          by_cases e : t' = t
          · subst e; rw [hf, runGs_cons_ne _ _ (by simp)] at ht'; exact hnr ht'
          · refine not_running_elsewhere inv (t := t) ?_ t' e ht'
            rw [hf]; simp only [held, holds, and_self, if_true]; omega
        | false =>
          rw [hrun] at hx
          simp only at hx
          simp only [Bool.false_eq_true, if_false]
          cases hst : (st.gens g).state with
          | none =>
            rw [hst] at hx
            have hso := sol_none hsol hx
            have := finish_inv inv hf rfl hnr (by omega) none .stopped (by rw [hjn]; exact hso.2) (by rw [hjn]; exact hso.1.symm)
            exact this
          | some s =>
            rw [hst] at hx
            simp only [Option.map_some] at hx
            refine retop_inv inv hf _ rfl (Nat.le_refl _) ⟨n, hn, s, _, rfl, sol_some hsol hx, hx, fun _ _ h => h⟩ ?_ hlt (fun _ _ => rfl)
              (inv.lockPos g) (.inr ⟨rfl, hnr⟩) (fun _ => hnr) (fun _ => .inl rfl)
            intro gens e
            exact ⟨by simp only [e], by simp only [e]; omega⟩
    | run =>
      rw [step_run p outer hf]
      have hfo : (st.gens g).running = true ∧ j = (st.gens g).memo.length := inv.frame t ⟨g, i, j, .run⟩ (by rw [hf]; simp)
      rw [hfo.1] at hx
      obtain ⟨s, c, e1, e2, e3, e4⟩ := hx
      have hnr : g ∉ runGs rest := not_busy hac inv hf rfl (by omega)
      have hjn : j = n := by omega
      simp only [e1]
      cases hs : p.step g s with
      | yield v s' =>
        have h1 : o g n = .item v ∧ sts g (n + 1) = some (s', (st.gens g).pos) := by
          generalize o g n = x, sts g (n + 1) = y at e2
          cases e2 with
          | yield h => rw [hs] at h; cases h; exact ⟨rfl, rfl⟩
          | raise h => rw [hs] at h; cases h
          | stop h => rw [hs] at h; cases h
          | ask h _ => rw [hs] at h; cases h
        exact finish_inv inv hf rfl hnr hfo.2 (some s') (.item v) (by rw [hjn, h1.2]; rfl) (by rw [hjn, h1.1])
      | raise e =>
        have h1 : o g n = .raised e ∧ sts g (n + 1) = none := by
          generalize o g n = x, sts g (n + 1) = y at e2
          cases e2 with
          | yield h => rw [hs] at h; cases h
          | raise h => rw [hs] at h; cases h; exact ⟨rfl, rfl⟩
          | stop h => rw [hs] at h; cases h
          | ask h _ => rw [hs] at h; cases h
        exact finish_inv inv hf rfl hnr hfo.2 none (.raised e) (by rw [hjn, h1.2]; rfl) (by rw [hjn, h1.1])
      | stop =>
        have h1 : o g n = .stopped ∧ sts g (n + 1) = none := by
          generalize o g n = x, sts g (n + 1) = y at e2
          cases e2 with
          | yield h => rw [hs] at h; cases h
          | raise h => rw [hs] at h; cases h
          | stop h => exact ⟨rfl, rfl⟩
          | ask h _ => rw [hs] at h; cases h
        exact finish_inv inv hf rfl hnr hfo.2 none .stopped (by rw [hjn, h1.2]; rfl) (by rw [hjn, h1.1])
      | ask i' k =>
        have hc := inv.chain t
        rw [hf] at hc
        refine push_inv (t := t) (fs := ⟨g, i, j, .run⟩ :: rest) (f := ⟨p.inner g i', i', (st.gens g).pos i', .wait⟩) inv
          ⟨rfl, rfl, rfl, ⟨s, k, e1, hs⟩, hc⟩ rfl hf.symm (fun i'' => ?_)
        rw [hf]
        simp only [active, List.getLast?_cons_cons]
    | done r => rw [step_done p outer hf]; exact deliver_inv inv hf

theorem run_inv (hsol : Solves p o sts) (hac : Acyclic p o sts) (sched : List Nat) :
    Inv p o sts outer todo (run p outer todo sched) := by
  have key : ∀ (sched : List Nat) (st : St G S V E), Inv p o sts outer todo st → Inv p o sts outer todo (sched.foldl (step p outer) st) := by
    intro sched
    induction sched with
    | nil => intro st h; exact h
    | cons t sched ih => intro st h; exact ih _ (step_inv hsol hac st h t)
  refine key sched _ ⟨fun g => ⟨0, rfl, (hsol g).1⟩, fun _ _ => Nat.le_refl _, fun _ _ => Nat.le_refl _, fun _ => trivial, ?_,
    fun _ _ => rfl, ?_, fun _ => List.nodup_nil, ?_, fun _ _ => rfl, ?_⟩
  · intro t f h; cases h
  · intro g t h; cases h
  · intro g h; cases h
  · intro t i; simp [init, active]

end
end Unpy.GMemoMany
