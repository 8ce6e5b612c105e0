import Verif.Model.MemoMany
import Verif.Spec.MemoMany
import Verif.Proof.Memo
/-! Invariant of the machine with several memoized functions, and how its threads can be finished. -/
namespace Unpy.MemoMany
open Unpy.Memo (Stage Frame Thread Delivery lookup release receive Stage.holds)
open Unpy.Spec.Memo Unpy.Spec.MemoMany
universe u v w
variable {K : Type u} {Out : Type v} {F : Type w} [DecidableEq K] [DecidableEq F]

def holds (fn : K → F) (l : F) : List (Frame K Out) → Nat
  | [] => 0
  | fr :: fs => (if fn fr.key = l then fr.stage.holds else 0) + holds fn l fs

def count (o : Option (Nat × Nat)) (t : Nat) : Nat :=
  match o with
  | some (t', n) => if t' = t then n else 0
  | none => 0

def FrOK (body : K → List Out → K ⊕ Out) (memo : List (K × (Out × Nat))) (evals : List K) (fr : Frame K Out) : Prop :=
  match fr.stage with
  | .run id subs => evals[id]? = some fr.key ∧ lookup memo fr.key = none ∧
      ∀ out, Eval body fr.key subs out ↔ Eval body fr.key [] out
  | .reread => lookup memo fr.key ≠ none
  | _ => True

def Chain (body : K → List Out → K ⊕ Out) (memo : List (K × (Out × Nat))) (evals : List K) : List (Frame K Out) → Prop
  | [] => True
  | fr :: rest => FrOK body memo evals fr ∧ (∀ fr2 rest', rest = fr2 :: rest' →
      ∃ id subs, fr2.stage = .run id subs ∧ body fr2.key subs = .inl fr.key) ∧ Chain body memo evals rest

structure Inv (fn : K → F) (body : K → List Out → K ⊕ Out) (st : St K Out F) : Prop where
  memoOK : ∀ k o id, lookup st.memo k = some (o, id) → Computes body k o ∧ st.evals[id]? = some k
  nodup : st.evals.Nodup
  cover : ∀ k ∈ st.evals, lookup st.memo k ≠ none ∨
    ∃ t, ∃ fr ∈ (st.threads t).frames, fr.key = k ∧ ∃ id subs, fr.stage = .run id subs
  owner : ∀ t l, holds fn l (st.threads t).frames = count (st.owner l) t
  ownerPos : ∀ l t n, st.owner l = some (t, n) → 0 < n
  chain : ∀ t, Chain body st.memo st.evals (st.threads t).frames
  log : ∀ d ∈ st.log, lookup st.memo d.key = some (d.out, d.id)

variable {fn : K → F} {body : K → List Out → K ⊕ Out}

omit [DecidableEq K] in
theorem setLock_self (owner : F → Option (Nat × Nat)) (l : F) : setLock owner l (owner l) = owner := by
  funext g; unfold setLock; split <;> simp_all

theorem chain_below {memo : List (K × (Out × Nat))} {evals : List K} {fr : Frame K Out} {rest : List (Frame K Out)}
    (h : Chain body memo evals (fr :: rest)) :
    ∀ fr2 ∈ rest, Reaches body fr2.key fr.key ∧ (∃ id subs, fr2.stage = .run id subs) ∧ FrOK body memo evals fr2 := by
  induction rest generalizing fr with
  | nil => simp
  | cons fr1 rest ih =>
    obtain ⟨_, h2, h3⟩ := h
    obtain ⟨id, subs, hs, hb⟩ := h2 fr1 rest rfl
    intro fr2 hm
    rcases List.mem_cons.mp hm with rfl | hm
    · exact ⟨.one hb, ⟨id, subs, hs⟩, h3.1⟩
    · obtain ⟨h4, h5⟩ := ih h3 fr2 hm
      exact ⟨.trans h4 (.one hb), h5⟩

theorem chain_mem {memo : List (K × (Out × Nat))} {evals : List K} {fs : List (Frame K Out)} (h : Chain body memo evals fs) :
    ∀ fr ∈ fs, FrOK body memo evals fr := by
  induction fs with
  | nil => simp
  | cons f fs ih =>
    intro fr hm
    rcases List.mem_cons.mp hm with rfl | hm
    · exact h.1
    · exact ih h.2.2 fr hm

theorem chain_mono {memo memo' : List (K × (Out × Nat))} {evals evals' : List K} {fs : List (Frame K Out)}
    (h : Chain body memo evals fs) (h1 : ∀ (i : Nat) (k : K), evals[i]? = some k → evals'[i]? = some k)
    (h2 : ∀ k, lookup memo k ≠ none → lookup memo' k ≠ none)
    (h3 : ∀ fr ∈ fs, ∀ id subs, fr.stage = .run id subs → lookup memo' fr.key = none) : Chain body memo' evals' fs := by
  induction fs with
  | nil => trivial
  | cons fr rest ih =>
    obtain ⟨a, b, c⟩ := h
    refine ⟨?_, b, ih c (fun fr hm => h3 fr (List.mem_cons_of_mem _ hm))⟩
    have h3' := h3 fr (by simp)
    unfold FrOK at a ⊢
    split
    · rename_i id subs hs
      simp only [hs] at a
      exact ⟨h1 _ _ a.1, h3' id subs hs, a.2.2⟩
    · rename_i hs
      simp only [hs] at a
      exact h2 _ a
    · trivial

omit [DecidableEq K] in
theorem holds_of_run {fs : List (Frame K Out)} {fr : Frame K Out} (hm : fr ∈ fs) {id subs} (hs : fr.stage = .run id subs) :
    0 < holds fn (fn fr.key) fs := by
  induction fs with
  | nil => simp at hm
  | cons f fs ih =>
    rcases List.mem_cons.mp hm with rfl | hm
    · simp [holds, hs, Stage.holds]; omega
    · have := ih hm; simp [holds]; omega

theorem owner_of_holds {st : St K Out F} (inv : Inv fn body st) {t : Nat} {l : F}
    (h : 0 < holds fn l (st.threads t).frames) : ∃ n, st.owner l = some (t, n) ∧ n = holds fn l (st.threads t).frames := by
  have e := inv.owner t l
  cases ho : st.owner l with
  | none => rw [ho] at e; simp [count] at e; omega
  | some p =>
    obtain ⟨t', n⟩ := p
    rw [ho] at e; simp only [count] at e
    split at e
    · rename_i e'; subst e'; exact ⟨n, rfl, e.symm⟩
    · omega

/-- Nobody else is evaluating a function whose lock is held. -/
theorem no_run_elsewhere {st : St K Out F} (inv : Inv fn body st) {t t' n : Nat} {l : F} (ho : st.owner l = some (t, n))
    (hne : t' ≠ t) {fr : Frame K Out} (hm : fr ∈ (st.threads t').frames) {id subs} (hs : fr.stage = .run id subs) :
    fn fr.key ≠ l := by
  intro e
  have h1 := holds_of_run (fn := fn) hm hs
  obtain ⟨m, h2, _⟩ := owner_of_holds inv h1
  rw [e, ho] at h2
  cases h2
  exact hne rfl

omit [DecidableEq K] [DecidableEq F] in
theorem count_release {o : Option (Nat × Nat)} {t n : Nat} (ho : o = some (t, n)) (hn : 0 < n) (t' : Nat) :
    count (release o) t' = if t' = t then n - 1 else 0 := by
  subst ho
  rw [Memo.release_owner _ _ hn]
  by_cases h : t' = t
  · subst h; split <;> simp_all [count]
  · have h' : t ≠ t' := fun e => h e.symm
    split <;> simp [count, h, h']

omit [DecidableEq K] [DecidableEq F] in
theorem release_pos {o : Option (Nat × Nat)} {t n : Nat} (ho : o = some (t, n)) (hn : 0 < n) :
    ∀ t' m, release o = some (t', m) → 0 < m ∧ t' = t := by
  subst ho
  rw [Memo.release_owner _ _ hn]
  intro t' m h
  split at h
  · cases h
  · cases h; exact ⟨by omega, rfl⟩

/-- Change the frames of one thread, keeping its running frames, and the lock of one function. -/
theorem set_inv {st : St K Out F} (inv : Inv fn body st) (t : Nat) (th : Thread K Out) (l : F) (o : Option (Nat × Nat))
    (hrun : ∀ fr ∈ (st.threads t).frames, ∀ id subs, fr.stage = .run id subs → fr ∈ th.frames)
    (hchain : Chain body st.memo st.evals th.frames) (hl : holds fn l th.frames = count o t)
    (hne : ∀ g, g ≠ l → holds fn g th.frames = holds fn g (st.threads t).frames)
    (ho : ∀ t', t' ≠ t → count o t' = count (st.owner l) t') (hpos : ∀ t n, o = some (t, n) → 0 < n) :
    Inv fn body { st.setThread t th with owner := setLock st.owner l o } := by
  refine ⟨inv.memoOK, inv.nodup, ?_, ?_, ?_, ?_, inv.log⟩
  · intro k hk
    rcases inv.cover k hk with h | ⟨t', fr, hm, hk, id, subs, hs⟩
    · exact .inl h
    · refine .inr ⟨t', fr, ?_, hk, id, subs, hs⟩
      by_cases ht : t' = t
      · subst ht; simpa [St.setThread] using hrun fr hm id subs hs
      · simpa [St.setThread, ht] using hm
  · intro t' g
    by_cases ht : t' = t
    · subst ht
      by_cases hg : g = l
      · subst hg; simpa [St.setThread, setLock] using hl
      · simpa [St.setThread, setLock, hg, ← inv.owner t' g] using hne g hg
    · by_cases hg : g = l
      · subst hg; simpa [St.setThread, setLock, ht, ho t' ht] using inv.owner t' g
      · simpa [St.setThread, setLock, hg, ht] using inv.owner t' g
  · intro g t' n e
    simp only [setLock] at e
    split at e
    · exact hpos _ _ e
    · exact inv.ownerPos _ _ _ e
  · intro t'
    by_cases ht : t' = t
    · subst ht; simpa [St.setThread] using hchain
    · simpa [St.setThread, ht] using inv.chain t'

/-- The same without the lock. -/
theorem set_inv' {st : St K Out F} (inv : Inv fn body st) (t : Nat) (th : Thread K Out)
    (hrun : ∀ fr ∈ (st.threads t).frames, ∀ id subs, fr.stage = .run id subs → fr ∈ th.frames)
    (hchain : Chain body st.memo st.evals th.frames)
    (hne : ∀ g, holds fn g th.frames = holds fn g (st.threads t).frames) : Inv fn body (st.setThread t th) := by
  refine ⟨inv.memoOK, inv.nodup, ?_, ?_, inv.ownerPos, ?_, inv.log⟩
  · intro k hk
    rcases inv.cover k hk with h | ⟨t', fr, hm, hk, id, subs, hs⟩
    · exact .inl h
    · refine .inr ⟨t', fr, ?_, hk, id, subs, hs⟩
      by_cases ht : t' = t
      · subst ht; simpa [St.setThread] using hrun fr hm id subs hs
      · simpa [St.setThread, ht] using hm
  · intro t' g
    by_cases ht : t' = t
    · subst ht; simpa [St.setThread, ← inv.owner t' g] using hne g
    · simpa [St.setThread, ht] using inv.owner t' g
  · intro t'
    by_cases ht : t' = t
    · subst ht; simpa [St.setThread] using hchain
    · simpa [St.setThread, ht] using inv.chain t'

omit [DecidableEq K] [DecidableEq F] in
theorem deliver_eq (st : St K Out F) (t : Nat) (k : K) (rest : List (Frame K Out)) (r : Out × Nat) :
    deliver st t k rest r = { st.setThread t { st.threads t with frames := receive rest r.1 } with
      log := st.log ++ [⟨t, k, r.1, r.2⟩] } := by
  unfold deliver receive
  split
  · rfl
  · simp only

theorem deliver_inv {st : St K Out F} (inv : Inv fn body st) (t : Nat) (k : K) (s : Stage Out)
    (hs : s = .probe ∨ s = .reread) (rest : List (Frame K Out)) (hf : (st.threads t).frames = ⟨k, s⟩ :: rest) (r : Out × Nat)
    (hr : lookup st.memo k = some r) : Inv fn body (deliver st t k rest r) := by
  have hhold : s.holds = 0 := by rcases hs with rfl | rfl <;> rfl
  have hch := inv.chain t
  rw [hf] at hch
  obtain ⟨_, hc2, hc3⟩ := hch
  have key : Chain body st.memo st.evals (receive rest r.1) ∧ (∀ g, holds fn g (receive rest r.1) = holds fn g rest) ∧
      (∀ fr ∈ rest, ∀ id subs, fr.stage = .run id subs →
        ∃ fr' ∈ receive rest r.1, fr'.key = fr.key ∧ ∃ id subs, fr'.stage = .run id subs) := by
    cases rest with
    | nil => exact ⟨trivial, fun _ => rfl, by simp⟩
    | cons fr2 rest2 =>
      obtain ⟨id, subs, hs2, hb⟩ := hc2 fr2 rest2 rfl
      obtain ⟨k2, s2⟩ := fr2
      simp only at hs2 hb
      subst hs2
      simp only [receive]
      refine ⟨?_, ?_, ?_⟩
      · obtain ⟨a, b, c⟩ := hc3
        refine ⟨?_, b, c⟩
        unfold FrOK at a ⊢
        simp only at a ⊢
        refine ⟨a.1, a.2.1, fun out => ?_⟩
        rw [← a.2.2 out]
        have hco := (inv.memoOK k r.1 r.2 hr).1
        constructor
        · exact fun ho => Eval.call hb hco ho
        · intro ho
          cases ho with
          | ret h2 => rw [hb] at h2; cases h2
          | call h2 h3 h4 =>
            rw [hb] at h2
            cases h2
            rw [Memo.Eval.det hco h3]
            exact h4
      · intro g; simp [holds, Stage.holds]
      · intro fr hm id' subs' hs'
        rcases List.mem_cons.mp hm with rfl | hm
        · exact ⟨_, List.mem_cons_self, rfl, id, _, rfl⟩
        · exact ⟨fr, by simp [hm], rfl, id', subs', hs'⟩
  obtain ⟨hch', hhc, hrun⟩ := key
  rw [deliver_eq]
  refine ⟨inv.memoOK, inv.nodup, ?_, ?_, inv.ownerPos, ?_, ?_⟩
  · intro k' hk'
    rcases inv.cover k' hk' with h | ⟨t', fr, hm, hk, id, subs, hs'⟩
    · exact .inl h
    · refine .inr ⟨t', ?_⟩
      by_cases ht : t' = t
      · subst ht
        rw [hf] at hm
        rcases List.mem_cons.mp hm with rfl | hm
        · simp only at hs'; rcases hs with h | h <;> simp [h] at hs'
        · obtain ⟨fr', h1, h2, h3⟩ := hrun fr hm id subs hs'
          exact ⟨fr', by simpa [St.setThread] using h1, by rw [h2, hk], h3⟩
      · exact ⟨fr, by simpa [St.setThread, ht] using hm, hk, id, subs, hs'⟩
  · intro t' g
    by_cases ht : t' = t
    · subst ht
      have h := inv.owner t' g
      rw [hf] at h
      simp [holds, hhold] at h
      simpa [St.setThread, hhc g] using h
    · simpa [St.setThread, ht] using inv.owner t' g
  · intro t'
    by_cases ht : t' = t
    · subst ht; simpa [St.setThread] using hch'
    · simpa [St.setThread, ht] using inv.chain t'
  · intro d hd
    rcases List.mem_append.mp hd with h | h
    · exact inv.log d h
    · simp at h; subst h; simpa [St.setThread] using hr

theorem step_inv (hac : Acyclic body) {st : St K Out F} (inv : Inv fn body st) (t : Nat) : Inv fn body (step fn body st t) := by
  unfold step
  simp only
  split
  · -- idle
    rename_i hf
    split
    · exact inv
    · rename_i k ks htodo
      exact set_inv' inv t ⟨[⟨k, .probe⟩], ks⟩ (by simp [hf]) ⟨trivial, by simp, trivial⟩
        (by intro g; simp [hf, holds, Stage.holds])
  · -- probe
    rename_i k rest hf
    split
    · rename_i r hr
      exact deliver_inv inv t k _ (.inl rfl) rest hf r hr
    · have hch := inv.chain t
      rw [hf] at hch
      refine set_inv' inv t _ ?_ ⟨trivial, hch.2.1, hch.2.2⟩ (by intro g; simp [hf, holds, Stage.holds])
      intro fr hm id subs hs
      rw [hf] at hm
      rcases List.mem_cons.mp hm with rfl | hm
      · simp at hs
      · exact List.mem_cons_of_mem _ hm
  · -- wait
    rename_i k rest hf
    have hch := inv.chain t
    rw [hf] at hch
    have hrun : ∀ fr ∈ (st.threads t).frames, ∀ id subs, fr.stage = .run id subs →
        fr ∈ (⟨k, .check⟩ : Frame K Out) :: rest := by
      intro fr hm id subs hs
      rw [hf] at hm
      rcases List.mem_cons.mp hm with rfl | hm
      · simp at hs
      · exact List.mem_cons_of_mem _ hm
    have hne : ∀ g, g ≠ fn k → holds fn g ((⟨k, .check⟩ : Frame K Out) :: rest) = holds fn g (st.threads t).frames := by
      intro g hg
      have hg' : fn k ≠ g := fun e => hg e.symm
      simp [hf, holds, hg']
    have h := inv.owner t (fn k)
    rw [hf] at h
    simp [holds, Stage.holds] at h
    split
    · rename_i ho
      rw [ho] at h
      simp [count] at h
      refine set_inv inv t _ _ _ hrun ⟨trivial, hch.2.1, hch.2.2⟩ (by simp [holds, Stage.holds, count, h]) hne ?_ ?_
      · intro t' ht
        have ht' : t ≠ t' := fun e => ht e.symm
        simp [count, ho, ht']
      · intro t n e; simp at e; omega
    · rename_i t' n ho
      split
      · rename_i e
        subst e
        rw [ho] at h
        simp [count] at h
        refine set_inv inv t' _ _ _ hrun ⟨trivial, hch.2.1, hch.2.2⟩ (by simp [holds, Stage.holds, count, h]; omega) hne ?_ ?_
        · intro t'' ht
          have ht' : t' ≠ t'' := fun e => ht e.symm
          simp [count, ho, ht']
        · intro t n e; simp at e; omega
      · exact inv
  · -- check
    rename_i k rest hf
    have hch := inv.chain t
    rw [hf] at hch
    have hbelow := chain_below hch
    have hpos : 0 < holds fn (fn k) (st.threads t).frames := by rw [hf]; simp [holds, Stage.holds]; omega
    obtain ⟨n, hown, hn⟩ := owner_of_holds inv hpos
    split
    · rename_i hnone
      have hk : k ∉ st.evals := by
        intro hk
        rcases inv.cover k hk with h | ⟨t', fr, hm, hk', id, subs, hs⟩
        · exact h hnone
        · by_cases ht : t' = t
          · subst ht
            rw [hf] at hm
            rcases List.mem_cons.mp hm with rfl | hm
            · simp at hs
            · have := (hbelow fr hm).1; rw [hk'] at this; exact hac _ this
          · exact no_run_elsewhere inv hown ht hm hs (by rw [hk'])
      have hext : ∀ (i : Nat) (k' : K), st.evals[i]? = some k' → (st.evals ++ [k])[i]? = some k' := by
        intro i k' h
        rw [List.getElem?_append_left (List.getElem?_eq_some_iff.mp h).1]; exact h
      have hchain' : ∀ fs, Chain body st.memo st.evals fs → Chain body st.memo (st.evals ++ [k]) fs := by
        intro fs h
        refine chain_mono h hext (fun _ h => h) fun fr hm id subs hs => ?_
        have := chain_mem h fr hm
        unfold FrOK at this
        rw [hs] at this
        exact this.2.1
      refine ⟨?_, ?_, ?_, ?_, inv.ownerPos, ?_, inv.log⟩
      · intro k' o id h
        obtain ⟨h1, h2⟩ := inv.memoOK k' o id h
        exact ⟨h1, hext _ _ h2⟩
      · show (st.evals ++ [k]).Nodup
        rw [List.nodup_append]
        refine ⟨inv.nodup, by simp, ?_⟩
        intro a ha b hb e; simp at hb; subst hb; subst e; exact hk ha
      · intro k' hk'
        rcases List.mem_append.mp hk' with hk' | hk'
        · rcases inv.cover k' hk' with h | ⟨t', fr, hm, hke, id, subs, hs⟩
          · exact .inl h
          · refine .inr ⟨t', fr, ?_, hke, id, subs, hs⟩
            by_cases ht : t' = t
            · subst ht
              rw [hf] at hm
              rcases List.mem_cons.mp hm with rfl | hm
              · simp at hs
              · simp [St.setThread, hm]
            · simpa [St.setThread, ht] using hm
        · simp at hk'; subst hk'
          exact .inr ⟨t, _, by simp [St.setThread]; left; rfl, rfl, _, _, rfl⟩
      · intro t' g
        have h := inv.owner t' g
        by_cases ht : t' = t
        · subst ht; rw [hf] at h; simpa [St.setThread, holds, Stage.holds] using h
        · simpa [St.setThread, ht] using h
      · intro t'
        by_cases ht : t' = t
        · subst ht
          simp only [St.setThread, if_true]
          refine ⟨?_, hch.2.1, hchain' _ hch.2.2⟩
          unfold FrOK
          simp only
          exact ⟨by simp, hnone, by simp⟩
        · simp only [St.setThread, ht, if_false]
          exact hchain' _ (inv.chain t')
    · rename_i r hr
      have hn0 := inv.ownerPos _ _ _ hown
      refine set_inv inv t _ _ _ ?_ ⟨by unfold FrOK; simp [hr], hch.2.1, hch.2.2⟩ ?_ ?_ ?_ ?_
      · intro fr hm id subs hs
        rw [hf] at hm
        rcases List.mem_cons.mp hm with rfl | hm
        · simp at hs
        · exact List.mem_cons_of_mem _ hm
      · rw [count_release hown hn0]
        rw [hf] at hn
        simp [holds, Stage.holds] at hn ⊢
        omega
      · intro g hg
        have hg' : fn k ≠ g := fun e => hg e.symm
        simp [hf, holds, hg']
      · intro t' ht
        have ht' : t ≠ t' := fun e => ht e.symm
        rw [count_release hown hn0, hown]
        simp [count, ht, ht']
      · exact fun t' m e => (release_pos hown hn0 t' m e).1
  · -- run
    rename_i k id subs rest hf
    have hch := inv.chain t
    rw [hf] at hch
    have hbelow := chain_below hch
    have hpos : 0 < holds fn (fn k) (st.threads t).frames := by rw [hf]; simp [holds, Stage.holds]; omega
    obtain ⟨n, hown, hn⟩ := owner_of_holds inv hpos
    have hn0 := inv.ownerPos _ _ _ hown
    have hfr : st.evals[id]? = some k ∧ lookup st.memo k = none ∧ ∀ out, Eval body k subs out ↔ Eval body k [] out := by
      have := hch.1; unfold FrOK at this; simpa using this
    split
    · rename_i k' hb
      refine set_inv' inv t _ ?_ ?_ (by intro g; simp [hf, holds, Stage.holds])
      · intro fr hm id' subs' hs; rw [hf] at hm; exact List.mem_cons_of_mem _ hm
      · refine ⟨trivial, ?_, hch⟩
        intro fr2 rest' e
        simp at e; obtain ⟨rfl, rfl⟩ := e
        exact ⟨id, subs, rfl, hb⟩
    · rename_i out hb
      have hcomp : Computes body k out := (hfr.2.2 out).1 (.ret hb)
      have hmono : ∀ k', lookup st.memo k' ≠ none → lookup ((k, (out, id)) :: st.memo) k' ≠ none := by
        intro k' h; rw [Memo.lookup_cons]; split <;> simp_all
      have hother : ∀ k', k' ≠ k → lookup ((k, (out, id)) :: st.memo) k' = lookup st.memo k' := by
        intro k' h; rw [Memo.lookup_cons, if_neg (fun e => h e.symm)]
      have hnone : ∀ t' fr id' subs', fr ∈ (st.threads t').frames → fr.stage = .run id' subs' → lookup st.memo fr.key = none := by
        intro t' fr id' subs' hm hs
        have := chain_mem (inv.chain t') fr hm
        unfold FrOK at this
        rw [hs] at this
        exact this.2.1
      refine ⟨?_, inv.nodup, ?_, ?_, ?_, ?_, ?_⟩
      · intro k' o id' h
        simp only [Memo.lookup_cons] at h
        split at h
        · rename_i e; subst e; simp at h; obtain ⟨rfl, rfl⟩ := h; exact ⟨hcomp, hfr.1⟩
        · exact inv.memoOK k' o id' h
      · intro k' hk'
        by_cases e : k' = k
        · left; simp [Memo.lookup_cons, e]
        · rcases inv.cover k' hk' with h | ⟨t', fr, hm, hke, id', subs', hs⟩
          · exact .inl (hmono _ h)
          · refine .inr ⟨t', fr, ?_, hke, id', subs', hs⟩
            by_cases ht : t' = t
            · subst ht
              rw [hf] at hm
              rcases List.mem_cons.mp hm with rfl | hm
              · exact absurd hke.symm e
              · simp [St.setThread, hm]
            · simpa [St.setThread, ht] using hm
      · intro t' g
        have h := inv.owner t' g
        by_cases ht : t' = t
        · subst ht
          by_cases hg : g = fn k
          · subst hg
            rw [hf] at hn
            simp only [St.setThread, if_true, setLock, count_release hown hn0]
            simp [holds, Stage.holds] at hn ⊢
            omega
          · have hg' : fn k ≠ g := fun e => hg e.symm
            rw [hf] at h
            simpa [St.setThread, setLock, hg, holds, hg'] using h
        · by_cases hg : g = fn k
          · subst hg
            rw [hown] at h
            have ht' : t ≠ t' := fun e => ht e.symm
            simp [count, ht'] at h
            simp [St.setThread, setLock, count_release hown hn0, ht, h]
          · simpa [St.setThread, setLock, hg, ht] using h
      · intro g t' m e
        simp only [setLock] at e
        split at e
        · exact (release_pos hown hn0 t' m e).1
        · exact inv.ownerPos _ _ _ e
      · intro t'
        by_cases ht : t' = t
        · subst ht
          simp only [St.setThread, if_true]
          refine ⟨by unfold FrOK; simp [Memo.lookup_cons], hch.2.1, ?_⟩
          refine chain_mono hch.2.2 (fun _ _ h => h) hmono fun fr hm id' subs' hs => ?_
          have hne : fr.key ≠ k := by intro e; have := (hbelow fr hm).1; rw [e] at this; exact hac _ this
          rw [hother _ hne]
          exact hnone t' fr id' subs' (by rw [hf]; exact List.mem_cons_of_mem _ hm) hs
        · simp only [St.setThread, ht, if_false]
          refine chain_mono (inv.chain t') (fun _ _ h => h) hmono fun fr hm id' subs' hs => ?_
          have hne : fr.key ≠ k := fun e => no_run_elsewhere inv hown ht hm hs (by rw [e])
          rw [hother _ hne]
          exact hnone t' fr id' subs' hm hs
      · intro d hd
        have := inv.log d hd
        have hne : d.key ≠ k := by intro e; rw [e, hfr.2.1] at this; simp at this
        show lookup ((k, (out, id)) :: st.memo) d.key = _
        rw [hother _ hne]; exact this
  · -- reread
    rename_i k rest hf
    split
    · rename_i r hr
      exact deliver_inv inv t k _ (.inr rfl) rest hf r hr
    · exact inv

theorem init_inv (todo : Nat → List K) : Inv fn body (init todo) := by
  refine ⟨?_, by simp [init], by simp [init], ?_, by simp [init], ?_, by simp [init]⟩
  · intro k o id h; simp [init, lookup] at h
  · intro t l; simp [init, holds, count]
  · intro t; trivial

theorem foldl_inv (hac : Acyclic body) (sched : List Nat) : ∀ {st : St K Out F}, Inv fn body st →
    Inv fn body (sched.foldl (step fn body) st) := by
  induction sched with
  | nil => intro st h; exact h
  | cons t sched ih => intro st h; exact ih (step_inv hac h t)

theorem run_inv (hac : Acyclic body) (todo : Nat → List K) (sched : List Nat) : Inv fn body (run fn body todo sched) :=
  foldl_inv hac sched (init_inv todo)

/-! ## One thread alone -/

def steps (fn : K → F) (body : K → List Out → K ⊕ Out) (t : Nat) (n : Nat) (st : St K Out F) : St K Out F :=
  (List.replicate n t).foldl (step fn body) st

theorem steps_add (t a b : Nat) (st : St K Out F) : steps fn body t (a + b) st = steps fn body t b (steps fn body t a st) := by
  unfold steps
  rw [← List.replicate_append_replicate, List.foldl_append]

theorem steps_succ (t a : Nat) (st : St K Out F) :
    steps fn body t (a + 1) st = steps fn body t a (step fn body st t) := by
  rw [Nat.add_comm, steps_add]; rfl

theorem steps_inv (hac : Acyclic body) (t n : Nat) {st : St K Out F} (inv : Inv fn body st) :
    Inv fn body (steps fn body t n st) := foldl_inv hac _ inv

theorem step_others (st : St K Out F) (t t' : Nat) (h : t' ≠ t) : (step fn body st t).threads t' = st.threads t' := by
  unfold step
  simp only
  split <;> (try split) <;> (try split) <;> simp [St.setThread, h, deliver]

theorem steps_others (t t' n : Nat) (h : t' ≠ t) : ∀ st : St K Out F, (steps fn body t n st).threads t' = st.threads t' := by
  induction n with
  | zero => intro st; rfl
  | succ n ih => intro st; rw [steps_succ, ih, step_others _ _ _ h]

/-- The lock is free, or held by this thread. -/
def Avail (st : St K Out F) (t : Nat) (l : F) : Prop := ∀ t' n, st.owner l = some (t', n) → t' = t

omit [DecidableEq K] in
theorem release_avail {o : Option (Nat × Nat)} {t : Nat} (h : ∀ t' n, o = some (t', n) → t' = t) :
    ∀ t' n, release o = some (t', n) → t' = t := by
  intro t' n e
  unfold release at e
  split at e
  · cases e; exact h _ _ rfl
  · cases e

theorem step_avail {st : St K Out F} {t : Nat} {l : F} (h : Avail st t l) : Avail (step fn body st t) t l := by
  unfold step
  simp only
  split <;> (try split) <;> (try split) <;> try exact h
  all_goals
    intro t' n e
    simp only [setLock] at e
    split at e
  all_goals first
    | exact h t' n e
    | (cases e; rfl)
    | (rename_i hl; subst hl; exact release_avail h t' n e)

theorem steps_avail (t n : Nat) {l : F} : ∀ {st : St K Out F}, Avail st t l → Avail (steps fn body t n st) t l := by
  induction n with
  | zero => intro st h; exact h
  | succ n ih => intro st h; rw [steps_succ]; exact ih (step_avail h)

/-- The locks that a call may need. -/
def Needs (fn : K → F) (body : K → List Out → K ⊕ Out) (k : K) (l : F) : Prop := l = fn k ∨ ∃ k', Reaches body k k' ∧ l = fn k'

omit [DecidableEq K] [DecidableEq F] in
theorem needs_mono {k k' : K} (h : Reaches body k k') {l : F} (hl : Needs fn body k' l) : Needs fn body k l := by
  rcases hl with rfl | ⟨k'', h2, rfl⟩
  · exact .inr ⟨_, h, rfl⟩
  · exact .inr ⟨_, .trans h h2, rfl⟩

/-- The running evaluation of `k` (with `subs` received) can be finished by `t` alone. -/
def Finishes (fn : K → F) (body : K → List Out → K ⊕ Out) (t : Nat) (k : K) (subs : List Out) (out : Out) : Prop :=
  ∀ (st : St K Out F) (id : Nat) (rest : List (Frame K Out)), Inv fn body st →
    (st.threads t).frames = ⟨k, .run id subs⟩ :: rest → (∀ l, Needs fn body k l → Avail st t l) →
    ∃ n, ((steps fn body t n st).threads t).frames = ⟨k, .reread⟩ :: rest ∧
      ((steps fn body t n st).threads t).todo = (st.threads t).todo ∧
      lookup (steps fn body t n st).memo k = some (out, id)

/-- Likewise a call, up to its return. -/
def Returns (fn : K → F) (body : K → List Out → K ⊕ Out) (t : Nat) (st : St K Out F) (rest : List (Frame K Out)) (out : Out) : Prop :=
  ∃ n, ((steps fn body t n st).threads t).frames = receive rest out ∧
    ((steps fn body t n st).threads t).todo = (st.threads t).todo

theorem Returns.after {t : Nat} {st : St K Out F} {rest : List (Frame K Out)} {out : Out} (n : Nat)
    (ht : ((steps fn body t n st).threads t).todo = (st.threads t).todo)
    (h : Returns fn body t (steps fn body t n st) rest out) : Returns fn body t st rest out := by
  obtain ⟨m, h1, h2⟩ := h
  exact ⟨n + m, by rw [steps_add]; exact h1, by rw [steps_add, h2, ht]⟩

theorem found_returns {t : Nat} {st : St K Out F} {k : K} {s : Stage Out} (hs : s = .probe ∨ s = .reread)
    {rest : List (Frame K Out)} (hf : (st.threads t).frames = ⟨k, s⟩ :: rest) {r : Out × Nat} (hr : lookup st.memo k = some r) :
    Returns fn body t st rest r.1 := by
  refine ⟨1, ?_⟩
  have : steps fn body t 1 st = deliver st t k rest r := by
    rcases hs with rfl | rfl <;> simp [steps, step, hf, hr]
  rw [this, deliver_eq]
  simp [St.setThread]

theorem run_returns (hac : Acyclic body) {t : Nat} {st : St K Out F} (inv : Inv fn body st) {k : K} {id : Nat} {subs : List Out}
    {rest : List (Frame K Out)} (hf : (st.threads t).frames = ⟨k, .run id subs⟩ :: rest)
    (hav : ∀ l, Needs fn body k l → Avail st t l) {out : Out} (hfin : Finishes fn body t k subs out) :
    Returns fn body t st rest out := by
  obtain ⟨n, h1, h2, h3⟩ := hfin st id rest inv hf hav
  exact .after n h2 (found_returns (.inr rfl) h1 h3)

theorem check_returns (hac : Acyclic body) {t : Nat} {st : St K Out F} (inv : Inv fn body st) {k : K}
    {rest : List (Frame K Out)} (hf : (st.threads t).frames = ⟨k, .check⟩ :: rest)
    (hav : ∀ l, Needs fn body k l → Avail st t l) {out : Out} (he : Computes body k out) (hfin : Finishes fn body t k [] out) :
    Returns fn body t st rest out := by
  have inv1 := steps_inv hac t 1 inv
  cases hl : lookup st.memo k with
  | none =>
    refine .after 1 (by simp [steps, step, hf, hl, St.setThread]) (run_returns hac inv1 (k := k) (id := st.evals.length)
      (subs := []) ?_ (fun l h => steps_avail t 1 (hav l h)) hfin)
    simp [steps, step, hf, hl, St.setThread]
  | some r =>
    have hr := Memo.Eval.det (inv.memoOK k r.1 r.2 hl).1 he
    subst hr
    refine .after 1 (by simp [steps, step, hf, hl, St.setThread]) (found_returns (k := k) (.inr rfl) ?_ ?_)
    · simp [steps, step, hf, hl, St.setThread]
    · simp [steps, step, hf, hl, St.setThread]

theorem wait_returns (hac : Acyclic body) {t : Nat} {st : St K Out F} (inv : Inv fn body st) {k : K}
    {rest : List (Frame K Out)} (hf : (st.threads t).frames = ⟨k, .wait⟩ :: rest)
    (hav : ∀ l, Needs fn body k l → Avail st t l) {out : Out} (he : Computes body k out) (hfin : Finishes fn body t k [] out) :
    Returns fn body t st rest out := by
  have h : ((steps fn body t 1 st).threads t).frames = ⟨k, .check⟩ :: rest ∧
      ((steps fn body t 1 st).threads t).todo = (st.threads t).todo := by
    cases ho : st.owner (fn k) with
    | none => simp [steps, step, hf, ho, St.setThread]
    | some p =>
      obtain ⟨t', n⟩ := p
      have := hav (fn k) (.inl rfl) t' n ho
      subst this
      simp [steps, step, hf, ho, St.setThread]
  exact .after 1 h.2 (check_returns hac (steps_inv hac t 1 inv) h.1 (fun l h => steps_avail t 1 (hav l h)) he hfin)

theorem probe_returns (hac : Acyclic body) {t : Nat} {st : St K Out F} (inv : Inv fn body st) {k : K}
    {rest : List (Frame K Out)} (hf : (st.threads t).frames = ⟨k, .probe⟩ :: rest)
    (hav : ∀ l, Needs fn body k l → Avail st t l) {out : Out} (he : Computes body k out) (hfin : Finishes fn body t k [] out) :
    Returns fn body t st rest out := by
  cases hl : lookup st.memo k with
  | some r =>
    have hr := Memo.Eval.det (inv.memoOK k r.1 r.2 hl).1 he
    subst hr
    exact found_returns (.inl rfl) hf hl
  | none =>
    have h : ((steps fn body t 1 st).threads t).frames = ⟨k, .wait⟩ :: rest ∧
        ((steps fn body t 1 st).threads t).todo = (st.threads t).todo := by
      simp [steps, step, hf, hl, St.setThread]
    exact .after 1 h.2 (wait_returns hac (steps_inv hac t 1 inv) h.1 (fun l h => steps_avail t 1 (hav l h)) he hfin)

theorem finishes (hac : Acyclic body) (t : Nat) {k : K} {subs : List Out} {out : Out} (h : Eval body k subs out) :
    Finishes fn body t k subs out := by
  induction h with
  | ret hb =>
    intro st id rest inv hf _
    refine ⟨1, ?_⟩
    simp [steps, step, hf, hb, St.setThread, Memo.lookup_cons]
  | @call k subs k' o out hb he1 he2 ih1 ih2 =>
    intro st id rest inv hf hav
    have e1 : ((steps fn body t 1 st).threads t).frames = ⟨k', .probe⟩ :: ⟨k, .run id subs⟩ :: rest ∧
        ((steps fn body t 1 st).threads t).todo = (st.threads t).todo := by
      simp [steps, step, hf, hb, St.setThread]
    obtain ⟨n, h1, h2⟩ := Returns.after 1 e1.2 (probe_returns hac (steps_inv hac t 1 inv) e1.1
      (fun l h => steps_avail t 1 (hav l (needs_mono (.one hb) h))) he1 ih1)
    obtain ⟨m, hm1, hm2, hm3⟩ := ih2 (steps fn body t n st) id rest (steps_inv hac t n inv) h1
      (fun l h => steps_avail t n (hav l h))
    exact ⟨n + m, by rw [steps_add]; exact hm1, by rw [steps_add, hm2, h2], by rw [steps_add]; exact hm3⟩

theorem top_returns (hac : Acyclic body) (htot : Total body) {t : Nat} {st : St K Out F} (inv : Inv fn body st) {fr : Frame K Out}
    {rest : List (Frame K Out)} (hf : (st.threads t).frames = fr :: rest)
    (hav : ∀ l, Needs fn body fr.key l → Avail st t l) : ∃ out, Returns fn body t st rest out := by
  obtain ⟨out, he⟩ := htot fr.key
  refine ⟨out, ?_⟩
  have hch := inv.chain t
  rw [hf] at hch
  have h0 := hch.1
  obtain ⟨k, s⟩ := fr
  cases s with
  | probe => exact probe_returns hac inv hf hav he (finishes hac t he)
  | wait => exact wait_returns hac inv hf hav he (finishes hac t he)
  | check => exact check_returns hac inv hf hav he (finishes hac t he)
  | run id subs =>
    unfold FrOK at h0
    exact run_returns hac inv hf hav (finishes hac t ((h0.2.2 out).2 he))
  | reread =>
    unfold FrOK at h0
    cases hl : lookup st.memo k with
    | none => exact absurd hl h0
    | some r =>
      have hr := Memo.Eval.det (inv.memoOK k r.1 r.2 hl).1 he
      subst hr
      exact found_returns (.inr rfl) hf hl

/-- The calls in a thread down to a given one can be finished. -/
theorem seg_returns (hac : Acyclic body) (htot : Total body) {t : Nat} : ∀ (m : Nat) (st : St K Out F), Inv fn body st →
    ∀ (seg : List (Frame K Out)) (fr : Frame K Out) (rest : List (Frame K Out)), seg.length = m →
    (st.threads t).frames = seg ++ fr :: rest → (∀ l, Needs fn body fr.key l → Avail st t l) →
    ∃ out, Returns fn body t st rest out
  | 0, st, inv, seg, fr, rest, hm, hf, hav => by
    cases seg with
    | nil => exact top_returns hac htot inv hf hav
    | cons _ _ => cases hm
  | m + 1, st, inv, seg, fr, rest, hm, hf, hav => by
    cases seg with
    | nil => cases hm
    | cons f seg =>
      simp only [List.length_cons, Nat.add_right_cancel_iff] at hm
      have hch := inv.chain t
      rw [hf] at hch
      have hre := (chain_below hch fr (by simp)).1
      obtain ⟨o, n, h1, h2⟩ := top_returns hac htot inv hf (fun l h => hav l (needs_mono hre h))
      have inv' := steps_inv hac t n inv
      have hav' : ∀ l, Needs fn body fr.key l → Avail (steps fn body t n st) t l := fun l h => steps_avail t n (hav l h)
      cases seg with
      | nil =>
        obtain ⟨id, subs, hs⟩ := (chain_below hch fr (by simp)).2.1
        obtain ⟨k, s⟩ := fr
        simp only at hs
        subst hs
        simp only [List.nil_append, receive] at h1
        obtain ⟨out, hr⟩ := seg_returns hac htot m _ inv' [] _ rest hm h1 hav'
        exact ⟨out, .after n h2 hr⟩
      | cons g seg =>
        obtain ⟨id, subs, hs⟩ := (chain_below hch g (by simp)).2.1
        obtain ⟨k, s⟩ := g
        simp only at hs
        subst hs
        simp only [List.cons_append, receive] at h1
        obtain ⟨out, hr⟩ := seg_returns hac htot m _ inv' (⟨k, .run id (subs ++ [o])⟩ :: seg) fr rest (by simpa using hm) h1 hav'
        exact ⟨out, .after n h2 hr⟩

/-! ## All threads -/

def size (th : Thread K Out) : Nat := th.frames.length + 2 * th.todo.length

def work (threads : Nat → Thread K Out) : Nat → Nat
  | 0 => 0
  | n + 1 => work threads n + size (threads n)

omit [DecidableEq K] [DecidableEq F] in
theorem work_congr {th th' : Nat → Thread K Out} : ∀ n, (∀ t < n, th' t = th t) → work th' n = work th n
  | 0, _ => rfl
  | n + 1, h => by
    unfold work
    rw [work_congr n fun t ht => h t (Nat.lt_succ_of_lt ht), h n (Nat.lt_succ_self n)]

omit [DecidableEq K] [DecidableEq F] in
theorem work_lt {th th' : Nat → Thread K Out} (t : Nat) (ho : ∀ t', t' ≠ t → th' t' = th t') (hs : size (th' t) < size (th t)) :
    ∀ n, t < n → work th' n < work th n
  | 0, h => absurd h (Nat.not_lt_zero t)
  | n + 1, h => by
    unfold work
    by_cases e : t = n
    · subst e
      rw [work_congr t fun t' ht' => ho t' (Nat.ne_of_lt ht')]
      omega
    · rw [ho n fun e' => e e'.symm]
      have := work_lt t ho hs n (by omega)
      omega

omit [DecidableEq K] in
theorem held_frame {fs : List (Frame K Out)} {l : F} (h : 0 < holds fn l fs) :
    ∃ seg fr rest, fs = seg ++ fr :: rest ∧ fn fr.key = l := by
  induction fs with
  | nil => simp [holds] at h
  | cons f fs ih =>
    by_cases e : fn f.key = l
    · exact ⟨[], f, fs, rfl, e⟩
    · simp [holds, e] at h
      obtain ⟨seg, fr, rest, h1, h2⟩ := ih h
      exact ⟨f :: seg, fr, rest, by rw [h1]; rfl, h2⟩

omit [DecidableEq K] [DecidableEq F] in
theorem layered_reaches {layer : F → Nat} (h : Layered fn layer body) {k k' : K} (hr : Reaches body k k') :
    fn k' = fn k ∨ layer (fn k') < layer (fn k) := by
  induction hr with
  | one hb => exact h _ _ _ hb
  | trans _ _ ih1 ih2 =>
    rcases ih1 with h1 | h1 <;> rcases ih2 with h2 | h2
    · exact .inl (h2.trans h1)
    · exact .inr (h1 ▸ h2)
    · exact .inr (h2 ▸ h1)
    · exact .inr (Nat.lt_trans h2 h1)

omit [DecidableEq K] [DecidableEq F] in
theorem lowest {layer : F → Nat} {st : St K Out F} (h : ∃ l p, st.owner l = some p) :
    ∃ l p, st.owner l = some p ∧ ∀ g q, st.owner g = some q → layer l ≤ layer g := by
  obtain ⟨l, p, hl⟩ := h
  induction hn : layer l using Nat.strongRecOn generalizing l p with
  | _ n ih =>
    by_cases hm : ∃ g q, st.owner g = some q ∧ layer g < n
    · obtain ⟨g, q, hg, hlt⟩ := hm
      exact ih _ hlt g q hg rfl
    · refine ⟨l, p, hl, fun g q hg => ?_⟩
      rcases Nat.lt_or_ge (layer g) n with h | h
      · exact absurd ⟨g, q, hg, h⟩ hm
      · omega

theorem receive_length (rest : List (Frame K Out)) (o : Out) : (receive rest o).length = rest.length := by
  unfold receive; split <;> simp

/-- Some thread can do some work. -/
theorem progress (hac : Acyclic body) (htot : Total body) {layer : F → Nat} (hlay : Layered fn layer body) {st : St K Out F}
    (inv : Inv fn body st) (hw : ∃ t, st.threads t ≠ ⟨[], []⟩) :
    ∃ t n, st.threads t ≠ ⟨[], []⟩ ∧ size ((steps fn body t n st).threads t) < size (st.threads t) := by
  by_cases hh : ∃ l p, st.owner l = some p
  · obtain ⟨l, ⟨t, c⟩, hl, hmin⟩ := lowest (layer := layer) hh
    have hpos : 0 < holds fn l (st.threads t).frames := by
      rw [inv.owner t l, hl]; simpa [count] using inv.ownerPos l t c hl
    obtain ⟨seg, fr, rest, hf, hk⟩ := held_frame hpos
    have hav : ∀ g, Needs fn body fr.key g → Avail st t g := by
      intro g hg t' n ho
      have hcase : g = l ∨ layer g < layer l := by
        rcases hg with rfl | ⟨k', hr, rfl⟩
        · exact .inl hk
        · rw [← hk]; exact layered_reaches hlay hr
      rcases hcase with rfl | hlt
      · rw [hl] at ho; cases ho; rfl
      · have := hmin g _ ho; omega
    obtain ⟨out, n, h1, h2⟩ := seg_returns hac htot seg.length st inv seg fr rest rfl hf hav
    refine ⟨t, n, ?_, ?_⟩
    · intro e; rw [e] at hf; simp at hf
    · simp only [size, h1, h2, receive_length, hf, List.length_append, List.length_cons]; omega
  · have hav : ∀ t l, Avail st t l := fun t l t' n ho => absurd ⟨l, _, ho⟩ hh
    obtain ⟨t, ht⟩ := hw
    cases hf : (st.threads t).frames with
    | cons fr rest =>
      obtain ⟨out, n, h1, h2⟩ := top_returns hac htot inv hf (fun l _ => hav t l)
      refine ⟨t, n, ht, ?_⟩
      simp only [size, h1, h2, receive_length, hf, List.length_cons]; omega
    | nil =>
      cases htd : (st.threads t).todo with
      | nil => exact absurd (by cases h : st.threads t; simp_all) ht
      | cons k ks =>
        refine ⟨t, 1, ht, ?_⟩
        simp [steps, step, hf, htd, St.setThread, size]
        omega

theorem all_finish (hac : Acyclic body) (htot : Total body) {layer : F → Nat} (hlay : Layered fn layer body) (N : Nat) :
    ∀ (m : Nat) (st : St K Out F), Inv fn body st → (∀ t, N ≤ t → st.threads t = ⟨[], []⟩) → work st.threads N = m →
    ∃ more : List Nat, ∀ t, (more.foldl (step fn body) st).threads t = ⟨[], []⟩ := by
  intro m
  induction m using Nat.strongRecOn with
  | _ m ih =>
    intro st inv hN hm
    by_cases hw : ∃ t, st.threads t ≠ ⟨[], []⟩
    · obtain ⟨t, n, ht, hs⟩ := progress hac htot hlay inv hw
      have htN : t < N := by
        rcases Nat.lt_or_ge t N with h | h
        · exact h
        · exact absurd (hN t h) ht
      have hlt := work_lt (th := st.threads) (th' := (steps fn body t n st).threads) t
        (fun t' h => steps_others t t' n h st) hs N htN
      obtain ⟨more, h⟩ := ih _ (by omega) (steps fn body t n st) (steps_inv hac t n inv)
        (fun t' h => by rw [steps_others t t' n (by omega)]; exact hN t' h) rfl
      exact ⟨List.replicate n t ++ more, by rw [List.foldl_append]; exact h⟩
    · exact ⟨[], fun t => by
        rcases Classical.em (st.threads t = ⟨[], []⟩) with h | h
        · exact h
        · exact absurd ⟨t, h⟩ hw⟩

/-- What a thread was to call is still to be called, being called, or has been called. -/
def Served (todo : Nat → List K) (st : St K Out F) : Prop :=
  ∀ t, ∀ k ∈ todo t, k ∈ (st.threads t).todo ∨ (∃ fr, (st.threads t).frames.getLast? = some fr ∧ fr.key = k) ∨
    ∃ d ∈ st.log, d.thread = t ∧ d.key = k

theorem served_init (todo : Nat → List K) : Served todo (init (F := F) (Out := Out) todo) := fun _ _ hk => .inl hk

omit [DecidableEq K] [DecidableEq F] in
theorem served_set {todo : Nat → List K} {st : St K Out F} (h : Served todo st) (t : Nat) (th : Thread K Out)
    (ht : ∀ k ∈ (st.threads t).todo, k ∈ th.todo ∨ ∃ fr, th.frames.getLast? = some fr ∧ fr.key = k)
    (hf : ∀ fr, (st.threads t).frames.getLast? = some fr → ∃ fr', th.frames.getLast? = some fr' ∧ fr'.key = fr.key) :
    Served todo (st.setThread t th) := by
  intro t' k hk
  by_cases e : t' = t
  · subst e
    rcases h t' k hk with h1 | ⟨fr, h1, h2⟩ | h1
    · rcases ht k h1 with h1 | h1
      · exact .inl (by simpa [St.setThread] using h1)
      · exact .inr (.inl (by simpa [St.setThread] using h1))
    · obtain ⟨fr', h3, h4⟩ := hf fr h1
      exact .inr (.inl ⟨fr', by simpa [St.setThread] using h3, by rw [h4, h2]⟩)
    · exact .inr (.inr h1)
  · simpa [St.setThread, e] using h t' k hk

omit [DecidableEq K] [DecidableEq F] in
theorem last_top {k : K} {s s' : Stage Out} {rest : List (Frame K Out)} {fr : Frame K Out}
    (h : ((⟨k, s⟩ : Frame K Out) :: rest).getLast? = some fr) :
    ∃ fr', ((⟨k, s'⟩ : Frame K Out) :: rest).getLast? = some fr' ∧ fr'.key = fr.key := by
  cases rest with
  | nil => simp at h; subst h; exact ⟨_, rfl, rfl⟩
  | cons f fs => exact ⟨fr, by simpa [List.getLast?_cons_cons] using h, rfl⟩

omit [DecidableEq K] [DecidableEq F] in
theorem served_deliver {todo : Nat → List K} {st : St K Out F} (h : Served todo st) (t : Nat) (k : K) (s : Stage Out)
    (rest : List (Frame K Out)) (hf : (st.threads t).frames = ⟨k, s⟩ :: rest) (r : Out × Nat) :
    Served todo (deliver st t k rest r) := by
  rw [deliver_eq]
  intro t' k' hk
  by_cases e : t' = t
  · subst e
    rcases h t' k' hk with h1 | ⟨fr, h1, h2⟩ | ⟨d, h1, h2⟩
    · exact .inl (by simpa [St.setThread] using h1)
    · rw [hf] at h1
      cases rest with
      | nil =>
        simp at h1
        subst h1
        exact .inr (.inr ⟨_, List.mem_append_right _ (List.mem_singleton.mpr rfl), rfl, h2⟩)
      | cons f fs =>
        refine .inr (.inl ?_)
        obtain ⟨fk, fs'⟩ := f
        rw [List.getLast?_cons_cons] at h1
        have key : ∃ fr', (receive (⟨fk, fs'⟩ :: fs) r.1).getLast? = some fr' ∧ fr'.key = k' := by
          cases fs' with
          | run id subs =>
            simp only [receive]
            obtain ⟨fr', h3, h4⟩ := last_top (s' := .run id (subs ++ [r.1])) h1
            exact ⟨fr', h3, by rw [h4, h2]⟩
          | _ => exact ⟨fr, h1, h2⟩
        simpa [St.setThread] using key
    · exact .inr (.inr ⟨d, List.mem_append_left _ h1, h2⟩)
  · rcases h t' k' hk with h1 | h1 | ⟨d, h1, h2⟩
    · exact .inl (by simpa [St.setThread, e] using h1)
    · exact .inr (.inl (by simpa [St.setThread, e] using h1))
    · exact .inr (.inr ⟨d, List.mem_append_left _ h1, h2⟩)

theorem served_step {todo : Nat → List K} {st : St K Out F} (h : Served todo st) (t : Nat) :
    Served todo (step fn body st t) := by
  unfold step
  simp only
  split
  · rename_i hf
    split
    · exact h
    · rename_i k ks htodo
      refine served_set h t _ ?_ (by simp [hf])
      intro k' hk'
      rw [htodo] at hk'
      rcases List.mem_cons.mp hk' with rfl | hk'
      · exact .inr ⟨_, rfl, rfl⟩
      · exact .inl hk'
  · rename_i k rest hf
    split
    · exact served_deliver h t k _ rest hf _
    · exact served_set h t _ (fun k hk => .inl hk) (fun fr h => last_top (hf ▸ h))
  · rename_i k rest hf
    have := served_set h t ⟨⟨k, .check⟩ :: rest, (st.threads t).todo⟩ (fun k hk => .inl hk) (fun fr h => last_top (hf ▸ h))
    split
    · exact this
    · split
      · exact this
      · exact h
  · rename_i k rest hf
    split
    · exact served_set h t ⟨⟨k, .run st.evals.length []⟩ :: rest, (st.threads t).todo⟩ (fun k hk => .inl hk)
        (fun fr h => last_top (hf ▸ h))
    · exact served_set h t ⟨⟨k, .reread⟩ :: rest, (st.threads t).todo⟩ (fun k hk => .inl hk) (fun fr h => last_top (hf ▸ h))
  · rename_i k id subs rest hf
    split
    · rename_i k' hb
      refine served_set h t _ (fun k hk => .inl hk) (fun fr h => ?_)
      rw [hf] at h
      exact ⟨fr, by simpa [List.getLast?_cons_cons] using h, rfl⟩
    · exact served_set h t ⟨⟨k, .reread⟩ :: rest, (st.threads t).todo⟩ (fun k hk => .inl hk) (fun fr h => last_top (hf ▸ h))
  · rename_i k rest hf
    split
    · exact served_deliver h t k _ rest hf _
    · exact h

theorem served_run (todo : Nat → List K) (sched : List Nat) : Served todo (run fn body todo sched) := by
  unfold run
  have : ∀ (sched : List Nat) (st : St K Out F), Served todo st → Served todo (sched.foldl (step fn body) st) := by
    intro sched
    induction sched with
    | nil => exact fun st h => h
    | cons t sched ih => exact fun st h => ih _ (served_step h t)
  exact this sched _ (served_init todo)

/-- A thread that has no calls never does anything. -/
theorem idle_run (todo : Nat → List K) (sched : List Nat) (t : Nat) (ht : todo t = []) :
    (run fn body todo sched).threads t = (⟨[], []⟩ : Thread K Out) := by
  unfold run
  have : ∀ (sched : List Nat) (st : St K Out F), st.threads t = ⟨[], []⟩ →
      (sched.foldl (step fn body) st).threads t = ⟨[], []⟩ := by
    intro sched
    induction sched with
    | nil => exact fun st h => h
    | cons t' sched ih =>
      intro st h
      refine ih _ ?_
      by_cases e : t = t'
      · subst e; unfold step; simp [h]
      · rw [step_others _ _ _ e, h]
  exact this sched _ (by simp [init, ht])

end Unpy.MemoMany
