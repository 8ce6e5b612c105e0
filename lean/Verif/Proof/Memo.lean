import Verif.Model.Memo
import Verif.Spec.Memo
/-! Invariant of the memoize machine. -/
namespace Unpy.Memo
open Unpy.Spec.Memo
universe u v
variable {K : Type u} {Out : Type v} [DecidableEq K]

theorem lookup_cons (k k' : K) (r : Out × Nat) (memo : List (K × (Out × Nat))) :
    lookup ((k, r) :: memo) k' = if k = k' then some r else lookup memo k' := by
  unfold lookup
  by_cases h : k = k' <;> simp [h]

def Stage.holds : Stage Out → Nat
  | .check => 1
  | .run _ _ => 1
  | _ => 0

def holdCount (fs : List (Frame K Out)) : Nat := (fs.map (fun fr => fr.stage.holds)).sum

def FrOK (body : K → List Out → K ⊕ Out) (memo : List (K × (Out × Nat))) (evals : List K)
    (fr : Frame K Out) : Prop :=
  match fr.stage with
  | .run id subs => evals[id]? = some fr.key ∧ lookup memo fr.key = none ∧
      ∀ out, Eval body fr.key subs out → Eval body fr.key [] out
  | .reread => lookup memo fr.key ≠ none
  | _ => True

/-- well-formed call stack: every frame but the top one is a running evaluation that called the
frame above it -/
def Chain (body : K → List Out → K ⊕ Out) (memo : List (K × (Out × Nat))) (evals : List K) :
    List (Frame K Out) → Prop
  | [] => True
  | fr :: rest => FrOK body memo evals fr ∧ (∀ fr2 rest', rest = fr2 :: rest' →
      ∃ id subs, fr2.stage = .run id subs ∧ body fr2.key subs = .inl fr.key) ∧
      Chain body memo evals rest

structure Inv (body : K → List Out → K ⊕ Out) (st : St K Out) : Prop where
  memoOK : ∀ k o id, lookup st.memo k = some (o, id) → Computes body k o ∧ st.evals[id]? = some k
  nodup : st.evals.Nodup
  cover : ∀ k ∈ st.evals, lookup st.memo k ≠ none ∨
    ∃ t, ∃ fr ∈ (st.threads t).frames, fr.key = k ∧ ∃ id subs, fr.stage = .run id subs
  owner : ∀ t, holdCount (st.threads t).frames =
    match st.owner with | some (t', n) => if t' = t then n else 0 | none => 0
  ownerPos : ∀ t n, st.owner = some (t, n) → 0 < n
  chain : ∀ t, Chain body st.memo st.evals (st.threads t).frames
  log : ∀ d ∈ st.log, lookup st.memo d.key = some (d.out, d.id)

variable {body : K → List Out → K ⊕ Out} {R : K → K → Prop}

theorem chain_below (trans : ∀ a b c, R a b → R b c → R a c)
    (hR : ∀ k subs k', body k subs = .inl k' → R k' k) {memo : List (K × (Out × Nat))} {evals : List K}
    {fr : Frame K Out} {rest : List (Frame K Out)} (h : Chain body memo evals (fr :: rest)) :
    ∀ fr2 ∈ rest, R fr.key fr2.key ∧ ∃ id subs, fr2.stage = .run id subs := by
  induction rest generalizing fr with
  | nil => simp
  | cons fr1 rest ih =>
    obtain ⟨_, h2, h3⟩ := h
    obtain ⟨id, subs, hs, hb⟩ := h2 fr1 rest rfl
    have hr := hR _ _ _ hb
    intro fr2 hm
    rcases List.mem_cons.mp hm with rfl | hm
    · exact ⟨hr, id, subs, hs⟩
    · obtain ⟨h4, h5⟩ := ih h3 fr2 hm
      exact ⟨trans _ _ _ hr h4, h5⟩

theorem chain_mono {memo memo' : List (K × (Out × Nat))} {evals evals' : List K} {fs : List (Frame K Out)}
    (h : Chain body memo evals fs)
    (h1 : ∀ (i : Nat) (k : K), evals[i]? = some k → evals'[i]? = some k)
    (h2 : ∀ k, lookup memo k ≠ none → lookup memo' k ≠ none)
    (h3 : ∀ fr ∈ fs, ∀ id subs, fr.stage = .run id subs → lookup memo' fr.key = none) :
    Chain body memo' evals' fs := by
  induction fs with
  | nil => trivial
  | cons fr rest ih =>
    obtain ⟨a, b, c⟩ := h
    refine ⟨?_, b, ih c (fun fr hm => h3 fr (List.mem_cons_of_mem _ hm))⟩
    have h3' := h3 fr (by simp)
    unfold FrOK at a ⊢
    split
    · rename_i id subs hs
      simp only [hs] at a
      exact ⟨h1 _ _ a.1, h3' id subs hs, a.2.2⟩
    · rename_i hs
      simp only [hs] at a
      exact h2 _ a
    · trivial

omit [DecidableEq K] in
theorem holdCount_pos_of_run {fs : List (Frame K Out)} {fr : Frame K Out} (hm : fr ∈ fs) {id subs}
    (hs : fr.stage = .run id subs) : 0 < holdCount fs := by
  induction fs with
  | nil => simp at hm
  | cons f fs ih =>
    rcases List.mem_cons.mp hm with rfl | hm
    · simp [holdCount, hs, Stage.holds]; omega
    · have := ih hm; simp [holdCount] at this ⊢; omega

/-- no running frame outside the owner thread -/
theorem no_run_elsewhere {st : St K Out} (inv : Inv body st) {t t' : Nat} {n : Nat}
    (ho : st.owner = some (t, n)) (hne : t' ≠ t) {fr : Frame K Out} (hm : fr ∈ (st.threads t').frames)
    {id subs} (hs : fr.stage = .run id subs) : False := by
  have := inv.owner t'
  rw [ho] at this
  simp only at this
  rw [if_neg (fun e => hne e.symm)] at this
  have := holdCount_pos_of_run hm hs
  omega

theorem owner_of_hold {st : St K Out} (inv : Inv body st) {t : Nat}
    (h : 0 < holdCount (st.threads t).frames) :
    st.owner = some (t, holdCount (st.threads t).frames) := by
  have := inv.owner t
  cases ho : st.owner with
  | none => rw [ho] at this; simp only at this; omega
  | some p =>
    obtain ⟨t', n⟩ := p
    rw [ho] at this; simp only at this
    split at this
    · rename_i e; rw [e, this]
    · omega

theorem release_owner (t n : Nat) (hn : 0 < n) :
    release (some (t, n)) = if n = 1 then none else some (t, n - 1) := by
  match n with
  | 1 => rfl
  | n + 2 => simp [release]

theorem deliver_inv {st : St K Out} (inv : Inv body st) (t : Nat) (k : K) (s : Stage Out)
    (hs : s = .probe ∨ s = .reread) (rest : List (Frame K Out))
    (hf : (st.threads t).frames = ⟨k, s⟩ :: rest) (r : Out × Nat) (hr : lookup st.memo k = some r) :
    Inv body (deliver st t k rest r) := by
  have hhold : s.holds = 0 := by rcases hs with rfl | rfl <;> rfl
  have hch := inv.chain t
  rw [hf] at hch
  obtain ⟨_, hc2, hc3⟩ := hch
  -- the new frames of t
  have key : ∃ rest', (deliver st t k rest r).threads t = { st.threads t with frames := rest' } ∧
      Chain body st.memo st.evals rest' ∧ holdCount rest' = holdCount rest ∧
      (∀ fr ∈ rest, ∀ id subs, fr.stage = .run id subs →
        ∃ fr' ∈ rest', fr'.key = fr.key ∧ ∃ id subs, fr'.stage = .run id subs) := by
    cases rest with
    | nil => exact ⟨[], by simp [deliver, St.setThread], trivial, rfl, by simp⟩
    | cons fr2 rest2 =>
      obtain ⟨id, subs, hs2, hb⟩ := hc2 fr2 rest2 rfl
      obtain ⟨k2, s2⟩ := fr2
      simp only at hs2 hb
      subst hs2
      refine ⟨⟨k2, .run id (subs ++ [r.1])⟩ :: rest2, by simp [deliver, St.setThread], ?_, ?_, ?_⟩
      · obtain ⟨a, b, c⟩ := hc3
        refine ⟨?_, b, c⟩
        unfold FrOK at a ⊢
        simp only at a ⊢
        refine ⟨a.1, a.2.1, fun out ho => a.2.2 out ?_⟩
        exact Eval.call hb (inv.memoOK k r.1 r.2 hr).1 ho
      · simp [holdCount, Stage.holds]
      · intro fr hm id' subs' hs'
        rcases List.mem_cons.mp hm with rfl | hm
        · exact ⟨_, List.mem_cons_self, rfl, id, _, rfl⟩
        · exact ⟨fr, by simp [hm], rfl, id', subs', hs'⟩
  obtain ⟨rest', e, hch', hhc, hrun⟩ := key
  have eother : ∀ t', t' ≠ t → (deliver st t k rest r).threads t' = st.threads t' := by
    intro t' hne; simp [deliver, St.setThread, hne]
  have ememo : (deliver st t k rest r).memo = st.memo := rfl
  have eevals : (deliver st t k rest r).evals = st.evals := rfl
  have eowner : (deliver st t k rest r).owner = st.owner := rfl
  refine ⟨?_, ?_, ?_, ?_, ?_, ?_, ?_⟩
  · rw [ememo, eevals]; exact inv.memoOK
  · rw [eevals]; exact inv.nodup
  · rw [ememo, eevals]
    intro k' hk'
    rcases inv.cover k' hk' with h | ⟨t', fr, hm, hk, id, subs, hs'⟩
    · exact .inl h
    · refine .inr ⟨t', ?_⟩
      by_cases ht : t' = t
      · subst ht
        rw [hf] at hm
        rcases List.mem_cons.mp hm with rfl | hm
        · simp only at hs'; rcases hs with h | h <;> simp [h] at hs'
        · obtain ⟨fr', h1, h2, h3⟩ := hrun fr hm id subs hs'
          exact ⟨fr', by rw [e]; exact h1, by rw [h2, hk], h3⟩
      · exact ⟨fr, by rw [eother t' ht]; exact hm, hk, id, subs, hs'⟩
  · rw [eowner]
    intro t'
    by_cases ht : t' = t
    · subst ht
      rw [e]
      simp only [hhc]
      rw [← inv.owner t', hf]
      simp [holdCount, hhold]
    · rw [eother t' ht]; exact inv.owner t'
  · rw [eowner]; exact inv.ownerPos
  · rw [ememo, eevals]
    intro t'
    by_cases ht : t' = t
    · subst ht; rw [e]; exact hch'
    · rw [eother t' ht]; exact inv.chain t'
  · rw [ememo]
    intro d hd
    have : d ∈ st.log ++ [⟨t, k, r.1, r.2⟩] := hd
    rcases List.mem_append.mp this with h | h
    · exact inv.log d h
    · simp at h; subst h; simpa using hr

/-- changing only the frames of one thread, keeping its running frames -/
theorem setThread_inv {st : St K Out} (inv : Inv body st) (t : Nat) (th : Thread K Out)
    (owner' : Option (Nat × Nat))
    (hrun : ∀ fr ∈ (st.threads t).frames, ∀ id subs, fr.stage = .run id subs → fr ∈ th.frames)
    (hchain : Chain body st.memo st.evals th.frames)
    (howner : ∀ t', holdCount (if t' = t then th.frames else (st.threads t').frames) =
      match owner' with | some (t'', n) => if t'' = t' then n else 0 | none => 0)
    (hpos : ∀ t n, owner' = some (t, n) → 0 < n) :
    Inv body { st.setThread t th with owner := owner' } := by
  refine ⟨inv.memoOK, inv.nodup, ?_, ?_, hpos, ?_, inv.log⟩
  · intro k hk
    rcases inv.cover k hk with h | ⟨t', fr, hm, hk, id, subs, hs⟩
    · exact .inl h
    · refine .inr ⟨t', fr, ?_, hk, id, subs, hs⟩
      by_cases ht : t' = t
      · subst ht; simpa [St.setThread] using hrun fr hm id subs hs
      · simpa [St.setThread, ht] using hm
  · intro t'
    rw [← howner t']
    by_cases ht : t' = t <;> simp [St.setThread, ht]
  · intro t'
    by_cases ht : t' = t
    · subst ht; simpa [St.setThread] using hchain
    · simpa [St.setThread, ht] using inv.chain t'

theorem step_inv (trans : ∀ a b c, R a b → R b c → R a c) (irrefl : ∀ a, ¬ R a a)
    (hR : ∀ k subs k', body k subs = .inl k' → R k' k)
    {st : St K Out} (inv : Inv body st) (t : Nat) : Inv body (step body st t) := by
  unfold step
  simp only
  split
  · -- idle
    rename_i hf
    split
    · exact inv
    · rename_i k ks htodo
      have := setThread_inv inv t ⟨[⟨k, .probe⟩], ks⟩ st.owner (by simp [hf])
        ⟨trivial, by simp, trivial⟩ (by
          intro t'
          by_cases ht : t' = t
          · subst ht
            have h := inv.owner t'; rw [hf] at h
            simp only [if_true]
            rw [← h]; simp [holdCount, Stage.holds]
          · simp only [ht, if_false]; exact inv.owner t') inv.ownerPos
      exact this
  · -- probe
    rename_i k rest hf
    split
    · rename_i r hr
      exact deliver_inv inv t k _ (.inl rfl) rest hf r hr
    · have hch := inv.chain t
      rw [hf] at hch
      have := setThread_inv inv t { st.threads t with frames := ⟨k, .wait⟩ :: rest } st.owner
        (by
          intro fr hm id subs hs
          rw [hf] at hm
          rcases List.mem_cons.mp hm with rfl | hm
          · simp at hs
          · exact List.mem_cons_of_mem _ hm)
        ⟨trivial, hch.2.1, hch.2.2⟩ (by
          intro t'
          by_cases ht : t' = t
          · subst ht
            have h := inv.owner t'; rw [hf] at h
            simp only [if_true]
            rw [← h]; simp [holdCount, Stage.holds]
          · simp only [ht, if_false]; exact inv.owner t') inv.ownerPos
      exact this
  · -- wait
    rename_i k rest hf
    have hch := inv.chain t
    rw [hf] at hch
    have hrun : ∀ fr ∈ (st.threads t).frames, ∀ id subs, fr.stage = .run id subs →
        fr ∈ (⟨k, .check⟩ : Frame K Out) :: rest := by
      intro fr hm id subs hs
      rw [hf] at hm
      rcases List.mem_cons.mp hm with rfl | hm
      · simp at hs
      · exact List.mem_cons_of_mem _ hm
    split
    · rename_i ho
      apply setThread_inv inv t { st.threads t with frames := ⟨k, .check⟩ :: rest } _ hrun ⟨trivial, hch.2.1, hch.2.2⟩
      · intro t'
        have h := inv.owner t'; rw [ho] at h
        by_cases ht : t' = t
        · subst ht
          rw [hf] at h
          simp [holdCount, Stage.holds] at h ⊢
          simpa using h
        · simp only [ht, if_false]
          rw [h]; simp only; rw [if_neg (fun e => ht e.symm)]
      · intro t n e; simp at e; omega
    · rename_i t' n ho
      split
      · rename_i e
        subst e
        apply setThread_inv inv t' { st.threads t' with frames := ⟨k, .check⟩ :: rest } _ hrun ⟨trivial, hch.2.1, hch.2.2⟩
        · intro t''
          have h := inv.owner t''; rw [ho] at h
          by_cases ht : t'' = t'
          · subst ht
            rw [hf] at h
            simp [holdCount, Stage.holds] at h ⊢
            rw [h]; omega
          · simp only [ht, if_false]
            rw [h]; simp only; rw [if_neg (fun e => ht e.symm)]; rw [if_neg (fun e => ht e.symm)]
        · intro t n e; simp at e; omega
      · exact inv
  · -- check
    rename_i k rest hf
    have hch := inv.chain t
    rw [hf] at hch
    have hbelow := chain_below trans hR hch
    have hpos : 0 < holdCount (st.threads t).frames := by rw [hf]; simp [holdCount, Stage.holds]; omega
    have hown := owner_of_hold inv hpos
    split
    · rename_i hnone
      have hk : k ∉ st.evals := by
        intro hk
        rcases inv.cover k hk with h | ⟨t', fr, hm, hk', id, subs, hs⟩
        · exact h hnone
        · by_cases ht : t' = t
          · subst ht
            rw [hf] at hm
            rcases List.mem_cons.mp hm with rfl | hm
            · simp at hs
            · have := (hbelow fr hm).1; rw [hk'] at this; exact irrefl _ this
          · exact no_run_elsewhere inv hown ht hm hs
      have hext : ∀ (i : Nat) (k' : K), st.evals[i]? = some k' → (st.evals ++ [k])[i]? = some k' := by
        intro i k' h
        have : i < st.evals.length := by
          rcases Nat.lt_or_ge i st.evals.length with h' | h'
          · exact h'
          · rw [List.getElem?_eq_none h'] at h; simp at h
        rw [List.getElem?_append_left this]; exact h
      have hchain' : ∀ fs, Chain body st.memo st.evals fs → Chain body st.memo (st.evals ++ [k]) fs := by
        intro fs h
        induction fs with
        | nil => trivial
        | cons fr rest ih =>
          obtain ⟨a, b, c⟩ := h
          refine ⟨?_, b, ih c⟩
          unfold FrOK at a ⊢
          split
          · rename_i id subs hs
            simp only [hs] at a
            exact ⟨hext _ _ a.1, a.2.1, a.2.2⟩
          · rename_i hs; simp only [hs] at a; exact a
          · trivial
      refine ⟨?_, ?_, ?_, ?_, inv.ownerPos, ?_, inv.log⟩
      · intro k' o id h
        obtain ⟨h1, h2⟩ := inv.memoOK k' o id h
        exact ⟨h1, hext _ _ h2⟩
      · show (st.evals ++ [k]).Nodup
        rw [List.nodup_append]
        refine ⟨inv.nodup, by simp, ?_⟩
        intro a ha b hb e; simp at hb; subst hb; subst e; exact hk ha
      · intro k' hk'
        rcases List.mem_append.mp hk' with hk' | hk'
        · rcases inv.cover k' hk' with h | ⟨t', fr, hm, hke, id, subs, hs⟩
          · exact .inl h
          · refine .inr ⟨t', fr, ?_, hke, id, subs, hs⟩
            by_cases ht : t' = t
            · subst ht
              rw [hf] at hm
              rcases List.mem_cons.mp hm with rfl | hm
              · simp at hs
              · simp [St.setThread, hm]
            · simpa [St.setThread, ht] using hm
        · simp at hk'; subst hk'
          exact .inr ⟨t, _, by simp [St.setThread]; left; rfl, rfl, _, _, rfl⟩
      · intro t'
        have h := inv.owner t'
        show holdCount _ = match st.owner with | some (t'', n) => if t'' = t' then n else 0 | none => 0
        rw [← h]
        by_cases ht : t' = t
        · subst ht; rw [hf]; simp [St.setThread, holdCount, Stage.holds]
        · simp [St.setThread, ht]
      · intro t'
        by_cases ht : t' = t
        · subst ht
          simp only [St.setThread, if_true]
          refine ⟨?_, hch.2.1, hchain' _ hch.2.2⟩
          unfold FrOK
          simp only
          exact ⟨by simp, hnone, fun out h => h⟩
        · simp only [St.setThread, ht, if_false]
          exact hchain' _ (inv.chain t')
    · rename_i r hr
      apply setThread_inv inv t
      · intro fr hm id subs hs
        rw [hf] at hm
        rcases List.mem_cons.mp hm with rfl | hm
        · simp at hs
        · exact List.mem_cons_of_mem _ hm
      · refine ⟨?_, hch.2.1, hch.2.2⟩
        unfold FrOK; simp [hr]
      · intro t'
        rw [hown, release_owner _ _ hpos]
        by_cases ht : t' = t
        · subst ht
          rw [hf]
          simp only [if_true, holdCount, List.map_cons, List.sum_cons, Stage.holds]
          split
          · rename_i e; split at e
            · simp at e
            · simp at e; obtain ⟨rfl, rfl⟩ := e; simp only [if_true]; omega
          · rename_i e; split at e
            · omega
            · simp at e
        · have h := inv.owner t'; rw [hown] at h
          simp only at h
          rw [if_neg (fun e => ht e.symm)] at h
          simp only [ht, if_false, h]
          split
          · rename_i e; split at e
            · simp at e
            · simp at e; obtain ⟨rfl, _⟩ := e; rw [if_neg (fun e => ht e.symm)]
          · rfl
      · intro t' n e
        rw [hown, release_owner _ _ hpos] at e
        split at e
        · simp at e
        · simp at e; omega
  · -- run
    rename_i k id subs rest hf
    have hch := inv.chain t
    rw [hf] at hch
    have hbelow := chain_below trans hR hch
    have hpos : 0 < holdCount (st.threads t).frames := by rw [hf]; simp [holdCount, Stage.holds]; omega
    have hown := owner_of_hold inv hpos
    have hfr : st.evals[id]? = some k ∧ lookup st.memo k = none ∧ ∀ out, Eval body k subs out → Eval body k [] out := by
      have := hch.1; unfold FrOK at this; simpa using this
    split
    · rename_i k' hb
      have := setThread_inv inv t { st.threads t with frames := ⟨k', .probe⟩ :: ⟨k, .run id subs⟩ :: rest } st.owner
        (by intro fr hm id' subs' hs; rw [hf] at hm; exact List.mem_cons_of_mem _ hm)
        (by
          refine ⟨trivial, ?_, hch⟩
          intro fr2 rest' e
          simp at e; obtain ⟨rfl, rfl⟩ := e
          exact ⟨id, subs, rfl, hb⟩)
        (by
          intro t'
          by_cases ht : t' = t
          · subst ht
            have h := inv.owner t'; rw [hf] at h
            simp only [if_true]
            rw [← h]; simp [holdCount, Stage.holds]
          · simp only [ht, if_false]; exact inv.owner t') inv.ownerPos
      exact this
    · rename_i out hb
      have hcomp : Computes body k out := hfr.2.2 out (.ret hb)
      have hmono : ∀ k', lookup st.memo k' ≠ none → lookup ((k, (out, id)) :: st.memo) k' ≠ none := by
        intro k' h; rw [lookup_cons]; split <;> simp_all
      have hother : ∀ k', k' ≠ k → lookup ((k, (out, id)) :: st.memo) k' = lookup st.memo k' := by
        intro k' h; rw [lookup_cons, if_neg (fun e => h e.symm)]
      refine ⟨?_, inv.nodup, ?_, ?_, ?_, ?_, ?_⟩
      · intro k' o id' h
        simp only [lookup_cons] at h
        split at h
        · rename_i e; subst e; simp at h; obtain ⟨rfl, rfl⟩ := h; exact ⟨hcomp, hfr.1⟩
        · exact inv.memoOK k' o id' h
      · intro k' hk'
        by_cases e : k' = k
        · left; simp [lookup_cons, e]
        · rcases inv.cover k' hk' with h | ⟨t', fr, hm, hke, id', subs', hs⟩
          · exact .inl (hmono _ h)
          · refine .inr ⟨t', fr, ?_, hke, id', subs', hs⟩
            by_cases ht : t' = t
            · subst ht
              rw [hf] at hm
              rcases List.mem_cons.mp hm with rfl | hm
              · exact absurd hke.symm e
              · simp [St.setThread, hm]
            · simpa [St.setThread, ht] using hm
      · intro t'
        show holdCount _ = match release st.owner with | some (t'', n) => if t'' = t' then n else 0 | none => 0
        rw [hown, release_owner _ _ hpos]
        by_cases ht : t' = t
        · subst ht
          rw [hf]
          simp only [St.setThread, if_true, holdCount, List.map_cons, List.sum_cons, Stage.holds]
          split
          · rename_i e; split at e
            · simp at e
            · simp at e; obtain ⟨rfl, rfl⟩ := e; simp only [if_true]; omega
          · rename_i e; split at e
            · omega
            · simp at e
        · have h := inv.owner t'; rw [hown] at h
          simp only at h
          rw [if_neg (fun e => ht e.symm)] at h
          simp only [St.setThread, ht, if_false, h]
          split
          · rename_i e; split at e
            · simp at e
            · simp at e; obtain ⟨rfl, _⟩ := e; rw [if_neg (fun e => ht e.symm)]
          · rfl
      · intro t' n e
        have e : release st.owner = some (t', n) := e
        rw [hown, release_owner _ _ hpos] at e
        split at e
        · simp at e
        · simp at e; omega
      · intro t'
        by_cases ht : t' = t
        · subst ht
          simp only [St.setThread, if_true]
          refine ⟨?_, hch.2.1, ?_⟩
          · unfold FrOK; simp [lookup_cons]
          · apply chain_mono hch.2.2 (fun _ _ h => h) hmono
            intro fr hm id' subs' hs
            have hrk := (hbelow fr hm).1
            have hne : fr.key ≠ k := by intro e; rw [e] at hrk; exact irrefl _ hrk
            rw [hother _ hne]
            -- fr is a run frame of the chain
            have : ∀ fs, Chain body st.memo st.evals fs → fr ∈ fs → lookup st.memo fr.key = none := by
              intro fs
              induction fs with
              | nil => simp
              | cons f fs ih =>
                rintro ⟨a, _, c⟩ hm
                rcases List.mem_cons.mp hm with rfl | hm
                · unfold FrOK at a; rw [hs] at a; exact a.2.1
                · exact ih c hm
            exact this rest hch.2.2 hm
        · simp only [St.setThread, ht, if_false]
          apply chain_mono (inv.chain t') (fun _ _ h => h) hmono
          intro fr hm id' subs' hs
          exact (no_run_elsewhere inv hown ht hm hs).elim
      · intro d hd
        have := inv.log d hd
        have hne : d.key ≠ k := by intro e; rw [e, hfr.2.1] at this; simp at this
        show lookup ((k, (out, id)) :: st.memo) d.key = _
        rw [hother _ hne]; exact this
  · -- reread
    rename_i k rest hf
    split
    · rename_i r hr
      exact deliver_inv inv t k _ (.inr rfl) rest hf r hr
    · exact inv

theorem init_inv (todo : Nat → List K) : Inv body (init todo) := by
  refine ⟨?_, by simp [init], by simp [init], ?_, by simp [init], ?_, by simp [init]⟩
  · intro k o id h; simp [init, lookup] at h
  · intro t; simp [init, holdCount]
  · intro t; trivial

theorem run_inv (trans : ∀ a b c, R a b → R b c → R a c) (irrefl : ∀ a, ¬ R a a)
    (hR : ∀ k subs k', body k subs = .inl k' → R k' k) (todo : Nat → List K) (sched : List Nat) :
    Inv body (run body todo sched) := by
  unfold run
  suffices H : ∀ st, Inv body st → Inv body (sched.foldl (step body) st) from H _ (init_inv todo)
  induction sched with
  | nil => intro st h; exact h
  | cons t sched ih => intro st h; exact ih _ (step_inv trans irrefl hR h t)

omit [DecidableEq K] in
theorem Eval.det {k : K} {subs : List Out} {a b : Out} (ha : Eval body k subs a) (hb : Eval body k subs b) :
    a = b := by
  induction ha generalizing b with
  | ret h1 =>
    cases hb with
    | ret h2 => rw [h1] at h2; simpa using h2
    | call h2 _ _ => rw [h1] at h2; simp at h2
  | call h1 _ _ ih1 ih2 =>
    cases hb with
    | ret h2 => rw [h1] at h2; simp at h2
    | call h2 h3 h4 =>
      rw [h1] at h2
      simp at h2
      subst h2
      have := ih1 h3
      subst this
      exact ih2 h4

/-- `n` consecutive steps of thread `t` -/
def steps (body : K → List Out → K ⊕ Out) (t : Nat) (n : Nat) (st : St K Out) : St K Out :=
  (List.replicate n t).foldl (step body) st

theorem steps_add (t a b : Nat) (st : St K Out) :
    steps body t (a + b) st = steps body t b (steps body t a st) := by
  unfold steps
  rw [← List.replicate_append_replicate, List.foldl_append]

theorem steps_succ (t a : Nat) (st : St K Out) :
    steps body t (a + 1) st = steps body t a (step body st t) := by
  rw [Nat.add_comm, steps_add]; rfl

theorem steps_inv (trans : ∀ a b c, R a b → R b c → R a c) (irrefl : ∀ a, ¬ R a a)
    (hR : ∀ k subs k', body k subs = .inl k' → R k' k) (t n : Nat) {st : St K Out} (inv : Inv body st) :
    Inv body (steps body t n st) := by
  induction n generalizing st with
  | zero => exact inv
  | succ n ih => rw [steps_succ]; exact ih (step_inv trans irrefl hR inv t)

/-- what the frames below a finished call look like -/
def receive (rest : List (Frame K Out)) (o : Out) : List (Frame K Out) :=
  match rest with
  | ⟨k2, .run id subs⟩ :: rest => ⟨k2, .run id (subs ++ [o])⟩ :: rest
  | rest => rest

/-- the running evaluation of `k` (with `subs` received) can be finished by `t` alone -/
def Finishes (body : K → List Out → K ⊕ Out) (t : Nat) (k : K) (subs : List Out) (out : Out) : Prop :=
  ∀ (st : St K Out) (id : Nat) (rest : List (Frame K Out)), Inv body st →
    (st.threads t).frames = ⟨k, .run id subs⟩ :: rest →
    ∃ n, ((steps body t n st).threads t).frames = ⟨k, .reread⟩ :: rest ∧
      ((steps body t n st).threads t).todo = (st.threads t).todo ∧
      lookup (steps body t n st).memo k = some (out, id)

theorem finish_call (trans : ∀ a b c, R a b → R b c → R a c) (irrefl : ∀ a, ¬ R a a)
    (hR : ∀ k subs k', body k subs = .inl k' → R k' k) (t : Nat) {k : K} {out : Out}
    (he : Computes body k out) (hfin : Finishes body t k [] out)
    (st : St K Out) (rest : List (Frame K Out)) (inv : Inv body st)
    (hf : (st.threads t).frames = ⟨k, .probe⟩ :: rest)
    (hown : st.owner = none ∨ ∃ n, st.owner = some (t, n)) :
    ∃ n id, ((steps body t n st).threads t).frames = receive rest out ∧
      ((steps body t n st).threads t).todo = (st.threads t).todo ∧
      (steps body t n st).log.getLast? = some ⟨t, k, out, id⟩ := by
  cases hl : lookup st.memo k with
  | some r =>
    have hr := Eval.det (inv.memoOK k r.1 r.2 hl).1 he
    refine ⟨1, r.2, ?_⟩
    simp [steps, step, hf, hl, deliver, St.setThread, receive, hr]
    split <;> simp_all
  | none =>
    -- probe misses, take the lock, check misses, run
    have e3 : ∃ id, ((steps body t 3 st).threads t).frames = ⟨k, .run id []⟩ :: rest ∧
        ((steps body t 3 st).threads t).todo = (st.threads t).todo := by
      refine ⟨st.evals.length, ?_⟩
      rcases hown with ho | ⟨n, ho⟩ <;>
        simp [steps, List.replicate, step, hf, hl, St.setThread, ho]
    obtain ⟨id, e3, e3'⟩ := e3
    obtain ⟨n, h1, h2, h3⟩ := hfin _ id rest (steps_inv trans irrefl hR t 3 inv) e3
    rw [← steps_add] at h1 h2 h3
    refine ⟨3 + n + 1, id, ?_⟩
    rw [steps_add _ (3 + n) 1]
    revert h1 h2 h3
    generalize steps body t (3 + n) st = st'
    intro h1 h2 h3
    rw [e3'] at h2
    simp [steps, step, h1, h3, deliver, St.setThread, receive, h2]
    split <;> simp_all

theorem finish_run (trans : ∀ a b c, R a b → R b c → R a c) (irrefl : ∀ a, ¬ R a a)
    (hR : ∀ k subs k', body k subs = .inl k' → R k' k) (t : Nat)
    {k : K} {subs : List Out} {out : Out} (h : Eval body k subs out) : Finishes body t k subs out := by
  induction h with
  | ret hb =>
    intro st id rest inv hf
    refine ⟨1, ?_⟩
    simp [steps, step, hf, hb, St.setThread, lookup_cons]
  | @call k subs k' o out hb he1 he2 ih1 ih2 =>
    intro st id rest inv hf
    have inv1 := step_inv trans irrefl hR inv t
    have e1 : ((step body st t).threads t).frames = ⟨k', .probe⟩ :: ⟨k, .run id subs⟩ :: rest ∧
        ((step body st t).threads t).todo = (st.threads t).todo := by
      simp [step, hf, hb, St.setThread]
    have hown : (step body st t).owner = none ∨ ∃ n, (step body st t).owner = some (t, n) := by
      refine .inr ⟨_, owner_of_hold inv1 ?_⟩
      rw [e1.1]; simp [holdCount, Stage.holds]; omega
    obtain ⟨n, _, hn, htodo, _⟩ := finish_call trans irrefl hR t he1 ih1 _ _ inv1 e1.1 hown
    rw [← steps_succ] at hn htodo
    obtain ⟨m, hm1, hm2, hm3⟩ := ih2 (steps body t (n + 1) st) id rest
      (steps_inv trans irrefl hR t (n + 1) inv) hn
    exact ⟨n + 1 + m, by rw [steps_add]; exact hm1, by rw [steps_add, hm2, htodo, e1.2],
      by rw [steps_add]; exact hm3⟩

end Unpy.Memo
