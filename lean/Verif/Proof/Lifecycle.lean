import Verif.Spec.Lifecycle
/-! # Proofs about starting and stopping the REPL server -/
namespace Unpy.Lifecycle
open Unpy.Spec.Lifecycle

structure Inv (s : State) : Prop where
  nodup : s.listening.Nodup
  off : s.instance? = none → s.atexit = 0
  on : ∀ r c, s.instance? = some (r, c) → s.atexit = 1 ∧ s.locals?.isSome = true ∧ r ≠ c ∧ r ∈ s.listening ∧ c ∈ s.listening

theorem inv_init (sys : Sys) : Inv (init sys) := by
  constructor <;> simp [init]

theorem nodup_snoc {l : List Nat} {a : Nat} (h : l.Nodup) (ha : a ∉ l) : (l ++ [a]).Nodup := by
  rw [List.nodup_append]
  refine ⟨h, by simp, ?_⟩
  intro x hx y hy
  simp at hy
  rintro rfl
  exact ha (hy ▸ hx)

theorem stop_fields (s : State) (r c : Nat) (h : s.instance? = some (r, c)) :
    (stop s).1.listening = (s.listening.erase r).erase c ∧ (stop s).1.instance? = none ∧ (stop s).1.locals? = none ∧ (stop s).1.atexit = 0 := by
  unfold stop
  rw [h]
  dsimp only
  split
  · exact ⟨rfl, rfl, rfl, rfl⟩
  · split <;> exact ⟨rfl, rfl, rfl, rfl⟩

theorem step_kept (s : State) (o : Op) : (step s o).1.kept = s.kept := by
  cases o with
  | start ns r c b => simp only [step, start]; split <;> (try split) <;> (try split) <;> rfl
  | stop =>
    simp only [step, stop]
    split
    · rfl
    · split
      · rfl
      · split <;> rfl
  | assign => rfl
  | ev => rfl

theorem inv_step (s : State) (o : Op) (h : Inv s) : Inv (step s o).1 := by
  cases o with
  | start ns r c b =>
    simp only [step, start]
    split
    · exact h
    · rename_i hi
      have hn : s.instance? = none := by cases hs : s.instance? <;> simp_all
      split
      · exact ⟨h.nodup, h.off, by simp [hn]⟩
      · rename_i hr
        have hr' : r ∉ s.listening := by simp at hr; exact hr.2
        have nd := nodup_snoc h.nodup hr'
        split
        · exact ⟨nd, h.off, by simp [hn]⟩
        · rename_i hc
          have hc' : c ∉ s.listening ++ [r] := by
            intro hm
            exact hc (List.mem_append_right _ hm)
          refine ⟨nodup_snoc nd hc', by simp, ?_⟩
          intro r' c' he
          simp only [Option.some.injEq, Prod.mk.injEq] at he
          obtain ⟨rfl, rfl⟩ := he
          refine ⟨by simp [h.off hn], rfl, ?_, by simp, by simp⟩
          rintro rfl
          simp at hc'
  | stop =>
    cases hi : s.instance? with
    | none => simp only [step, stop, hi]; exact h
    | some p =>
      obtain ⟨r, c⟩ := p
      obtain ⟨h1, h2, h3, h4⟩ := stop_fields s r c hi
      refine ⟨?_, fun _ => h4, ?_⟩
      · simp only [step, h1]; exact (h.nodup.erase r).erase c
      · simp [step, h2]
  | assign => exact ⟨h.nodup, h.off, h.on⟩
  | ev => exact ⟨h.nodup, h.off, h.on⟩

theorem run_snoc (s : State) (ops : List Op) (o : Op) : run s (ops ++ [o]) = (step (run s ops) o).1 := by simp [run]

theorem run_append (s : State) (a b : List Op) : run s (a ++ b) = run (run s a) b := by simp [run]

theorem inv_run (s : State) (ops : List Op) (h : Inv s) : Inv (run s ops) := by
  induction ops generalizing s with
  | nil => exact h
  | cons o ops ih => exact ih _ (inv_step s o h)

theorem kept_run (s : State) (ops : List Op) : (run s ops).kept = s.kept := by
  induction ops generalizing s with
  | nil => rfl
  | cons o ops ih => exact (ih _).trans (step_kept s o)

theorem start_on {s : State} {ns r c : Nat} {b : List Nat} (h : s.instance?.isSome = true) : start ns r c b s = (s, some .runtime) := by
  simp [start, h]

theorem start_ok {s : State} {ns r c : Nat} {b : List Nat} (h : (start ns r c b s).2 = none) :
    s.instance? = none ∧ r ∉ b ∧ r ∉ s.listening ∧ c ∉ b ∧ c ∉ s.listening ∧ r ≠ c ∧
    (start ns r c b s).1 = { s with locals? := some ns, equipped := s.equipped ++ [ns], sys := ⟨.shimIn, .shimOut, .shimErr, some ">>>> ", some ".... "⟩, listening := s.listening ++ [r] ++ [c], instance? := some (r, c), atexit := s.atexit + 1 } := by
  simp only [start] at h ⊢
  split at h
  · simp at h
  · rename_i hi
    split at h
    · simp at h
    · rename_i hr
      split at h
      · simp at h
      · rename_i hc
        simp at hr hc
        refine ⟨by cases hs : s.instance? <;> simp_all, hr.1, hr.2, hc.1, hc.2.1, fun h => hc.2.2 h.symm, ?_⟩
        rw [if_neg hi, if_neg (by simp [hr]), if_neg (by simp [hc])]

theorem step_on {s : State} {o : Op} (h : s.instance?.isSome = true) (ho : o ≠ .stop) :
    (step s o).1.instance? = s.instance? ∧ (step s o).1.listening = s.listening := by
  cases o with
  | start => simp [step, start_on h]
  | stop => exact absurd rfl ho
  | assign => exact ⟨rfl, rfl⟩
  | ev => exact ⟨rfl, rfl⟩

theorem run_on {s : State} {ops : List Op} (h : s.instance?.isSome = true) (ho : .stop ∉ ops) :
    (run s ops).instance? = s.instance? ∧ (run s ops).listening = s.listening := by
  induction ops generalizing s with
  | nil => exact ⟨rfl, rfl⟩
  | cons o ops ih =>
    have h1 := step_on (o := o) h (by rintro rfl; simp at ho)
    have := ih (s := (step s o).1) (by rw [h1.1]; exact h) (fun hm => ho (by simp [hm]))
    exact ⟨this.1.trans h1.1, this.2.trans h1.2⟩

theorem run_on_sys {s : State} {ops : List Op} (h : s.instance?.isSome = true) (ho : .stop ∉ ops) (ha : ∀ y, .assign y ∉ ops) : (run s ops).sys = s.sys := by
  induction ops generalizing s with
  | nil => rfl
  | cons o ops ih =>
    have h1 := step_on (o := o) h (by rintro rfl; simp at ho)
    have := ih (s := (step s o).1) (by rw [h1.1]; exact h) (fun hm => ho (by simp [hm])) (fun y hm => ha y (by simp [hm]))
    refine this.trans ?_
    cases o with
    | start => simp [step, start_on h]
    | stop => simp at ho
    | assign y => exact absurd (List.mem_cons_self ..) (ha y)
    | ev => rfl

/-! ## The loop -/

theorem halted_snoc (pre : List Ev) (e : Ev) : Halted (pre ++ [e]) ↔ (e = .halt true ∨ e ≠ .halt false ∧ Halted pre) := by
  constructor
  · rintro ⟨a, b, h, hb⟩
    rcases List.eq_nil_or_concat b with rfl | ⟨b', x, rfl⟩
    · have := List.append_inj' h rfl
      left; simpa using this.2
    · rw [List.concat_eq_append] at h hb
      rw [← List.cons_append, ← List.append_assoc] at h
      have := List.append_inj' h rfl
      have hx : e = x := by simpa using this.2
      refine .inr ⟨?_, a, b', this.1, fun hm => hb (by simp [hm])⟩
      rintro rfl
      exact hb (by simp [← hx])
  · rintro (rfl | ⟨he, a, b, rfl, hb⟩)
    · exact ⟨pre, [], rfl, by simp⟩
    · exact ⟨a, b ++ [e], by simp, by simp [hb]; exact fun h => he h.symm⟩

theorem open_snoc (id : Nat) (pre : List Ev) (e : Ev) : Open id (pre ++ [e]) ↔ (e = .opens id ∨ e ≠ .ends id ∧ Open id pre) := by
  constructor
  · rintro ⟨a, b, h, hb⟩
    rcases List.eq_nil_or_concat b with rfl | ⟨b', x, rfl⟩
    · have := List.append_inj' h rfl
      left; simpa using this.2
    · rw [List.concat_eq_append] at h hb
      rw [← List.cons_append, ← List.append_assoc] at h
      have := List.append_inj' h rfl
      have hx : e = x := by simpa using this.2
      refine .inr ⟨?_, a, b', this.1, fun hm => hb (by simp [hm])⟩
      rintro rfl
      exact hb (by simp [← hx])
  · rintro (rfl | ⟨he, a, b, rfl, hb⟩)
    · exact ⟨pre, [], rfl, by simp⟩
    · exact ⟨a, b ++ [e], by simp, by simp [hb]; exact fun h => he h.symm⟩

/-- what the globals say, after these events -/
structure Says (m : Main) (pre : List Ev) : Prop where
  pending : m.pending = true ↔ Halted pre
  active : ∀ id, id ∈ m.active ↔ Open id pre

theorem says_nil : Says {} [] := by
  constructor
  · simp [Halted]
  · simp [Open]

theorem says_snoc {m : Main} {pre : List Ev} (h : Says m pre) (e : Ev) : Says (handle m e) (pre ++ [e]) := by
  constructor
  · rw [halted_snoc, ← h.pending]
    cases e with
    | halt b => cases b <;> simp [handle]
    | _ => simp [handle]
  · intro id
    rw [open_snoc, ← h.active]
    cases e with
    | opens k => simp [handle, eq_comm, or_comm]
    | ends k =>
      simp only [handle, List.mem_filter, bne_iff_ne, ne_eq, reduceCtorEq, false_or, Ev.ends.injEq]
      constructor
      · rintro ⟨h1, h2⟩; exact ⟨fun h => h2 h.symm, h1⟩
      · rintro ⟨h1, h2⟩; exact ⟨h2, fun h => h1 h.symm⟩
    | _ => simp [handle]

theorem tick_over {m : Main} {pre : List Ev} (h : Says m pre) : (m.pending && m.active.isEmpty) = true ↔ Over pre .tick := by
  simp only [Bool.and_eq_true, h.pending, Over, reduceCtorEq, false_or, true_and, List.isEmpty_iff]
  refine and_congr_right fun _ => ?_
  rw [List.eq_nil_iff_forall_not_mem]
  exact forall_congr' fun id => not_congr (h.active id)

theorem not_over {pre : List Ev} {e : Ev} (h1 : e ≠ .tick) (h2 : e ≠ .ctrlC) : ¬ Over pre e := by
  rintro (h | ⟨h, _⟩)
  · exact h2 h
  · exact h1 h

theorem loop_spec {m : Main} {pre : List Ev} (hm : Says m pre) (es : List Ev) (hpre : ∀ a e b, pre = a ++ e :: b → ¬ Over a e) : match loop m es with
    | none => ∀ a e b, pre ++ es = a ++ e :: b → ¬ Over a e
    | some rest => ∃ a e, pre ++ es = a ++ e :: rest ∧ Over a e ∧ ∀ a' e' b', a = a' ++ e' :: b' → ¬ Over a' e' := by
  induction es generalizing m pre with
  | nil => simpa [loop] using hpre
  | cons e es ih =>
    have hnext : ¬ Over pre e → ∀ a e' b, pre ++ [e] = a ++ e' :: b → ¬ Over a e' := by
      intro hn a e' b h
      rcases List.eq_nil_or_concat b with rfl | ⟨b', x, rfl⟩
      · have := List.append_inj' h rfl
        obtain rfl := this.1
        simp at this
        exact this ▸ hn
      · rw [List.concat_eq_append, ← List.cons_append, ← List.append_assoc] at h
        exact hpre _ _ _ (List.append_inj' h rfl).1
    have happ : pre ++ e :: es = pre ++ [e] ++ es := by simp
    have hsn := says_snoc hm e
    cases e with
    | ctrlC => simp only [loop]; exact ⟨pre, .ctrlC, rfl, .inl rfl, hpre⟩
    | tick =>
      simp only [loop]
      split
      · rename_i r hr
        split at hr
        · simp at hr
        · rename_i hc
          have := ih hsn (hnext fun h => hc ((tick_over hm).2 h))
          simp only [handle] at this
          rw [hr] at this
          rw [happ]; exact this
      · rename_i r rest hr
        split at hr
        · rename_i hc
          cases hr
          exact ⟨pre, .tick, rfl, (tick_over hm).1 hc, hpre⟩
        · rename_i hc
          have := ih hsn (hnext fun h => hc ((tick_over hm).2 h))
          simp only [handle] at this
          rw [hr] at this
          rw [happ]; exact this
    | opens k => rw [happ]; exact ih hsn (hnext (not_over (by simp) (by simp)))
    | ends k => rw [happ]; exact ih hsn (hnext (not_over (by simp) (by simp)))
    | halt b => rw [happ]; exact ih hsn (hnext (not_over (by simp) (by simp)))

end Unpy.Lifecycle
