import Verif.Spec.AsyncRaise
/-!
# C143: raising exceptions in other threads
-/
namespace Unpy.Props
open Unpy Unpy.AsyncRaise Unpy.AsyncRaise.Spec
variable {K I : Type}

/-! ## what events do to a thread -/

private theorem get_modify {ts : List (Thread K I)} {i j : Nat} {f : Thread K I → Thread K I} {t : Thread K I} (h : (AsyncRaise.modify i f ts)[j]? = some t) :
    ∃ t0, ts[j]? = some t0 ∧ t = if i = j then f t0 else t0 := by
  rw [AsyncRaise.modify, List.getElem?_modify] at h
  cases ht : ts[j]? with
  | none => rw [ht] at h; simp at h
  | some t0 =>
    rw [ht] at h
    simp only [Option.map_eq_map, Option.map_some, Option.some.injEq] at h
    exact ⟨t0, rfl, h.symm⟩

/-- What an event may make of a thread -/
private inductive Becomes (e : Event) (j : Nat) (t0 t : Thread K I) : Prop where
  | same : t = t0 → Becomes e j t0 t
  | started (n : Nat) : e = .start j n → t0.phase = .unstarted → t = { t0 with phase := .running n } → Becomes e j t0 t
  | ran (n : Nat) : e = .run j → t0.phase = .running n → t = deliver t0 → Becomes e j t0 t
  | ended (n : Nat) : e = .finish j → t0.phase = .running n → t = { t0 with phase := .ended n } → Becomes e j t0 t

private theorem happen_get {ts : List (Thread K I)} {e : Event} {j : Nat} {t : Thread K I} (h : (happen ts e)[j]? = some t) :
    (∃ t0, ts[j]? = some t0 ∧ Becomes e j t0 t) ∨ (j = ts.length ∧ t = {}) := by
  cases e with
  | make =>
    simp only [happen] at h
    by_cases hj : j < ts.length
    · rw [List.getElem?_append_left hj] at h
      exact .inl ⟨t, h, .same rfl⟩
    · have hj' : ts.length ≤ j := by omega
      rw [List.getElem?_append_right hj'] at h
      have h0 : j - ts.length = 0 := by
        have := (List.getElem?_eq_some_iff.mp h).1
        simp only [List.length_singleton] at this
        omega
      rw [h0] at h
      simp only [List.getElem?_cons_zero, Option.some.injEq] at h
      exact .inr ⟨by omega, h.symm⟩
  | start i n =>
    simp only [happen] at h
    split at h
    · exact .inl ⟨t, h, .same rfl⟩
    · obtain ⟨t0, h0, ht⟩ := get_modify h
      refine .inl ⟨t0, h0, ?_⟩
      by_cases hij : i = j
      · rw [if_pos hij] at ht
        by_cases hu : t0.phase = .unstarted
        · rw [if_pos hu] at ht
          exact .started n (by rw [hij]) hu ht
        · rw [if_neg hu] at ht
          exact .same ht
      · rw [if_neg hij] at ht
        exact .same ht
  | run i =>
    obtain ⟨t0, h0, ht⟩ := get_modify h
    refine .inl ⟨t0, h0, ?_⟩
    by_cases hij : i = j
    · rw [if_pos hij] at ht
      cases hp : t0.phase with
      | running n => rw [hp] at ht; exact .ran n (by rw [hij]) hp ht
      | unstarted => rw [hp] at ht; exact .same ht
      | ended n => rw [hp] at ht; exact .same ht
    · rw [if_neg hij] at ht
      exact .same ht
  | finish i =>
    obtain ⟨t0, h0, ht⟩ := get_modify h
    refine .inl ⟨t0, h0, ?_⟩
    by_cases hij : i = j
    · rw [if_pos hij] at ht
      cases hp : t0.phase with
      | running n => rw [hp] at ht; exact .ended n (by rw [hij]) hp ht
      | unstarted => rw [hp] at ht; exact .same ht
      | ended n => rw [hp] at ht; exact .same ht
    · rw [if_neg hij] at ht
      exact .same ht

private theorem deliver_phase (t : Thread K I) : (deliver t).phase = t.phase := by
  unfold deliver
  cases t.pending with
  | none => rfl
  | some e => cases e <;> rfl

/-- What has been raised, and what is to be -/
private def all (t : Thread K I) : List (Got K) := t.got ++ t.pending.toList.map shown

private theorem deliver_all (t : Thread K I) : all (deliver t) = all t := by
  unfold deliver all
  cases h : t.pending with
  | none => simp only [h]
  | some e => cases e <;> simp [shown]

private theorem becomes_all {e : Event} {j : Nat} {t0 t : Thread K I} (h : Becomes e j t0 t) : all t = all t0 := by
  cases h with
  | same h => rw [h]
  | started n _ _ h => rw [h]; rfl
  | ran n _ _ h => rw [h, deliver_all]
  | ended n _ _ h => rw [h]; rfl

/-- A thread keeps its number. -/
private theorem becomes_ident {e : Event} {j : Nat} {t0 t : Thread K I} (h : Becomes e j t0 t) {n : Nat} (hn : t0.phase.ident = some n) : t.phase.ident = some n := by
  cases h with
  | same h => rw [h]; exact hn
  | started m _ hu h => rw [hu] at hn; simp [Phase.ident] at hn
  | ran m _ _ h => rw [h, deliver_phase]; exact hn
  | ended m _ hr h => rw [h]; rw [hr] at hn; exact hn

private theorem becomes_ident_inv {e : Event} {j : Nat} {t0 t : Thread K I} (h : Becomes e j t0 t) {n : Nat} (hn : t.phase.ident = some n) :
    t0.phase.ident = some n ∨ e = .start j n := by
  cases h with
  | same h => rw [h] at hn; exact .inl hn
  | started m he hu h => rw [h] at hn; simp only [Phase.ident, Option.some.injEq] at hn; rw [← hn]; exact .inr he
  | ran m _ _ h => rw [h, deliver_phase] at hn; exact .inl hn
  | ended m _ hr h => rw [h] at hn; rw [hr]; exact .inl hn

private theorem happen_length (ts : List (Thread K I)) (e : Event) : ts.length ≤ (happen ts e).length := by
  cases e with
  | make => simp [happen]
  | start i n => simp only [happen]; split <;> simp [AsyncRaise.modify]
  | run i => simp [happen, AsyncRaise.modify]
  | finish i => simp [happen, AsyncRaise.modify]

private theorem happen_some {ts : List (Thread K I)} {e : Event} {j : Nat} {t0 : Thread K I} (h : ts[j]? = some t0) : ∃ t, (happen ts e)[j]? = some t ∧ Becomes e j t0 t := by
  have hj : j < (happen ts e).length := Nat.lt_of_lt_of_le (List.getElem?_eq_some_iff.mp h).1 (happen_length ts e)
  refine ⟨_, List.getElem?_eq_getElem hj, ?_⟩
  rcases happen_get (List.getElem?_eq_getElem hj) with ⟨t1, h1, hb⟩ | ⟨h1, _⟩
  · rw [h] at h1; cases h1; exact hb
  · have := (List.getElem?_eq_some_iff.mp h).1
    omega

private theorem events_some : (es : List Event) → {ts : List (Thread K I)} → {j : Nat} → {t0 : Thread K I} → ts[j]? = some t0 →
    ∃ t, (es.foldl happen ts)[j]? = some t ∧ all t = all t0 ∧ (∀ n, t0.phase.ident = some n → t.phase.ident = some n)
  | [], ts, j, t0, h => ⟨t0, h, rfl, fun _ h => h⟩
  | e :: es, ts, j, t0, h => by
    obtain ⟨t1, h1, hb⟩ := happen_some (e := e) h
    obtain ⟨t, h2, h3, h4⟩ := events_some es h1
    exact ⟨t, h2, h3.trans (becomes_all hb), fun n hn => h4 n (becomes_ident hb hn)⟩

/-! ## setting the exception -/

private theorem set_get {n : Nat} {e : Exc K I} : {ts : List (Thread K I)} → {j : Nat} → {t : Thread K I} → (setAsyncExc n e ts).2[j]? = some t →
    ts[j]? = some t ∨ (∃ t0, ts[j]? = some t0 ∧ t0.phase = .running n ∧ t = { t0 with pending := some e } ∧ (setAsyncExc n e ts).1 = 1)
  | [], j, t, h => by simp [setAsyncExc] at h
  | t1 :: ts, j, t, h => by
    simp only [setAsyncExc] at h ⊢
    by_cases hp : t1.phase = .running n
    · rw [if_pos hp] at h ⊢
      cases j with
      | zero =>
        simp only [List.getElem?_cons_zero, Option.some.injEq] at h
        exact .inr ⟨t1, rfl, hp, h.symm, rfl⟩
      | succ j => exact .inl h
    · rw [if_neg hp] at h ⊢
      cases j with
      | zero => exact .inl h
      | succ j =>
        simp only [List.getElem?_cons_succ] at h ⊢
        exact set_get h

private theorem set_zero {n : Nat} {e : Exc K I} : {ts : List (Thread K I)} → (setAsyncExc n e ts).1 = 0 → (setAsyncExc n e ts).2 = ts ∧ ∀ t ∈ ts, t.phase ≠ .running n
  | [], _ => ⟨rfl, by simp⟩
  | t1 :: ts, h => by
    simp only [setAsyncExc] at h ⊢
    by_cases hp : t1.phase = .running n
    · rw [if_pos hp] at h; cases h
    · rw [if_neg hp] at h ⊢
      obtain ⟨h1, h2⟩ := set_zero h
      refine ⟨by rw [h1], fun t ht => ?_⟩
      rcases List.mem_cons.mp ht with rfl | ht
      · exact hp
      · exact h2 t ht

private theorem set_one {n : Nat} {e : Exc K I} : {ts : List (Thread K I)} → (setAsyncExc n e ts).1 ≠ 0 →
    ∃ (j : Nat) (u : Thread K I), ts[j]? = some u ∧ u.phase = .running n ∧ (setAsyncExc n e ts).2[j]? = some { u with pending := some e }
  | [], h => absurd rfl h
  | t1 :: ts, h => by
    simp only [setAsyncExc] at h ⊢
    by_cases hp : t1.phase = .running n
    · rw [if_pos hp]; exact ⟨0, t1, rfl, hp, rfl⟩
    · rw [if_neg hp] at h ⊢
      obtain ⟨j, u, h1, h2, h3⟩ := set_one h
      exact ⟨j + 1, u, h1, h2, h3⟩

private theorem set_length {n : Nat} {e : Exc K I} : (ts : List (Thread K I)) → (setAsyncExc n e ts).2.length = ts.length
  | [] => rfl
  | t1 :: ts => by
    simp only [setAsyncExc]
    split
    · rfl
    · simp [set_length ts]

private theorem mem_active {ts : List (Thread K I)} {n : Nat} : n ∈ active ts ↔ ∃ t ∈ ts, t.phase = .running n := by
  simp only [active, List.mem_filterMap]
  constructor
  · rintro ⟨t, ht, h⟩
    refine ⟨t, ht, ?_⟩
    cases hp : t.phase with
    | running m => rw [hp] at h; simp only [Option.some.injEq] at h; rw [h]
    | unstarted => rw [hp] at h; cases h
    | ended m => rw [hp] at h; cases h
  · rintro ⟨t, ht, h⟩
    exact ⟨t, ht, by rw [h]⟩

/-- What a call comes to -/
private theorem raise_cases (ts : List (Thread K I)) (target : Option Nat) (e : Exc K I) (between : List Event) :
    (∃ x, asyncRaise ts target e between = (.error x, ts)) ∨
    (∃ i t n, target = some i ∧ ts[i]? = some t ∧ t.phase.ident = some n ∧
      ((asyncRaise ts target e between = (.error .ValueError, between.foldl happen ts) ∧ (setAsyncExc n e (between.foldl happen ts)).1 = 0) ∨
       (asyncRaise ts target e between = (.ok (), (setAsyncExc n e (between.foldl happen ts)).2) ∧ (setAsyncExc n e (between.foldl happen ts)).1 ≠ 0))) := by
  unfold asyncRaise
  cases target with
  | none => exact .inl ⟨_, rfl⟩
  | some i =>
    cases ht : ts[i]? with
    | none => exact .inl ⟨.TypeError, by simp only [ht]⟩
    | some t =>
      cases hn : t.phase.ident with
      | none => exact .inl ⟨.ValueError, by simp only [ht, hn]⟩
      | some n =>
        simp only [ht, hn]
        split
        · exact .inl ⟨_, rfl⟩
        · refine .inr ⟨i, t, n, rfl, ht, hn, ?_⟩
          by_cases hz : (setAsyncExc n e (between.foldl happen ts)).1 = 0
          · exact .inl ⟨by rw [if_pos hz, (set_zero hz).1], hz⟩
          · exact .inr ⟨by rw [if_neg hz], hz⟩

/-- C143: if `async_raise` raises an exception itself, then nothing else has been done: the threads are as before the call, or as what they have done meanwhile has left them. -/
theorem C143_failure (ts : List (Thread K I)) (target : Option Nat) (e : Exc K I) (between : List Event) (x : PyErr) (h : (asyncRaise ts target e between).1 = .error x) :
    (asyncRaise ts target e between).2 = ts ∨ (asyncRaise ts target e between).2 = between.foldl happen ts := by
  rcases raise_cases ts target e between with ⟨y, h1⟩ | ⟨i, t, n, _, _, _, h1 | h1⟩
  · rw [h1]; exact .inl rfl
  · rw [h1.1]; exact .inr rfl
  · rw [h1.1] at h; cases h

/-- C143: an object that is not a thread is a TypeError; a thread that has not been started is a ValueError. -/
theorem C143_refused (ts : List (Thread K I)) (e : Exc K I) (between : List Event) :
    asyncRaise ts none e between = (.error .TypeError, ts) ∧
    ∀ i t, ts[i]? = some t → t.phase = .unstarted → asyncRaise ts (some i) e between = (.error .ValueError, ts) := by
  refine ⟨rfl, fun i t ht hp => ?_⟩
  simp [asyncRaise, ht, hp, Phase.ident]

/-! ## no number twice -/

private structure Own (ts : List (Thread K I)) (used : List Nat) (want : Nat → List (Exc K I)) : Prop where
  used : ∀ (i : Nat) (t : Thread K I) n, ts[i]? = some t → t.phase.ident = some n → n ∈ used
  unique : ∀ (i j : Nat) (t u : Thread K I) n, ts[i]? = some t → ts[j]? = some u → t.phase.ident = some n → u.phase.ident = some n → i = j
  owns : ∀ (i : Nat) (t : Thread K I), ts[i]? = some t → (all t).Sublist ((want i).map shown)

private theorem own_event {ts : List (Thread K I)} {used : List Nat} {want : Nat → List (Exc K I)} (h : Own ts used want) (e : Event) (hn : ∀ n ∈ numbersOf [e], n ∉ used) :
    Own (happen ts e) (numbersOf [e] ++ used) want := by
  have hstart : ∀ i n, e = .start i n → n ∈ numbersOf [e] := by rintro i n rfl; simp [numbersOf]
  refine ⟨?_, ?_, ?_⟩
  · intro i t n ht hi
    rcases happen_get ht with ⟨t0, h0, hb⟩ | ⟨_, rfl⟩
    · rcases becomes_ident_inv hb hi with hi | hi
      · exact List.mem_append.mpr (.inr (h.used i t0 n h0 hi))
      · exact List.mem_append.mpr (.inl (hstart i n hi))
    · simp [Phase.ident] at hi
  · intro i j t u n ht hu hti huj
    rcases happen_get ht with ⟨t0, h0, hb⟩ | ⟨_, rfl⟩
    · rcases happen_get hu with ⟨u0, h0', hb'⟩ | ⟨_, rfl⟩
      · rcases becomes_ident_inv hb hti with hi | hi
        · rcases becomes_ident_inv hb' huj with hj | hj
          · exact h.unique i j t0 u0 n h0 h0' hi hj
          · exact absurd (h.used i t0 n h0 hi) (hn n (hstart j n hj))
        · rcases becomes_ident_inv hb' huj with hj | hj
          · exact absurd (h.used j u0 n h0' hj) (hn n (hstart i n hi))
          · rw [hi] at hj
            injection hj
      · simp [Phase.ident] at huj
    · simp [Phase.ident] at hti
  · intro i t ht
    rcases happen_get ht with ⟨t0, h0, hb⟩ | ⟨_, rfl⟩
    · rw [becomes_all hb]; exact h.owns i t0 h0
    · simp [all]

private theorem numbersOf_cons (e : Event) (es : List Event) : numbersOf (e :: es) = numbersOf [e] ++ numbersOf es := by
  cases e <;> simp [numbersOf]

private theorem own_events : (es : List Event) → {ts : List (Thread K I)} → {used : List Nat} → {want : Nat → List (Exc K I)} → Own ts used want → (numbersOf es).Nodup → (∀ n ∈ numbersOf es, n ∉ used) →
    ∃ used', Own (es.foldl happen ts) used' want ∧ ∀ n, n ∈ used' ↔ n ∈ numbersOf es ∨ n ∈ used
  | [], ts, used, want, h, _, _ => ⟨used, h, fun n => by simp [numbersOf]⟩
  | e :: es, ts, used, want, h, hd, hn => by
    rw [numbersOf_cons] at hd hn
    have hd' := List.nodup_append.mp hd
    have h1 := own_event h e fun n hm => hn n (List.mem_append.mpr (.inl hm))
    obtain ⟨used', h2, h3⟩ := own_events es h1 hd'.2.1 (fun n hm hu => by
      rcases List.mem_append.mp hu with hu | hu
      · exact hd'.2.2 n hu n hm rfl
      · exact hn n (List.mem_append.mpr (.inr hm)) hu)
    refine ⟨used', h2, fun n => ?_⟩
    rw [h3, numbersOf_cons e es]
    simp only [List.mem_append]
    constructor
    · rintro (h | h | h)
      · exact .inl (.inr h)
      · exact .inl (.inl h)
      · exact .inr h
    · rintro ((h | h) | h)
      · exact .inr (.inl h)
      · exact .inl h
      · exact .inr (.inr h)

private theorem own_mono {ts : List (Thread K I)} {used : List Nat} {want want' : Nat → List (Exc K I)} (h : Own ts used want) (hw : ∀ i, (want i).Sublist (want' i)) : Own ts used want' :=
  ⟨h.used, h.unique, fun i t ht => (h.owns i t ht).trans ((hw i).map _)⟩

private theorem own_set {ts : List (Thread K I)} {used : List Nat} {want : Nat → List (Exc K I)} (h : Own ts used want) {i n : Nat} {t : Thread K I} (ht : ts[i]? = some t) (hi : t.phase.ident = some n) (e : Exc K I) :
    Own (setAsyncExc n e ts).2 used (fun j => want j ++ if i = j then [e] else []) := by
  have back : ∀ (j : Nat) (u : Thread K I), (setAsyncExc n e ts).2[j]? = some u → ∃ u0 : Thread K I, ts[j]? = some u0 ∧ u0.phase = u.phase := by
    intro j u hu
    rcases set_get hu with hu | ⟨u0, h0, _, rfl, _⟩
    · exact ⟨u, hu, rfl⟩
    · exact ⟨u0, h0, rfl⟩
  refine ⟨?_, ?_, ?_⟩
  · intro j u m hu hm
    obtain ⟨u0, h0, hp⟩ := back j u hu
    exact h.used j u0 m h0 (by rw [hp]; exact hm)
  · intro j k u v m hu hv hm hm'
    obtain ⟨u0, h0, hp⟩ := back j u hu
    obtain ⟨v0, h0', hp'⟩ := back k v hv
    exact h.unique j k u0 v0 m h0 h0' (by rw [hp]; exact hm) (by rw [hp']; exact hm')
  · intro j u hu
    rcases set_get hu with hu | ⟨u0, h0, hr, rfl, _⟩
    · exact (h.owns j u hu).trans (by rw [List.map_append]; exact List.sublist_append_left _ _)
    · have hij : i = j := h.unique i j t u0 n ht h0 hi (by rw [hr]; rfl)
      simp only [hij, if_true, List.map_append, List.map_cons, List.map_nil, all, Option.toList_some]
      refine List.Sublist.append ?_ (List.Sublist.refl _)
      exact (List.sublist_append_left _ _).trans (h.owns j u0 h0)

private theorem own_raise {ts : List (Thread K I)} {used : List Nat} {want : Nat → List (Exc K I)} (h : Own ts used want) (target : Option Nat) (e : Exc K I) (between : List Event)
    (hd : (numbersOf between).Nodup) (hn : ∀ n ∈ numbersOf between, n ∉ used) :
    ∃ used', Own (asyncRaise ts target e between).2 used' (fun j => want j ++ match target, (asyncRaise ts target e between).1 with
      | some i, .ok _ => if i = j then [e] else []
      | _, _ => []) ∧ ∀ n, n ∈ used' → n ∈ numbersOf between ∨ n ∈ used := by
  rcases raise_cases ts target e between with ⟨x, h1⟩ | ⟨i, t, n, rfl, ht, hi, h1⟩
  · rw [h1]
    exact ⟨used, own_mono h fun j => List.sublist_append_left _ _, fun n hn => .inr hn⟩
  · obtain ⟨used', h2, h3⟩ := own_events between h hd hn
    rcases h1 with ⟨h1, _⟩ | ⟨h1, _⟩
    · rw [h1]
      exact ⟨used', own_mono h2 fun j => List.sublist_append_left _ _, fun n hn => (h3 n).mp hn⟩
    · obtain ⟨t', h4, _, h5⟩ := events_some between ht
      rw [h1]
      exact ⟨used', own_set h2 h4 (h5 n hi) e, fun n hn => (h3 n).mp hn⟩

private theorem own_history : (ops : List (Op K I)) → {ts : List (Thread K I)} → {used : List Nat} → {want : Nat → List (Exc K I)} → Own ts used want → (numbers ops).Nodup → (∀ n ∈ numbers ops, n ∉ used) →
    ∃ used', Own (ops.foldl step ts) used' (fun j => want j ++ asked ts ops j)
  | [], ts, used, want, h, _, _ => ⟨used, own_mono h fun j => by simp [asked]⟩
  | .event e :: ops, ts, used, want, h, hd, hn => by
    simp only [numbers] at hd hn
    have hd' := List.nodup_append.mp hd
    have h1 := own_event h e fun n hm => hn n (List.mem_append.mpr (.inl hm))
    obtain ⟨used', h2⟩ := own_history ops h1 hd'.2.1 (fun n hm hu => by
      rcases List.mem_append.mp hu with hu | hu
      · exact hd'.2.2 n hu n hm rfl
      · exact hn n (List.mem_append.mpr (.inr hm)) hu)
    exact ⟨used', h2⟩
  | .raise target e between :: ops, ts, used, want, h, hd, hn => by
    simp only [numbers] at hd hn
    have hd' := List.nodup_append.mp hd
    obtain ⟨used1, h1, hu1⟩ := own_raise h target e between hd'.1 fun n hm => hn n (List.mem_append.mpr (.inl hm))
    obtain ⟨used', h2⟩ := own_history ops h1 hd'.2.1 (fun n hm hu => by
      rcases hu1 n hu with hu | hu
      · exact hd'.2.2 n hu n hm rfl
      · exact hn n (List.mem_append.mpr (.inr hm)) hu)
    refine ⟨used', own_mono h2 fun j => ?_⟩
    rw [List.append_assoc]
    exact List.Sublist.refl _

/-- C143: what is raised in a thread has been asked for, by calls of `async_raise` for this thread that returned; in this order, and each at most once.  This is so as long as no thread gets a number that another one had.
(Missing: numbers that are used again, see `C143_number_refuted`; that all of it is raised, see `C143_lost_refuted`.) -/
theorem C143_own_partial (ops : List (Op K I)) (hd : (numbers ops).Nodup) (j : Nat) (t : Thread K I) (ht : (history ops)[j]? = some t) : t.got.Sublist ((asked [] ops j).map shown) := by
  have h0 : Own ([] : List (Thread K I)) [] (fun _ => []) := ⟨by simp, by simp, by simp⟩
  obtain ⟨used', h⟩ := own_history ops h0 hd (by simp)
  have := h.owns j t ht
  simp only [List.nil_append] at this
  exact (List.sublist_append_left _ _).trans this

/-! ## running threads -/

/-- Running threads have different numbers. -/
private def Distinct (ts : List (Thread K I)) : Prop := ∀ (i j : Nat) (t u : Thread K I) n, ts[i]? = some t → ts[j]? = some u → t.phase = .running n → u.phase = .running n → i = j

private theorem becomes_running {e : Event} {j : Nat} {t0 t : Thread K I} (h : Becomes e j t0 t) {n : Nat} (hn : t.phase = .running n) : t0.phase = .running n ∨ e = .start j n := by
  cases h with
  | same h => rw [h] at hn; exact .inl hn
  | started m he hu h => rw [h] at hn; simp only [Phase.running.injEq] at hn; rw [← hn]; exact .inr he
  | ran m _ _ h => rw [h, deliver_phase] at hn; exact .inl hn
  | ended m _ hr h => rw [h] at hn; cases hn

private theorem distinct_event {ts : List (Thread K I)} (h : Distinct ts) (e : Event) : Distinct (happen ts e) := by
  by_cases hs : ∃ i n, e = .start i n ∧ n ∈ active ts
  · obtain ⟨i, n, rfl, hn⟩ := hs
    simp only [happen, if_pos hn]
    exact h
  · intro i j t u n ht hu hti huj
    have hno : ∀ k m, e = .start k m → ∀ (l : Nat) (v : Thread K I), ts[l]? = some v → v.phase ≠ .running m := fun k m he l v hv hr =>
      hs ⟨k, m, he, mem_active.mpr ⟨v, List.mem_of_getElem? hv, hr⟩⟩
    rcases happen_get ht with ⟨t0, h0, hb⟩ | ⟨_, rfl⟩
    · rcases happen_get hu with ⟨u0, h0', hb'⟩ | ⟨_, rfl⟩
      · rcases becomes_running hb hti with hi | hi
        · rcases becomes_running hb' huj with hj | hj
          · exact h i j t0 u0 n h0 h0' hi hj
          · exact absurd hi (hno j n hj i t0 h0)
        · rcases becomes_running hb' huj with hj | hj
          · exact absurd hj (hno i n hi j u0 h0')
          · rw [hi] at hj
            injection hj
      · cases huj
    · cases hti

private theorem distinct_events : (es : List Event) → {ts : List (Thread K I)} → Distinct ts → Distinct (es.foldl happen ts)
  | [], _, h => h
  | e :: es, _, h => distinct_events es (distinct_event h e)

private theorem distinct_set {ts : List (Thread K I)} (h : Distinct ts) (n : Nat) (e : Exc K I) : Distinct (setAsyncExc n e ts).2 := by
  have back : ∀ (j : Nat) (u : Thread K I), (setAsyncExc n e ts).2[j]? = some u → ∃ u0 : Thread K I, ts[j]? = some u0 ∧ u0.phase = u.phase := by
    intro j u hu
    rcases set_get hu with hu | ⟨u0, h0, _, rfl, _⟩
    · exact ⟨u, hu, rfl⟩
    · exact ⟨u0, h0, rfl⟩
  intro j k u v m hu hv hm hm'
  obtain ⟨u0, h0, hp⟩ := back j u hu
  obtain ⟨v0, h0', hp'⟩ := back k v hv
  exact h j k u0 v0 m h0 h0' (by rw [hp]; exact hm) (by rw [hp']; exact hm')

private theorem distinct_history : (ops : List (Op K I)) → {ts : List (Thread K I)} → Distinct ts → Distinct (ops.foldl step ts)
  | [], _, h => h
  | .event e :: ops, _, h => distinct_history ops (distinct_event h e)
  | .raise target e between :: ops, ts, h => by
    refine distinct_history ops (ts := (asyncRaise ts target e between).2) ?_
    rcases raise_cases ts target e between with ⟨x, h1⟩ | ⟨i, t, n, _, _, _, h1 | h1⟩
    · rw [h1]; exact h
    · rw [h1.1]; exact distinct_events between h
    · rw [h1.1]; exact distinct_set (distinct_events between h) n e

/-- A running thread that does not end goes on running. -/
private theorem events_running : (es : List Event) → {ts : List (Thread K I)} → {j : Nat} → {t0 : Thread K I} → {n : Nat} → ts[j]? = some t0 → t0.phase = .running n → (∀ e ∈ es, e ≠ .finish j) →
    ∃ t, (es.foldl happen ts)[j]? = some t ∧ t.phase = .running n
  | [], ts, j, t0, n, h, hr, _ => ⟨t0, h, hr⟩
  | e :: es, ts, j, t0, n, h, hr, hf => by
    obtain ⟨t1, h1, hb⟩ := happen_some (e := e) h
    refine events_running es h1 ?_ fun e' he' => hf e' (List.mem_cons_of_mem _ he')
    cases hb with
    | same h => rw [h]; exact hr
    | started m _ hu _ => rw [hu] at hr; cases hr
    | ran m _ _ h => rw [h, deliver_phase]; exact hr
    | ended m he _ _ => exact absurd he (hf e (by simp))

/-- C143: if the thread is running, and does not end during the call, then `async_raise` returns, after any history; the exception is to be raised in this thread; and when this runs next, it is raised there (a class is instantiated).  The
other threads are left alone.  (Missing: instances, see `C143_instance_refuted`; a thread that ends before it runs again, see `C143_ended_refuted`.) -/
theorem C143_raised_partial (ops : List (Op K I)) (i : Nat) (t : Thread K I) (n : Nat) (k : K) (between : List Event) (ht : (history ops)[i]? = some t) (hr : t.phase = .running n) (hf : ∀ e ∈ between, e ≠ .finish i) :
    let r := asyncRaise (history ops) (some i) (.cls k) between
    let before := between.foldl happen (history ops)
    r.1 = .ok () ∧
    (∀ j, j ≠ i → r.2[j]? = before[j]?) ∧
    ∃ b a, before[i]? = some b ∧ (happen r.2 (.run i))[i]? = some a ∧ a.got = b.got ++ [.exception k] ∧ a.pending = none := by
  intro r before
  obtain ⟨b, hb, hbr⟩ := events_running between ht hr hf
  have hd : Distinct before := distinct_events between (distinct_history ops (ts := []) (by intro i j t u n h; simp at h))
  have hz : (setAsyncExc n (Exc.cls k : Exc K I) before).1 ≠ 0 := fun h => (set_zero h).2 b (List.mem_of_getElem? hb) hbr
  have hact : n ∈ active (history ops) := mem_active.mpr ⟨t, List.mem_of_getElem? ht, hr⟩
  have hrr : r = (.ok (), (setAsyncExc n (Exc.cls k) before).2) := by
    show asyncRaise _ _ _ _ = _
    have hi : t.phase.ident = some n := by rw [hr]; rfl
    simp only [asyncRaise, ht, hi]
    rw [if_neg (not_not_intro hact), if_neg hz]
  have hget : ∀ (j : Nat) (u : Thread K I), before[j]? = some u → ∃ u', (setAsyncExc n (Exc.cls k : Exc K I) before).2[j]? = some u' := by
    intro j u hu
    have := (List.getElem?_eq_some_iff.mp hu).1
    rw [← set_length (n := n) (e := Exc.cls k) before] at this
    exact ⟨_, List.getElem?_eq_getElem this⟩
  refine ⟨by rw [hrr], ?_, ?_⟩
  · intro j hj
    rw [hrr]
    cases hu : before[j]? with
    | none =>
      rw [List.getElem?_eq_none_iff] at hu ⊢
      rw [set_length]; exact hu
    | some u =>
      obtain ⟨u', hu'⟩ := hget j u hu
      simp only
      rw [hu']
      rcases set_get hu' with h1 | ⟨u0, h0, hr0, _, _⟩
      · rw [hu] at h1; exact h1.symm
      · exact absurd (hd j i u0 b n h0 hb hr0 hbr) hj
  · obtain ⟨b', hb'⟩ := hget i b hb
    have hb2 : b' = { b with pending := some (.cls k) } := by
      obtain ⟨j, u, h2, h3, h4⟩ := set_one hz
      have hji : j = i := hd j i u b n h2 hb h3 hbr
      rw [hji] at h2 h4
      rw [h4] at hb'
      rw [hb] at h2
      cases h2
      cases hb'
      rfl
    refine ⟨b, deliver b', hb, ?_, ?_, ?_⟩
    · rw [hrr]
      simp only [happen, AsyncRaise.modify, List.getElem?_modify, hb']
      simp [hb2, hbr]
    · rw [hb2]; rfl
    · rw [hb2]; rfl

/-- C143: a thread that has ended, whose number no running thread has, is a ValueError, and nothing is done.  (Missing: numbers that are used again, see `C143_number_refuted`.) -/
theorem C143_ended_partial (ts : List (Thread K I)) (i : Nat) (t : Thread K I) (n : Nat) (e : Exc K I) (between : List Event) (ht : ts[i]? = some t) (hp : t.phase = .ended n) (hn : ∀ u ∈ ts, u.phase ≠ .running n) :
    asyncRaise ts (some i) e between = (.error .ValueError, ts) := by
  have hi : t.phase.ident = some n := by rw [hp]; rfl
  simp only [asyncRaise, ht, hi]
  rw [if_pos fun h => by obtain ⟨u, hu, hr⟩ := mem_active.mp h; exact hn u hu hr]

/-- C143: so is a thread that ends during the call; if no running thread has got its number by then, nothing is done besides what the threads do.  (Missing: numbers that are used again, see `C143_during_refuted`.) -/
theorem C143_gone_partial (ts : List (Thread K I)) (i : Nat) (t : Thread K I) (n : Nat) (e : Exc K I) (between : List Event) (ht : ts[i]? = some t) (hp : t.phase = .running n) (hn : ∀ u ∈ between.foldl happen ts, u.phase ≠ .running n) :
    asyncRaise ts (some i) e between = (.error .ValueError, between.foldl happen ts) := by
  have hi : t.phase.ident = some n := by rw [hp]; rfl
  have hz : (setAsyncExc n e (between.foldl happen ts)).1 = 0 := Classical.byContradiction fun h => by
    obtain ⟨j, u, h1, h2, _⟩ := set_one h
    exact hn u (List.mem_of_getElem? h1) h2
  have hact : n ∈ active ts := mem_active.mpr ⟨t, List.mem_of_getElem? ht, hp⟩
  simp only [asyncRaise, ht, hi]
  rw [if_neg (not_not_intro hact), if_pos hz, (set_zero hz).1]

/-- C143 is false when a number is used again: a thread has ended, and a new one has its number.  An exception for the first is raised in the second, which nobody asked for. -/
theorem C143_number_refuted (n : Nat) (k : K) :
    let ops : List (Op K I) := [.event .make, .event (.start 0 n), .event (.finish 0), .event .make, .event (.start 1 n)]
    (asyncRaise (history ops) (some 0) (.cls k) []).1 = .ok () ∧
    ((history (ops ++ [.raise (some 0) (.cls k) [], .event (.run 1)]))[1]?.map (·.got)) = some [.exception k] ∧
    asked [] (ops ++ [.raise (some 0) (.cls k) [], .event (.run 1)]) 1 = [] := by
  refine ⟨?_, ?_, ?_⟩ <;>
  simp [history, step, asyncRaise, happen, active, AsyncRaise.modify, setAsyncExc, Phase.ident, deliver, asked]

/-- The same, when the thread ends and the new one begins during the call. -/
theorem C143_during_refuted (n : Nat) (k : K) :
    let ops : List (Op K I) := [.event .make, .event (.start 0 n), .event .make, .raise (some 0) (.cls k) [.finish 0, .start 1 n], .event (.run 1)]
    ((history ops)[1]?.map (·.got)) = some [.exception k] ∧ asked [] ops 1 = [] := by
  refine ⟨?_, ?_⟩ <;>
  simp [history, step, asyncRaise, happen, active, AsyncRaise.modify, setAsyncExc, Phase.ident, deliver, asked]

/-- C143 is false of two exceptions: both calls return, and only the second exception is raised. -/
theorem C143_lost_refuted (n : Nat) (k l : K) :
    let ops : List (Op K I) := [.event .make, .event (.start 0 n), .raise (some 0) (.cls k) [], .raise (some 0) (.cls l) [], .event (.run 0)]
    asked [] ops 0 = [.cls k, .cls l] ∧ ((history ops)[0]?.map (·.got)) = some [.exception l] ∧ ((history ops)[0]?.map (·.pending)) = some none := by
  refine ⟨?_, ?_, ?_⟩ <;>
  simp [history, step, asyncRaise, happen, active, AsyncRaise.modify, setAsyncExc, Phase.ident, deliver, asked]

private theorem ended_stays : (es : List Event) → {ts : List (Thread K I)} → {j : Nat} → {t : Thread K I} → {n : Nat} → ts[j]? = some t → t.phase = .ended n → (es.foldl happen ts)[j]? = some t
  | [], _, _, _, _, h, _ => h
  | e :: es, ts, j, t, n, h, hp => by
    obtain ⟨t1, h1, hb⟩ := happen_some (e := e) h
    have : t1 = t := by
      cases hb with
      | same h => exact h
      | started m _ hu _ => rw [hu] at hp; cases hp
      | ran m _ hr _ => rw [hr] at hp; cases hp
      | ended m _ hr _ => rw [hr] at hp; cases hp
    rw [this] at h1
    exact ended_stays es h1 hp

/-- C143 is false of a thread that ends before it runs again: the call returns, and whatever happens later, the exception is not raised. -/
theorem C143_ended_refuted (n : Nat) (k : K) (later : List Event) :
    let ops : List (Op K I) := [.event .make, .event (.start 0 n), .raise (some 0) (.cls k) [], .event (.finish 0)]
    asked [] ops 0 = [.cls k] ∧ (((later.foldl happen (history ops)))[0]?.map (·.got)) = some [] := by
  refine ⟨?_, ?_⟩
  · simp [step, asyncRaise, happen, active, AsyncRaise.modify, setAsyncExc, Phase.ident, asked]
  · have h : (history ([.event .make, .event (.start 0 n), .raise (some 0) (.cls k) [], .event (.finish 0)] : List (Op K I)))[0]? = some { phase := .ended n, pending := some (.cls k), got := [] } := by
      simp [history, step, asyncRaise, happen, active, AsyncRaise.modify, setAsyncExc, Phase.ident]
    rw [ended_stays later h rfl]
    rfl

/-- C143 is false of instances, which the documentation allows: the call returns, and a SystemError is raised in the thread instead. -/
theorem C143_instance_refuted (n : Nat) (i : I) :
    let ops : List (Op K I) := [.event .make, .event (.start 0 n), .raise (some 0) (.inst i) [], .event (.run 0)]
    asked [] ops 0 = [.inst i] ∧ ((history ops)[0]?.map (·.got)) = some [.systemError] := by
  refine ⟨?_, ?_⟩ <;>
  simp [history, step, asyncRaise, happen, active, AsyncRaise.modify, setAsyncExc, Phase.ident, deliver, asked]

/-! ## examples: the hypotheses can be met -/

/-- Two threads, and exceptions for both -/
private def two : List (Op Nat Nat) :=
  [.event .make, .event .make, .event (.start 1 20), .event (.start 0 10), .raise (some 1) (.cls 5) [.run 0], .event (.run 1), .raise (some 0) (.cls 6) [], .event (.run 0), .raise (some 1) (.cls 7) [.finish 1], .raise none (.cls 8) [],
   .event .make]
example : (numbers two).Nodup := by decide
example : (history two).map (·.got) = [[.exception 6], [.exception 5], []] := by decide
example : (List.range 3).map (asked [] two) = [[.cls 6], [.cls 5], []] := by decide
example : ∃ t, (history two)[0]? = some t ∧ t.phase = .running 10 := ⟨_, rfl, rfl⟩
example : ∃ t, (history two)[1]? = some t ∧ t.phase = .ended 20 ∧ ∀ u ∈ history two, u.phase ≠ .running 20 := ⟨_, rfl, rfl, by decide⟩
example : ∃ t, (history two)[2]? = some t ∧ t.phase = .unstarted := ⟨_, rfl, rfl⟩
example : ∀ u ∈ [Event.run 0, .finish 0].foldl happen (history two), u.phase ≠ .running 10 := by decide
example : (asyncRaise (history two) (some 0) (.cls 1) [.finish 0]).1 = .error .ValueError := rfl

end Unpy.Props
