import Verif.Spec.GMemoSelf
/-!
# C147: memoized generators that use themselves
-/
namespace Unpy.Props
open Unpy.GMemoSelf Unpy.Spec.GMemoSelf
variable {S V E : Type}

private def upTo (o : Nat → Out V E) (n : Nat) : List (Out V E) := (List.range n).map o

private theorem upTo_get (o : Nat → Out V E) (n i : Nat) : (upTo o n)[i]? = if i < n then some (o i) else none := by
  unfold upTo
  by_cases h : i < n <;> simp [h]

private theorem upTo_succ (o : Nat → Out V E) (n : Nat) : upTo o (n + 1) = upTo o n ++ [o n] := by
  simp [upTo, List.range_succ]

private theorem resume_of_goes (fn : Fn S V E) (o : Nat → Out V E) (n : Nat) {s : S} {r : Out V E} {s' : Option S} (h : Goes fn o n s r s') :
    ∃ F, ∀ fuel, F ≤ fuel → resume fn fuel s (upTo o n) = some (r, s', upTo o n) := by
  induction h with
  | yield h => exact ⟨1, fun fuel hf => by obtain ⟨m, rfl⟩ : ∃ m, fuel = m + 1 := ⟨fuel - 1, by omega⟩; simp [resume, h]⟩
  | raise h => exact ⟨1, fun fuel hf => by obtain ⟨m, rfl⟩ : ∃ m, fuel = m + 1 := ⟨fuel - 1, by omega⟩; simp [resume, h]⟩
  | stop h => exact ⟨1, fun fuel hf => by obtain ⟨m, rfl⟩ : ∃ m, fuel = m + 1 := ⟨fuel - 1, by omega⟩; simp [resume, h]⟩
  | ask h hm _ ih =>
    obtain ⟨F, hF⟩ := ih
    refine ⟨F + 1, fun fuel hf => ?_⟩
    obtain ⟨m, rfl⟩ : ∃ m, fuel = m + 1 := ⟨fuel - 1, by omega⟩
    simp [resume, h, upTo_get, hm, hF m (by omega)]

/-- the memo is what the sequence says, and so is what has been delivered -/
private structure Inv (o : Nat → Out V E) (sts : Nat → Option S) (st : St S V E) : Prop where
  memo : ∃ n, st.memo = upTo o n ∧ st.gen = sts n ∧ ∀ (i j : Nat), st.insts[i]? = some j → j ≤ n
  most : st.memo.length = 0 ∨ ∃ i : Nat, st.insts[i]? = some st.memo.length
  deliv : ∀ (i j : Nat), st.insts[i]? = some j → st.delivered i = upTo o j
  dom : ∀ e ∈ st.log, e.1 < st.insts.length

private theorem next_of (fn : Fn S V E) (o : Nat → Out V E) (sts : Nat → Option S)
    (hs : ∀ n, match sts n with
      | some s => Goes fn o n s (o n) (sts (n + 1))
      | none => o n = .stopped ∧ sts (n + 1) = none) (n j : Nat) (hj : j ≤ n) :
    ∃ F, ∀ fuel, F ≤ fuel → next fn fuel (sts n) (upTo o n) j =
      some (o j, if j < n then sts n else sts (n + 1), if j < n then upTo o n else upTo o (n + 1)) := by
  by_cases h : j < n
  · exact ⟨0, fun fuel _ => by simp [next, upTo_get, h]⟩
  · have e : j = n := by omega
    subst e
    have h1 := hs j
    cases h2 : sts j with
    | none =>
      rw [h2] at h1
      exact ⟨0, fun fuel _ => by simp [next, upTo_get, h1.1, h1.2, upTo_succ]⟩
    | some s =>
      rw [h2] at h1
      obtain ⟨F, hF⟩ := resume_of_goes fn o j h1
      exact ⟨F, fun fuel hf => by simp [next, upTo_get, hF fuel hf, upTo_succ]⟩

private theorem delivered_append (st : St S V E) (gen : Option S) (memo : List (Out V E)) (insts : List Nat) (i i' : Nat) (r : Out V E) :
    (St.delivered ⟨gen, memo, insts, st.log ++ [(i, r)]⟩ i') = st.delivered i' ++ (if i = i' then [r] else []) := by
  by_cases h : i = i' <;> simp [St.delivered, h]

private theorem step_inv (fn : Fn S V E) (o : Nat → Out V E) (sts : Nat → Option S)
    (hs : ∀ n, match sts n with
      | some s => Goes fn o n s (o n) (sts (n + 1))
      | none => o n = .stopped ∧ sts (n + 1) = none) (st : St S V E) (inv : Inv o sts st) (op : Op) :
    ∃ st', Inv o sts st' ∧ ∃ F, ∀ fuel, F ≤ fuel → step fn fuel st op = some st' := by
  cases op with
  | call =>
    refine ⟨_, ?_, 0, fun fuel _ => rfl⟩
    obtain ⟨n, hm, hg, hi⟩ := inv.memo
    refine ⟨⟨n, hm, hg, ?_⟩, ?_, ?_, ?_⟩
    · intro i j h
      simp only [List.getElem?_append] at h
      split at h
      · exact hi i j h
      · cases hx : i - st.insts.length with
        | zero => rw [hx] at h; simp at h; omega
        | succ m => rw [hx] at h; simp at h
    · rcases inv.most with h | ⟨i, h⟩
      · exact .inl h
      · refine .inr ⟨i, ?_⟩
        have := (List.getElem?_eq_some_iff.mp h).1
        simp only [List.getElem?_append, if_pos this]; exact h
    · intro i j h
      simp only [List.getElem?_append] at h
      split at h
      · exact inv.deliv i j h
      · next hlt =>
        cases hx : i - st.insts.length with
        | zero =>
          rw [hx] at h; simp at h; subst h
          have : st.log.filter (fun e => e.1 = i) = [] := by
            rw [List.filter_eq_nil_iff]
            intro e he
            have := inv.dom e he
            simp; omega
          simp [St.delivered, this, upTo]
        | succ m => rw [hx] at h; simp at h
    · intro e he
      have := inv.dom e he
      simp; omega
  | next i =>
    cases hi : st.insts[i]? with
    | none => exact ⟨st, inv, 0, fun fuel _ => by simp [step, hi]⟩
    | some j =>
      obtain ⟨n, hm, hg, hle⟩ := inv.memo
      have hj := hle i j hi
      have hlt := (List.getElem?_eq_some_iff.mp hi).1
      obtain ⟨F, hF⟩ := next_of fn o sts hs n j hj
      refine ⟨⟨if j < n then sts n else sts (n + 1), if j < n then upTo o n else upTo o (n + 1), st.insts.set i (j + 1), st.log ++ [(i, o j)]⟩, ?_, F, fun fuel hf => ?_⟩
      rotate_left
      · simp only [step, hi, hm, hg, hF fuel hf]
      · refine ⟨⟨if j < n then n else n + 1, ?_, ?_, ?_⟩, ?_, ?_, ?_⟩
        · by_cases h : j < n <;> simp [h]
        · by_cases h : j < n <;> simp [h]
        · intro i' j' h
          simp only [List.getElem?_set] at h
          by_cases e : i = i'
          · rw [if_pos e] at h; subst e; rw [if_pos hlt] at h; simp at h; split <;> omega
          · rw [if_neg e] at h; have := hle i' j' h; split <;> omega
        · by_cases h : j < n
          · have hml : st.memo.length = n := by simp [hm, upTo]
            rcases inv.most with h0 | ⟨i', h'⟩
            · omega
            · right
              simp only [if_pos h]
              refine ⟨i', ?_⟩
              have hne : i ≠ i' := by
                rintro rfl
                rw [hi, hml] at h'; simp at h'; omega
              simp only [List.getElem?_set, if_neg hne, h', hml]
              simp [upTo]
          · right
            refine ⟨i, ?_⟩
            simp only [if_neg h]
            have : j = n := by omega
            simp [List.getElem?_set, hlt, upTo, this]
        · intro i' j' h
          rw [delivered_append]
          simp only [List.getElem?_set] at h
          by_cases e : i = i'
          · rw [if_pos e] at h; subst e; rw [if_pos hlt] at h; simp at h; subst h
            rw [inv.deliv i j hi, upTo_succ]; simp
          · rw [if_neg e] at h; rw [inv.deliv i' j' h]; simp [e]
        · intro e he
          simp at he
          rcases he with he | rfl
          · have := inv.dom e he; simp; exact this
          · simp; exact hlt

private theorem run_inv (fn : Fn S V E) (o : Nat → Out V E) (sts : Nat → Option S)
    (hs : ∀ n, match sts n with
      | some s => Goes fn o n s (o n) (sts (n + 1))
      | none => o n = .stopped ∧ sts (n + 1) = none) (ops : List Op) (st : St S V E) (inv : Inv o sts st) :
    ∃ st', Inv o sts st' ∧ ∃ F, ∀ fuel, F ≤ fuel → run fn fuel ops st = some st' := by
  induction ops generalizing st with
  | nil => exact ⟨st, inv, 0, fun _ _ => rfl⟩
  | cons op ops ih =>
    obtain ⟨st1, inv1, F1, h1⟩ := step_inv fn o sts hs st inv op
    obtain ⟨st2, inv2, F2, h2⟩ := ih st1 inv1
    exact ⟨st2, inv2, max F1 F2, fun fuel hf => by simp [run, h1 fuel (by omega), h2 fuel (by omega)]⟩

/-- C147: a memoized generator may use itself.  If a sequence of outcomes is what the generator does when the instances that it uses have these same outcomes, each outcome depending on earlier ones only, then every
instance delivers this sequence, in order, however many there are and in whatever order they are used, and the memo is as long as what the most advanced of them has delivered.
(Missing: a generator that asks for an item it has not delivered yet, see `C147_busy_refuted`.) -/
theorem C147_self_partial (fn : Fn S V E) (o : Nat → Out V E) (h : Solves fn o) (ops : List Op) :
    ∃ st F, (∀ fuel, F ≤ fuel → run fn fuel ops (init fn) = some st) ∧
      (∀ i, i < st.insts.length → ∃ n, n ≤ st.memo.length ∧ st.delivered i = (List.range n).map o) ∧
      (∃ n, st.memo = (List.range n).map o ∧ (n = 0 ∨ ∃ i, i < st.insts.length ∧ st.delivered i = (List.range n).map o)) := by
  obtain ⟨sts, h0, hs⟩ := h
  have inv0 : Inv o sts (init fn) := ⟨⟨0, rfl, h0.symm, by simp [init]⟩, .inl rfl, by simp [init], by simp [init]⟩
  obtain ⟨st, inv, F, hF⟩ := run_inv fn o sts hs ops (init fn) inv0
  obtain ⟨n, hm, _, hle⟩ := inv.memo
  have hml : st.memo.length = n := by simp [hm, upTo]
  refine ⟨st, F, hF, ?_, n, hm, ?_⟩
  · intro i hi
    have hx : st.insts[i]? = some st.insts[i] := by simp [hi]
    exact ⟨_, by rw [hml]; exact hle i _ hx, inv.deliv i _ hx⟩
  · rcases inv.most with h | ⟨i, h⟩
    · left; omega
    · right
      refine ⟨i, (List.getElem?_eq_some_iff.mp h).1, ?_⟩
      rw [inv.deliv i _ h, hml]; rfl

private theorem goes_det (fn : Fn S V E) (o o' : Nat → Out V E) (n : Nat) (ho : ∀ m, m < n → o m = o' m) {s : S} {r r' : Out V E} {s1 s1' : Option S}
    (h : Goes fn o n s r s1) (h' : Goes fn o' n s r' s1') : r = r' ∧ s1 = s1' := by
  induction h generalizing r' s1' with
  | yield h => cases h' <;> simp_all
  | raise h => cases h' <;> simp_all
  | stop h => cases h' <;> simp_all
  | ask h hm _ ih =>
    cases h' with
    | ask h2 hm2 hk2 =>
      rw [h] at h2
      injection h2 with e1 e2
      subst e1; subst e2
      exact ih (by rw [ho _ hm]; exact hk2)
    | yield h2 => rw [h] at h2; simp at h2
    | raise h2 => rw [h] at h2; simp at h2
    | stop h2 => rw [h] at h2; simp at h2

/-- C147: a generator that uses itself defines at most one sequence of outcomes: the one that its instances deliver does not depend on how they are used. -/
theorem C147_self_unique (fn : Fn S V E) : Spec.GMemoSelf.Unique fn := by
  intro o o' ⟨sts, h0, hs⟩ ⟨sts', h0', hs'⟩
  have key : ∀ n, (∀ m, m < n → o m = o' m) ∧ sts n = sts' n := by
    intro n
    induction n with
    | zero => exact ⟨by omega, by rw [h0, h0']⟩
    | succ n ih =>
      obtain ⟨ho, he⟩ := ih
      have a := hs n
      have b := hs' n
      rw [← he] at b
      cases hst : sts n with
      | none =>
        rw [hst] at a b
        refine ⟨fun m hm => ?_, by rw [a.2, b.2]⟩
        rcases Nat.lt_succ_iff_lt_or_eq.mp hm with h | rfl
        · exact ho m h
        · rw [a.1, b.1]
      | some s =>
        rw [hst] at a b
        obtain ⟨e1, e2⟩ := goes_det fn o o' n ho a b
        refine ⟨fun m hm => ?_, e2⟩
        rcases Nat.lt_succ_iff_lt_or_eq.mp hm with h | rfl
        · exact ho m h
        · exact e1
  funext n
  exact (key (n + 1)).1 n (by omega)

/-! Concrete case: powers of two, each twice the one before: `yield 1; for x in g(): yield 2 * x` -/

def doubling : Fn (Option (Nat × Option Nat)) Nat String where
  start := none
  step
    | none => .yield 1 (some (0, none))
    | some (n, none) => .ask n (fun r => match r with | .item x => some (n, some x) | _ => none)
    | some (n, some x) => .yield (2 * x) (some (n + 1, none))
  busy := "ValueError: generator already executing"

example : Solves doubling (fun n => .item (2 ^ n)) := by
  refine ⟨fun n => match n with | 0 => some none | n + 1 => some (some (n, none)), rfl, fun n => ?_⟩
  cases n with
  | zero => exact .yield rfl
  | succ n =>
    refine .ask (m := n) rfl (by omega) ?_
    have : Goes doubling (fun n => .item (2 ^ n)) (n + 1) (some (n, some (2 ^ n))) (.item (2 * 2 ^ n)) (some (some (n + 1, none))) := .yield rfl
    simpa [Nat.pow_succ, Nat.mul_comm] using this

example : ((run doubling 5 [.call, .next 0, .next 0, .call, .next 1, .next 1, .next 1] (init doubling)).map (fun st => (st.delivered 0, st.delivered 1)))
    = some ([.item 1, .item 2], [.item 1, .item 2, .item 4]) := by decide

/-- `try: x = next(g()) except ValueError: x = 0`, then `yield x`, then `yield 7` -/
def eager : Fn Nat Nat String where
  start := 0
  step
    | 0 => .ask 0 (fun r => match r with | .item x => 10 + x | _ => 1)
    | 1 => .yield 0 2
    | 2 => .yield 7 3
    | 3 => .stop
    | n => .yield (n - 10) 2
  busy := "ValueError: generator already executing"

/-- C147 is violated: when a generator asks an instance of itself for an item that it has not delivered yet, the ValueError that this raises goes into the memo.  Even if the generator catches it, the instances no
longer agree: the first one, which was the first to ask, delivers the items 0, 0, 7, and all later ones raise ValueError, and then deliver 0, 7. -/
theorem C147_busy_refuted :
    ((run eager 5 [.call, .next 0, .next 0, .next 0, .call, .next 1, .next 1, .next 1] (init eager)).map (fun st => (st.delivered 0, st.delivered 1)))
      = some ([.item 0, .item 0, .item 7], [.raised "ValueError: generator already executing", .item 0, .item 7]) := by decide

/-- `yield 5`, then `try: next(it) except ValueError: pass`, where `it = g()` has delivered one item, then `yield 7` -/
private def late : Fn Nat Nat String where
  start := 0
  step
    | 0 => .yield 5 1
    | 1 => .ask 1 (fun _ => 2)
    | 2 => .yield 7 3
    | _ => .stop
  busy := "ValueError: generator already executing"

-- items that are in the memo already stay there
example : ((run late 5 [.call, .next 0, .next 0, .call, .next 1, .next 1, .next 1] (init late)).map (fun st => (st.delivered 0, st.delivered 1)))
    = some ([.item 5, .item 7], [.item 5, .raised "ValueError: generator already executing", .item 7]) := by decide

end Unpy.Props
