import Verif.Proof.JumpWarn
/-!
# Property C161: warnings about tail calls that are never made
-/
namespace Unpy.Props
open Unpy.JumpWarn Unpy.JumpWarn.Spec

/-- C161: when a program is over, there has been a warning for a jump exactly if no trampoline has ever called its target on its behalf; whatever the program does with its jumps. -/
theorem C161_exact (W : World) (n : Nat) (main : Prog) (r : Except Err V) (s : St) (h : program W n main = some (r, s)) (j : Nat) :
    j ∈ warned s ↔ j < s.jumps.length ∧ j ∉ s.carried := by
  have hi := (inv_all W n).1 main ⟨[], []⟩ (r, s) ⟨by simp, by simp, nofun⟩ h
  rw [mem_warned]
  constructor
  · rintro ⟨x, hx, hc⟩
    refine ⟨(List.getElem?_eq_some_iff.mp hx).1, fun hj => ?_⟩
    have := (hi.iff j x hx).mpr (.inl hj)
    simp [hc] at this
  · rintro ⟨hl, hj⟩
    refine ⟨s.jumps[j], List.getElem?_eq_getElem hl, ?_⟩
    have := (hi.iff j _ (List.getElem?_eq_getElem hl)).mp
    cases hc : s.jumps[j].claimed with
    | false => rfl
    | true =>
      rcases this hc with h | h
      · exact absurd h hj
      · cases h

/-- C161: each jump is warned about at most once. -/
theorem C161_once (s : St) : (warned s).Nodup := List.nodup_range.sublist List.filter_sublist

/-- C161: a program in which tail calls are made only by `return jump(...)`, and functions that make them are called only by trampolines (they are trampolined themselves, or are targets
of tail calls), gets no warning, but for jumps to something that cannot be called; and no `jump` object comes out of an ordinary call. -/
theorem C161_rules (W : World) (tails : Nat → Prop) (hR : Rules W tails) (n : Nat) (main : Prog) (hm : Ordinary W tails main)
    (r : Except Err V) (s : St) (h : program W n main = some (r, s)) :
    (∀ j ∈ warned s, ∃ x, s.jumps[j]? = some x ∧ callable x.target = false) ∧ ∀ j, r ≠ .ok (.jump j) := by
  have := (rules_all hR n).1 main ⟨[], []⟩ (r, s) hm (by simp [AllSettled]) h
  refine ⟨fun j hj => ?_, fun j hj => this.2 _ hj j rfl⟩
  obtain ⟨x, hx, hc⟩ := mem_warned.mp hj
  refine ⟨x, hx, ?_⟩
  rcases (this.1 j x hx).2 with h | h
  · simp [hc] at h
  · exact h

/-- `even` (0) and `odd` (1), trampolined: `n` if it is 0, and otherwise a tail call to the other one; `sum` (2) is an ordinary function that calls `even`. -/
private def parity : World where
  body
    | 0, .data 0 => .ret (.data 1)
    | 0, .data (n + 1) => .jump (.fn 1) (.data n) .ret
    | 1, .data 0 => .ret (.data 0)
    | 1, .data (n + 1) => .jump (.fn 0) (.data n) .ret
    | 2, .data n => .call (.fn 0) (.data n) fun r => match r with
      | .ok (.jump _) => .ret (.data 77)
      | .ok v => .ret v
      | .error e => .raise e
    | _, _ => .raise .typeError
  trampolined i := i < 2

private theorem parity_rules : Rules parity (· < 2) where
  tail i a ha := by
    cases a with
    | data n =>
      match i with
      | 0 => cases n <;> simp [parity, Tail, NotJump]
      | 1 => cases n <;> simp [parity, Tail, NotJump]
      | 2 =>
        refine ⟨.inl rfl, by simp [NotJump], fun r hr => ?_⟩
        rcases r with e | v
        · trivial
        · cases v <;> simp [Tail, NotJump]
      | i + 3 => simp [parity, Tail]
    | fn k => simp [parity, Tail]
    | entry k => simp [parity, Tail]
    | jump k => exact absurd rfl (ha k)
  ordinary i a ha hi := by
    cases a with
    | data n =>
      match i with
      | 0 => simp at hi
      | 1 => simp at hi
      | 2 =>
        refine ⟨.inl rfl, by simp [NotJump], fun r hr => ?_⟩
        rcases r with e | v
        · trivial
        · cases v <;> simp [Ordinary, NotJump]
      | i + 3 => simp [parity, Ordinary]
    | fn k => simp [parity, Ordinary]
    | entry k => simp [parity, Ordinary]
    | jump k => exact absurd rfl (ha k)

private def askParity (n : Nat) : Prog := .call (.fn 2) (.data n) fun r => match r with
  | .ok (.jump _) => .raise .typeError
  | .ok v => .ret v
  | .error e => .raise e

/-- `sum(3)` makes three tail calls, and all are carried out. -/
example : ∃ s, program parity 30 (askParity 3) = some (.ok (.data 0), s) ∧ s.jumps.length = 3 ∧ s.carried = [0, 1, 2] ∧
    (∀ j ∈ warned s, ∃ x, s.jumps[j]? = some x ∧ callable x.target = false) := by
  refine ⟨_, rfl, rfl, rfl, (C161_rules parity (· < 2) parity_rules 30 (askParity 3) ?_ _ _ rfl).1⟩
  refine ⟨.inr (by simp), by simp [NotJump], fun r hr => ?_⟩
  rcases r with e | v
  · trivial
  · cases v <;> simp [Ordinary, NotJump]

/-- C161: the three mistakes in the documentation get their warning, whatever the target is: `jump(...)` without `return` in a trampolined function; `return jump(...)` in a function
without a trampoline; and the same in a function that a trampolined one calls in the ordinary way. -/
theorem C161_mistakes (target arg : V) (v : V) (hv : NotJump v) :
    (∀ W : World, W.trampolined 0 = true → (∀ a, W.body 0 a = .jump target arg fun _ => .ret v) →
      ∃ s, program W 9 (.call (.fn 0) (.data 0) fun _ => .ret v) = some (.ok v, s) ∧ warned s = [0]) ∧
    (∀ W : World, W.trampolined 0 = false → (∀ a, W.body 0 a = .jump target arg .ret) →
      ∃ s, program W 9 (.call (.fn 0) (.data 0) fun _ => .ret v) = some (.ok v, s) ∧ warned s = [0]) ∧
    (∀ W : World, W.trampolined 0 = true → W.trampolined 1 = false → (∀ a, W.body 1 a = .jump target arg .ret) →
      (∀ a, W.body 0 a = .call (.fn 1) a fun _ => .ret v) →
      ∃ s, program W 9 (.call (.fn 0) (.data 0) fun _ => .ret v) = some (.ok v, s) ∧ warned s = [0]) := by
  refine ⟨fun W h1 h2 => ?_, fun W h1 h2 => ?_, fun W h1 h2 h3 h4 => ?_⟩
  · refine ⟨⟨[⟨strip W target, arg, false⟩], []⟩, ?_, rfl⟩
    cases v with
    | jump j => exact absurd rfl (hv j)
    | _ => simp [program, run, call, loop, h1, h2, carry]
  · exact ⟨⟨[⟨strip W target, arg, false⟩], []⟩, by simp [program, run, call, h1, h2], rfl⟩
  · refine ⟨⟨[⟨strip W target, arg, false⟩], []⟩, ?_, rfl⟩
    cases v with
    | jump j => exact absurd rfl (hv j)
    | _ => simp [program, run, call, loop, h1, h2, h3, h4, carry]

example : ∃ s, program ⟨fun _ _ => .jump (.fn 7) (.data 42) fun _ => .ret (.data 0), fun _ => true⟩ 9 (.call (.fn 0) (.data 0) fun _ => .ret (.data 0)) = some (.ok (.data 0), s) ∧
    warned s = [0] :=
  (C161_mistakes (.fn 7) (.data 42) (.data 0) nofun).1 _ rfl fun _ => rfl

/-- C161: a tail call to something that cannot be called raises RuntimeError in the trampoline, and there is a warning as well. -/
theorem C161_inert (W : World) (d : Nat) (arg : V) (ht : W.trampolined 0 = true) (hb : ∀ a, W.body 0 a = .jump (.data d) arg .ret) :
    ∃ s, program W 9 (.call (.fn 0) (.data 0) fun r => match r with | .ok v => .ret v | .error e => .raise e) = some (.error .runtimeError, s) ∧ warned s = [0] :=
  ⟨⟨[⟨.data d, arg, false⟩], []⟩, by simp [program, run, call, loop, ht, hb, carry, strip, callable], rfl⟩

example : ∃ s, program ⟨fun _ _ => .jump (.data 3) (.data 42) .ret, fun _ => true⟩ 9
    (.call (.fn 0) (.data 0) fun r => match r with | .ok v => .ret v | .error e => .raise e) = some (.error .runtimeError, s) ∧ warned s = [0] :=
  C161_inert _ 3 (.data 42) rfl fun _ => rfl

/-- C161: warnings are about `jump` objects, not about each use of one: one `jump` object is returned first to a trampoline, which carries it out, and then by a function without a trampoline, so that this
second tail call is never made; there is no warning. -/
theorem C161_reuse : ∃ (W : World) (main : Prog) (s : St),
    (∀ a, W.body 0 a = .ret a) ∧ W.trampolined 0 = true ∧ (∀ a, W.body 1 a = .ret a) ∧ W.trampolined 1 = false ∧
    main = .jump (.fn 2) (.data 5) (fun j => .call (.fn 0) j fun _ => .call (.fn 1) j fun r => match r with | .ok v => .ret v | .error e => .raise e) ∧
    program W 20 main = some (.ok (.jump 0), s) ∧ s.carried = [0] ∧ warned s = [] :=
  ⟨⟨fun i a => if i = 2 then .ret (.data 1) else .ret a, fun i => i == 0⟩, _, _, fun _ => rfl, rfl, fun _ => rfl, rfl, rfl, rfl, rfl, rfl⟩

end Unpy.Props
