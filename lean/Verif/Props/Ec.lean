import Verif.Proof.Ec
/-! # C41: `catch`/`throw`; C42: `call_ec` -/
namespace Unpy.Props
open Unpy Unpy.Ec Unpy.Spec.Ec
open Unpy.Fold (Err)
variable {σ ε T V : Type} [DecidableEq T]

/-- C41.  A catch point catches a throw exactly as the table of the documentation says. -/
theorem C41_table (tags : Option (List (Tag T))) (cu : Bool) (tag : Option (Tag T)) (a : Bool) :
    shouldcatch tags cu tag a = true ↔ Catches tags cu tag a := shouldcatch_iff tags cu tag a

/-- C41.  Wherever in a program a `throw` runs, it ends the innermost enclosing catch point that the table says
catches it: the calls inside are left (their `finally` blocks run, their `except` clauses do not), and the program
goes on after that catch point with the thrown value. -/
theorem C41_throw (p : Prog σ ε T V) (st st' st'' : St σ) (v : V) (tag : Option T) (a : Bool)
    (inner outer : List (Frame σ ε T V)) (tags : Option (List T)) (cu : Bool) (k : V → Prog σ ε T V)
    (hact : Active p st (.throw v tag a) st' (inner ++ .catch tags cu k :: outer))
    (hinner : ∀ f ∈ inner, ¬ f.Catches (tag.map .user) a)
    (hcatch : Catches (tags.map (·.map .user)) cu (tag.map .user) a)
    (hleave : leave inner st' = some st'') :
    eval p st = resume outer (eval (k v) st'').1 (eval (k v) st'').2 := by
  rw [active_resume hact, resume_append]
  simp only [eval]
  rw [resume_leave inner v (tag.map .user) a st' st'' hinner hleave]
  simp only [resume, if_pos hcatch]

/-- C41.  A throw that no enclosing catch point catches leaves the program as an uncaught `Escape`. -/
theorem C41_throw_uncaught (p : Prog σ ε T V) (st st' st'' : St σ) (v : V) (tag : Option T) (a : Bool)
    (fs : List (Frame σ ε T V)) (hact : Active p st (.throw v tag a) st' fs)
    (hno : ∀ f ∈ fs, ¬ f.Catches (tag.map .user) a) (hleave : leave fs st' = some st'') :
    eval p st = (.error (.escape v (tag.map .user) a), st'') := by
  rw [active_resume hact]
  simp only [eval]
  exact resume_leave fs v (tag.map .user) a st' st'' hno hleave

/-- C41.  With no throw, a catch point is transparent: values and ordinary exceptions pass. -/
theorem C41_no_throw (p : Prog σ ε T V) (st st' : St σ) (tags : Option (List T)) (cu : Bool)
    (k : V → Prog σ ε T V) :
    (∀ v, eval p st = (.ok v, st') → eval (.catch tags cu p k) st = eval (k v) st') ∧
    (∀ e, eval p st = (.error (.err e), st') → eval (.catch tags cu p k) st = (.error (.err e), st')) := by
  constructor <;> intro x h <;> simp [eval, h, catchpoint, andThen]

/-- The example of the docstring: a throw tagged "foo" passes the inner `@catch("bar")`. -/
private def docProg : Prog (List Nat) Unit String Nat :=
  .catch (some ["foo"]) true
    (.catch (some ["bar"]) true (.tryFinally (.throw 15 (some "foo") true) (.put [1] (.ret 0)) .ret)
      (fun _ => .ret 98))
    (fun v => .ret (v + 1))
example : eval docProg ⟨[], 0, fun _ => false⟩ = (.ok 16, ⟨[1], 0, fun _ => false⟩) := rfl
example : Active docProg ⟨[], 0, fun _ => false⟩ (.throw 15 (some "foo") true) ⟨[], 0, fun _ => false⟩
    ([.tryFinally (.put [1] (.ret 0)) .ret, .catch (some ["bar"]) true (fun _ => .ret 98)] ++
      .catch (some ["foo"]) true (fun v => .ret (v + 1)) :: []) :=
  .inCatch (.inCatch (.inTryFinally .here))
example : Catches (some [Tag.user "foo"]) true (some (.user "foo")) true :=
  ⟨_, _, rfl, rfl, by simp⟩
example : ¬ Catches (some [Tag.user "bar"]) true (some (.user "foo")) true := by
  rintro ⟨ts, t, h1, h2, h3⟩; cases h1; cases h2; simp at h3

/-- C42.  Wherever an escape continuation runs, if its `call_ec` is still unfinished, the program goes on after
exactly that `call_ec`, with the value passed: no catch point in between takes it, whatever its tags, and no other
`call_ec`. -/
theorem C42_ec_escapes (p : Prog σ ε T V) (st st' st'' : St σ) (hst : ∀ i, st.valid i = false)
    (i : Nat) (v : V) (inner outer : List (Frame σ ε T V)) (k : V → Prog σ ε T V)
    (hact : Active p st (.ec i v) st' (inner ++ .callEc i k :: outer))
    (hleave : leave inner st' = some st'') :
    eval p st = resume outer (eval (k v) (expire i st'')).1 (eval (k v) (expire i st'')).2 := by
  obtain ⟨-, -, hnd, -, hval⟩ := active_inv hact (fun j _ => hst j)
  have hv : st'.valid i = true := (hval i).mpr (.inl (by simp [ecs_append, ecs]))
  have hinner : ∀ f ∈ inner, ¬ f.Catches (some (.uid i)) false := by
    intro f hf hc
    cases f with
    | «catch» tags cu k' =>
      simp only [Frame.Catches, Catches] at hc
      cases tags <;> cases cu <;> simp [table] at hc
    | callEc n k' =>
      simp only [Frame.Catches, Option.some.injEq, Tag.uid.injEq] at hc
      subst hc
      rw [ecs_append, List.nodup_append] at hnd
      refine hnd.2.2 i ?_ i (by simp [ecs]) rfl
      clear hact hleave hval hnd
      induction inner with
      | nil => simp at hf
      | cons g gs ih =>
        rcases List.mem_cons.mp hf with h | h
        · subst h; simp [ecs]
        · have := ih h; cases g <;> simp [ecs, this]
    | seq | tryExcept | tryFinally => exact hc
  rw [active_resume hact, resume_append]
  simp only [eval, hv, Bool.not_true, Bool.false_eq_true, if_false]
  rw [resume_leave inner v _ false st' st'' hinner hleave]
  simp only [resume, if_true]

/-- C42.  An escape continuation whose `call_ec` has finished (or has not begun) does not escape: calling it raises
RuntimeError. -/
theorem C42_ec_expired (p : Prog σ ε T V) (st st' : St σ) (hst : ∀ i, st.valid i = false)
    (i : Nat) (v : V) (fs : List (Frame σ ε T V)) (hact : Active p st (.ec i v) st' fs) (hi : i ∉ ecs fs) :
    eval p st = resume fs (.error (.err (.py .RuntimeError))) st' := by
  obtain ⟨-, -, -, -, hval⟩ := active_inv hact (fun j _ => hst j)
  have hv : st'.valid i = false := by
    cases h : st'.valid i with
    | false => rfl
    | true => rcases (hval i).mp h with h | h
              · exact absurd h hi
              · rw [hst i] at h; cases h
  rw [active_resume hact]
  simp [eval, hv]

/-- C42.  If its `ec` is not used, `call_ec(f)` is `f`'s value; a throw from inside that is not this `ec` passes
through; either way the `ec` is dead afterwards. -/
theorem C42_call_ec (f : Nat → Prog σ ε T V) (k : V → Prog σ ε T V) (st st' : St σ) :
    let st0 : St σ := { st with next := st.next + 1, valid := fun i => if i = st.next then true else st.valid i }
    (∀ v, eval (f st.next) st0 = (.ok v, st') → eval (.callEc f k) st = eval (k v) (expire st.next st')) ∧
    (∀ e, eval (f st.next) st0 = (.error (.err e), st') →
      eval (.callEc f k) st = (.error (.err e), expire st.next st')) ∧
    (∀ v (t : Option T) a, eval (f st.next) st0 = (.error (.escape v (t.map .user) a), st') →
      eval (.callEc f k) st = (.error (.escape v (t.map .user) a), expire st.next st')) ∧
    (expire st.next st').valid st.next = false := by
  refine ⟨?_, ?_, ?_, ?_⟩
  · intro v h; simp only [eval, h, catchpoint, andThen]; rfl
  · intro e h; simp only [eval, h, catchpoint, andThen]; rfl
  · intro v t a h
    simp only [eval, h, catchpoint, andThen, shouldcatch_uid]
    cases t <;> simp [expire]
  · simp [expire]

/-- An `ec` called through two catch-alls and another `call_ec`; then once more after its end. -/
private def ecProg : Prog Unit Unit String Nat :=
  .callEc (fun e => .catch none true (.callEc (fun _ => .catch none false (.ec e 42) .ret) .ret) (fun _ => .ret 1))
    (fun v => .tryExcept (.ec 0 7) (fun _ => .ret (v + 1)) .ret)
example : (eval ecProg ⟨(), 0, fun _ => false⟩).1 = .ok 43 := by
  simp [eval, ecProg, andThen, catchpoint, shouldcatch]
example : ∃ st', Active ecProg ⟨(), 0, fun _ => false⟩ (.ec 0 42) st'
    ([.catch none false .ret, .callEc 1 .ret, .catch none true (fun _ => .ret 1)] ++
      .callEc 0 (fun v => .tryExcept (.ec 0 7) (fun _ => .ret (v + 1)) .ret) :: []) := by
  refine ⟨⟨(), 2, fun i => if i = 1 then true else if i = 0 then true else false⟩,
    Active.inCallEc (fs := [_, _, _]) ?_⟩
  refine Active.inCatch (fs := [_, _]) ?_
  refine Active.inCallEc (fs := [_]) ?_
  exact Active.inCatch (fs := []) .here
example : Active ecProg ⟨(), 0, fun _ => false⟩ (.ec 0 7) (eval (.callEc (fun e => .catch none true
      (.callEc (fun _ => .catch none false (.ec e 42) .ret) .ret) (fun _ => .ret 1)) .ret : Prog Unit Unit String Nat)
      ⟨(), 0, fun _ => false⟩).2 [.tryExcept (fun _ => .ret 43) .ret] ∧
    0 ∉ ecs [(Frame.tryExcept (fun _ => .ret 43) .ret : Frame Unit Unit String Nat)] := by
  refine ⟨Active.afterCallEc (v := 42) (st1 := _) rfl ?_, by simp [ecs]⟩
  exact Active.inTry (fs := []) .here

end Unpy.Props
