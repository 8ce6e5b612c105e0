import Verif.Spec.TcoMacro
/-!
# Python with and without proper tail calls: the same results

`Le m m'`: where `m` has an outcome, `m'` has the same one.
-/
namespace Unpy.Tail.Order
open Unpy.Tail Unpy.Tail.Spec
open Unpy.PyExpr (M ret raise bind Err)
variable {β ω ε σ α γ : Type}

def Le (m m' : M σ ε α) : Prop := ∀ s r, m s = some r → m' s = some r

theorem Le.refl (m : M σ ε α) : Le m m := fun _ _ h => h

theorem Le.none {m : M σ ε α} : Le (fun _ => none) m := by intro s r h; cases h

theorem Le.trans {a b c : M σ ε α} (h : Le a b) (h' : Le b c) : Le a c := fun s r x => h' s r (h s r x)

theorem Le.bind {m m' : M σ ε α} {f f' : α → M σ ε γ} (h : Le m m') (hf : ∀ a, Le (f a) (f' a)) :
    Le (bind m f) (bind m' f') := by
  intro s r hr
  unfold PyExpr.bind at hr ⊢
  cases hm : m s with
  | none => simp [hm] at hr
  | some o =>
    rw [h s o hm]; rw [hm] at hr
    obtain ⟨o, s1⟩ := o
    cases o with
    | error e => exact hr
    | ok a => exact hf a _ _ hr

theorem Le.ite {p : Prop} [Decidable p] {a b a' b' : M σ ε α} (h : Le a a') (h' : Le b b') :
    Le (if p then a else b) (if p then a' else b') := by
  by_cases hp : p <;> simp [hp] <;> assumption

/-! ## Monotonicity -/

def ApLe (ap ap' : Ap β ω ε) : Prop := ∀ f args, Le (ap f args) (ap' f args)

variable {P : World β ω ε} {ap ap' : Ap β ω ε}

mutual
theorem eval_le (h : ApLe ap ap') : ∀ (e : Ex β) (ρ : Env β), Le (eval P ap ρ e) (eval P ap' ρ e)
  | .cst _, _ => Le.refl _
  | .non, _ => Le.refl _
  | .ff, _ => Le.refl _
  | .name _, _ => Le.refl _
  | .call f args, ρ => Le.bind (eval_le h f ρ) fun _ => Le.bind (evals_le h args ρ) fun _ => h _ _
  | .lam .., _ => Le.refl _
  | .ife c t e, ρ => Le.bind (eval_le h c ρ) fun _ => Le.ite (eval_le h t ρ) (eval_le h e ρ)
  | .bool _ a b, ρ => Le.bind (eval_le h a ρ) fun _ => Le.ite (Le.refl _) (eval_le h b ρ)
  | .lst ts, ρ => Le.bind (evals_le h ts ρ) fun _ => Le.refl _
  | .letx _ v b, ρ => Le.bind (eval_le h v ρ) fun _ => Le.bind (Le.refl _) fun _ => eval_le h b _
  | .doe a b, ρ => Le.bind (eval_le h a ρ) fun _ => eval_le h b ρ
  | .assign _ v, ρ => Le.bind (eval_le h v ρ) fun _ => Le.refl _
  | .aif t b, ρ => Le.bind (eval_le h t ρ) fun _ => Le.ite (Le.refl _) (eval_le h b _)
  | .jump f args, ρ => Le.bind (eval_le h f ρ) fun _ => Le.bind (evals_le h args ρ) fun _ => Le.refl _
  | .bad, _ => Le.refl _

theorem evals_le (h : ApLe ap ap') : ∀ (ts : List (Ex β)) (ρ : Env β), Le (evals P ap ρ ts) (evals P ap' ρ ts)
  | [], _ => Le.refl _
  | t :: ts, ρ => Le.bind (eval_le h t ρ) fun _ => Le.bind (evals_le h ts ρ) fun _ => Le.refl _
end

theorem tailEval_le (h : ApLe ap ap') : ∀ (e : Ex β) (ρ : Env β), Le (tailEval P ap ρ e) (tailEval P ap' ρ e)
  | .call f args, ρ => Le.bind (eval_le h f ρ) fun _ => Le.bind (evals_le h args ρ) fun _ => Le.refl _
  | .ife c t e, ρ => Le.bind (eval_le h c ρ) fun _ => Le.ite (tailEval_le h t ρ) (tailEval_le h e ρ)
  | .bool _ a b, ρ => Le.bind (eval_le h a ρ) fun _ => Le.ite (Le.refl _) (tailEval_le h b ρ)
  | .letx _ v b, ρ => Le.bind (eval_le h v ρ) fun _ => Le.bind (Le.refl _) fun _ => tailEval_le h b _
  | .doe a b, ρ => Le.bind (eval_le h a ρ) fun _ => tailEval_le h b ρ
  | .cst c, ρ => Le.bind (eval_le h (.cst c) ρ) fun _ => Le.refl _
  | .non, ρ => Le.bind (eval_le h .non ρ) fun _ => Le.refl _
  | .ff, ρ => Le.bind (eval_le h .ff ρ) fun _ => Le.refl _
  | .name x, ρ => Le.bind (eval_le h (.name x) ρ) fun _ => Le.refl _
  | .lam tr ps b, ρ => Le.bind (eval_le h (.lam tr ps b) ρ) fun _ => Le.refl _
  | .lst ts, ρ => Le.bind (eval_le h (.lst ts) ρ) fun _ => Le.refl _
  | .assign x v, ρ => Le.bind (eval_le h (.assign x v) ρ) fun _ => Le.refl _
  | .aif t b, ρ => Le.bind (eval_le h (.aif t b) ρ) fun _ => Le.refl _
  | .jump f as, ρ => Le.bind (eval_le h (.jump f as) ρ) fun _ => Le.refl _
  | .bad, ρ => Le.bind (eval_le h .bad ρ) fun _ => Le.refl _

theorem while_le {test test' : M (State β ω) ε (Val β)} {body body' : M (State β ω) ε (Flow α)} (h : Le test test')
    (h' : Le body body') : ∀ {n n' : Nat}, n ≤ n' → Le (whileLoop P test body n) (whileLoop P test' body' n')
  | 0, _, _ => Le.none
  | n + 1, 0, hn => absurd hn (by omega)
  | n + 1, n' + 1, hn => Le.bind h fun _ => Le.ite (Le.bind h' fun fl => match fl with
      | .next => while_le h h' (Nat.le_of_succ_le_succ hn)
      | .ret _ => Le.refl _) (Le.refl _)

theorem except_le {hh : Bool} {b b' h h' o o' : M σ ε (Flow α)} (hb : Le b b') (hh' : Le h h') (ho : Le o o') :
    Le (tryExcept hh b h o) (tryExcept hh b' h' o') := by
  intro s q hq
  unfold tryExcept at hq ⊢
  cases hm : b s with
  | none => simp [hm] at hq
  | some x =>
    rw [hb s x hm]; rw [hm] at hq
    obtain ⟨x, s1⟩ := x
    rcases x with e | (_ | v)
    · simp only at hq ⊢
      by_cases hc : (hh && catches e) = true
      · rw [if_pos hc] at hq ⊢; exact hh' _ _ hq
      · rw [if_neg hc] at hq ⊢; exact hq
    · exact ho _ _ hq
    · exact hq

theorem finally_le {b b' f f' : M σ ε (Flow α)} (hb : Le b b') (hf : Le f f') : Le (tryFinally b f) (tryFinally b' f') := by
  intro s q hq
  unfold tryFinally at hq ⊢
  cases hm : b s with
  | none => simp [hm] at hq
  | some x =>
    rw [hb s x hm]; rw [hm] at hq
    obtain ⟨x, s1⟩ := x
    simp only at hq ⊢
    cases hm : f s1 with
    | none => simp [hm] at hq
    | some x => rw [hf _ _ hm]; rw [hm] at hq; exact hq

mutual
theorem exec_le (h : ApLe ap ap') {N N' : Nat} (hN : N ≤ N') : ∀ (t : St β) (ρ : Env β),
    Le (exec P N ap ρ t) (exec P N' ap' ρ t)
  | .ret none, _ => Le.refl _
  | .ret (some e), ρ => Le.bind (eval_le h e ρ) fun _ => Le.refl _
  | .expr e, ρ => Le.bind (eval_le h e ρ) fun _ => Le.refl _
  | .assign _ e, ρ => Le.bind (eval_le h e ρ) fun _ => Le.refl _
  | .ite c b₁ b₂, ρ => Le.bind (eval_le h c ρ) fun _ => Le.ite (execs_le h hN b₁ ρ) (execs_le h hN b₂ ρ)
  | .while c b, ρ => while_le (eval_le h c ρ) (execs_le h hN b ρ) hN
  | .defn .., _ => Le.refl _
  | .tryx b _ h' o f, ρ =>
    finally_le (except_le (execs_le h hN b ρ) (execs_le h hN h' ρ) (execs_le h hN o ρ)) (execs_le h hN f ρ)

theorem execs_le (h : ApLe ap ap') {N N' : Nat} (hN : N ≤ N') : ∀ (ts : List (St β)) (ρ : Env β),
    Le (execs P N ap ρ ts) (execs P N' ap' ρ ts)
  | [], _ => Le.refl _
  | t :: ts, ρ => Le.bind (exec_le h hN t ρ) fun fl => match fl with
    | .next => execs_le h hN ts ρ
    | .ret _ => Le.refl _
end

mutual
theorem tailExec_le (h : ApLe ap ap') {N N' : Nat} (hN : N ≤ N') : ∀ (t : St β) (tl : Bool) (ρ : Env β),
    Le (tailExec P N ap ρ tl t) (tailExec P N' ap' ρ tl t)
  | .ret none, _, _ => Le.refl _
  | .ret (some e), _, ρ => Le.ite (Le.bind (tailEval_le h e ρ) fun _ => Le.refl _)
      (Le.bind (eval_le h e ρ) fun _ => Le.refl _)
  | .expr e, _, ρ => Le.bind (eval_le h e ρ) fun _ => Le.refl _
  | .assign _ e, _, ρ => Le.bind (eval_le h e ρ) fun _ => Le.refl _
  | .ite c b₁ b₂, tl, ρ => Le.bind (eval_le h c ρ) fun _ => Le.ite (tailExecs_le h hN b₁ tl ρ) (tailExecs_le h hN b₂ tl ρ)
  | .while c b, tl, ρ => while_le (eval_le h c ρ) (tailExecs_le h hN b tl ρ) hN
  | .defn .., _, _ => Le.refl _
  | .tryx b _ h' o f, tl, ρ =>
    finally_le (except_le (tailExecs_le h hN b false ρ) (tailExecs_le h hN h' _ ρ) (tailExecs_le h hN o _ ρ))
      (tailExecs_le h hN f tl ρ)

theorem tailExecs_le (h : ApLe ap ap') {N N' : Nat} (hN : N ≤ N') : ∀ (ts : List (St β)) (tl : Bool) (ρ : Env β),
    Le (tailExecs P N ap ρ tl ts) (tailExecs P N' ap' ρ tl ts)
  | [], _, _ => Le.refl _
  | t :: ts, tl, ρ => Le.bind (tailExec_le h hN t tl ρ) fun fl => match fl with
    | .next => tailExecs_le h hN ts tl ρ
    | .ret _ => Le.refl _
end

/-! ## Finishing a tail call -/

/-- Make the call that is left. -/
def fin (ap : Ap β ω ε) : TailRes β → M (State β ω) ε (Val β)
  | .val v => ret v
  | .tail f args => ap f args

/-- Go on with what a statement returns. -/
def mapF (k : α → M σ ε γ) : Flow α → M σ ε (Flow γ)
  | .next => ret .next
  | .ret r => bind (k r) fun v => ret (.ret v)

theorem bind_ret (m : M σ ε α) : bind m ret = m := by
  funext s; unfold PyExpr.bind; cases m s with
  | none => rfl
  | some x => obtain ⟨x, s1⟩ := x; cases x <;> rfl

theorem ret_bind (a : α) (f : α → M σ ε γ) : bind (ret a) f = f a := rfl

theorem bind_assoc {δ : Type} (m : M σ ε α) (f : α → M σ ε γ) (g : γ → M σ ε δ) :
    bind (bind m f) g = bind m fun a => bind (f a) g := by
  funext s; unfold PyExpr.bind; cases m s with
  | none => rfl
  | some x => obtain ⟨x, s1⟩ := x; cases x <;> rfl

theorem bind_ite {p : Prop} [Decidable p] (a b : M σ ε α) (f : α → M σ ε γ) :
    bind (if p then a else b) f = if p then bind a f else bind b f := by
  by_cases hp : p <;> simp [hp]

theorem bind_congr {m : M σ ε α} {f g : α → M σ ε γ} (h : ∀ a, f a = g a) : bind m f = bind m g := by
  rw [funext h]

theorem tailEval_fin (P : World β ω ε) (ap : Ap β ω ε) : ∀ (e : Ex β) (ρ : Env β),
    bind (tailEval P ap ρ e) (fin ap) = eval P ap ρ e := by
  have plainCase : ∀ (m : M (State β ω) ε (Val β)), bind (bind m fun v => ret (TailRes.val v)) (fin ap) = m := by
    intro m; rw [bind_assoc]; exact bind_ret m
  intro e
  induction e using Ex.rec (motive_2 := fun _ => True) with
  | call f args _ _ =>
    intro ρ; simp only [tailEval, eval, bind_assoc]; rfl
  | ife c t e _ iht ihe =>
    intro ρ; simp only [tailEval, eval, bind_assoc, bind_ite, iht, ihe]
  | bool o a b _ ihb =>
    intro ρ; simp only [tailEval, eval, bind_assoc, bind_ite, ihb]; rfl
  | letx x v b _ ihb =>
    intro ρ; simp only [tailEval, eval, bind_assoc, ihb]
  | doe a b _ ihb =>
    intro ρ; simp only [tailEval, eval, bind_assoc, ihb]
  | nil => trivial
  | cons => trivial
  | _ => intro ρ; exact plainCase _

/-- Without tail positions. -/
def inj (m : M (State β ω) ε (Flow (Val β))) : M (State β ω) ε (Flow (TailRes β)) := bind m (mapF fun v => ret (.val v))

/-- Make the call that is left after a statement. -/
def done (ap : Ap β ω ε) (m : M (State β ω) ε (Flow (TailRes β))) : M (State β ω) ε (Flow (Val β)) := bind m (mapF (fin ap))

theorem done_inj (ap : Ap β ω ε) (m : M (State β ω) ε (Flow (Val β))) : done ap (inj m) = m := by
  rw [done, inj, bind_assoc]
  refine (bind_congr fun fl => ?_).trans (bind_ret m)
  cases fl <;> rfl

theorem while_map (P : World β ω ε) (test : M (State β ω) ε (Val β)) (body : M (State β ω) ε (Flow α))
    (k : α → M (State β ω) ε γ) :
    ∀ n, bind (whileLoop P test body n) (mapF k) = whileLoop P test (bind body (mapF k)) n
  | 0 => rfl
  | n + 1 => by
    simp only [whileLoop, bind_assoc, bind_ite]
    refine bind_congr fun v => ?_
    by_cases h : truthy P v = true
    · rw [if_pos h, if_pos h]
      refine bind_congr fun fl => ?_
      cases fl with
      | next => exact while_map P test body k n
      | ret v => simp only [mapF, bind_assoc, ret_bind]
    · rw [if_neg h, if_neg h]; rfl

theorem except_done (ap : Ap β ω ε) (hh : Bool) (b : M (State β ω) ε (Flow (Val β)))
    (h o : M (State β ω) ε (Flow (TailRes β))) :
    done ap (tryExcept hh (inj b) h o) = tryExcept hh b (done ap h) (done ap o) := by
  funext s
  simp only [done, inj, tryExcept, PyExpr.bind]
  cases b s with
  | none => rfl
  | some x =>
    obtain ⟨x, s1⟩ := x
    rcases x with e | (_ | v)
    · simp only
      by_cases hc : (hh && catches e) = true
      · rw [if_pos hc, if_pos hc]
      · rw [if_neg hc, if_neg hc]
    · rfl
    · rfl

theorem except_inj (hh : Bool) (b h o : M (State β ω) ε (Flow (Val β))) :
    tryExcept hh (inj b) (inj h) (inj o) = inj (tryExcept hh b h o) := by
  funext s
  simp only [inj, tryExcept, PyExpr.bind]
  cases b s with
  | none => rfl
  | some x =>
    obtain ⟨x, s1⟩ := x
    rcases x with e | (_ | v)
    · simp only
      by_cases hc : (hh && catches e) = true
      · rw [if_pos hc, if_pos hc]
      · rw [if_neg hc, if_neg hc]
    · rfl
    · rfl

theorem finally_none (m : M σ ε (Flow α)) : tryFinally m (ret .next) = m := by
  funext s
  unfold tryFinally
  cases m s with
  | none => rfl
  | some x => rfl

theorem finally_done (ap : Ap β ω ε) (m : M (State β ω) ε (Flow (Val β))) (f : M (State β ω) ε (Flow (TailRes β))) :
    done ap (tryFinally (inj m) f) = tryFinally m (done ap f) := by
  funext s
  simp only [done, inj, tryFinally, PyExpr.bind]
  cases m s with
  | none => rfl
  | some x =>
    obtain ⟨x, s1⟩ := x
    rcases x with e | (_ | v) <;> (
      simp only [mapF, PyExpr.ret, PyExpr.bind]
      cases f s1 with
      | none => rfl
      | some x =>
        obtain ⟨x, s1⟩ := x
        rcases x with e | (_ | v)
        · rfl
        · rfl
        · simp only
          rcases hx : fin ap v s1 with _ | ⟨_ | _, _⟩ <;> simp only [PyExpr.bind, hx] <;> rfl)

theorem finally_inj (m f : M (State β ω) ε (Flow (Val β))) : tryFinally (inj m) (inj f) = inj (tryFinally m f) := by
  funext s
  simp only [inj, tryFinally, PyExpr.bind]
  cases m s with
  | none => rfl
  | some x =>
    obtain ⟨x, s1⟩ := x
    rcases x with e | (_ | v) <;> (
      simp only [mapF, PyExpr.ret, PyExpr.bind]
      cases f s1 with
      | none => rfl
      | some x =>
        obtain ⟨x, s1⟩ := x
        rcases x with e | (_ | v) <;> rfl)

mutual
/-- Where no `return` is a tail position, nothing is left to be called. -/
theorem tailExec_false (P : World β ω ε) (N : Nat) (ap : Ap β ω ε) : ∀ (t : St β) (ρ : Env β),
    tailExec P N ap ρ false t = inj (exec P N ap ρ t)
  | .ret none, _ => rfl
  | .ret (some e), ρ => by simp only [tailExec, exec, inj, bind_assoc]; rfl
  | .expr e, ρ => by simp only [tailExec, exec, inj, bind_assoc]; rfl
  | .assign _ e, ρ => by simp only [tailExec, exec, inj, bind_assoc]; rfl
  | .ite c b₁ b₂, ρ => by
    simp only [tailExec, exec, inj, bind_assoc, bind_ite, tailExecs_false P N ap b₁, tailExecs_false P N ap b₂]
  | .while c b, ρ => by
    simp only [tailExec, exec, inj, while_map, tailExecs_false P N ap b]
  | .defn .., ρ => by simp only [tailExec, exec, inj, bind_assoc]; rfl
  | .tryx b _ h o f, ρ => by
    simp only [tailExec, exec, Bool.false_and, tailExecs_false P N ap b, tailExecs_false P N ap h, tailExecs_false P N ap o,
      tailExecs_false P N ap f, except_inj, finally_inj]

theorem tailExecs_false (P : World β ω ε) (N : Nat) (ap : Ap β ω ε) : ∀ (ts : List (St β)) (ρ : Env β),
    tailExecs P N ap ρ false ts = inj (execs P N ap ρ ts)
  | [], _ => rfl
  | t :: ts, ρ => by
    simp only [tailExecs, execs, tailExec_false P N ap t, inj, bind_assoc]
    refine bind_congr fun fl => ?_
    cases fl with
    | next => exact tailExecs_false P N ap ts ρ
    | ret v => rfl
end

mutual
/-- Making the call that is left gives what Python does. -/
theorem tailExec_done (P : World β ω ε) (N : Nat) (ap : Ap β ω ε) : ∀ (t : St β) (ρ : Env β),
    done ap (tailExec P N ap ρ true t) = exec P N ap ρ t
  | .ret none, _ => rfl
  | .ret (some e), ρ => by
    rw [exec, ← tailEval_fin P ap e ρ]
    simp only [tailExec, if_true, done, bind_assoc]; rfl
  | .expr e, ρ => by simp only [tailExec, exec, done, bind_assoc]; rfl
  | .assign _ e, ρ => by simp only [tailExec, exec, done, bind_assoc]; rfl
  | .ite c b₁ b₂, ρ => by
    rw [exec, ← tailExecs_done P N ap b₁, ← tailExecs_done P N ap b₂]
    simp only [tailExec, done, bind_assoc, bind_ite]
  | .while c b, ρ => by
    rw [exec, ← tailExecs_done P N ap b]
    simp only [tailExec, done, while_map]
  | .defn .., ρ => by simp only [tailExec, exec, done, bind_assoc]; rfl
  | .tryx b hh h o f, ρ => by
    rw [exec, tailExec]
    by_cases hf : f.isEmpty = true
    · have : f = [] := List.isEmpty_iff.1 hf
      subst this
      simp only [tailExecs, execs, finally_none, List.isEmpty_nil, Bool.and_self]
      rw [tailExecs_false, except_done, tailExecs_done P N ap h, tailExecs_done P N ap o]
    · simp only [hf, Bool.and_false]
      rw [tailExecs_false, tailExecs_false, tailExecs_false, except_inj, finally_done, tailExecs_done P N ap f]

theorem tailExecs_done (P : World β ω ε) (N : Nat) (ap : Ap β ω ε) : ∀ (ts : List (St β)) (ρ : Env β),
    done ap (tailExecs P N ap ρ true ts) = execs P N ap ρ ts
  | [], _ => rfl
  | t :: ts, ρ => by
    rw [execs, ← tailExec_done P N ap t]
    simp only [tailExecs, done, bind_assoc]
    refine bind_congr fun fl => ?_
    cases fl with
    | next => exact tailExecs_done P N ap ts ρ
    | ret v => simp only [mapF, bind_assoc, ret_bind]
end

/-- The same for a call. -/
theorem tailCall_fin (P : World β ω ε) (N : Nat) (ap : Ap β ω ε) (f : Val β) (args : List (Val β)) :
    bind (tailCall P N ap f args) (fin ap) = callEntry P N ap f args := by
  cases f with
  | clo tr ps ls b ρ =>
    simp only [tailCall, callEntry, enter]
    by_cases h : args.length = ps.length
    · rw [if_pos h, if_pos h, bind_assoc]
      refine bind_congr fun a => ?_
      rw [← tailExecs_done P N ap b, bind_assoc, done, bind_assoc]
      refine bind_congr fun fl => ?_
      cases fl with
      | next => rfl
      | ret r => simp only [mapF, bind_assoc, ret_bind]; exact (bind_ret _).symm
    · rw [if_neg h, if_neg h]; rfl
  | ext k => simp only [tailCall, callEntry, bind_assoc]; exact bind_ret _
  | _ => rfl

theorem tailCall_le {N N' : Nat} (h : ApLe ap ap') (hN : N ≤ N') (f : Val β) (args : List (Val β)) :
    Le (tailCall P N ap f args) (tailCall P N' ap' f args) := by
  cases f with
  | clo tr ps ls b ρ =>
    simp only [tailCall]
    exact Le.ite (Le.bind (Le.refl _) fun _ => Le.bind (tailExecs_le h hN _ _ _) fun _ => Le.refl _) (Le.refl _)
  | _ => exact Le.refl _

theorem callEntry_le {N N' : Nat} (h : ApLe ap ap') (hN : N ≤ N') (f : Val β) (args : List (Val β)) :
    Le (callEntry P N ap f args) (callEntry P N' ap' f args) := by
  cases f with
  | clo tr ps ls b ρ =>
    simp only [callEntry, enter]
    exact Le.ite (Le.bind (Le.refl _) fun _ => Le.bind (execs_le h hN _ _) fun _ => Le.refl _) (Le.refl _)
  | _ => exact Le.refl _

/-- What a loop of tail calls does with the call that is left. -/
def again (P : World β ω ε) (N : Nat) (ap : Ap β ω ε) (n : Nat) : Ap β ω ε := fun g as =>
  if callable g then tailLoop P N ap n g as else raise (.py .TypeError)

theorem tailLoop_succ (P : World β ω ε) (N : Nat) (ap : Ap β ω ε) (n : Nat) (f : Val β) (args : List (Val β)) :
    tailLoop P N ap (n + 1) f args = bind (tailCall P N ap f args) (fin (again P N ap n)) := by
  rw [tailLoop]
  refine bind_congr fun r => ?_
  cases r <;> rfl

theorem callEntry_not_callable {f : Val β} (h : callable f = false) (N : Nat) (ap : Ap β ω ε) (args : List (Val β)) :
    callEntry P N ap f args = raise (.py .TypeError) := by
  cases f <;> first | rfl | (simp [callable] at h)

theorem fin_le (h : ApLe ap ap') (r : TailRes β) : Le (fin ap r) (fin ap' r) := by
  cases r with
  | val v => exact Le.refl _
  | tail f as => exact h f as

/-- Python's result is that with proper tail calls. -/
theorem plain_tailLoop (P : World β ω ε) {N N' : Nat} (hN : N ≤ N') : ∀ (d : Nat), d ≤ N' → ∀ D, d ≤ D + 1 → ∀ k, d ≤ k →
    ApLe (plain P N d) (tailLoop P N' (proper P N' D) k)
  | 0, _, _, _, _, _ => fun _ _ => Le.none
  | d + 1, hd, D, hD, k, hk => by
    intro f args
    obtain ⟨k, rfl⟩ : ∃ k', k = k' + 1 := ⟨k - 1, by omega⟩
    have h₁ : ApLe (plain P N d) (proper P N' D) := by
      cases d with
      | zero => exact fun _ _ => Le.none
      | succ d =>
        obtain ⟨D, rfl⟩ : ∃ D', D = D' + 1 := ⟨D - 1, by omega⟩
        exact plain_tailLoop P hN (d + 1) (by omega) D (by omega) N' (by omega)
    have h₂ : ApLe (plain P N d) (again P N' (proper P N' D) k) := by
      intro g as
      unfold again
      by_cases hg : callable g = true
      · rw [if_pos hg]; exact plain_tailLoop P hN d (by omega) D (by omega) k (by omega) g as
      · rw [if_neg hg]
        cases d with
        | zero => exact Le.none
        | succ d => rw [plain, callEntry_not_callable (by simpa using hg)]; exact Le.refl _
    rw [plain, ← tailCall_fin, tailLoop_succ]
    exact Le.bind (tailCall_le h₁ hN f args) fun r => fin_le h₂ r

theorem plain_proper (P : World β ω ε) {N N' d D : Nat} (hN : N ≤ N') (hd : d ≤ N') (hD : d ≤ D) :
    ApLe (plain P N d) (proper P N' D) := by
  cases d with
  | zero => exact fun _ _ => Le.none
  | succ d =>
    obtain ⟨D, rfl⟩ : ∃ D', D = D' + 1 := ⟨D - 1, by omega⟩
    exact plain_tailLoop P hN (d + 1) (by omega) D (by omega) N' (by omega)

/-- How deep Python's calls may have to nest for the same result. -/
def deep (N : Nat) : Nat → Nat
  | 0 => 0
  | D + 1 => N + deep N D + 1

theorem tailLoop_plain (P : World β ω ε) (N : Nat) {D : Nat}
    (hD : ∀ d, deep N D ≤ d → ApLe (proper P N D) (plain P N d)) : ∀ (k d : Nat), k + deep N D + 1 ≤ d →
    ApLe (tailLoop P N (proper P N D) k) (plain P N d)
  | 0, _, _ => fun _ _ => Le.none
  | k + 1, d, hd => by
    intro f args
    obtain ⟨d, rfl⟩ : ∃ d', d = d' + 1 := ⟨d - 1, by omega⟩
    rw [plain, ← tailCall_fin, tailLoop_succ]
    refine Le.bind (tailCall_le (hD d (by omega)) (Nat.le_refl _) f args) fun r => fin_le ?_ r
    intro g as
    unfold again
    by_cases hg : callable g = true
    · rw [if_pos hg]; exact tailLoop_plain P N hD k d (by omega) g as
    · rw [if_neg hg]
      obtain ⟨d, rfl⟩ : ∃ d', d = d' + 1 := ⟨d - 1, by omega⟩
      rw [plain, callEntry_not_callable (by simpa using hg)]; exact Le.refl _

/-- The result with proper tail calls is Python's. -/
theorem proper_plain (P : World β ω ε) (N : Nat) : ∀ (D d : Nat), deep N D ≤ d → ApLe (proper P N D) (plain P N d)
  | 0, _, _ => fun _ _ => Le.none
  | D + 1, d, hd => tailLoop_plain P N (proper_plain P N D) N d hd

end Unpy.Tail.Order
