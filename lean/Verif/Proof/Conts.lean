import Verif.Spec.Conts
/-!
# Proof: the expansion by `with continuations` against the reference interpreter
-/
namespace Unpy.Conts.Sim
open Unpy.Conts
open Unpy.PyExpr (M ret raise bind Err)
variable {β ω ε : Type}

/-! ## The translation of values -/

mutual
def τ : Spec.Val β → Val β
  | .base b => .base b
  | .non => .non
  | .tup vs => .tup (τs vs)
  | .vals vs => .vals (τs vs)
  | .ext n => .ext n
  | .ident => .ident
  | .getcc => .getcc
  | .clo ps b ρ => .clo ps (trBody true true false b) ρ
  | .kont ts star b ρ blk p => .kont ts star (trBody (!blk) true false b) ρ (maybeCapture (τ p))
  | .comp a b => .chain (τ a) (τ b)

def τs : List (Spec.Val β) → List (Val β)
  | [] => []
  | v :: vs => τ v :: τs vs
end

def τst (s : State (Spec.Val β) ω) : State (Val β) ω := ⟨s.heap.map (Option.map τ), s.world⟩

def τt : Spec.Tail β → Val β
  | .val v => τ v
  | .call f args none => .jmp (τ f) (τs args)
  | .call f args (some k) => .jmpK (τ f) (τs args) (τ k)

def τf : Flow (Spec.Tail β) → Flow (Val β)
  | .next => .next
  | .ret t => .ret (τt t)

@[simp] theorem τs_eq (vs : List (Spec.Val β)) : τs vs = vs.map τ := by
  induction vs <;> simp_all [τs]

/-! ## Simulation -/

def Flagged {σ α : Type} (r : Option (Except (Err ε) α × σ)) : Prop := ∃ s', r = some (.error .unmodelled, s')

def Sim {α α' : Type} (h : α → α') (m : M (State (Spec.Val β) ω) ε α) (m' : M (State (Val β) ω) ε α') : Prop :=
  ∀ s, Flagged (m s) ∨ m' (τst s) = (m s).map (fun r => (r.1.map h, τst r.2))

theorem Sim.ret {α α' : Type} {h : α → α'} {a : α} {a' : α'} (e : a' = h a) :
    Sim (β := β) (ω := ω) (ε := ε) h (ret a) (PyExpr.ret a') := fun _ => .inr (by subst e; rfl)

theorem Sim.raise {α α' : Type} {h : α → α'} (e : Err ε) : Sim (β := β) (ω := ω) h (raise e) (PyExpr.raise e) :=
  fun _ => .inr rfl

theorem Sim.flag {α α' : Type} {h : α → α'} {m' : M (State (Val β) ω) ε α'} :
    Sim h (PyExpr.raise .unmodelled) m' := fun s => .inl ⟨s, rfl⟩

theorem Sim.bind {α α' γ γ' : Type} {h : α → α'} {g : γ → γ'} {m : M (State (Spec.Val β) ω) ε α} {m'} {k : α → M _ ε γ}
    {k' : α' → M _ ε γ'} (hm : Sim h m m') (hk : ∀ a, Sim g (k a) (k' (h a))) :
    Sim g (PyExpr.bind m k) (PyExpr.bind m' k') := by
  intro s
  unfold PyExpr.bind
  rcases hm s with ⟨s', hf⟩ | he
  · left; rw [hf]; exact ⟨s', rfl⟩
  · rw [he]
    match hms : m s with
    | none => right; rfl
    | some (.error e, s') => right; rfl
    | some (.ok a, s') => exact hk a s'

theorem Sim.stop {α α' : Type} {h : α → α'} {b : Bool} {k : Unit → M (State (Spec.Val β) ω) ε α} {m' : M _ ε α'}
    (hk : b = false → Sim h (k ()) m') : Sim h (PyExpr.bind (Spec.stopIf b) k) m' := by
  cases b
  · exact hk rfl
  · exact fun s => .inl ⟨s, rfl⟩

theorem Sim.congr {α α' : Type} {h : α → α'} {m m₂ : M (State (Spec.Val β) ω) ε α} {m' m₂' : M _ ε α'}
    (e : m = m₂) (e' : m' = m₂') (hs : Sim h m₂ m₂') : Sim h m m' := by subst e e'; exact hs

theorem bind_assoc {σ α γ δ : Type} (m : M σ ε α) (f : α → M σ ε γ) (g : γ → M σ ε δ) :
    PyExpr.bind (PyExpr.bind m f) g = PyExpr.bind m (fun a => PyExpr.bind (f a) g) := by
  funext s
  unfold PyExpr.bind
  match m s with
  | none => rfl
  | some (.error e, s') => rfl
  | some (.ok a, s') => rfl

theorem ret_bind {σ α γ : Type} (a : α) (f : α → M σ ε γ) : PyExpr.bind (PyExpr.ret a) f = f a := rfl

theorem raise_bind {σ α γ : Type} (e : Err ε) (f : α → M σ ε γ) : PyExpr.bind (PyExpr.raise e) f = PyExpr.raise e := rfl

theorem load_sim (ρ : Env) (x : String) : Sim (β := β) (ω := ω) (ε := ε) τ (load ρ x) (load ρ x) := by
  intro s
  right
  unfold load
  cases ρ x with
  | none => rfl
  | some a =>
    simp only [τst, List.getElem?_map]
    cases s.heap[a]? with
    | none => rfl
    | some c => cases c <;> rfl

theorem store_sim (ρ : Env) (x : String) (v : Spec.Val β) :
    Sim (ω := ω) (ε := ε) id (store ρ x v) (store ρ x (τ v)) := by
  intro s
  right
  unfold store
  cases ρ x with
  | none => rfl
  | some a => simp [τst, List.map_set, Except.map]

theorem alloc_sim (vs : List (Option (Spec.Val β))) :
    Sim (ω := ω) (ε := ε) id (alloc vs) (alloc (vs.map (Option.map τ))) := by
  intro s
  right
  simp [alloc, τst, Except.map]

theorem truthy_τ (P : World β ω ε) (v : Spec.Val β) : truthy P (τ v) = Spec.truthy P v := by
  cases v <;> simp [truthy, Spec.truthy, τ]

theorem bases_τ (vs : List (Spec.Val β)) : bases (vs.map τ) = Spec.bases vs := by
  induction vs with
  | nil => rfl
  | cons v vs ih => cases v <;> simp [bases, Spec.bases, τ, ih]

theorem callable_τ (v : Spec.Val β) : callable (τ v) = Spec.callable v := by
  cases v <;> rfl

theorem callExt_sim (P : World β ω ε) (n : Nat) (args : List (Spec.Val β)) :
    Sim τ (Spec.callExt P n args) (callExt P n (args.map τ)) := by
  intro s
  right
  unfold callExt Spec.callExt
  rw [bases_τ]
  cases Spec.bases args with
  | none => rfl
  | some bs =>
    simp only [τst]
    match P.call n bs s.world with
    | (.ok b, w) => rfl
    | (.error e, w) => rfl

theorem pack_τ (vs : List (Spec.Val β)) : pack (vs.map τ) = τ (Spec.pack vs) := by
  match vs with
  | [] => rfl
  | [v] => rfl
  | v :: w :: vs => simp [pack, Spec.pack, τ]

theorem whileLoop_sim {α α' : Type} {h : α → α'} {test : M (State (Spec.Val β) ω) ε Bool} {test'}
    {b : M (State (Spec.Val β) ω) ε (Flow α)} {b'} (fl : Flow α → Flow α') (hn : fl .next = .next)
    (hr : ∀ v, fl (.ret v) = .ret (h v)) (ht : Sim id test test') (hb : Sim fl b b') :
    ∀ n, Sim fl (whileLoop test b n) (whileLoop test' b' n)
  | 0 => fun _ => .inr rfl
  | n + 1 => by
    unfold whileLoop
    refine ht.bind fun t => ?_
    cases t with
    | false => exact Sim.ret hn.symm
    | true =>
      refine hb.bind fun f => ?_
      cases f with
      | next => simp only [hn]; exact whileLoop_sim fl hn hr ht hb n
      | ret v => simp only [hr]; exact Sim.ret (hr v).symm

/-- What `_pcc` is for a parent continuation. -/
def τp (p : Spec.Val β) : Val β := maybeCapture (τ p)

theorem τp_ident : τp (.ident : Spec.Val β) = .non := rfl

theorem τp_cases (p : Spec.Val β) (hp : Spec.isNon p = false) :
    (Spec.isIdent p = true ∧ τp p = .non) ∨ (Spec.isIdent p = false ∧ τp p = τ p ∧ τ p ≠ .non) := by
  cases p <;> simp_all [Spec.isIdent, Spec.isNon, τp, τ, maybeCapture]

theorem chainStar_τ {p : Spec.Val β} (hp : Spec.isNon p = false) (v : Spec.Val β) :
    chainStar (τp p) (τ v) = τ (Spec.andThen p v) := by
  cases p <;> simp_all [Spec.isNon, τp, τ, maybeCapture, chainStar, Spec.andThen, Spec.isIdent]

theorem chainData_τ {p : Spec.Val β} (hp : Spec.isNon p = false) (c v : Spec.Val β) :
    chainData (ω := ω) (ε := ε) (τp p) (τ c) (τ v) = ret (τt (Spec.deliver p c v)) := by
  cases p <;> cases v <;>
    simp_all [Spec.isNon, τp, τ, maybeCapture, chainData, Spec.deliver, Spec.isIdent, τt, Spec.unpack]

/-! ## Evaluation -/

def ApSim (ap : Spec.Ap β ω ε) (ap' : Ap β ω ε) : Prop :=
  ∀ f args k, Sim τ (ap f args k) (ap' (τ f) (args.map τ) (k.map τ))

section
variable {P : World β ω ε} {ap : Spec.Ap β ω ε} {ap' : Ap β ω ε}

mutual
theorem eval_sim (hap : ApSim ap ap') (ρ : Env) (pcc : Option (Val β)) :
    ∀ e : Ex β, Sim τ (Spec.eval P ap ρ e) (eval P ap' ρ pcc (tr e))
  | .cst c => by unfold Spec.eval tr eval; exact Sim.ret rfl
  | .non => by unfold Spec.eval tr eval; exact Sim.ret rfl
  | .name x => by unfold Spec.eval tr eval; exact load_sim ρ x
  | .call f args => by
    unfold Spec.eval tr eval
    exact (eval_sim hap ρ pcc f).bind fun fv => (evals_sim hap ρ pcc args).bind fun vs => hap fv vs none
  | .callK f args k => by
    unfold Spec.eval tr eval
    exact (eval_sim hap ρ pcc f).bind fun fv => (evals_sim hap ρ pcc args).bind fun vs =>
      (eval_sim hap ρ pcc k).bind fun kv => hap fv vs (some kv)
  | .lam ps b => by
    unfold Spec.eval tr eval
    exact Sim.ret (by simp [τ, trBody, trS, isRet])
  | .ife c t e => by
    unfold Spec.eval tr eval
    refine (eval_sim hap ρ pcc c).bind fun v => ?_
    rw [truthy_τ]
    split
    · exact eval_sim hap ρ pcc t
    · exact eval_sim hap ρ pcc e
  | .tup es => by
    unfold Spec.eval tr eval
    exact (evals_sim hap ρ pcc es).bind fun vs => Sim.ret (by simp [τ])
  | .values es => by
    unfold Spec.eval tr eval
    exact (evals_sim hap ρ pcc es).bind fun vs => Sim.ret (by simp [τ])
  | .bool o a b => by
    cases o <;> unfold Spec.eval tr eval <;> refine (eval_sim hap ρ pcc a).bind fun v => ?_ <;> rw [truthy_τ] <;>
      cases Spec.truthy P v <;> first | exact Sim.ret rfl | exact eval_sim hap ρ pcc b
  | .doe a b => by
    unfold Spec.eval tr eval
    exact (eval_sim hap ρ pcc a).bind fun _ => eval_sim hap ρ pcc b
  | .letx x a b => by
    unfold Spec.eval tr eval
    exact (eval_sim hap ρ pcc a).bind fun v => Sim.stop fun _ =>
      (alloc_sim [some v]).bind fun c => eval_sim hap (frame ρ [x] c) pcc b

theorem evals_sim (hap : ApSim ap ap') (ρ : Env) (pcc : Option (Val β)) :
    ∀ es : List (Ex β), Sim (List.map τ) (Spec.evals P ap ρ es) (evals P ap' ρ pcc (trs es))
  | [] => by unfold Spec.evals trs evals; exact Sim.ret rfl
  | e :: es => by
    unfold Spec.evals trs evals
    exact (eval_sim hap ρ pcc e).bind fun v => (evals_sim hap ρ pcc es).bind fun vs => Sim.ret rfl
end

theorem data_sim (hap : ApSim ap ap') (ρ : Env) {p : Spec.Val β} (hp : Spec.isNon p = false) (e : Ex β) :
    Sim τt (bind (load ρ "cc") fun c => bind (Spec.eval P ap ρ e) fun v => ret (Spec.deliver p c v))
      (eval P ap' ρ (some (τp p)) (.data (tr e))) := by
  unfold eval
  refine (load_sim ρ "cc").bind fun c => (eval_sim hap ρ _ e).bind fun v => ?_
  rw [chainData_τ hp]
  exact Sim.ret rfl

theorem hasTail_eq (e : Ex β) : Spec.hasTail e = compound e := by cases e <;> rfl

theorem deliver_sim (ρ : Env) {p : Spec.Val β} (hp : Spec.isNon p = false) (v : Spec.Val β) :
    Sim (ω := ω) (ε := ε) τt (bind (load ρ "cc") fun c => ret (Spec.deliver p c v))
      (bind (load ρ "cc") fun c => chainData (τp p) c (τ v)) := by
  refine (load_sim ρ "cc").bind fun c => ?_
  rw [chainData_τ hp]
  exact Sim.ret rfl

theorem tail_sim (hap : ApSim ap ap') (ρ : Env) {p : Spec.Val β} (hp : Spec.isNon p = false) :
    ∀ e : Ex β, Sim τt (Spec.tailEval true P ap ρ p e) (eval P ap' ρ (some (τp p)) (trTail e))
  | .call f args => by
    unfold Spec.tailEval trTail eval
    refine (eval_sim hap ρ _ f).bind fun fv => (evals_sim hap ρ _ args).bind fun vs => ?_
    unfold eval
    simp only [bind_assoc]
    refine Sim.bind (h := τ) ?_ fun c => ?_
    · unfold eval; exact load_sim ρ "cc"
    · rw [ret_bind, chainStar_τ hp]; exact Sim.ret (by simp [τt])
  | .callK f args k => by
    unfold Spec.tailEval trTail eval
    refine (eval_sim hap ρ _ f).bind fun fv => (evals_sim hap ρ _ args).bind fun vs => ?_
    unfold eval
    simp only [bind_assoc]
    refine (eval_sim hap ρ _ k).bind fun kv => ?_
    rw [ret_bind, chainStar_τ hp]; exact Sim.ret (by simp [τt])
  | .ife c t e => by
    unfold Spec.tailEval trTail eval
    refine (eval_sim hap ρ _ c).bind fun v => ?_
    rw [truthy_τ]
    split
    · exact tail_sim hap ρ hp t
    · exact tail_sim hap ρ hp e
  | .cst c => by unfold Spec.tailEval trTail; exact data_sim hap ρ hp _
  | .non => by unfold Spec.tailEval trTail; exact data_sim hap ρ hp _
  | .name x => by unfold Spec.tailEval trTail; exact data_sim hap ρ hp _
  | .lam ps b => by unfold Spec.tailEval trTail; exact data_sim hap ρ hp _
  | .tup es => by unfold Spec.tailEval trTail; exact data_sim hap ρ hp _
  | .values es => by unfold Spec.tailEval trTail; exact data_sim hap ρ hp _
  | .bool true a b => by
    unfold Spec.tailEval trTail
    rw [hasTail_eq]
    split
    · unfold eval
      refine (eval_sim hap ρ _ a).bind fun v => ?_
      rw [truthy_τ]
      split
      · exact deliver_sim ρ hp v
      · exact tail_sim hap ρ hp b
    · exact data_sim hap ρ hp (.bool true a b)
  | .bool false a b => by
    unfold Spec.tailEval trTail
    rw [hasTail_eq]
    split
    · unfold eval
      refine (eval_sim hap ρ _ a).bind fun v => ?_
      rw [truthy_τ]
      split
      · exact tail_sim hap ρ hp b
      · refine Sim.stop fun hv => ?_
        have : v = .base P.ff := by
          cases v <;> simp [Spec.isFalse] at hv
          rw [(P.isFf_ff _).1 hv]
        subst this
        unfold eval
        simp only [eval, ret_bind]
        exact deliver_sim ρ hp (.base P.ff)
    · exact data_sim hap ρ hp (.bool false a b)
  | .doe a b => by
    unfold Spec.tailEval trTail eval
    exact (eval_sim hap ρ _ a).bind fun _ => tail_sim hap ρ hp b
  | .letx x a b => by
    unfold Spec.tailEval trTail eval
    exact (eval_sim hap ρ _ a).bind fun v => Sim.stop fun _ =>
      (alloc_sim [some v]).bind fun c => tail_sim hap (frame ρ [x] c) hp b

/-! ## Statements -/

theorem execs_trS (N : Nat) (ρ : Env) (pcc kn : Option (Val β)) (s : St β) (ts : List (Out.St β)) :
    execs P N ap' ρ pcc kn (trS s :: ts) = bind (exec P N ap' ρ pcc kn (trS s)) fun fl => match fl with
      | .next => execs P N ap' ρ pcc kn ts
      | .ret v => ret (.ret v) := by
  cases s with
  | ret e => cases e <;> (unfold trS; conv => lhs; unfold execs); all_goals rfl
  | _ => unfold trS; (conv => lhs; unfold execs); rfl

mutual
theorem exec_sim (N : Nat) (hap : ApSim ap ap') (ρ : Env) (kn : Option (Val β)) {p : Option (Spec.Val β)}
    (hp : ∀ q, p = some q → Spec.isNon q = false) :
    ∀ t : St β, Sim τf (Spec.exec true P N ap ρ p t) (exec P N ap' ρ (p.map τp) kn (trS t))
  | .ret e => by
    unfold Spec.exec
    cases p with
    | none => exact Sim.flag
    | some q =>
      cases e with
      | none =>
        unfold trS exec
        refine Sim.bind (h := τt) ?_ fun t => Sim.ret rfl
        exact tail_sim hap ρ (hp q rfl) .non
      | some e =>
        unfold trS exec
        exact (tail_sim hap ρ (hp q rfl) e).bind fun t => Sim.ret rfl
  | .expr e => by
    unfold Spec.exec trS exec
    exact (eval_sim hap ρ _ e).bind fun v => Sim.ret rfl
  | .assign x e => by
    unfold Spec.exec trS exec
    exact (eval_sim hap ρ _ e).bind fun v => (store_sim ρ x v).bind fun _ => Sim.ret rfl
  | .ite c b₁ b₂ => by
    unfold Spec.exec trS exec
    refine (eval_sim hap ρ _ c).bind fun v => ?_
    rw [truthy_τ]
    split
    · exact execs_sim N hap ρ kn hp b₁
    · exact execs_sim N hap ρ kn hp b₂
  | .while c b => by
    unfold Spec.exec trS exec
    refine whileLoop_sim (h := τt) τf rfl (fun _ => rfl) ?_ (execs_sim N hap ρ kn hp b) N
    exact (eval_sim hap ρ _ c).bind fun v => Sim.ret (truthy_τ P v)
  | .defn x ps b => by
    unfold Spec.exec trS exec
    exact (store_sim ρ x (.clo ps b ρ)).bind fun _ => Sim.ret rfl
  | .nonlocal xs => by unfold Spec.exec trS exec; exact Sim.ret rfl
  | .callcc .. => by unfold Spec.exec; exact Sim.flag

theorem execs_sim (N : Nat) (hap : ApSim ap ap') (ρ : Env) (kn : Option (Val β)) {p : Option (Spec.Val β)}
    (hp : ∀ q, p = some q → Spec.isNon q = false) :
    ∀ ts : List (St β), Sim τf (Spec.execs true P N ap ρ p ts) (execs P N ap' ρ (p.map τp) kn (trSs ts))
  | [] => by unfold Spec.execs trSs execs; exact Sim.ret rfl
  | t :: ts => by
    unfold Spec.execs trSs
    rw [execs_trS]
    refine (exec_sim N hap ρ kn hp t).bind fun fl => ?_
    cases fl with
    | next => exact execs_sim N hap ρ kn hp ts
    | ret v => exact Sim.ret rfl
end

/-! ## `call_cc` -/

theorem nones_eq (targets : List String) (star : Option String) : Spec.nones targets star = skipArgs targets star := by
  unfold Spec.nones skipArgs
  cases targets <;> cases star <;> simp

theorem theCall_sim (N : Nat) (hap : ApSim ap ap') (ρ : Env) (pcc : Option (Val β)) (k : Spec.Val β) (n : Nat) :
    ∀ c : CallCc β, Sim (fun t => Flow.ret (τt t)) (Spec.theCall true P ap ρ k n c)
      (exec P N ap' ρ pcc (some (τ k)) (prepareCall true n c))
  | .call f args => by
    unfold Spec.theCall prepareCall
    simp only [if_true]
    unfold exec
    exact (eval_sim hap ρ _ f).bind fun fv => (evals_sim hap ρ _ args).bind fun vs => Sim.ret (by simp [τt])
  | .skip => by
    unfold Spec.theCall prepareCall
    simp only [if_true, bind_assoc]
    unfold exec
    refine (load_sim ρ "cc").bind fun c => ?_
    refine Sim.stop fun hc => ?_
    have : c = .ident := by cases c <;> simp_all [Spec.isIdent]
    subst this
    exact Sim.ret (by simp [τt, τ])

theorem flow_id {σ α : Type} (m : M σ ε (Flow α)) (f : Flow α → M σ ε (Flow α)) (h₁ : f .next = ret .next)
    (h₂ : ∀ v, f (.ret v) = ret (.ret v)) : bind m f = m := by
  funext s
  unfold PyExpr.bind
  match m s with
  | none => rfl
  | some (.error e, s') => rfl
  | some (.ok .next, s') => simp only [h₁]; rfl
  | some (.ok (.ret v), s') => simp only [h₂]; rfl

def isDefk : Out.St β → Bool
  | .defk .. => true
  | _ => false

theorem execs_one (N : Nat) (ρ : Env) (pcc kn : Option (Val β)) (t : Out.St β) (ht : isDefk t = false) :
    execs P N ap' ρ pcc kn [t] = exec P N ap' ρ pcc kn t := by
  cases t with
  | defk => cases ht
  | _ => unfold execs; refine flow_id _ _ ?_ ?_ <;> (try intro v) <;> simp only [] <;> unfold execs <;> rfl

theorem prepare_one (N : Nat) (ρ : Env) (pcc kn : Option (Val β)) (owner : Bool) (n : Nat) (c : CallCc β) :
    execs P N ap' ρ pcc kn [prepareCall owner n c] = exec P N ap' ρ pcc kn (prepareCall owner n c) :=
  execs_one N ρ pcc kn _ (by cases c <;> cases owner <;> rfl)

/-- The statements after the definition of the continuation. -/
theorem choose_sim (N : Nat) (hap : ApSim ap ap') (ρ : Env) (pcc : Option (Val β)) (k : Spec.Val β) (n : Nat)
    (cond : Option (Ex β)) (a b : CallCc β) :
    Sim (fun t => Flow.ret (τt t)) (Spec.choose true P ap ρ k n cond a b)
      (execs P N ap' ρ pcc (some (τ k)) (match cond with
        | none => [prepareCall true n a]
        | some c => [.ite (tr c) [prepareCall true n a] [prepareCall true n b]])) := by
  cases cond with
  | none =>
    simp only [Spec.choose]
    rw [prepare_one]
    exact theCall_sim N hap ρ pcc k n a
  | some c =>
    simp only [Spec.choose]
    rw [execs_one _ _ _ _ _ rfl]
    unfold exec
    refine (eval_sim hap ρ _ c).bind fun v => ?_
    rw [truthy_τ]
    split
    · rw [prepare_one]; exact theCall_sim N hap ρ pcc k n a
    · rw [prepare_one]; exact theCall_sim N hap ρ pcc k n b

theorem bind_ret {σ α : Type} (m : M σ ε α) : bind m ret = m := by
  funext s
  unfold PyExpr.bind
  match m s with
  | none => rfl
  | some (.error e, s') => rfl
  | some (.ok v, s') => rfl

/-- The value of a body. -/
def finish (m : M (State (Val β) ω) ε (Flow (Val β))) : M (State (Val β) ω) ε (Val β) :=
  bind m fun fl => match fl with
    | .next => ret .non
    | .ret v => ret v

theorem Sim.fin {m : M (State (Spec.Val β) ω) ε (Spec.Tail β)} {m'} (h : Sim (fun t => Flow.ret (τt t)) m m') :
    Sim τt m (finish m') := by
  have : Sim τt (PyExpr.bind m PyExpr.ret) (finish m') := h.bind fun t => Sim.ret rfl
  rwa [bind_ret] at this

theorem trBody_callcc (fn owner last : Bool) (ts : List String) (star : Option String) (cond : Option (Ex β)) (a b : CallCc β)
    (after : List (St β)) (h : (!fn && after.isEmpty) = false) :
    trBody fn owner last (.callcc ts star cond a b :: after) = .defk ts star (trBody fn true false after) ::
      match cond with
      | none => [prepareCall owner (skipArgs ts star) a]
      | some c => [.ite (tr c) [prepareCall owner (skipArgs ts star) a] [prepareCall owner (skipArgs ts star) b]] := by
  rw [trBody, h]
  simp only [makeContinuation, Bool.false_eq_true, if_false]
  rfl

theorem trBody_cons (fn owner last : Bool) (s : St β) (hs : Spec.isCallcc s = false) (ss : List (St β)) :
    trBody fn owner last (s :: ss) = trS s :: trBody fn owner (isRet s) ss := by
  cases s with
  | callcc => cases hs
  | _ => rw [trBody]; simp

theorem body_cons (careful : Bool) (P : World β ω ε) (N : Nat) (ap : Spec.Ap β ω ε) (ρ : Env) (blk : Bool) (p : Spec.Val β)
    (s : St β) (hs : Spec.isCallcc s = false) (ss : List (St β)) :
    Spec.body careful P N ap ρ blk p (s :: ss) = bind (Spec.exec careful P N ap ρ (some p) s) fun fl => match fl with
      | .next => Spec.body careful P N ap ρ blk p ss
      | .ret r => ret r := by
  cases s with
  | callcc => cases hs
  | _ => rw [Spec.body] <;> first | rfl | (intros; simp_all)

theorem body_step (N : Nat) (hap : ApSim ap ap') (ρ : Env) (blk : Bool) {p : Spec.Val β} (hp : Spec.isNon p = false)
    (s : St β) (ss : List (St β)) (hs : Spec.isCallcc s = false) (hr : isRet s = false)
    (ih : Sim τt (Spec.body true P N ap ρ blk p ss)
      (finish (execs P N ap' ρ (some (τp p)) none (trBody (!blk) true false ss)))) :
    Sim τt (Spec.body true P N ap ρ blk p (s :: ss))
      (finish (execs P N ap' ρ (some (τp p)) none (trBody (!blk) true false (s :: ss)))) := by
  rw [body_cons _ _ _ _ _ _ _ _ hs, trBody_cons _ _ _ _ hs, execs_trS, hr]
  unfold finish
  rw [bind_assoc]
  refine (exec_sim (P := P) N hap ρ none (p := some p) (by rintro q ⟨⟩; exact hp) s).bind fun fl => ?_
  cases fl with
  | next => exact ih
  | ret v => exact Sim.ret rfl

theorem body_sim (N : Nat) (hap : ApSim ap ap') (ρ : Env) (blk : Bool) {p : Spec.Val β} (hp : Spec.isNon p = false) :
    ∀ b : List (St β), Sim τt (Spec.body true P N ap ρ blk p b)
      (finish (execs P N ap' ρ (some (τp p)) none (trBody (!blk) true false b)))
  | [] => by
    unfold Spec.body trBody
    cases blk with
    | true => simp [finish, execs]; exact Sim.ret rfl
    | false =>
      simp only [Bool.not_false, Bool.and_self, if_true, Bool.false_eq_true, if_false]
      rw [execs_one _ _ _ _ _ rfl]
      unfold exec finish
      rw [bind_assoc]
      unfold eval
      rw [bind_assoc]
      refine (load_sim ρ "cc").bind fun c => ?_
      unfold eval
      rw [ret_bind]
      have := chainData_τ (ω := ω) (ε := ε) hp c .non
      simp only [τ] at this
      rw [this, ret_bind, ret_bind]
      exact Sim.ret rfl
  | .callcc ts star cond a b :: after => by
    unfold Spec.body
    refine Sim.stop fun hl => ?_
    rw [trBody_callcc _ _ _ _ _ _ _ _ _ (by simpa using hl)]
    unfold execs finish
    rw [bind_assoc]
    refine (load_sim ρ "cc").bind fun c => ?_
    refine Sim.stop fun hi => ?_
    have hpi : p = .ident := by cases p <;> simp_all [Spec.isIdent]
    subst hpi
    rw [nones_eq]
    exact (choose_sim N hap ρ _ (.kont ts star after ρ blk (Spec.andThen .ident c)) _ cond a b).fin
  | .ret e :: ss => by
    rw [body_cons _ _ _ _ _ _ _ _ rfl, trBody_cons _ _ _ _ rfl, execs_trS]
    unfold finish
    rw [bind_assoc]
    simp only [Spec.exec]
    rw [bind_assoc]
    cases e with
    | none =>
      unfold trS exec
      rw [bind_assoc]
      exact (tail_sim hap ρ hp .non).bind fun t => Sim.ret rfl
    | some e =>
      unfold trS exec
      rw [bind_assoc]
      exact (tail_sim hap ρ hp e).bind fun t => Sim.ret rfl
  | .expr e :: ss => body_step N hap ρ blk hp (.expr e) ss rfl rfl (body_sim N hap ρ blk hp ss)
  | .assign x e :: ss => body_step N hap ρ blk hp (.assign x e) ss rfl rfl (body_sim N hap ρ blk hp ss)
  | .ite c b₁ b₂ :: ss => body_step N hap ρ blk hp (.ite c b₁ b₂) ss rfl rfl (body_sim N hap ρ blk hp ss)
  | .while c b :: ss => body_step N hap ρ blk hp (.while c b) ss rfl rfl (body_sim N hap ρ blk hp ss)
  | .defn x ps b :: ss => body_step N hap ρ blk hp (.defn x ps b) ss rfl rfl (body_sim N hap ρ blk hp ss)
  | .nonlocal xs :: ss => body_step N hap ρ blk hp (.nonlocal xs) ss rfl rfl (body_sim N hap ρ blk hp ss)

/-! ## Local variables -/

mutual
theorem assignedS_tr : ∀ s : St β, assignedS (trS s) = Spec.assignedS s
  | .ret none => by simp [trS, assignedS, Spec.assignedS]
  | .ret (some e) => by simp [trS, assignedS, Spec.assignedS]
  | .expr e => by simp [trS, assignedS, Spec.assignedS]
  | .assign x e => by simp [trS, assignedS, Spec.assignedS]
  | .ite c b₁ b₂ => by simp [trS, assignedS, Spec.assignedS, assignedSs_tr b₁, assignedSs_tr b₂]
  | .while c b => by simp [trS, assignedS, Spec.assignedS, assignedSs_tr b]
  | .defn x ps b => by simp [trS, assignedS, Spec.assignedS]
  | .nonlocal xs => by simp [trS, assignedS, Spec.assignedS]
  | .callcc .. => by simp [trS, assignedS, Spec.assignedS]

theorem assignedSs_tr : ∀ ss : List (St β), assignedSs (trSs ss) = Spec.assignedSs ss
  | [] => by simp [trSs, assignedSs, Spec.assignedSs]
  | s :: ss => by simp [trSs, assignedSs, Spec.assignedSs, assignedS_tr s, assignedSs_tr ss]
end

mutual
theorem nonlocalS_tr : ∀ s : St β, nonlocalS (trS s) = Spec.nonlocalS s
  | .ret none => by simp [trS, nonlocalS, Spec.nonlocalS]
  | .ret (some e) => by simp [trS, nonlocalS, Spec.nonlocalS]
  | .expr e => by simp [trS, nonlocalS, Spec.nonlocalS]
  | .assign x e => by simp [trS, nonlocalS, Spec.nonlocalS]
  | .ite c b₁ b₂ => by simp [trS, nonlocalS, Spec.nonlocalS, nonlocalSs_tr b₁, nonlocalSs_tr b₂]
  | .while c b => by simp [trS, nonlocalS, Spec.nonlocalS, nonlocalSs_tr b]
  | .defn x ps b => by simp [trS, nonlocalS, Spec.nonlocalS]
  | .nonlocal xs => by simp [trS, nonlocalS, Spec.nonlocalS]
  | .callcc .. => by simp [trS, nonlocalS, Spec.nonlocalS]

theorem nonlocalSs_tr : ∀ ss : List (St β), nonlocalSs (trSs ss) = Spec.nonlocalSs ss
  | [] => by simp [trSs, nonlocalSs, Spec.nonlocalSs]
  | s :: ss => by simp [trSs, nonlocalSs, Spec.nonlocalSs, nonlocalS_tr s, nonlocalSs_tr ss]
end

theorem before_cons (s : St β) (hs : Spec.isCallcc s = false) (ss : List (St β)) : Spec.before (s :: ss) = s :: Spec.before ss := by
  cases s with
  | callcc => cases hs
  | _ => rfl

theorem prepare_names (owner : Bool) (n : Nat) (c : CallCc β) :
    assignedS (prepareCall owner n c) = [] ∧ nonlocalS (prepareCall owner n c) = [] := by
  cases c <;> cases owner <;> simp [prepareCall, assignedS, nonlocalS]

theorem names_body (fn owner : Bool) : ∀ (b : List (St β)) (last : Bool),
    assignedSs (trBody fn owner last b) = Spec.assignedSs (Spec.before b) ∧
    nonlocalSs (trBody fn owner last b) = Spec.nonlocalSs (Spec.before b)
  | [], last => by
    unfold trBody Spec.before
    split <;> simp [assignedSs, nonlocalSs, Spec.assignedSs, Spec.nonlocalSs, assignedS, nonlocalS]
  | s :: ss, last => by
    cases hs : Spec.isCallcc s with
    | false =>
      have ih := names_body fn owner ss (isRet s)
      rw [trBody_cons _ _ _ _ hs, before_cons _ hs]
      simp [assignedSs, nonlocalSs, Spec.assignedSs, Spec.nonlocalSs, ih.1, ih.2, assignedS_tr, nonlocalS_tr]
    | true =>
      cases s with
      | callcc ts star cond a c =>
        cases he : (!fn && ss.isEmpty) with
        | true =>
          rw [trBody, he]
          simp [Spec.before, assignedSs, nonlocalSs, Spec.assignedSs, Spec.nonlocalSs, assignedS, nonlocalS]
        | false =>
          rw [trBody_callcc _ _ _ _ _ _ _ _ _ he]
          have ha := prepare_names owner (skipArgs ts star) a
          have hc := prepare_names owner (skipArgs ts star) c
          cases cond <;>
            simp [Spec.before, assignedSs, nonlocalSs, Spec.assignedSs, Spec.nonlocalSs, assignedS, nonlocalS, ha.1, ha.2, hc.1, hc.2]
      | _ => cases hs

theorem locals_tr (fn owner last : Bool) (b : List (St β)) : locals (trBody fn owner last b) = Spec.locals b := by
  unfold locals Spec.locals
  rw [(names_body fn owner b last).1, (names_body fn owner b last).2]

/-! ## Calls -/

theorem enter_sim (N : Nat) (hap : ApSim ap ap') (xs : List (String × Spec.Val β)) (cc : Spec.Val β) (b : List (St β)) (ρ : Env)
    (blk : Bool) {p : Spec.Val β} (hp : Spec.isNon p = false) :
    Sim τt (Spec.enter true P N ap xs cc b ρ blk p)
      (enter (fun ρ b => execs P N ap' ρ (some (τp p)) none b) (xs.map (·.1)) ((xs.map (·.2)).map τ) (τ cc)
        (trBody (!blk) true false b) ρ) := by
  unfold Spec.enter enter
  rw [locals_tr]
  refine Sim.bind (h := id) ?_ fun a => ?_
  · have := alloc_sim (ω := ω) (ε := ε) (List.map some (xs.map (·.2) ++ [cc]) ++ (Spec.locals b).map (fun _ => none))
    simpa [Function.comp_def] using this
  · have := body_sim N hap (frame ρ (xs.map (·.1) ++ ["cc"] ++ Spec.locals b) a) blk hp b (P := P)
    simp only [List.append_assoc, List.singleton_append] at this ⊢
    exact this

theorem snd_zip {α γ : Type} : ∀ (as : List α) (cs : List γ), (as.zip cs).map (·.2) = cs.take as.length
  | [], _ => by simp
  | _ :: _, [] => by simp
  | _ :: as, c :: cs => by simp [snd_zip as cs]

theorem bind_receive (ts : List String) (star : Option String) (args : List (Spec.Val β)) :
    bindTargets .tup ts star (args.map τ) =
      (Spec.receive ts star args).map (fun xs => (xs.map (·.1), (xs.map (·.2)).map τ)) := by
  unfold bindTargets Spec.receive
  cases star with
  | some x =>
    simp only [List.length_map]
    split
    · rename_i h
      rw [if_neg (by omega)]
      simp only [Option.map_some, List.map_append, List.map_cons, List.map_nil, List.map_fst_zip (show ts.length ≤ args.length by omega), τ,
        τs_eq, List.map_take, List.map_drop, Option.some.injEq, Prod.mk.injEq, true_and, List.append_cancel_right_eq]
      rw [snd_zip, List.map_take]
    · rename_i h
      rw [if_pos (by omega)]; rfl
  | none =>
    cases ts with
    | nil =>
      simp only [List.isEmpty_nil, if_true, List.length_map]
      split
      · rename_i h
        rw [if_neg (by omega)]; rfl
      · rename_i h
        rw [if_pos (by omega)]; rfl
    | cons t ts =>
      simp only [List.isEmpty_cons, Bool.false_eq_true, if_false, List.length_map]
      split
      · rename_i h
        simp only [Option.map_some]
        rw [List.map_fst_zip (by omega), List.map_snd_zip (by omega)]
      · rfl

theorem callEntry_sim (N : Nat) (hap : ApSim ap ap') (f : Spec.Val β) (args : List (Spec.Val β)) (k : Option (Spec.Val β)) :
    Sim τt (Spec.callEntry true P N ap f args k) (callEntry P N ap' (τ f) (args.map τ) (k.map τ)) := by
  have hk : (k.map τ).getD .ident = τ (k.getD .ident) := by cases k <;> rfl
  cases f with
  | clo ps b ρ =>
    simp only [Spec.callEntry, τ, callEntry, List.length_map]
    split
    · rename_i h
      have := enter_sim (P := P) N hap (ps.zip args) (k.getD .ident) b ρ false (p := .ident) rfl
      rw [List.map_fst_zip (by omega), snd_zip, List.take_of_length_le (by omega)] at this
      rw [hk]
      exact this
    · exact Sim.raise _
  | kont ts star b ρ blk p =>
    simp only [Spec.callEntry, τ, callEntry]
    refine Sim.stop fun hp => ?_
    rw [bind_receive]
    cases hr : Spec.receive ts star args with
    | none => exact Sim.raise _
    | some xs =>
      rw [hk]
      exact enter_sim (P := P) N hap xs (k.getD .ident) b ρ blk (by simpa using hp)
  | ext n =>
    cases k with
    | none =>
      simp only [Spec.callEntry, τ, callEntry, Option.map_none]
      have := (callExt_sim P n args).bind (g := τt) (k := fun v => ret (.val v)) (k' := fun v => ret v) fun v => Sim.ret rfl
      rwa [show (fun v => ret v : Val β → M (State (Val β) ω) ε (Val β)) = ret from rfl, bind_ret] at this
    | some k => exact Sim.raise _
  | ident =>
    cases k with
    | none => simp only [Spec.callEntry, τ, callEntry, Option.map_none]; exact Sim.ret (pack_τ args)
    | some k => simp only [Spec.callEntry]; exact Sim.stop fun h => nomatch h
  | getcc =>
    cases k with
    | none => exact Sim.raise _
    | some k => simp only [Spec.callEntry, τ, callEntry, Option.map_some]; exact Sim.ret (by simp [τt])
  | comp a b =>
    cases k with
    | none => simp only [Spec.callEntry, τ, callEntry, Option.map_none]; exact Sim.ret (by simp [τt])
    | some k => simp only [Spec.callEntry]; exact Sim.stop fun h => nomatch h
  | _ => exact Sim.raise _

theorem τ_not_jump (v : Spec.Val β) : (∀ f args, τ v ≠ .jmp f args) ∧ ∀ f args k, τ v ≠ .jmpK f args k := by
  cases v <;> simp [τ]

theorem loop_sim (N : Nat) (hap : ApSim ap ap') : ∀ (n : Nat) (f : Spec.Val β) (args : List (Spec.Val β)) (k : Option (Spec.Val β)),
    Sim τ (Spec.loop true P N ap n f args k) (trampoline P N ap' n (τ f) (args.map τ) (k.map τ))
  | 0, _, _, _ => fun _ => .inr rfl
  | n + 1, f, args, k => by
    unfold Spec.loop trampoline
    refine (callEntry_sim N hap f args k).bind fun t => ?_
    match t with
    | .val v =>
      simp only [τt]
      have h := τ_not_jump v
      split
      · exact absurd ‹_› (h.1 _ _)
      · exact absurd ‹_› (h.2 _ _ _)
      · exact Sim.ret rfl
    | .call g as none =>
      simp only [τt, τs_eq]
      rw [callable_τ]
      split
      · exact loop_sim N hap n g as none
      · exact Sim.raise _
    | .call g as (some k) =>
      simp only [τt, τs_eq]
      rw [callable_τ]
      split
      · exact loop_sim N hap n g as (some k)
      · exact Sim.raise _

end

theorem loop_one (P : World β ω ε) (N : Nat) (ap : Spec.Ap β ω ε) (n : Nat) (f : Spec.Val β) (args : List (Spec.Val β))
    (k : Option (Spec.Val β)) (ap' : Ap β ω ε) (hap : ApSim ap ap') (hf : trampolined (τ f) = false)
    (hc : Spec.isComp f = false) :
    Sim τ (Spec.loop true P N ap (n + 1) f args k) (callEntry P N ap' (τ f) (args.map τ) (k.map τ)) := by
  unfold Spec.loop
  cases f with
  | ext m =>
    cases k with
    | none =>
      simp only [Spec.callEntry, τ, callEntry, Option.map_none, bind_assoc, ret_bind]
      have := callExt_sim P m args
      rwa [show (fun a => ret a : Spec.Val β → M (State (Spec.Val β) ω) ε (Spec.Val β)) = ret from rfl, bind_ret]
    | some k => exact Sim.raise _
  | ident =>
    cases k with
    | none => simp only [Spec.callEntry, τ, callEntry, Option.map_none, ret_bind]; exact Sim.ret (pack_τ args)
    | some k => simp only [Spec.callEntry, bind_assoc]; exact Sim.stop fun h => nomatch h
  | comp a b => cases hc
  | clo ps b ρ => cases hf
  | kont ts star b ρ blk p => cases hf
  | getcc => cases hf
  | _ => exact Sim.raise _

theorem apply_sim (P : World β ω ε) (N : Nat) : ∀ d, ApSim (Spec.apply true P (N + 1) d) (apply P (N + 1) d)
  | 0 => fun _ _ _ _ => .inr rfl
  | d + 1 => by
    intro f args k
    unfold Spec.apply apply
    refine Sim.stop fun hc => ?_
    split
    · exact loop_sim (N + 1) (apply_sim P N d) (N + 1) f args k
    · exact loop_one P (N + 1) _ N f args k _ (apply_sim P N d) (Bool.eq_false_iff.2 ‹_›) (by simpa using hc)

/-! ## The block -/

theorem block_choose (P : World β ω ε) (N : Nat) {ap : Spec.Ap β ω ε} {ap' : Ap β ω ε} (hap : ApSim ap ap') (ρ : Env) (k : Spec.Val β)
    (n : Nat) (c : CallCc β) :
    Sim (fun _ : Unit => Flow.next)
      (bind (Spec.theCall true P ap ρ k n c) fun t => match t with
        | .val _ => ret ()
        | .call f args k => bind (ap f args k) fun _ => ret ())
      (exec P N ap' ρ none (some (τ k)) (prepareCall false n c)) := by
  cases c with
  | call f args =>
    unfold Spec.theCall prepareCall
    simp only [Bool.false_eq_true, if_false, bind_assoc, ret_bind]
    unfold exec
    exact (eval_sim hap ρ _ f).bind fun fv => (evals_sim hap ρ _ args).bind fun vs => (hap fv vs (some k)).bind fun _ => Sim.ret rfl
  | skip =>
    unfold Spec.theCall prepareCall
    simp only [Bool.false_eq_true, if_false, if_true, bind_assoc, ret_bind]
    unfold exec
    refine (load_sim ρ "cc").bind fun c => ?_
    refine Sim.stop fun hc => ?_
    have : c = .ident := by cases c <;> simp_all [Spec.isIdent]
    subst this
    have := hap k (List.replicate n .non) (some .ident)
    rw [List.map_replicate] at this
    exact this.bind fun _ => Sim.ret rfl

theorem block_cons (careful : Bool) (P : World β ω ε) (N : Nat) (ap : Spec.Ap β ω ε) (ρ : Env)
    (s : St β) (hs : Spec.isCallcc s = false) (ss : List (St β)) :
    Spec.block careful P N ap ρ (s :: ss) = bind (Spec.exec careful P N ap ρ none s) fun fl => match fl with
      | .next => Spec.block careful P N ap ρ ss
      | .ret _ => raise .unmodelled := by
  cases s with
  | callcc => cases hs
  | _ => rw [Spec.block] <;> first | rfl | (intros; simp_all)

theorem block_step {P : World β ω ε} {N : Nat} {ap : Spec.Ap β ω ε} {ap' : Ap β ω ε} (hap : ApSim ap ap') (ρ : Env) (last : Bool)
    (s : St β) (ss : List (St β)) (hs : Spec.isCallcc s = false)
    (ih : ∀ last, Sim (fun _ : Unit => Flow.next) (Spec.block true P N ap ρ ss)
      (execs P N ap' ρ none none (trBody false false last ss))) :
    Sim (fun _ : Unit => Flow.next) (Spec.block true P N ap ρ (s :: ss))
      (execs P N ap' ρ none none (trBody false false last (s :: ss))) := by
  rw [block_cons _ _ _ _ _ _ hs, trBody_cons _ _ _ _ hs, execs_trS]
  refine (exec_sim (P := P) N hap ρ none (p := none) (by rintro q ⟨⟩) s).bind fun fl => ?_
  cases fl with
  | next => exact ih _
  | ret v => exact Sim.flag

theorem block_sim (P : World β ω ε) (N : Nat) {ap : Spec.Ap β ω ε} {ap' : Ap β ω ε} (hap : ApSim ap ap') (ρ : Env) :
    ∀ (b : List (St β)) (last : Bool), Sim (fun _ : Unit => Flow.next) (Spec.block true P N ap ρ b)
      (execs P N ap' ρ none none (trBody false false last b))
  | [], last => by
    unfold Spec.block trBody
    simp only [Bool.false_and, Bool.false_eq_true, if_false]
    unfold execs
    exact Sim.ret rfl
  | .callcc ts star cond a b :: after, last => by
    unfold Spec.block
    refine Sim.stop fun hl => ?_
    rw [trBody_callcc _ _ _ _ _ _ _ _ _ (by simpa using hl)]
    unfold execs
    refine (load_sim ρ "cc").bind fun c => ?_
    rw [nones_eq]
    cases cond with
    | none =>
      simp only [Spec.choose]
      rw [prepare_one]
      exact block_choose P N hap ρ (.kont ts star after ρ true c) _ a
    | some e =>
      simp only [Spec.choose]
      rw [execs_one _ _ _ _ _ rfl]
      unfold exec
      rw [bind_assoc]
      refine (eval_sim hap ρ _ e).bind fun v => ?_
      rw [truthy_τ]
      split
      · rw [prepare_one]; exact block_choose P N hap ρ (.kont ts star after ρ true c) _ a
      · rw [prepare_one]; exact block_choose P N hap ρ (.kont ts star after ρ true c) _ b
  | .ret e :: ss, last => block_step hap ρ last (.ret e) ss rfl (fun last => block_sim P N hap ρ ss last)
  | .expr e :: ss, last => block_step hap ρ last (.expr e) ss rfl (fun last => block_sim P N hap ρ ss last)
  | .assign x e :: ss, last => block_step hap ρ last (.assign x e) ss rfl (fun last => block_sim P N hap ρ ss last)
  | .ite c b₁ b₂ :: ss, last => block_step hap ρ last (.ite c b₁ b₂) ss rfl (fun last => block_sim P N hap ρ ss last)
  | .while c b :: ss, last => block_step hap ρ last (.while c b) ss rfl (fun last => block_sim P N hap ρ ss last)
  | .defn x ps b :: ss, last => block_step hap ρ last (.defn x ps b) ss rfl (fun last => block_sim P N hap ρ ss last)
  | .nonlocal xs :: ss, last => block_step hap ρ last (.nonlocal xs) ss rfl (fun last => block_sim P N hap ρ ss last)

theorem run_sim (P : World β ω ε) (N d : Nat) (ρ : Env) (b : List (St β)) {o : List (Out.St β)} (ho : expand b = some o) :
    Sim (fun _ : Unit => Flow.next) (Spec.run true P (N + 1) d ρ b) (run P (N + 1) d ρ o) := by
  unfold expand at ho
  split at ho
  · cases ho
  · simp only at ho
    split at ho
    · cases ho
    · cases ho
      unfold Spec.run run execs
      unfold exec
      rw [bind_assoc]
      unfold eval
      rw [ret_bind, bind_assoc]
      exact (store_sim ρ "cc" .ident).bind fun _ => block_sim P (N + 1) (apply_sim P N d) ρ b false

/-! ## What is seen -/

mutual
theorem obs_τ : ∀ v : Spec.Val β, Spec.obsI (τ v) = Spec.obs v
  | .base _ => by simp [τ, Spec.obsI, Spec.obs]
  | .non => by simp [τ, Spec.obsI, Spec.obs]
  | .tup vs => by unfold τ Spec.obsI Spec.obs; rw [obss_τ vs]
  | .vals vs => by unfold τ Spec.obsI Spec.obs; rw [obss_τ vs]
  | .ext _ => by simp [τ, Spec.obsI, Spec.obs]
  | .ident => by simp [τ, Spec.obsI, Spec.obs]
  | .getcc => by simp [τ, Spec.obsI, Spec.obs]
  | .clo .. => by simp [τ, Spec.obsI, Spec.obs]
  | .kont .. => by simp [τ, Spec.obsI, Spec.obs]
  | .comp .. => by simp [τ, Spec.obsI, Spec.obs]

theorem obss_τ : ∀ vs : List (Spec.Val β), Spec.obssI (τs vs) = Spec.obss vs
  | [] => by simp [τs, Spec.obssI, Spec.obss]
  | v :: vs => by unfold τs Spec.obssI Spec.obss; rw [obs_τ v, obss_τ vs]
end

theorem startI_eq (h : List (Option (Spec.Init β))) (w : ω) : τst (Spec.start h w) = Spec.startI h w := by
  simp only [τst, Spec.start, Spec.startI, List.map_map]
  congr 1
  apply List.map_congr_left
  rintro (_ | v) _
  · rfl
  · cases v <;> rfl

/-! ## The careful interpreter is the other one, when it does not stop -/

def Sub {α : Type} (m m' : M (State (Spec.Val β) ω) ε α) : Prop := ∀ s, Flagged (m s) ∨ m' s = m s

theorem Sub.refl {α : Type} (m : M (State (Spec.Val β) ω) ε α) : Sub m m := fun _ => .inr rfl

theorem Sub.bind {α γ : Type} {m m' : M (State (Spec.Val β) ω) ε α} {k k' : α → M _ ε γ} (hm : Sub m m')
    (hk : ∀ a, Sub (k a) (k' a)) : Sub (PyExpr.bind m k) (PyExpr.bind m' k') := by
  intro s
  unfold PyExpr.bind
  rcases hm s with ⟨s', hf⟩ | he
  · left; rw [hf]; exact ⟨s', rfl⟩
  · rw [he]
    match hms : m s with
    | none => right; rfl
    | some (.error e, s') => right; rfl
    | some (.ok a, s') => exact hk a s'

theorem Sub.stop {α : Type} {b : Bool} {k k' : Unit → M (State (Spec.Val β) ω) ε α}
    (hk : b = false → Sub (k ()) (k' ())) : Sub (PyExpr.bind (Spec.stopIf b) k) (PyExpr.bind (Spec.stopIf false) k') := by
  cases b
  · exact hk rfl
  · exact fun s => .inl ⟨s, rfl⟩

theorem whileLoop_sub {α : Type} {test test' : M (State (Spec.Val β) ω) ε Bool}
    {b b' : M (State (Spec.Val β) ω) ε (Flow α)} (ht : Sub test test') (hb : Sub b b') :
    ∀ n, Sub (whileLoop test b n) (whileLoop test' b' n)
  | 0 => Sub.refl _
  | n + 1 => by
    unfold whileLoop
    refine ht.bind fun t => ?_
    cases t with
    | false => exact Sub.refl _
    | true =>
      refine hb.bind fun f => ?_
      cases f with
      | next => exact whileLoop_sub ht hb n
      | ret v => exact Sub.refl _

def ApSub (ap ap' : Spec.Ap β ω ε) : Prop := ∀ f args k, Sub (ap f args k) (ap' f args k)

section
variable {P : World β ω ε} {ap ap' : Spec.Ap β ω ε}

mutual
theorem eval_sub (hap : ApSub ap ap') (ρ : Env) : ∀ e : Ex β, Sub (Spec.eval P ap ρ e) (Spec.eval P ap' ρ e)
  | .cst c => by unfold Spec.eval; exact Sub.refl _
  | .non => by unfold Spec.eval; exact Sub.refl _
  | .name x => by unfold Spec.eval; exact Sub.refl _
  | .call f args => by
    unfold Spec.eval
    exact (eval_sub hap ρ f).bind fun fv => (evals_sub hap ρ args).bind fun vs => hap fv vs none
  | .callK f args k => by
    unfold Spec.eval
    exact (eval_sub hap ρ f).bind fun fv => (evals_sub hap ρ args).bind fun vs =>
      (eval_sub hap ρ k).bind fun kv => hap fv vs (some kv)
  | .lam ps b => by unfold Spec.eval; exact Sub.refl _
  | .ife c t e => by
    unfold Spec.eval
    refine (eval_sub hap ρ c).bind fun v => ?_
    split
    · exact eval_sub hap ρ t
    · exact eval_sub hap ρ e
  | .tup es => by unfold Spec.eval; exact (evals_sub hap ρ es).bind fun vs => Sub.refl _
  | .values es => by unfold Spec.eval; exact (evals_sub hap ρ es).bind fun vs => Sub.refl _
  | .bool o a b => by
    cases o <;> unfold Spec.eval <;> refine (eval_sub hap ρ a).bind fun v => ?_ <;> split <;>
      first | exact Sub.refl _ | exact eval_sub hap ρ b
  | .doe a b => by unfold Spec.eval; exact (eval_sub hap ρ a).bind fun _ => eval_sub hap ρ b
  | .letx x a b => by
    unfold Spec.eval
    exact (eval_sub hap ρ a).bind fun v => (Sub.refl _).bind fun _ => (Sub.refl _).bind fun c => eval_sub hap _ b

theorem evals_sub (hap : ApSub ap ap') (ρ : Env) : ∀ es : List (Ex β), Sub (Spec.evals P ap ρ es) (Spec.evals P ap' ρ es)
  | [] => by unfold Spec.evals; exact Sub.refl _
  | e :: es => by
    unfold Spec.evals
    exact (eval_sub hap ρ e).bind fun v => (evals_sub hap ρ es).bind fun vs => Sub.refl _
end

theorem tail_sub (hap : ApSub ap ap') (ρ : Env) (p : Spec.Val β) :
    ∀ e : Ex β, Sub (Spec.tailEval true P ap ρ p e) (Spec.tailEval false P ap' ρ p e)
  | .call f args => by
    unfold Spec.tailEval
    exact (eval_sub hap ρ f).bind fun fv => (evals_sub hap ρ args).bind fun vs => Sub.refl _
  | .callK f args k => by
    unfold Spec.tailEval
    exact (eval_sub hap ρ f).bind fun fv => (evals_sub hap ρ args).bind fun vs => (eval_sub hap ρ k).bind fun kv => Sub.refl _
  | .ife c t e => by
    unfold Spec.tailEval
    refine (eval_sub hap ρ c).bind fun v => ?_
    split
    · exact tail_sub hap ρ p t
    · exact tail_sub hap ρ p e
  | .cst c => by unfold Spec.tailEval; exact (Sub.refl _).bind fun c => (eval_sub hap ρ _).bind fun v => Sub.refl _
  | .non => by unfold Spec.tailEval; exact (Sub.refl _).bind fun c => (eval_sub hap ρ _).bind fun v => Sub.refl _
  | .name x => by unfold Spec.tailEval; exact (Sub.refl _).bind fun c => (eval_sub hap ρ _).bind fun v => Sub.refl _
  | .lam ps b => by unfold Spec.tailEval; exact (Sub.refl _).bind fun c => (eval_sub hap ρ _).bind fun v => Sub.refl _
  | .tup es => by unfold Spec.tailEval; exact (Sub.refl _).bind fun c => (eval_sub hap ρ _).bind fun v => Sub.refl _
  | .values es => by unfold Spec.tailEval; exact (Sub.refl _).bind fun c => (eval_sub hap ρ _).bind fun v => Sub.refl _
  | .bool true a b => by
    unfold Spec.tailEval
    split
    · refine (eval_sub hap ρ a).bind fun v => ?_
      split
      · exact Sub.refl _
      · exact tail_sub hap ρ p b
    · exact (Sub.refl _).bind fun c => (eval_sub hap ρ _).bind fun v => Sub.refl _
  | .bool false a b => by
    unfold Spec.tailEval
    split
    · refine (eval_sub hap ρ a).bind fun v => ?_
      split
      · exact tail_sub hap ρ p b
      · exact Sub.stop fun _ => Sub.refl _
    · exact (Sub.refl _).bind fun c => (eval_sub hap ρ _).bind fun v => Sub.refl _
  | .doe a b => by unfold Spec.tailEval; exact (eval_sub hap ρ a).bind fun _ => tail_sub hap ρ p b
  | .letx x a b => by
    unfold Spec.tailEval
    exact (eval_sub hap ρ a).bind fun v => (Sub.refl _).bind fun _ => (Sub.refl _).bind fun c => tail_sub hap _ p b

mutual
theorem exec_sub (N : Nat) (hap : ApSub ap ap') (ρ : Env) (p : Option (Spec.Val β)) :
    ∀ t : St β, Sub (Spec.exec true P N ap ρ p t) (Spec.exec false P N ap' ρ p t)
  | .ret e => by
    unfold Spec.exec
    cases p with
    | none => exact Sub.refl _
    | some q => exact (tail_sub hap ρ q _).bind fun t => Sub.refl _
  | .expr e => by unfold Spec.exec; exact (eval_sub hap ρ e).bind fun v => Sub.refl _
  | .assign x e => by unfold Spec.exec; exact (eval_sub hap ρ e).bind fun v => Sub.refl _
  | .ite c b₁ b₂ => by
    unfold Spec.exec
    refine (eval_sub hap ρ c).bind fun v => ?_
    split
    · exact execs_sub N hap ρ p b₁
    · exact execs_sub N hap ρ p b₂
  | .while c b => by
    unfold Spec.exec
    exact whileLoop_sub ((eval_sub hap ρ c).bind fun v => Sub.refl _) (execs_sub N hap ρ p b) N
  | .defn x ps b => by unfold Spec.exec; exact Sub.refl _
  | .nonlocal xs => by unfold Spec.exec; exact Sub.refl _
  | .callcc .. => by unfold Spec.exec; exact Sub.refl _

theorem execs_sub (N : Nat) (hap : ApSub ap ap') (ρ : Env) (p : Option (Spec.Val β)) :
    ∀ ts : List (St β), Sub (Spec.execs true P N ap ρ p ts) (Spec.execs false P N ap' ρ p ts)
  | [] => by unfold Spec.execs; exact Sub.refl _
  | t :: ts => by
    unfold Spec.execs
    refine (exec_sub N hap ρ p t).bind fun fl => ?_
    cases fl with
    | next => exact execs_sub N hap ρ p ts
    | ret v => exact Sub.refl _
end

theorem theCall_sub (hap : ApSub ap ap') (ρ : Env) (k : Spec.Val β) (n : Nat) (c : CallCc β) :
    Sub (Spec.theCall true P ap ρ k n c) (Spec.theCall false P ap' ρ k n c) := by
  cases c with
  | call f args =>
    unfold Spec.theCall
    exact (eval_sub hap ρ f).bind fun fv => (evals_sub hap ρ args).bind fun vs => Sub.refl _
  | skip =>
    unfold Spec.theCall
    exact (Sub.refl _).bind fun c => Sub.stop fun _ => Sub.refl _

theorem choose_sub (hap : ApSub ap ap') (ρ : Env) (k : Spec.Val β) (n : Nat) (cond : Option (Ex β)) (a b : CallCc β) :
    Sub (Spec.choose true P ap ρ k n cond a b) (Spec.choose false P ap' ρ k n cond a b) := by
  unfold Spec.choose
  cases cond with
  | none => exact theCall_sub hap ρ k n a
  | some c =>
    refine (eval_sub hap ρ c).bind fun v => ?_
    split
    · exact theCall_sub hap ρ k n a
    · exact theCall_sub hap ρ k n b

theorem body_sub (N : Nat) (hap : ApSub ap ap') (ρ : Env) (blk : Bool) (p : Spec.Val β) :
    ∀ b : List (St β), Sub (Spec.body true P N ap ρ blk p b) (Spec.body false P N ap' ρ blk p b)
  | [] => by unfold Spec.body; exact Sub.refl _
  | s :: ss => by
    cases hs : Spec.isCallcc s with
    | false =>
      rw [body_cons _ _ _ _ _ _ _ _ hs, body_cons _ _ _ _ _ _ _ _ hs]
      refine (exec_sub N hap ρ _ s).bind fun fl => ?_
      cases fl with
      | next => exact body_sub N hap ρ blk p ss
      | ret v => exact Sub.refl _
    | true =>
      cases s with
      | callcc ts star cond a b =>
        unfold Spec.body
        exact (Sub.refl _).bind fun _ => (Sub.refl _).bind fun c => Sub.stop fun _ => choose_sub hap ρ _ _ cond a b
      | _ => cases hs

theorem callEntry_sub (N : Nat) (hap : ApSub ap ap') (f : Spec.Val β) (args : List (Spec.Val β)) (k : Option (Spec.Val β)) :
    Sub (Spec.callEntry true P N ap f args k) (Spec.callEntry false P N ap' f args k) := by
  cases f with
  | clo ps b ρ =>
    simp only [Spec.callEntry]
    split
    · unfold Spec.enter; exact (Sub.refl _).bind fun a => body_sub N hap _ _ _ b
    · exact Sub.refl _
  | kont ts star b ρ blk p =>
    simp only [Spec.callEntry]
    refine Sub.stop fun _ => ?_
    split
    · unfold Spec.enter; exact (Sub.refl _).bind fun a => body_sub N hap _ _ _ b
    · exact Sub.refl _
  | ident =>
    cases k with
    | none => exact Sub.refl _
    | some c => simp only [Spec.callEntry]; exact Sub.stop fun h => nomatch h
  | comp a b =>
    cases k with
    | none => exact Sub.refl _
    | some c => simp only [Spec.callEntry]; exact Sub.stop fun h => nomatch h
  | _ => cases k <;> exact Sub.refl _

theorem loop_sub (N : Nat) (hap : ApSub ap ap') : ∀ (n : Nat) (f : Spec.Val β) (args : List (Spec.Val β)) (k : Option (Spec.Val β)),
    Sub (Spec.loop true P N ap n f args k) (Spec.loop false P N ap' n f args k)
  | 0, _, _, _ => Sub.refl _
  | n + 1, f, args, k => by
    unfold Spec.loop
    refine (callEntry_sub N hap f args k).bind fun t => ?_
    cases t with
    | val v => exact Sub.refl _
    | call g as k =>
      simp only
      split
      · exact loop_sub N hap n g as k
      · exact Sub.refl _

end

theorem apply_sub (P : World β ω ε) (N : Nat) : ∀ d, ApSub (Spec.apply true P N d) (Spec.apply false P N d)
  | 0 => fun _ _ _ => Sub.refl _
  | d + 1 => fun f args k => by
    unfold Spec.apply
    exact Sub.stop fun _ => loop_sub N (apply_sub P N d) N f args k

theorem block_sub {P : World β ω ε} {N : Nat} {ap ap' : Spec.Ap β ω ε} (hap : ApSub ap ap') (ρ : Env) :
    ∀ b : List (St β), Sub (Spec.block true P N ap ρ b) (Spec.block false P N ap' ρ b)
  | [] => Sub.refl _
  | s :: ss => by
    cases hs : Spec.isCallcc s with
    | false =>
      rw [block_cons _ _ _ _ _ _ hs, block_cons _ _ _ _ _ _ hs]
      refine (exec_sub N hap ρ _ s).bind fun fl => ?_
      cases fl with
      | next => exact block_sub hap ρ ss
      | ret v => exact Sub.refl _
    | true =>
      cases s with
      | callcc ts star cond a b =>
        unfold Spec.block
        refine (Sub.refl _).bind fun _ => (Sub.refl _).bind fun c => (choose_sub hap ρ _ _ cond a b).bind fun t => ?_
        cases t with
        | val v => exact Sub.refl _
        | call f args k => exact (hap f args k).bind fun _ => Sub.refl _
      | _ => cases hs

theorem run_sub (P : World β ω ε) (N d : Nat) (ρ : Env) (b : List (St β)) :
    Sub (Spec.run true P N d ρ b) (Spec.run false P N d ρ b) := by
  unfold Spec.run
  exact (Sub.refl _).bind fun _ => block_sub (apply_sub P N d) ρ b

/-! ## Syntax errors -/

theorem stray_prepare (owner : Bool) (n : Nat) (c : CallCc β) : strayS (prepareCall owner n c) = false := by
  cases c <;> cases owner <;> simp [prepareCall, strayS]

mutual
theorem strayS_tr : ∀ s : St β, strayS (trS s) = !Spec.legalS s
  | .ret none => by simp [trS, strayS, Spec.legalS]
  | .ret (some e) => by simp [trS, strayS, Spec.legalS]
  | .expr e => by simp [trS, strayS, Spec.legalS]
  | .assign x e => by simp [trS, strayS, Spec.legalS]
  | .ite c b₁ b₂ => by simp [trS, strayS, Spec.legalS, straySs_tr b₁, straySs_tr b₂]
  | .while c b => by simp [trS, strayS, Spec.legalS, straySs_tr b]
  | .defn x ps b => by simp [trS, strayS, Spec.legalS, stray_top b true false]
  | .nonlocal xs => by simp [trS, strayS, Spec.legalS]
  | .callcc .. => by simp [trS, strayS, Spec.legalS]

theorem straySs_tr : ∀ ss : List (St β), straySs (trSs ss) = !Spec.legalSs ss
  | [] => by simp [trSs, straySs, Spec.legalSs]
  | s :: ss => by simp [trSs, straySs, Spec.legalSs, strayS_tr s, straySs_tr ss]

theorem stray_top : ∀ (b : List (St β)) (owner last : Bool), straySs (trBody true owner last b) = !Spec.legalTop b
  | [], owner, last => by unfold trBody; cases last <;> simp [straySs, strayS, Spec.legalTop]
  | .callcc ts star cond a c :: after, owner, last => by
    rw [trBody_callcc _ _ _ _ _ _ _ _ _ rfl]
    have := stray_top after true false
    cases cond <;> simp [straySs, strayS, Spec.legalTop, stray_prepare, this]
  | .ret e :: ss, owner, last => by
    rw [trBody_cons _ _ _ _ rfl]; simp [straySs, Spec.legalTop, strayS_tr (.ret e), stray_top ss]
  | .expr e :: ss, owner, last => by
    rw [trBody_cons _ _ _ _ rfl]; simp [straySs, Spec.legalTop, strayS_tr (.expr e), stray_top ss]
  | .assign x e :: ss, owner, last => by
    rw [trBody_cons _ _ _ _ rfl]; simp [straySs, Spec.legalTop, strayS_tr (.assign x e), stray_top ss]
  | .ite c b₁ b₂ :: ss, owner, last => by
    rw [trBody_cons _ _ _ _ rfl]; simp [straySs, Spec.legalTop, strayS_tr (.ite c b₁ b₂), stray_top ss]
  | .while c b :: ss, owner, last => by
    rw [trBody_cons _ _ _ _ rfl]; simp [straySs, Spec.legalTop, strayS_tr (.while c b), stray_top ss]
  | .defn x ps b :: ss, owner, last => by
    rw [trBody_cons _ _ _ _ rfl]; simp [straySs, Spec.legalTop, strayS_tr (.defn x ps b), stray_top ss]
  | .nonlocal xs :: ss, owner, last => by
    rw [trBody_cons _ _ _ _ rfl]; simp [straySs, Spec.legalTop, strayS_tr (.nonlocal xs), stray_top ss]
end

theorem legalTop_cons (s : St β) (hs : Spec.isCallcc s = false) (ss : List (St β)) :
    Spec.legalTop (s :: ss) = (Spec.legalS s && Spec.legalTop ss) := by
  cases s with
  | callcc => cases hs
  | _ => rw [Spec.legalTop]; intros; simp_all

theorem stray_block : ∀ (b : List (St β)) (owner last : Bool),
    straySs (trBody false owner last b) = !(Spec.legalTop b && !(b.getLast?.any Spec.isCallcc))
  | [], owner, last => by unfold trBody; simp [straySs, Spec.legalTop]
  | s :: ss, owner, last => by
    cases hs : Spec.isCallcc s with
    | false =>
      rw [trBody_cons _ _ _ _ hs, legalTop_cons _ hs]
      have ih := stray_block ss owner (isRet s)
      have hl : (s :: ss).getLast?.any Spec.isCallcc = ss.getLast?.any Spec.isCallcc := by
        cases ss with
        | nil => simp [hs]
        | cons t ts => rw [List.getLast?_cons_cons]
      rw [hl]
      simp only [straySs, strayS_tr, ih]
      cases Spec.legalS s <;> simp
    | true =>
      cases s with
      | callcc ts star cond a c =>
        cases ss with
        | nil => rw [trBody]; simp [straySs, strayS, Spec.isCallcc]
        | cons t rest =>
          rw [trBody_callcc _ _ _ _ _ _ _ _ _ rfl]
          have ih := stray_block (t :: rest) true false
          rw [List.getLast?_cons_cons]
          cases cond <;> simp only [straySs, strayS, stray_prepare, ih, Spec.legalTop] <;> simp
      | _ => cases hs

theorem expand_legal (b : List (St β)) : (expand b).isSome = Spec.legal b := by
  have hr : b.any isRet = !b.all (fun s => !Spec.isReturn s) := by
    rw [Bool.eq_iff_iff]
    simp only [List.any_eq_true, Bool.not_eq_true', Bool.eq_false_iff, ne_eq, List.all_eq_true]
    constructor
    · rintro ⟨s, hs, hr⟩ h
      have := h s hs
      cases s <;> simp_all [isRet, Spec.isReturn]
    · intro h
      simp only [Classical.not_forall] at h
      obtain ⟨s, hs, hr⟩ := h
      refine ⟨s, hs, ?_⟩
      cases s <;> simp_all [isRet, Spec.isReturn]
  unfold expand Spec.legal
  simp only
  rw [stray_block, hr]
  cases Spec.legalTop b <;> cases b.all (fun s => !Spec.isReturn s) <;> cases b.getLast?.any Spec.isCallcc <;> simp

end Unpy.Conts.Sim
