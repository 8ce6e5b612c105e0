import Verif.Spec.Lazify
/-!
# Proof: the expansion by `with lazify` against the reference interpreter
-/
namespace Unpy.Lazify.Sim
open Unpy.Lazify
open Unpy.PyExpr (M ret raise bind Err)
open Unpy.Conts (Env State Flow load store alloc frame whileLoop)
variable {β ω ε : Type}

/-! ## The translation of values -/

mutual
def τ : Spec.Val β → Val β
  | .base b => .base b
  | .non => .non
  | .tup vs => .tup (τs vs)
  | .ext n => .ext n
  | .clo ps va ds b ρ => .clo true ps va (τs ds) (trSs b) ρ
  | .prom a => .prom a

def τs : List (Spec.Val β) → List (Val β)
  | [] => []
  | v :: vs => τ v :: τs vs
end

@[simp] theorem τs_eq (vs : List (Spec.Val β)) : τs vs = vs.map τ := by
  induction vs <;> simp_all [τs]

def τp : Prom (Ex β) (Spec.Val β) ε → Prom (Out.Ex β) (Val β) ε
  | .susp e ρ => .susp (tr .full e) ρ
  | .done v => .done (τ v)
  | .failed x => .failed x

def τst (s : Spec.Sta β ω ε) : Sta β ω ε := ⟨s.heap.map (Option.map τ), ⟨s.world.proms.map τp, s.world.ext⟩⟩

def τf : Flow (Spec.Val β) → Flow (Val β)
  | .next => .next
  | .ret v => .ret (τ v)

/-! ## Simulation -/

def Flagged {σ α : Type} (r : Option (Except (Err ε) α × σ)) : Prop := ∃ s', r = some (.error .unmodelled, s')

def Sim {α α' : Type} (h : α → α') (m : Spec.Mo β ω ε α) (m' : Mo β ω ε α') : Prop :=
  ∀ s, Flagged (m s) ∨ m' (τst s) = (m s).map (fun r => (r.1.map h, τst r.2))

theorem Sim.ret {α α' : Type} {h : α → α'} {a : α} {a' : α'} (e : a' = h a) :
    Sim (β := β) (ω := ω) (ε := ε) h (ret a) (PyExpr.ret a') := fun _ => .inr (by subst e; rfl)

theorem Sim.raise {α α' : Type} {h : α → α'} (e : Err ε) : Sim (β := β) (ω := ω) h (raise e) (PyExpr.raise e) :=
  fun _ => .inr rfl

theorem Sim.flag {α α' : Type} {h : α → α'} {m' : Mo β ω ε α'} :
    Sim h (PyExpr.raise .unmodelled) m' := fun s => .inl ⟨s, rfl⟩

theorem Sim.bind {α α' γ γ' : Type} {h : α → α'} {g : γ → γ'} {m : Spec.Mo β ω ε α} {m'} {k : α → M _ ε γ}
    {k' : α' → M _ ε γ'} (hm : Sim h m m') (hk : ∀ a, Sim g (k a) (k' (h a))) :
    Sim g (PyExpr.bind m k) (PyExpr.bind m' k') := by
  intro s
  unfold PyExpr.bind
  rcases hm s with ⟨s', hf⟩ | he
  · left; rw [hf]; exact ⟨s', rfl⟩
  · rw [he]
    match hms : m s with
    | none => right; rfl
    | some (.error e, s') => right; rfl
    | some (.ok a, s') => exact hk a s'

theorem Sim.stop {α α' : Type} {h : α → α'} {b : Bool} {k : Unit → Spec.Mo β ω ε α} {m' : Mo β ω ε α'}
    (hk : b = false → Sim h (k ()) m') : Sim h (PyExpr.bind (Spec.stopIf b) k) m' := by
  cases b
  · exact hk rfl
  · exact fun s => .inl ⟨s, rfl⟩

theorem bind_assoc {σ α γ δ : Type} (m : M σ ε α) (f : α → M σ ε γ) (g : γ → M σ ε δ) :
    PyExpr.bind (PyExpr.bind m f) g = PyExpr.bind m (fun a => PyExpr.bind (f a) g) := by
  funext s
  unfold PyExpr.bind
  match m s with
  | none => rfl
  | some (.error e, s') => rfl
  | some (.ok a, s') => rfl

theorem ret_bind {σ α γ : Type} (a : α) (f : α → M σ ε γ) : PyExpr.bind (PyExpr.ret a) f = f a := rfl

theorem bind_ret {σ α : Type} (m : M σ ε α) : bind m ret = m := by
  funext s
  unfold PyExpr.bind
  match m s with
  | none => rfl
  | some (.error e, s') => rfl
  | some (.ok v, s') => rfl

theorem Sim.post {α α' γ : Type} {h : α → α'} {g : γ → α'} {m : Spec.Mo β ω ε α} {m'} {k : α → Spec.Mo β ω ε γ}
    (hm : Sim h m m') (hk : ∀ a, Sim g (k a) (PyExpr.ret (h a))) : Sim g (PyExpr.bind m k) m' := by
  have := hm.bind (k' := PyExpr.ret) hk
  rwa [bind_ret] at this

theorem load_sim (ρ : Env) (x : String) : Sim (β := β) (ω := ω) (ε := ε) τ (load ρ x) (load ρ x) := by
  intro s
  right
  unfold load
  cases ρ x with
  | none => rfl
  | some a =>
    simp only [τst, List.getElem?_map]
    cases s.heap[a]? with
    | none => rfl
    | some c => cases c <;> rfl

theorem store_sim (ρ : Env) (x : String) (v : Spec.Val β) :
    Sim (ω := ω) (ε := ε) id (store ρ x v) (store ρ x (τ v)) := by
  intro s
  right
  unfold store
  cases ρ x with
  | none => rfl
  | some a => simp [τst, List.map_set, Except.map]

theorem alloc_sim (vs : List (Option (Spec.Val β))) :
    Sim (ω := ω) (ε := ε) id (alloc vs) (alloc (vs.map (Option.map τ))) := by
  intro s
  right
  simp [alloc, τst, Except.map]

theorem truthy_τ (P : World β ω ε) (v : Spec.Val β) : truthy P (τ v) = Spec.truthy P v := by
  cases v <;> simp [truthy, Spec.truthy, τ]

theorem bases_τ (vs : List (Spec.Val β)) : bases (vs.map τ) = Spec.bases vs := by
  induction vs with
  | nil => rfl
  | cons v vs ih => cases v <;> simp [bases, Spec.bases, τ, ih]

theorem operands_τ (vs : List (Spec.Val β)) : operands (ε := ε) (vs.map τ) = Spec.operands vs := by
  induction vs with
  | nil => rfl
  | cons v vs ih =>
    cases v with
    | base b => simp only [List.map, τ, operands, Spec.operands, ih]; rfl
    | _ => rfl

mutual
theorem pyEq_τ (P : World β ω ε) : ∀ v w : Spec.Val β, pyEq P (τ v) (τ w) = Spec.same P v w
  | .tup vs, .tup ws => by
    rw [τ, τ, pyEq, Spec.same]; exact pyEqs_τ P vs ws
  | .base _, w => by cases w <;> simp [pyEq, Spec.same, τ]
  | .non, w => by cases w <;> simp [pyEq, Spec.same, τ]
  | .ext _, w => by cases w <;> simp [pyEq, Spec.same, τ]
  | .clo .., w => by cases w <;> simp [pyEq, Spec.same, τ]
  | .prom _, w => by cases w <;> simp [pyEq, Spec.same, τ]
  | .tup _, .base _ => by simp [pyEq, Spec.same, τ]
  | .tup _, .non => by simp [pyEq, Spec.same, τ]
  | .tup _, .ext _ => by simp [pyEq, Spec.same, τ]
  | .tup _, .clo .. => by simp [pyEq, Spec.same, τ]
  | .tup _, .prom _ => by simp [pyEq, Spec.same, τ]

theorem pyEqs_τ (P : World β ω ε) : ∀ vs ws : List (Spec.Val β), pyEqs P (τs vs) (τs ws) = Spec.sames P vs ws
  | [], [] => by simp [pyEqs, Spec.sames, τs]
  | [], _ :: _ => by simp [pyEqs, Spec.sames, τs]
  | _ :: _, [] => by simp [pyEqs, Spec.sames, τs]
  | v :: vs, w :: ws => by
    rw [τs, τs, pyEqs, Spec.sames, pyEq_τ P v w, pyEqs_τ P vs ws]
    rfl
end

theorem binop_sim (P : World β ω ε) (n : Nat) (vs : List (Spec.Val β)) :
    Sim τ (Spec.binop P n vs) (binop P n (vs.map τ)) := by
  unfold Spec.binop binop
  rw [operands_τ]
  cases Spec.operands (ε := ε) vs with
  | error e => exact Sim.raise e
  | ok bs =>
    simp only [ofExcept, ret_bind]
    cases P.op n bs with
    | error e => exact Sim.raise e
    | ok b => exact Sim.ret rfl

theorem pick_sim (P : World β ω ε) (v w : Spec.Val β) : Sim τ (Spec.pick P v w) (pick P (τ v) (τ w)) := by
  cases v with
  | tup vs =>
    cases w with
    | base b =>
      simp only [Spec.pick, τ, pick, τs_eq, List.getElem?_map]
      cases P.index b with
      | none => exact Sim.raise _
      | some k =>
        simp only
        cases vs[k]? with
        | none => exact Sim.raise _
        | some v => exact Sim.ret rfl
    | _ => exact Sim.raise _
  | _ => exact Sim.raise _

theorem callExt_sim (P : World β ω ε) (n : Nat) (args : List (Spec.Val β)) :
    Sim τ (Spec.callExt P n args) (callExt P n (args.map τ)) := by
  intro s
  right
  unfold callExt Spec.callExt
  rw [bases_τ]
  cases Spec.bases args with
  | none => rfl
  | some bs =>
    simp only [τst]
    match P.call n bs s.world.ext with
    | (.ok b, w) => rfl
    | (.error e, w) => rfl

theorem later_sim (e : Ex β) (ρ : Env) : Sim (ω := ω) (ε := ε) τ (Spec.later e ρ) (newProm (tr .full e) ρ) := by
  intro s
  right
  simp [Spec.later, newProm, τst, Except.map, τ, τp]

theorem unpack_sim (v : Spec.Val β) : Sim (ω := ω) (ε := ε) (List.map τ) (Spec.unpack v) (unpack (τ v)) := by
  cases v with
  | tup vs => simp only [Spec.unpack, τ, unpack]; exact Sim.ret (by simp)
  | _ => exact Sim.raise _

theorem whileLoop_sim {test : Spec.Mo β ω ε Bool} {test'} {b : Spec.Mo β ω ε (Flow (Spec.Val β))} {b'}
    (ht : Sim id test test') (hb : Sim τf b b') : ∀ n, Sim τf (whileLoop test b n) (whileLoop test' b' n)
  | 0 => fun _ => .inr rfl
  | n + 1 => by
    unfold whileLoop
    refine ht.bind fun t => ?_
    cases t with
    | false => exact Sim.ret rfl
    | true =>
      refine hb.bind fun f => ?_
      cases f with
      | next => exact whileLoop_sim ht hb n
      | ret v => exact Sim.ret rfl

/-! ## Promises -/

structure CallsSim (C : Spec.Calls β ω ε) (C' : Calls β ω ε) : Prop where
  ap : ∀ f args, Sim τ (C.ap f args) (C'.ap (τ f) (args.map τ))
  eval : ∀ e ρ, Sim τ (C.eval e ρ) (C'.thunk (tr .full e) ρ)

section
variable {P : World β ω ε} {C : Spec.Calls β ω ε} {C' : Calls β ω ε}

theorem set_sim (a : Nat) (p : Prom (Ex β) (Spec.Val β) ε) (s : Spec.Sta β ω ε) :
    setProm a (τp p) (τst s) = τst (Spec.record a p s) := by
  simp [setProm, Spec.record, τst, List.map_set]

theorem value_sim (hC : CallsSim C C') (a : Nat) : Sim τ (Spec.valueOf C a) (forceProm C' a) := by
  intro s
  unfold Spec.valueOf forceProm
  have e : (τst s).world.proms[a]? = (s.world.proms[a]?).map τp := by simp [τst]
  rw [e]
  match s.world.proms[a]? with
  | none => exact .inl ⟨s, rfl⟩
  | some (.done v) => exact .inr rfl
  | some (.failed x) => exact .inr rfl
  | some (.susp e ρ) =>
    simp only [Option.map, τp]
    rcases hC.eval e ρ s with ⟨s', hf⟩ | he
    · left; rw [hf]; exact ⟨s', rfl⟩
    · rw [he]
      match C.eval e ρ s with
      | none => exact .inr rfl
      | some (.ok v, s') =>
        right
        have := set_sim (ω := ω) a (.done v) s'
        simp only [τp] at this
        simp [Except.map, this]
      | some (.error .unmodelled, s') => exact .inl ⟨s', rfl⟩
      | some (.error (.py x), s') =>
        right
        have := set_sim (ω := ω) (β := β) a (.failed (.py x)) s'
        simp only [τp] at this
        simp [Except.map, this]
      | some (.error .nameError, s') =>
        right
        have := set_sim (ω := ω) (β := β) a (.failed .nameError) s'
        simp only [τp] at this
        simp [Except.map, this]
      | some (.error (.user x), s') =>
        right
        have := set_sim (ω := ω) (β := β) a (.failed (.user x)) s'
        simp only [τp] at this
        simp [Except.map, this]

theorem prom_sim (hC : CallsSim C C') (d : Spec.Depth) (a : Nat) :
    Sim τ (Spec.need true C d (.prom a)) (forceProm C' a) := by
  unfold Spec.need
  refine (value_sim hC a).post fun v => ?_
  split
  · exact Sim.flag
  · exact Sim.ret rfl

mutual
theorem force_sim (hC : CallsSim C C') : ∀ v, Sim τ (Spec.need true C .deep v) (force C' (τ v))
  | .prom a => by rw [τ, force]; exact prom_sim hC .deep a
  | .tup vs => by
    rw [τ, force]; unfold Spec.need
    exact (forces_sim hC vs).bind fun ws => Sim.ret (by simp [τ])
  | .base b => by rw [τ, force]; unfold Spec.need; exact Sim.ret rfl
  | .non => by rw [τ, force]; unfold Spec.need; exact Sim.ret rfl
  | .ext n => by rw [τ, force]; unfold Spec.need; exact Sim.ret rfl
  | .clo .. => by rw [τ, force]; unfold Spec.need; exact Sim.ret (by simp [τ])

theorem forces_sim (hC : CallsSim C C') : ∀ vs, Sim (List.map τ) (Spec.needs true C vs) (forces C' (τs vs))
  | [] => by rw [τs, forces]; unfold Spec.needs; exact Sim.ret rfl
  | v :: vs => by
    rw [τs, forces]; unfold Spec.needs
    exact (force_sim hC v).bind fun w => (forces_sim hC vs).bind fun ws => Sim.ret rfl
end

theorem force1_sim (hC : CallsSim C C') (v : Spec.Val β) : Sim τ (Spec.need true C .shallow v) (force1 C' (τ v)) := by
  cases v with
  | prom a => rw [τ, force1]; exact prom_sim hC .shallow a
  | tup vs => rw [τ, force1] <;> first | (unfold Spec.need; exact Sim.ret (by simp [τ])) | simp
  | _ => unfold Spec.need; exact Sim.ret (by simp [τ])

theorem call_sim (hC : CallsSim C C') (f : Spec.Val β) (vs : List (Spec.Val β)) :
    Sim τ (Spec.call true C f vs) (maybeForce C' (τ f) (vs.map τ)) := by
  unfold maybeForce
  cases f with
  | clo ps va ds b ρ => exact hC.ap (.clo ps va ds b ρ) vs
  | _ =>
    simp only [Spec.call, τ, islazy, Bool.false_eq_true, if_false]
    refine Sim.bind (h := List.map τ) (by simpa using forces_sim hC vs) fun ws => ?_
    first | exact hC.ap _ ws | (simpa [τ] using hC.ap (.tup _) ws)

/-! ## Expressions -/

theorem reserved_eq (f : Ex β) : isNamed strictNames f = Spec.reserved f := by
  cases f <;> rfl

def md : Spec.Depth → Mode
  | .deep => .full
  | .shallow => .flat

theorem tr_call {m : Mode} {f : Ex β} {args : List (Ex β)} (h : Spec.reserved f = false) :
    tr m (.call f args) = .mfa (tr m f) (trArgs args) := by
  rw [tr, reserved_eq, h]; simp

theorem tr_callS {m : Mode} {f : Ex β} {args : List (Ex β)} {e : Ex β} (h : Spec.reserved f = false) :
    tr m (.callS f args e) = .mfaS (tr m f) (trArgs args)
      (let e' := tr (if isRef e then .off else .full) e
       if isLit e' then lazyrec e' else e') := by
  rw [tr, reserved_eq, h]; simp

theorem eval_lazy (ρ : Env) (e : Out.Ex β) : eval P C' ρ (.lazy e) = newProm e ρ := by rw [eval]

mutual
theorem delay_sim (ρ : Env) : ∀ e : Ex β, Sim τ (Spec.delay true ρ e) (eval P C' ρ (lazyrec (tr .full e)))
  | .tup es => by
    rw [tr, lazyrec, eval]; unfold Spec.delay
    exact (delays_sim ρ es).bind fun vs => Sim.ret (by simp [τ])
  | .lazy e => by rw [tr, lazyrec, eval_lazy]; unfold Spec.delay; exact later_sim e ρ
  | .call f args => by
    unfold Spec.delay
    refine Sim.stop fun h => ?_
    have := later_sim (ω := ω) (ε := ε) (.call f args) ρ
    rw [tr_call (by simpa using h)] at this ⊢
    rw [lazyrec, eval_lazy] <;> first | exact this | simp
  | .callS f args e => by
    unfold Spec.delay
    refine Sim.stop fun h => ?_
    have := later_sim (ω := ω) (ε := ε) (.callS f args e) ρ
    rw [tr_callS (by simpa using h)] at this ⊢
    rw [lazyrec, eval_lazy] <;> first | exact this | simp
  | .cst c => by
    have := later_sim (ω := ω) (ε := ε) (.cst c) ρ
    rw [tr] at this ⊢
    rw [lazyrec, eval_lazy] <;> first | (unfold Spec.delay; exact this) | simp
  | .non => by
    have := later_sim (ω := ω) (ε := ε) (.non : Ex β) ρ
    rw [tr] at this ⊢
    rw [lazyrec, eval_lazy] <;> first | (unfold Spec.delay; exact this) | simp
  | .name x => by
    have := later_sim (ω := ω) (ε := ε) (.name x : Ex β) ρ
    rw [tr, fin] at this ⊢
    rw [lazyrec, eval_lazy] <;> first | (unfold Spec.delay; exact this) | simp
  | .op n es => by
    have := later_sim (ω := ω) (ε := ε) (.op n es) ρ
    rw [tr] at this ⊢
    rw [lazyrec, eval_lazy] <;> first | (unfold Spec.delay; exact this) | simp
  | .eq a b => by
    have := later_sim (ω := ω) (ε := ε) (.eq a b) ρ
    rw [tr] at this ⊢
    rw [lazyrec, eval_lazy] <;> first | (unfold Spec.delay; exact this) | simp
  | .ife a b c => by
    have := later_sim (ω := ω) (ε := ε) (.ife a b c) ρ
    rw [tr] at this ⊢
    rw [lazyrec, eval_lazy] <;> first | (unfold Spec.delay; exact this) | simp
  | .sub e i => by
    have := later_sim (ω := ω) (ε := ε) (.sub e i) ρ
    rw [tr, fin] at this ⊢
    rw [lazyrec, eval_lazy] <;> first | (unfold Spec.delay; exact this) | simp
  | .lam ps va ds b => by
    have := later_sim (ω := ω) (ε := ε) (.lam ps va ds b) ρ
    rw [tr] at this ⊢
    rw [lazyrec, eval_lazy] <;> first | (unfold Spec.delay; exact this) | simp

theorem delays_sim (ρ : Env) : ∀ es : List (Ex β),
    Sim (List.map τ) (Spec.delays true ρ es) (evals P C' ρ (lazyrecs (trs .full es)))
  | [] => by rw [trs, lazyrecs, evals]; unfold Spec.delays; exact Sim.ret rfl
  | e :: es => by
    rw [trs, lazyrecs, evals]; unfold Spec.delays
    exact (delay_sim ρ e).bind fun v => (delays_sim ρ es).bind fun vs => Sim.ret rfl
end

theorem consts_sim (hC : CallsSim C C') (ρ : Env) : ∀ ds : List (Ex β), ds.all Spec.isConst = true →
    Sim (List.map τ) (Spec.evals true P C ρ ds) (evals P C' ρ (embs ds))
  | [], _ => by rw [embs, evals]; unfold Spec.evals; exact Sim.ret rfl
  | d :: ds, h => by
    simp only [List.all_cons, Bool.and_eq_true] at h
    rw [embs, evals]; unfold Spec.evals
    refine Sim.bind (h := τ) ?_ fun v => (consts_sim hC ρ ds h.2).bind fun vs => Sim.ret rfl
    cases d with
    | cst c => rw [emb, eval]; unfold Spec.eval; exact Sim.ret rfl
    | non => rw [emb, eval]; unfold Spec.eval; exact Sim.ret rfl
    | _ => simp [Spec.isConst] at h

theorem fin_sim (hC : CallsSim C C') (ρ : Env) (d : Spec.Depth) {m : Spec.Mo β ω ε (Spec.Val β)} {e : Out.Ex β}
    (h : Sim τ m (eval P C' ρ e)) : Sim τ (bind m fun v => Spec.need true C d v) (eval P C' ρ (fin (md d) e)) := by
  cases d with
  | deep => simp only [md, fin]; rw [eval]; exact h.bind fun v => force_sim hC v
  | shallow => simp only [md, fin]; rw [eval]; exact h.bind fun v => force1_sim hC v

theorem deep_of {d : Spec.Depth} (h : (true && Spec.isShallow d) = false) : d = .deep := by
  cases d <;> simp_all [Spec.isShallow]

/-- `*e` -/
def starred (careful : Bool) (P : World β ω ε) (C : Spec.Calls β ω ε) (ρ : Env) (e : Ex β) : Spec.Mo β ω ε (Spec.Val β) :=
  match e with
  | .name x => bind (load ρ x) fun v => bind (Spec.stopIf (careful && Spec.isProm v)) fun _ => Spec.need careful C .shallow v
  | .sub e i => bind (bind (Spec.eval careful P C ρ .shallow e) fun v => bind (Spec.eval careful P C ρ .deep i) fun w =>
      Spec.pick P v w) fun v => bind (Spec.stopIf (careful && Spec.isProm v)) fun _ => Spec.need careful C .shallow v
  | .tup es => Spec.delay careful ρ (.tup es)
  | e => Spec.eval careful P C ρ .deep e

theorem eval_callS (careful : Bool) (P : World β ω ε) (C : Spec.Calls β ω ε) (ρ : Env) (d : Spec.Depth) (f : Ex β)
    (args : List (Ex β)) (e : Ex β) : Spec.eval careful P C ρ d (.callS f args e) =
      bind (Spec.stopIf (careful && Spec.reserved f)) fun _ => bind (Spec.eval careful P C ρ d f) fun fv =>
      bind (Spec.bound careful P C ρ args) fun vs => bind (starred careful P C ρ e) fun v =>
      bind (Spec.unpack v) fun ws => Spec.call careful C fv (vs ++ ws) := by
  conv => lhs; unfold Spec.eval
  cases e <;> rfl

/-- What is shown of an expression. -/
structure Both (P : World β ω ε) (C : Spec.Calls β ω ε) (C' : Calls β ω ε) (ρ : Env) (e : Ex β) : Prop where
  val : ∀ d, Sim τ (Spec.eval true P C ρ d e) (eval P C' ρ (tr (md d) e))
  ref : ∀ b i, e = .sub b i →
    Sim τ (bind (Spec.eval true P C ρ .shallow b) fun v => bind (Spec.eval true P C ρ .deep i) fun w => Spec.pick P v w)
      (eval P C' ρ (.sub (tr .flat b) (tr .full i)))

theorem bound_step {ρ : Env} {e : Ex β} {es : List (Ex β)} (he : Both P C C' ρ e)
    (hs : Sim (List.map τ) (Spec.bound true P C ρ es) (evals P C' ρ (trArgs es))) :
    Sim (List.map τ) (Spec.bound true P C ρ (e :: es)) (evals P C' ρ (trArgs (e :: es))) := by
  rw [trArgs, evals]
  have hd := delay_sim (P := P) (C' := C') (ω := ω) (ε := ε) ρ e
  cases e with
  | name x =>
    unfold Spec.bound
    simp only [isRef, if_true]
    rw [tr, fin, eval]
    exact (load_sim ρ x).bind fun v => hs.bind fun vs => Sim.ret rfl
  | sub e i =>
    unfold Spec.bound
    simp only [isRef, if_true]
    rw [tr, fin]
    exact (he.ref e i rfl).bind fun v => hs.bind fun vs => Sim.ret rfl
  | _ =>
    simp only [isRef, Bool.false_eq_true, if_false]
    unfold Spec.bound
    exact hd.bind fun v => hs.bind fun vs => Sim.ret rfl

theorem need_shallow {v : Spec.Val β} (h : (true && Spec.isProm v) = false) : Spec.need true C .shallow v = ret v := by
  cases v with
  | prom => simp [Spec.isProm] at h
  | _ => unfold Spec.need; rfl

theorem starred_sim {ρ : Env} {e : Ex β} (he : Both P C C' ρ e) : Sim τ (starred true P C ρ e)
      (eval P C' ρ (let e' := tr (if isRef e then .off else .full) e
       if isLit e' then lazyrec e' else e')) := by
  have hd := delay_sim (P := P) (C' := C') (ω := ω) (ε := ε) ρ e
  have hv := he.val .deep
  simp only [md] at hv
  cases e with
  | name x =>
    unfold starred
    simp only [isRef, if_true, tr, fin, isLit, Bool.false_eq_true, if_false, eval]
    refine (load_sim ρ x).post fun v => Sim.stop fun h => ?_
    rw [need_shallow h]
    exact Sim.ret rfl
  | sub e i =>
    unfold starred
    simp only [isRef, if_true, tr, fin, isLit, Bool.false_eq_true, if_false]
    refine (he.ref e i rfl).post fun v => Sim.stop fun h => ?_
    rw [need_shallow h]
    exact Sim.ret rfl
  | tup es =>
    unfold starred
    simp only [isRef, Bool.false_eq_true, if_false]
    have : isLit (tr .full (.tup es)) = true := by rw [tr]; rfl
    simp only [this, if_true]
    exact hd
  | call f args =>
    unfold starred Spec.eval
    refine Sim.stop fun h => ?_
    unfold Spec.eval at hv
    rw [h] at hv
    have hr : Spec.reserved f = false := by simpa using h
    simp only [isRef, Bool.false_eq_true, if_false]
    have : isLit (tr .full (.call f args)) = false := by rw [tr_call hr]; rfl
    simp only [this, Bool.false_eq_true, if_false]
    exact hv
  | callS f args e =>
    unfold starred Spec.eval
    refine Sim.stop fun h => ?_
    unfold Spec.eval at hv
    rw [h] at hv
    have hr : Spec.reserved f = false := by simpa using h
    simp only [isRef, Bool.false_eq_true, if_false]
    have : isLit (tr .full (.callS f args e)) = false := by rw [tr_callS hr]; rfl
    simp only [this, Bool.false_eq_true, if_false]
    exact hv
  | _ =>
    unfold starred
    simp only [isRef, Bool.false_eq_true, if_false]
    rw [tr] at hv ⊢
    exact hv

mutual
theorem eval_sim (hC : CallsSim C C') (ρ : Env) : ∀ e : Ex β, Both P C C' ρ e
  | .name x => by
    refine ⟨fun d => ?_, nofun⟩
    unfold Spec.eval; rw [tr]
    exact fin_sim hC ρ d (by rw [eval]; exact load_sim ρ x)
  | .sub e i => by
    have he := (eval_sim hC ρ e).val
    have hi := (eval_sim hC ρ i).val
    have hr : Sim τ (bind (Spec.eval true P C ρ .shallow e) fun v => bind (Spec.eval true P C ρ .deep i) fun w =>
        Spec.pick P v w) (eval P C' ρ (.sub (tr .flat e) (tr .full i))) := by
      rw [eval]
      exact (he .shallow).bind fun v => (hi .deep).bind fun w => pick_sim P v w
    refine ⟨fun d => ?_, fun b j h => ?_⟩
    · unfold Spec.eval; rw [tr]
      have := fin_sim hC ρ d hr
      simpa only [bind_assoc] using this
    · cases h; exact hr
  | .call f args => by
    have hf := (eval_sim hC ρ f).val
    have ha := bound_sim hC ρ args
    refine ⟨fun d => ?_, nofun⟩
    unfold Spec.eval
    refine Sim.stop fun h => ?_
    rw [tr_call (by simpa using h), eval]
    exact (hf d).bind fun fv => ha.bind fun vs => call_sim hC fv vs
  | .callS f args e => by
    have hf := (eval_sim hC ρ f).val
    have ha := bound_sim hC ρ args
    have he := starred_sim (eval_sim hC ρ e)
    refine ⟨fun d => ?_, nofun⟩
    rw [eval_callS]
    refine Sim.stop fun h => ?_
    rw [tr_callS (by simpa using h), eval]
    refine (hf d).bind fun fv => ha.bind fun vs => he.bind fun v => (unpack_sim v).bind fun ws => ?_
    rw [← List.map_append]
    exact call_sim hC fv _
  | .cst c => by
    refine ⟨fun d => ?_, nofun⟩
    unfold Spec.eval
    refine Sim.stop fun h => ?_
    rw [tr, eval]; exact Sim.ret rfl
  | .non => by
    refine ⟨fun d => ?_, nofun⟩
    unfold Spec.eval
    refine Sim.stop fun h => ?_
    rw [tr, eval]; exact Sim.ret rfl
  | .op n es => by
    have h₁ := evals_sim hC ρ es
    refine ⟨fun d => ?_, nofun⟩
    unfold Spec.eval
    refine Sim.stop fun h => ?_
    cases deep_of h
    rw [tr, eval]
    exact h₁.bind fun vs => binop_sim P n vs
  | .eq a b => by
    have h₁ := (eval_sim hC ρ a).val
    have h₂ := (eval_sim hC ρ b).val
    refine ⟨fun d => ?_, nofun⟩
    unfold Spec.eval
    refine Sim.stop fun h => ?_
    cases deep_of h
    rw [tr, eval]
    refine (h₁ .deep).bind fun v => (h₂ .deep).bind fun w => ?_
    rw [pyEq_τ]
    cases Spec.same P v w with
    | none => exact Sim.flag
    | some r => exact Sim.ret rfl
  | .ife c t e => by
    have h₁ := (eval_sim hC ρ c).val
    have h₂ := (eval_sim hC ρ t).val
    have h₃ := (eval_sim hC ρ e).val
    refine ⟨fun d => ?_, nofun⟩
    unfold Spec.eval
    refine Sim.stop fun h => ?_
    cases deep_of h
    rw [tr, eval]
    refine (h₁ .deep).bind fun v => ?_
    rw [truthy_τ]
    split
    · exact h₂ .deep
    · exact h₃ .deep
  | .tup es => by
    have h₁ := evals_sim hC ρ es
    refine ⟨fun d => ?_, nofun⟩
    unfold Spec.eval
    refine Sim.stop fun h => ?_
    cases deep_of h
    rw [tr, eval]
    exact h₁.bind fun vs => Sim.ret (by simp [τ])
  | .lam ps va ds b => by
    refine ⟨fun d => ?_, nofun⟩
    unfold Spec.eval
    refine Sim.stop fun h => ?_
    simp only [Bool.true_and, Bool.or_eq_false_iff, Bool.not_eq_false'] at h
    cases deep_of (by simpa using h.1)
    rw [tr, eval]
    exact (consts_sim hC ρ ds h.2).bind fun vs => Sim.ret (by simp [τ, trSs, trS, md])
  | .lazy e => by
    refine ⟨fun d => ?_, nofun⟩
    unfold Spec.eval
    refine Sim.stop fun h => ?_
    cases deep_of h
    rw [tr, eval_lazy]
    exact later_sim e ρ

theorem evals_sim (hC : CallsSim C C') (ρ : Env) :
    ∀ es : List (Ex β), Sim (List.map τ) (Spec.evals true P C ρ es) (evals P C' ρ (trs .full es))
  | [] => by rw [trs, evals]; unfold Spec.evals; exact Sim.ret rfl
  | e :: es => by
    rw [trs, evals]; unfold Spec.evals
    exact ((eval_sim hC ρ e).val .deep).bind fun v => (evals_sim hC ρ es).bind fun vs => Sim.ret rfl

theorem bound_sim (hC : CallsSim C C') (ρ : Env) :
    ∀ es : List (Ex β), Sim (List.map τ) (Spec.bound true P C ρ es) (evals P C' ρ (trArgs es))
  | [] => by rw [trArgs, evals]; unfold Spec.bound; exact Sim.ret rfl
  | e :: es => bound_step (eval_sim hC ρ e) (bound_sim hC ρ es)
end

/-! ## Statements -/

theorem need_done : ∀ v : Spec.Val β, Spec.hasProm v = false → Spec.need true C .deep v = ret v := by
  intro v
  have key : (Spec.hasProm v = false → Spec.need true C .deep v = ret v) := by
    refine Spec.Val.rec (motive_1 := fun v => Spec.hasProm v = false → Spec.need true C .deep v = ret v)
      (motive_2 := fun vs => Spec.hasProms vs = false → Spec.needs true C vs = ret vs) ?_ ?_ ?_ ?_ ?_ ?_ ?_ ?_ v
    · intro b _; unfold Spec.need; rfl
    · intro _; unfold Spec.need; rfl
    · intro vs ih h
      unfold Spec.hasProm at h
      unfold Spec.need
      simp only [ih h, ret_bind]
    · intro n _; unfold Spec.need; rfl
    · intro ps va ds b ρ _ _; unfold Spec.need; rfl
    · intro a h; simp [Spec.hasProm] at h
    · intro _; unfold Spec.needs; rfl
    · intro v vs ih₁ ih₂ h
      unfold Spec.hasProms at h
      simp only [Bool.or_eq_false_iff] at h
      unfold Spec.needs
      rw [ih₁ h.1, ih₂ h.2]
      rfl
  exact key

mutual
theorem exec_sim (N : Nat) (hC : CallsSim C C') (ρ : Env) :
    ∀ t : St β, Sim τf (Spec.exec true P N C ρ t) (exec P N C' ρ (trS t))
  | .ret e => by
    unfold Spec.exec; rw [trS, exec]
    exact ((eval_sim hC ρ e).val .deep).bind fun v => Sim.ret rfl
  | .expr e => by
    unfold Spec.exec; rw [trS, exec]
    exact ((eval_sim hC ρ e).val .deep).bind fun v => Sim.ret rfl
  | .assign x e => by
    unfold Spec.exec; rw [trS, exec]
    exact ((eval_sim hC ρ e).val .deep).bind fun v => (store_sim ρ x v).bind fun _ => Sim.ret rfl
  | .aug x n e => by
    unfold Spec.exec; rw [trS, exec]
    refine (load_sim ρ x).bind fun v => Sim.stop fun h => ?_
    rw [need_done v (by simpa using h), ret_bind]
    refine ((eval_sim hC ρ e).val .deep).bind fun w => ?_
    exact (binop_sim P n [v, w]).bind fun r => (store_sim ρ x r).bind fun _ => Sim.ret rfl
  | .ite c b₁ b₂ => by
    unfold Spec.exec; rw [trS, exec]
    refine ((eval_sim hC ρ c).val .deep).bind fun v => ?_
    rw [truthy_τ]
    split
    · exact execs_sim N hC ρ b₁
    · exact execs_sim N hC ρ b₂
  | .while c b => by
    unfold Spec.exec; rw [trS, exec]
    refine whileLoop_sim ?_ (execs_sim N hC ρ b) N
    exact ((eval_sim hC ρ c).val .deep).bind fun v => Sim.ret (truthy_τ P v)
  | .defn x ps va ds b => by
    unfold Spec.exec; rw [trS, exec]
    refine Sim.stop fun h => ?_
    refine (consts_sim hC ρ ds (by simpa using h)).bind fun vs => ?_
    have := store_sim (ω := ω) (ε := ε) ρ x (.clo ps va vs b ρ)
    simp only [τ, τs_eq] at this
    exact this.bind fun _ => Sim.ret rfl
  | .nonlocal xs => by unfold Spec.exec; rw [trS, exec]; exact Sim.ret rfl

theorem execs_sim (N : Nat) (hC : CallsSim C C') (ρ : Env) :
    ∀ ts : List (St β), Sim τf (Spec.execs true P N C ρ ts) (execs P N C' ρ (trSs ts))
  | [] => by unfold Spec.execs; rw [trSs, execs]; exact Sim.ret rfl
  | t :: ts => by
    unfold Spec.execs; rw [trSs, execs]
    refine (exec_sim N hC ρ t).bind fun fl => ?_
    cases fl with
    | next => exact execs_sim N hC ρ ts
    | ret v => exact Sim.ret rfl
end

/-! ## Functions -/

mutual
theorem assignedS_tr : ∀ s : St β, assignedS (trS s) = Spec.assignedS s
  | .ite c b₁ b₂ => by rw [trS, assignedS, Spec.assignedS, assignedSs_tr b₁, assignedSs_tr b₂]
  | .while c b => by rw [trS, assignedS, Spec.assignedS, assignedSs_tr b]
  | .ret _ => rfl
  | .expr _ => rfl
  | .assign .. => rfl
  | .aug .. => rfl
  | .defn .. => rfl
  | .nonlocal _ => rfl

theorem assignedSs_tr : ∀ ss : List (St β), assignedSs (trSs ss) = Spec.assignedSs ss
  | [] => rfl
  | s :: ss => by rw [trSs, assignedSs, Spec.assignedSs, assignedS_tr s, assignedSs_tr ss]
end

mutual
theorem nonlocalS_tr : ∀ s : St β, nonlocalS (trS s) = Spec.nonlocalS s
  | .ite c b₁ b₂ => by rw [trS, nonlocalS, Spec.nonlocalS, nonlocalSs_tr b₁, nonlocalSs_tr b₂]
  | .while c b => by rw [trS, nonlocalS, Spec.nonlocalS, nonlocalSs_tr b]
  | .ret _ => rfl
  | .expr _ => rfl
  | .assign .. => rfl
  | .aug .. => rfl
  | .defn .. => rfl
  | .nonlocal _ => rfl

theorem nonlocalSs_tr : ∀ ss : List (St β), nonlocalSs (trSs ss) = Spec.nonlocalSs ss
  | [] => rfl
  | s :: ss => by rw [trSs, nonlocalSs, Spec.nonlocalSs, nonlocalS_tr s, nonlocalSs_tr ss]
end

theorem locals_tr (b : List (St β)) : locals (trSs b) = Spec.locals b := by
  unfold locals Spec.locals
  rw [assignedSs_tr, nonlocalSs_tr]

theorem zip_fst {α γ : Type} : ∀ {xs : List α} {ys : List γ}, xs.length = ys.length → (xs.zip ys).map (·.1) = xs
  | [], [], _ => rfl
  | _ :: _, _ :: _, h => by simpa using zip_fst (by simpa using h)

theorem zip_snd {α γ : Type} : ∀ {xs : List α} {ys : List γ}, xs.length = ys.length → (xs.zip ys).map (·.2) = ys
  | [], [], _ => rfl
  | _ :: _, _ :: _, h => by simpa using zip_snd (by simpa using h)

theorem bindArgs_sim (ps : List String) (va : Option String) (ds args : List (Spec.Val β)) :
    bindArgs .tup ps va (ds.map τ) (args.map τ) =
      (Spec.params ps va ds args).map fun xs => (xs.map (·.1), xs.map (fun x => τ x.2)) := by
  unfold bindArgs Spec.params
  by_cases h : args.length + ds.length < ps.length
  · have : ds.length < ps.length - args.length := by omega
    simp [h, this]
  · have h' : ¬ ds.length < ps.length - args.length := by omega
    simp only [List.length_map, h, h', if_false]
    have e : ps.length = (args.take ps.length ++ ds.drop (ds.length - (ps.length - args.length))).length := by
      simp only [List.length_append, List.length_take, List.length_drop]; omega
    have z₁ := zip_fst e
    have z₂ := zip_snd e
    have z₂' : (ps.zip (args.take ps.length ++ ds.drop (ds.length - (ps.length - args.length)))).map (fun x => τ x.2) =
        (args.map τ).take ps.length ++ (ds.map τ).drop (ds.length - (ps.length - args.length)) := by
      have := congrArg (List.map τ) z₂
      rw [List.map_map] at this
      rw [List.map_append, List.map_take, List.map_drop] at this
      exact this
    cases va with
    | none =>
      by_cases hl : args.length ≤ ps.length
      · have : ¬ ps.length < args.length := by omega
        simp only [this, hl, if_false, if_true, Option.map, z₁, z₂']
      · have : ps.length < args.length := by omega
        simp only [this, hl, if_false, if_true, Option.map]
    | some x =>
      simp only [Option.map, List.map_append, z₁, z₂', List.map_cons, List.map_nil, τ, τs_eq, List.map_drop]

theorem callEntry_sim (N : Nat) (hC : CallsSim C C') (f : Spec.Val β) (args : List (Spec.Val β)) :
    Sim τ (Spec.callEntry true P N C f args) (callEntry P N C' (τ f) (args.map τ)) := by
  cases f with
  | clo ps va ds b ρ =>
    simp only [Spec.callEntry, τ, callEntry, τs_eq, bindArgs_sim]
    cases Spec.params ps va ds args with
    | none => exact Sim.raise _
    | some xs =>
      simp only [Option.map, locals_tr]
      have ha := alloc_sim (ω := ω) (ε := ε) ((xs.map (·.2)).map some ++ (Spec.locals b).map (fun _ => none))
      have e : List.map (Option.map τ) ((xs.map (·.2)).map some ++ (Spec.locals b).map (fun _ => none)) =
          (xs.map (fun x => τ x.2)).map some ++ (Spec.locals b).map (fun _ => none) := by
        simp [Function.comp_def]
      rw [e] at ha
      refine ha.bind fun a => (execs_sim N hC _ b).bind fun fl => ?_
      cases fl with
      | next => exact Sim.ret rfl
      | ret v => exact Sim.ret rfl
  | ext n => exact callExt_sim P n args
  | _ => exact Sim.raise _

end

theorem calls_sim (P : World β ω ε) (N : Nat) : ∀ d, CallsSim (Spec.calls true P N d) (calls P N d)
  | 0 => ⟨fun _ _ _ => .inr rfl, fun _ _ _ => .inr rfl⟩
  | d + 1 => ⟨fun f args => callEntry_sim N (calls_sim P N d) f args,
      fun e ρ => (eval_sim (calls_sim P N d) ρ e).val .deep⟩

theorem run_sim (P : World β ω ε) (N d : Nat) (ρ : Env) (b : List (St β)) :
    Sim τf (Spec.run true P N d ρ b) (run P N d ρ (trSs b)) :=
  execs_sim N (calls_sim P N d) ρ b

/-! ## The careful interpreter and the other one -/

def Sub {α : Type} (m m' : Spec.Mo β ω ε α) : Prop := ∀ s, Flagged (m s) ∨ m' s = m s

theorem Sub.refl {α : Type} (m : Spec.Mo β ω ε α) : Sub m m := fun _ => .inr rfl

theorem Sub.flag {α : Type} {m' : Spec.Mo β ω ε α} : Sub (PyExpr.raise .unmodelled) m' := fun s => .inl ⟨s, rfl⟩

theorem Sub.bind {α γ : Type} {m m' : Spec.Mo β ω ε α} {k k' : α → M _ ε γ} (hm : Sub m m')
    (hk : ∀ a, Sub (k a) (k' a)) : Sub (PyExpr.bind m k) (PyExpr.bind m' k') := by
  intro s
  unfold PyExpr.bind
  rcases hm s with ⟨s', hf⟩ | he
  · left; rw [hf]; exact ⟨s', rfl⟩
  · rw [he]
    match hms : m s with
    | none => right; rfl
    | some (.error e, s') => right; rfl
    | some (.ok a, s') => exact hk a s'

theorem Sub.stop {α : Type} {b : Bool} {k k' : Unit → Spec.Mo β ω ε α}
    (hk : Sub (k ()) (k' ())) : Sub (PyExpr.bind (Spec.stopIf (true && b)) k) (PyExpr.bind (Spec.stopIf (false && b)) k') := by
  cases b
  · exact hk
  · exact fun s => .inl ⟨s, rfl⟩

theorem whileLoop_sub {α : Type} {test test' : Spec.Mo β ω ε Bool}
    {b b' : Spec.Mo β ω ε (Flow α)} (ht : Sub test test') (hb : Sub b b') :
    ∀ n, Sub (whileLoop test b n) (whileLoop test' b' n)
  | 0 => Sub.refl _
  | n + 1 => by
    unfold whileLoop
    refine ht.bind fun t => ?_
    cases t with
    | false => exact Sub.refl _
    | true =>
      refine hb.bind fun f => ?_
      cases f with
      | next => exact whileLoop_sub ht hb n
      | ret v => exact Sub.refl _

structure CallsSub (C C' : Spec.Calls β ω ε) : Prop where
  ap : ∀ f args, Sub (C.ap f args) (C'.ap f args)
  eval : ∀ e ρ, Sub (C.eval e ρ) (C'.eval e ρ)

section
variable {P : World β ω ε} {C C' : Spec.Calls β ω ε}

theorem value_sub (hC : CallsSub C C') (a : Nat) : Sub (Spec.valueOf C a) (Spec.valueOf C' a) := by
  intro s
  unfold Spec.valueOf
  match s.world.proms[a]? with
  | none => exact .inl ⟨s, rfl⟩
  | some (.done v) => exact .inr rfl
  | some (.failed x) => exact .inr rfl
  | some (.susp e ρ) =>
    simp only
    rcases hC.eval e ρ s with ⟨s', hf⟩ | he
    · left; rw [hf]; exact ⟨s', rfl⟩
    · rw [he]; exact .inr rfl

mutual
theorem need_sub (hC : CallsSub C C') (d : Spec.Depth) : ∀ v, Sub (Spec.need true C d v) (Spec.need false C' d v)
  | .prom a => by
    unfold Spec.need
    refine (value_sub hC a).bind fun v => ?_
    split
    · exact Sub.flag
    · exact Sub.refl _
  | .tup vs => by
    unfold Spec.need
    cases d with
    | deep => exact (needs_sub hC vs).bind fun ws => Sub.refl _
    | shallow => exact Sub.refl _
  | .base b => by unfold Spec.need; exact Sub.refl _
  | .non => by unfold Spec.need; exact Sub.refl _
  | .ext n => by unfold Spec.need; exact Sub.refl _
  | .clo .. => by unfold Spec.need; exact Sub.refl _

theorem needs_sub (hC : CallsSub C C') : ∀ vs, Sub (Spec.needs true C vs) (Spec.needs false C' vs)
  | [] => by unfold Spec.needs; exact Sub.refl _
  | v :: vs => by
    unfold Spec.needs
    exact (need_sub hC .deep v).bind fun w => (needs_sub hC vs).bind fun ws => Sub.refl _
end

theorem call_sub (hC : CallsSub C C') (f : Spec.Val β) (vs : List (Spec.Val β)) :
    Sub (Spec.call true C f vs) (Spec.call false C' f vs) := by
  cases f with
  | clo => exact hC.ap _ _
  | _ => exact (needs_sub hC vs).bind fun ws => hC.ap _ _

mutual
theorem delay_sub (ρ : Env) : ∀ e : Ex β, Sub (ω := ω) (ε := ε) (Spec.delay true ρ e) (Spec.delay false ρ e)
  | .tup es => by unfold Spec.delay; exact (delays_sub ρ es).bind fun _ => Sub.refl _
  | .call f args => by unfold Spec.delay; exact Sub.stop (Sub.refl _)
  | .callS f args e => by unfold Spec.delay; exact Sub.stop (Sub.refl _)
  | .lazy _ => by unfold Spec.delay; exact Sub.refl _
  | .cst _ => by unfold Spec.delay; exact Sub.refl _
  | .non => by unfold Spec.delay; exact Sub.refl _
  | .name _ => by unfold Spec.delay; exact Sub.refl _
  | .op .. => by unfold Spec.delay; exact Sub.refl _
  | .eq .. => by unfold Spec.delay; exact Sub.refl _
  | .ife .. => by unfold Spec.delay; exact Sub.refl _
  | .sub .. => by unfold Spec.delay; exact Sub.refl _
  | .lam .. => by unfold Spec.delay; exact Sub.refl _

theorem delays_sub (ρ : Env) : ∀ es : List (Ex β), Sub (ω := ω) (ε := ε) (Spec.delays true ρ es) (Spec.delays false ρ es)
  | [] => by unfold Spec.delays; exact Sub.refl _
  | e :: es => by
    unfold Spec.delays
    exact (delay_sub ρ e).bind fun v => (delays_sub ρ es).bind fun vs => Sub.refl _
end

/-- What is shown of an expression. -/
structure Both' (P : World β ω ε) (C C' : Spec.Calls β ω ε) (ρ : Env) (e : Ex β) : Prop where
  val : ∀ d, Sub (Spec.eval true P C ρ d e) (Spec.eval false P C' ρ d e)
  ref : ∀ b i, e = .sub b i →
    Sub (bind (Spec.eval true P C ρ .shallow b) fun v => bind (Spec.eval true P C ρ .deep i) fun w => Spec.pick P v w)
      (bind (Spec.eval false P C' ρ .shallow b) fun v => bind (Spec.eval false P C' ρ .deep i) fun w => Spec.pick P v w)

theorem bound_step' {ρ : Env} {e : Ex β} {es : List (Ex β)} (he : Both' P C C' ρ e)
    (hs : Sub (Spec.bound true P C ρ es) (Spec.bound false P C' ρ es)) :
    Sub (Spec.bound true P C ρ (e :: es)) (Spec.bound false P C' ρ (e :: es)) := by
  have hd := delay_sub (ω := ω) (ε := ε) ρ e
  cases e with
  | name x => unfold Spec.bound; exact (Sub.refl _).bind fun v => hs.bind fun vs => Sub.refl _
  | sub e i => unfold Spec.bound; exact (he.ref e i rfl).bind fun v => hs.bind fun vs => Sub.refl _
  | _ => unfold Spec.bound; exact hd.bind fun v => hs.bind fun vs => Sub.refl _

theorem starred_sub (hC : CallsSub C C') {ρ : Env} {e : Ex β} (he : Both' P C C' ρ e) :
    Sub (starred true P C ρ e) (starred false P C' ρ e) := by
  have hd := delay_sub (ω := ω) (ε := ε) ρ e
  have hv := he.val .deep
  cases e with
  | name x => unfold starred; exact (Sub.refl _).bind fun v => Sub.stop (need_sub hC .shallow v)
  | sub e i => unfold starred; exact (he.ref e i rfl).bind fun v => Sub.stop (need_sub hC .shallow v)
  | tup es => unfold starred; exact hd
  | _ => unfold starred; exact hv

mutual
theorem eval_sub (hC : CallsSub C C') (ρ : Env) : ∀ e : Ex β, Both' P C C' ρ e
  | .name x => by
    refine ⟨fun d => ?_, nofun⟩
    unfold Spec.eval; exact (Sub.refl _).bind fun v => need_sub hC d v
  | .sub e i => by
    have he := (eval_sub hC ρ e).val
    have hi := (eval_sub hC ρ i).val
    refine ⟨fun d => ?_, fun b j h => ?_⟩
    · unfold Spec.eval
      exact (he .shallow).bind fun v => (hi .deep).bind fun w => (Sub.refl _).bind fun r => need_sub hC d r
    · cases h; exact (he .shallow).bind fun v => (hi .deep).bind fun w => Sub.refl _
  | .call f args => by
    have hf := (eval_sub hC ρ f).val
    have ha := bound_sub hC ρ args
    refine ⟨fun d => ?_, nofun⟩
    unfold Spec.eval
    exact Sub.stop ((hf d).bind fun fv => ha.bind fun vs => call_sub hC fv vs)
  | .callS f args e => by
    have hf := (eval_sub hC ρ f).val
    have ha := bound_sub hC ρ args
    have he := starred_sub hC (eval_sub hC ρ e)
    refine ⟨fun d => ?_, nofun⟩
    rw [eval_callS, eval_callS]
    exact Sub.stop ((hf d).bind fun fv => ha.bind fun vs => he.bind fun v => (Sub.refl _).bind fun ws => call_sub hC fv _)
  | .cst c => ⟨fun d => by unfold Spec.eval; exact Sub.stop (Sub.refl _), nofun⟩
  | .non => ⟨fun d => by unfold Spec.eval; exact Sub.stop (Sub.refl _), nofun⟩
  | .op n es => by
    have h₁ := evals_sub hC ρ es
    exact ⟨fun d => by unfold Spec.eval; exact Sub.stop (h₁.bind fun _ => Sub.refl _), nofun⟩
  | .eq a b => by
    have h₁ := (eval_sub hC ρ a).val
    have h₂ := (eval_sub hC ρ b).val
    exact ⟨fun d => by
      unfold Spec.eval
      exact Sub.stop ((h₁ .deep).bind fun v => (h₂ .deep).bind fun w => Sub.refl _), nofun⟩
  | .ife c t e => by
    have h₁ := (eval_sub hC ρ c).val
    have h₂ := (eval_sub hC ρ t).val
    have h₃ := (eval_sub hC ρ e).val
    refine ⟨fun d => ?_, nofun⟩
    unfold Spec.eval
    refine Sub.stop ((h₁ .deep).bind fun v => ?_)
    split
    · exact h₂ d
    · exact h₃ d
  | .tup es => by
    have h₁ := evals_sub hC ρ es
    exact ⟨fun d => by unfold Spec.eval; exact Sub.stop (h₁.bind fun _ => Sub.refl _), nofun⟩
  | .lam ps va ds b => by
    have h₁ := evals_sub hC ρ ds
    exact ⟨fun d => by unfold Spec.eval; exact Sub.stop (h₁.bind fun _ => Sub.refl _), nofun⟩
  | .lazy e => ⟨fun d => by unfold Spec.eval; exact Sub.stop (Sub.refl _), nofun⟩

theorem evals_sub (hC : CallsSub C C') (ρ : Env) :
    ∀ es : List (Ex β), Sub (Spec.evals true P C ρ es) (Spec.evals false P C' ρ es)
  | [] => by unfold Spec.evals; exact Sub.refl _
  | e :: es => by
    unfold Spec.evals
    exact ((eval_sub hC ρ e).val .deep).bind fun v => (evals_sub hC ρ es).bind fun vs => Sub.refl _

theorem bound_sub (hC : CallsSub C C') (ρ : Env) :
    ∀ es : List (Ex β), Sub (Spec.bound true P C ρ es) (Spec.bound false P C' ρ es)
  | [] => by unfold Spec.bound; exact Sub.refl _
  | e :: es => bound_step' (eval_sub hC ρ e) (bound_sub hC ρ es)
end

mutual
theorem exec_sub (N : Nat) (hC : CallsSub C C') (ρ : Env) :
    ∀ t : St β, Sub (Spec.exec true P N C ρ t) (Spec.exec false P N C' ρ t)
  | .ret e => by unfold Spec.exec; exact ((eval_sub hC ρ e).val .deep).bind fun v => Sub.refl _
  | .expr e => by unfold Spec.exec; exact ((eval_sub hC ρ e).val .deep).bind fun v => Sub.refl _
  | .assign x e => by unfold Spec.exec; exact ((eval_sub hC ρ e).val .deep).bind fun v => Sub.refl _
  | .aug x n e => by
    unfold Spec.exec
    exact (Sub.refl _).bind fun v => Sub.stop ((need_sub hC .deep v).bind fun v =>
      ((eval_sub hC ρ e).val .deep).bind fun w => Sub.refl _)
  | .ite c b₁ b₂ => by
    unfold Spec.exec
    refine ((eval_sub hC ρ c).val .deep).bind fun v => ?_
    split
    · exact execs_sub N hC ρ b₁
    · exact execs_sub N hC ρ b₂
  | .while c b => by
    unfold Spec.exec
    exact whileLoop_sub (((eval_sub hC ρ c).val .deep).bind fun v => Sub.refl _) (execs_sub N hC ρ b) N
  | .defn x ps va ds b => by
    unfold Spec.exec
    exact Sub.stop ((evals_sub hC ρ ds).bind fun vs => Sub.refl _)
  | .nonlocal xs => by unfold Spec.exec; exact Sub.refl _

theorem execs_sub (N : Nat) (hC : CallsSub C C') (ρ : Env) :
    ∀ ts : List (St β), Sub (Spec.execs true P N C ρ ts) (Spec.execs false P N C' ρ ts)
  | [] => by unfold Spec.execs; exact Sub.refl _
  | t :: ts => by
    unfold Spec.execs
    refine (exec_sub N hC ρ t).bind fun fl => ?_
    cases fl with
    | next => exact execs_sub N hC ρ ts
    | ret v => exact Sub.refl _
end

theorem callEntry_sub (N : Nat) (hC : CallsSub C C') (f : Spec.Val β) (args : List (Spec.Val β)) :
    Sub (Spec.callEntry true P N C f args) (Spec.callEntry false P N C' f args) := by
  cases f with
  | clo ps va ds b ρ =>
    simp only [Spec.callEntry]
    cases Spec.params ps va ds args with
    | none => exact Sub.refl _
    | some xs => exact (Sub.refl _).bind fun a => (execs_sub N hC _ b).bind fun fl => Sub.refl _
  | _ => exact Sub.refl _

end

theorem calls_sub (P : World β ω ε) (N : Nat) : ∀ d, CallsSub (Spec.calls true P N d) (Spec.calls false P N d)
  | 0 => ⟨fun _ _ => Sub.refl _, fun _ _ => Sub.refl _⟩
  | d + 1 => ⟨fun f args => callEntry_sub N (calls_sub P N d) f args,
      fun e ρ => (eval_sub (calls_sub P N d) ρ e).val .deep⟩

theorem run_sub (P : World β ω ε) (N d : Nat) (ρ : Env) (b : List (St β)) :
    Sub (Spec.run true P N d ρ b) (Spec.run false P N d ρ b) :=
  execs_sub N (calls_sub P N d) ρ b

/-! ## What can be seen -/

mutual
theorem obs_τ : ∀ v : Spec.Val β, Spec.obsI (τ v) = Spec.obs v
  | .tup vs => by rw [τ, Spec.obsI, Spec.obs, obss_τ vs]
  | .base _ => rfl
  | .non => rfl
  | .ext _ => rfl
  | .clo .. => rfl
  | .prom _ => rfl

theorem obss_τ : ∀ vs : List (Spec.Val β), Spec.obssI (τs vs) = Spec.obss vs
  | [] => rfl
  | v :: vs => by rw [τs, Spec.obssI, Spec.obss, obs_τ v, obss_τ vs]
end

theorem promObs_τ (p : Prom (Ex β) (Spec.Val β) ε) : Spec.promObsI (τp p) = Spec.promObs p := by
  cases p with
  | done v => simp [τp, Spec.promObsI, Spec.promObs, obs_τ]
  | _ => rfl

theorem startI_eq (h : List (Option (Spec.Init β))) (w : ω) :
    τst (Spec.start (ε := ε) h w) = Spec.startI h w := by
  simp only [τst, Spec.start, Spec.startI, List.map_map, List.map_nil]
  congr 1
  refine List.map_congr_left fun c _ => ?_
  cases c with
  | none => rfl
  | some v => cases v <;> rfl

end Unpy.Lazify.Sim
