import Verif.Spec.Dlet
/-!
# Proofs about the `let` decorators: a program with its names resolved does what it should
-/
namespace Unpy.Dlet.Lemmas
open Unpy Unpy.Dlet Unpy.Eff
open Unpy.Spec.Dlet (Seen without both after afters)

/-! ## Resolved programs -/

mutual
/-- An expression, with let variables as such. -/
def resE (vis : List String) : E → E
  | .int n => .int n
  | .var x => if x ∈ vis then .envget x else .var x
  | .sub a b => .sub (resE vis a) (resE vis b)
  | .show e => .show (resE vis e)
  | .walrus x e => if x ∈ vis then .envset x (resE vis e) else .walrus x (resE vis e)
  | .lam ps e => .lam ps (resE (without vis ps) e)
  | .call f args => .call (resE vis f) (resEs vis args)
  | .envget x => .envget x
  | .envset x e => .envset x (resE vis e)
def resEs (vis : List String) : Es → Es
  | .nil => .nil
  | .cons e es => .cons (resE vis e) (resEs vis es)
end

mutual
def resS (base vis : List String) : S → S
  | .assign x e => .assign x (resE vis e)
  | .del x => .del x
  | .expr e => .expr (resE vis e)
  | .ret e => .ret (resE vis e)
  | .ite c t e => .ite (resE vis c) (resSs base vis t) (resSs base vis e)
  | .while c b => .while (resE vis c) (resSs base vis b)
  | .fdef g ps ds gl body => .fdef g ps (resEs vis ds) gl (resSs (without vis (g :: ps ++ gl)) (without vis (g :: ps ++ gl)) body)
def resSs (base vis : List String) : Ss → Ss
  | .nil => .nil
  | .cons s ss => .cons (resS base vis s) (resSs base (after base vis s) ss)
end

mutual
theorem binds_resE (vis : List String) : (e : E) → bindsE (resE vis e) = Spec.Dlet.bindsE vis e
  | .int _ | .lam .. | .envget _ => by simp [resE, bindsE, Spec.Dlet.bindsE]
  | .var x => by simp only [resE]; split <;> simp [bindsE, Spec.Dlet.bindsE]
  | .sub a b => by simp [resE, bindsE, Spec.Dlet.bindsE, binds_resE vis a, binds_resE vis b]
  | .show e => by simp [resE, bindsE, Spec.Dlet.bindsE, binds_resE vis e]
  | .walrus x e => by simp only [resE, Spec.Dlet.bindsE]; split <;> simp [bindsE, binds_resE vis e]
  | .call f args => by simp [resE, bindsE, Spec.Dlet.bindsE, binds_resE vis f, binds_resEs vis args]
  | .envset _ e => by simp [resE, bindsE, Spec.Dlet.bindsE, binds_resE vis e]
theorem binds_resEs (vis : List String) : (es : Es) → bindsEs (resEs vis es) = Spec.Dlet.bindsEs vis es
  | .nil => rfl
  | .cons e es => by simp [resEs, bindsEs, Spec.Dlet.bindsEs, binds_resE vis e, binds_resEs vis es]
end

mutual
theorem binds_resS (base vis : List String) : (s : S) → bindsS (resS base vis s) = Spec.Dlet.bindsS base vis s
  | .assign x e => by simp [resS, bindsS, Spec.Dlet.bindsS, binds_resE]
  | .del x => rfl
  | .expr e | .ret e => by simp [resS, bindsS, Spec.Dlet.bindsS, binds_resE]
  | .ite c t e => by simp [resS, bindsS, Spec.Dlet.bindsS, binds_resE, binds_resSs base vis t, binds_resSs base vis e]
  | .while c b => by simp [resS, bindsS, Spec.Dlet.bindsS, binds_resE, binds_resSs base vis b]
  | .fdef g ps ds gl body => by simp [resS, bindsS, Spec.Dlet.bindsS, binds_resEs]
theorem binds_resSs (base vis : List String) : (ss : Ss) → bindsSs (resSs base vis ss) = Spec.Dlet.bindsSs base vis ss
  | .nil => rfl
  | .cons s ss => by simp [resSs, bindsSs, Spec.Dlet.bindsSs, binds_resS base vis s, binds_resSs base (after base vis s) ss]
end

/-! ## Values and states of the expanded program -/

mutual
def mapV : V Seen → V Bool
  | .int n => .int n
  | .fn ps ds gl body chain k => .fn ps (mapVs ds) gl (resSs k.vis k.vis body) chain k.inside
def mapVs : List (V Seen) → List (V Bool)
  | [] => []
  | v :: vs => mapV v :: mapVs vs
end

theorem mapVs_eq : (vs : List (V Seen)) → mapVs vs = vs.map mapV
  | [] => rfl
  | v :: vs => by rw [mapVs, mapVs_eq vs]; rfl

def mapFrame (f : Frame Seen) : Frame Bool := ⟨f.locals, f.globals, fun x => (f.vars x).map mapV⟩

def mapSt (s : St Seen) : St Bool := ⟨fun x => (s.globals x).map mapV, s.frames.map mapFrame, fun x => (s.env x).map mapV, s.out⟩

/-- Doing the same. -/
def Hom {α β : Type} (f : α → β) (m : M Seen α) (m' : M Bool β) : Prop := ∀ s, m' (mapSt s) = ((m s).1.map f, mapSt (m s).2)

variable {α β γ δ : Type}

theorem hom_ret (f : α → β) (a : α) : Hom f (ret a) (ret (f a)) := fun _ => rfl

theorem hom_raise (f : α → β) (e : Err) : Hom f (raise e) (raise e) := fun _ => rfl

theorem hom_bind {f : α → β} {g : γ → δ} {m : M Seen α} {m' : M Bool β} {k : α → M Seen γ} {k' : β → M Bool δ} (hm : Hom f m m')
    (hk : ∀ a, Hom g (k a) (k' (f a))) : Hom g (bind m k) (bind m' k') := by
  intro s
  unfold Eff.bind
  rw [hm s]
  rcases m s with ⟨r, s'⟩
  cases r with
  | error e => rfl
  | ok a => exact hk a s'

theorem put_map (f : String → Option (V Seen)) (x : String) (v : Option (V Seen)) :
    (fun y => (put f x v y).map mapV) = put (fun y => (f y).map mapV) x (v.map mapV) := by
  funext y
  unfold put
  split <;> rfl

theorem hom_getGlobal (x : String) : Hom mapV (getGlobal x) (getGlobal x) := by
  intro s
  unfold getGlobal
  simp only [mapSt]
  cases s.globals x <;> rfl

theorem frames_map (s : St Seen) (i : Nat) : (mapSt s).frames[i]? = (s.frames[i]?).map mapFrame := by simp [mapSt]

theorem hom_lookup (x : String) : (chain : List Nat) → Hom mapV (lookup x chain) (lookup x chain)
  | [] => hom_getGlobal x
  | i :: chain => by
    intro s
    simp only [lookup, frames_map]
    cases s.frames[i]? with
    | none => rfl
    | some f =>
      simp only [Option.map, mapFrame]
      split
      · exact hom_getGlobal x s
      · split
        · cases f.vars x <;> rfl
        · exact hom_lookup x chain s

theorem set_map (s : St Seen) (i : Nat) (f : Frame Seen) : (s.frames.set i f).map mapFrame = (s.frames.map mapFrame).set i (mapFrame f) := by
  rw [List.map_set]

theorem hom_store (x : String) (v : V Seen) (chain : List Nat) : Hom id (store x v chain) (store x (mapV v) chain) := by
  intro s
  cases chain with
  | nil =>
    simp only [store, mapSt, Except.map, id]
    rw [put_map]; rfl
  | cons i chain =>
    simp only [store, frames_map]
    cases s.frames[i]? with
    | none => rfl
    | some f =>
      simp only [Option.map, mapFrame]
      split
      · simp only [mapSt, Except.map, id]
        rw [put_map]; rfl
      · simp only [mapSt, Except.map, id, set_map, mapFrame]
        rw [put_map]; rfl

theorem hom_delGlobal (x : String) : Hom id (delGlobal x) (delGlobal x) := by
  intro s
  unfold delGlobal
  simp only [mapSt]
  cases s.globals x with
  | none => rfl
  | some v =>
    simp only [Option.map_some, Except.map, id]
    rw [put_map]; rfl

theorem hom_delete (x : String) (chain : List Nat) : Hom id (delete x chain) (delete x chain) := by
  cases chain with
  | nil => exact hom_delGlobal x
  | cons i chain =>
    intro s
    simp only [delete, frames_map]
    cases s.frames[i]? with
    | none => rfl
    | some f =>
      simp only [Option.map, mapFrame]
      split
      · exact hom_delGlobal x s
      · cases hx : f.vars x with
        | none => rfl
        | some v =>
          simp only [mapSt, Except.map, id, set_map, mapFrame]
          rw [put_map]; rfl

theorem hom_envGet (x : String) : Hom mapV (envGet x) (envGet x) := by
  intro s
  unfold envGet
  simp only [mapSt]
  cases s.env x <;> rfl

theorem hom_envSet (x : String) (v : V Seen) : Hom mapV (envSet x v) (envSet x (mapV v)) := by
  intro s
  unfold envSet
  simp only [mapSt]
  cases s.env x with
  | none => rfl
  | some w =>
    simp only [Option.map_some, Except.map]
    rw [put_map]; rfl

theorem hom_subtract (v w : V Seen) : Hom mapV (subtract v w) (subtract (mapV v) (mapV w)) := by
  intro s
  cases v <;> cases w <;> simp only [mapV] <;> rfl

theorem hom_output (v : V Seen) : Hom mapV (output v) (output (mapV v)) := by
  intro s
  cases v <;> simp only [mapV] <;> rfl

theorem truthy_map (v : V Seen) : truthy (mapV v) = truthy v := by
  cases v with
  | int n => simp only [mapV]; unfold truthy; split <;> split <;> simp_all
  | fn => simp [mapV, truthy]

theorem bindArgs_map : (ps : List String) → (ds args : List (V Seen)) →
    bindArgs ps (ds.map mapV) (args.map mapV) = (bindArgs ps ds args).map (·.map fun p => (p.1, mapV p.2))
  | [], _, [] => rfl
  | [], _, _ :: _ => rfl
  | p :: ps, ds, a :: args => by
    simp only [List.map_cons, bindArgs, bindArgs_map ps ds args]
    cases bindArgs ps ds args <;> rfl
  | p :: ps, ds, [] => by
    simp only [List.map_nil, bindArgs, List.length_map, ← List.map_drop]
    split
    · cases ds.drop (ds.length - (ps.length + 1)) with
      | nil => rfl
      | cons d ds =>
        simp only [List.map_cons]
        have := bindArgs_map ps ds []
        simp only [List.map_nil] at this
        rw [this]
        cases bindArgs ps ds [] <;> rfl
    · rfl

theorem find_map (x : String) : (vars : List (String × V Seen)) → find x (vars.map fun p => (p.1, mapV p.2)) = (find x vars).map mapV
  | [] => rfl
  | (y, v) :: rest => by
    simp only [List.map_cons, find]
    split
    · rfl
    · exact find_map x rest

theorem hom_push (f : Frame Seen) : Hom id (push f) (push (mapFrame f)) := by
  intro s
  simp [push, mapSt, Except.map]

/-! ## Running -/

mutual
theorem hom_evalE : (n : Nat) → (k : Bool) → (vis : List String) → (chain : List Nat) → (e : E) →
    Hom mapV (Spec.Dlet.evalE n k vis chain e) (evalE n k chain (resE vis e))
  | 0, _, _, _, e => fun _ => by cases e <;> rfl
  | n + 1, k, vis, chain, e => by
    cases e with
    | int n => exact hom_ret _ _
    | var x =>
      simp only [resE, Spec.Dlet.evalE]
      split
      · simp only [evalE]
        split
        · exact hom_envGet x
        · exact hom_raise _ _
      · exact hom_lookup x chain
    | sub a b =>
      exact hom_bind (hom_evalE n k vis chain a) fun v => hom_bind (hom_evalE n k vis chain b) fun w => hom_subtract v w
    | «show» e => exact hom_bind (hom_evalE n k vis chain e) hom_output
    | walrus x e =>
      simp only [resE, Spec.Dlet.evalE]
      split
      · simp only [evalE]
        split
        · exact hom_bind (hom_evalE n k vis chain e) fun v => hom_envSet x v
        · exact hom_raise _ _
      · exact hom_bind (hom_evalE n k vis chain e) fun v => hom_bind (hom_store x v chain) fun _ => hom_ret mapV v
    | lam ps e => exact hom_ret _ _
    | call f args =>
      exact hom_bind (hom_evalE n k vis chain f) fun f => hom_bind (hom_evalEs n k vis chain args) fun args => hom_call n f args
    | envget x =>
      simp only [resE, Spec.Dlet.evalE, evalE]
      split
      · exact hom_envGet x
      · exact hom_raise _ _
    | envset x e =>
      simp only [resE, Spec.Dlet.evalE, evalE]
      split
      · exact hom_bind (hom_evalE n k vis chain e) fun v => hom_envSet x v
      · exact hom_raise _ _
theorem hom_evalEs : (n : Nat) → (k : Bool) → (vis : List String) → (chain : List Nat) → (es : Es) →
    Hom (·.map mapV) (Spec.Dlet.evalEs n k vis chain es) (evalEs n k chain (resEs vis es))
  | 0, _, _, _, es => fun _ => by cases es <;> rfl
  | n + 1, k, vis, chain, .nil => hom_ret _ _
  | n + 1, k, vis, chain, .cons e es => by
    refine hom_bind (hom_evalE n k vis chain e) fun v => hom_bind (hom_evalEs n k vis chain es) fun vs => ?_
    exact hom_ret (·.map mapV) (v :: vs)
theorem hom_call : (n : Nat) → (f : V Seen) → (args : List (V Seen)) →
    Hom mapV (Spec.Dlet.call n f args) (call n (mapV f) (args.map mapV))
  | 0, f, _ => fun _ => by cases f <;> simp only [mapV] <;> rfl
  | n + 1, .int _, _ => fun _ => by simp only [mapV]; rfl
  | n + 1, .fn ps ds gl body chain k, args => by
    simp only [mapV, call, Spec.Dlet.call, mapVs_eq, bindArgs_map, binds_resSs]
    cases bindArgs ps ds args with
    | none => exact hom_raise _ _
    | some vars =>
      simp only [Option.map, find_map]
      refine hom_bind (hom_push _) fun i => ?_
      refine hom_bind (hom_exec n k.inside k.vis k.vis (i :: chain) body) fun r => ?_
      cases r with
      | none => exact hom_ret mapV (.int 0)
      | some v => exact hom_ret mapV v
theorem hom_exec : (n : Nat) → (k : Bool) → (base vis : List String) → (chain : List Nat) → (ss : Ss) →
    Hom (·.map mapV) (Spec.Dlet.exec n k base vis chain ss) (exec n k chain (resSs base vis ss))
  | 0, _, _, _, _, ss => fun _ => by cases ss <;> rfl
  | n + 1, k, base, vis, chain, .nil => hom_ret _ _
  | n + 1, k, base, vis, chain, .cons s ss => by
    refine hom_bind (hom_execS n k base vis chain s) fun r => ?_
    cases r with
    | none => exact hom_exec n k base (after base vis s) chain ss
    | some v => exact hom_ret (·.map mapV) (some v)
theorem hom_execS : (n : Nat) → (k : Bool) → (base vis : List String) → (chain : List Nat) → (s : S) →
    Hom (·.map mapV) (Spec.Dlet.execS n k base vis chain s) (execS n k chain (resS base vis s))
  | 0, _, _, _, _, s => fun _ => by cases s <;> rfl
  | n + 1, k, base, vis, chain, s => by
    cases s with
    | assign x e => exact hom_bind (hom_evalE n k vis chain e) fun v => hom_bind (hom_store x v chain) fun _ => hom_ret _ _
    | del x => exact hom_bind (hom_delete x chain) fun _ => hom_ret _ _
    | expr e => exact hom_bind (hom_evalE n k vis chain e) fun v => hom_ret _ _
    | ret e => exact hom_bind (hom_evalE n k vis chain e) fun v => hom_ret (·.map mapV) (some v)
    | ite c t e =>
      refine hom_bind (hom_evalE n k vis chain c) fun v => ?_
      simp only [truthy_map]
      cases truthy v with
      | true => exact hom_exec n k base vis chain t
      | false => exact hom_exec n k base vis chain e
    | «while» c b =>
      refine hom_bind (hom_evalE n k vis chain c) fun v => ?_
      simp only [truthy_map]
      cases truthy v with
      | true =>
        refine hom_bind (hom_exec n k base vis chain b) fun r => ?_
        cases r with
        | none => exact hom_execS n k base vis chain (.while c b)
        | some v => exact hom_ret (·.map mapV) (some v)
      | false => exact hom_ret (·.map mapV) none
    | fdef g ps ds gl body =>
      refine hom_bind (hom_evalEs n k vis chain ds) fun ds => ?_
      refine hom_bind (f := id) ?_ fun _ => hom_ret (·.map mapV) none
      have := hom_store g (.fn ps ds gl body chain ⟨k, without vis (g :: ps ++ gl)⟩) chain
      simp only [mapV, mapVs_eq] at this
      exact this
end

end Unpy.Dlet.Lemmas
