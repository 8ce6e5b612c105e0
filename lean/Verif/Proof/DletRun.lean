import Verif.Proof.DletScope
/-!
# Proofs about the `let` decorators: whole programs
-/
namespace Unpy.Dlet.Lemmas
open Unpy Unpy.Dlet Unpy.Eff
open Unpy.Spec.Dlet (Seen without both after afters Keeps KeepsAll Calm CalmAll defines definesAny Simple SimpleAll CalmProg)

/-! ## Code outside -/

theorem without_nil (ys : List String) : without [] ys = [] := rfl

mutual
theorem resE_nil : (e : E) → resE [] e = e
  | .int _ | .envget _ => rfl
  | .var _ => by simp [resE]
  | .sub a b => by simp [resE, resE_nil a, resE_nil b]
  | .show e => by simp [resE, resE_nil e]
  | .walrus x e => by simp [resE, resE_nil e]
  | .lam ps e => by simp [resE, without_nil, resE_nil e]
  | .call f args => by simp [resE, resE_nil f, resEs_nil args]
  | .envset x e => by simp [resE, resE_nil e]
theorem resEs_nil : (es : Es) → resEs [] es = es
  | .nil => rfl
  | .cons e es => by simp [resEs, resE_nil e, resEs_nil es]
end

mutual
theorem after_nil : (s : S) → after [] [] s = []
  | .assign .. | .fdef .. | .expr _ | .ret _ => by simp [after, without]
  | .del _ => by simp [after]
  | .ite _ t e => by simp [after, afters_nil t, both]
  | .while _ b => by simp [after, both]
theorem afters_nil : (ss : Ss) → afters [] [] ss = []
  | .nil => rfl
  | .cons s ss => by simp [afters, after_nil s, afters_nil ss]
end

mutual
theorem resS_nil : (s : S) → resS [] [] s = s
  | .assign .. | .expr _ | .ret _ => by simp [resS, resE_nil]
  | .del _ => rfl
  | .ite c t e => by simp [resS, resE_nil, resSs_nil t, resSs_nil e]
  | .while c b => by simp [resS, resE_nil, resSs_nil b]
  | .fdef g ps ds gl body => by simp [resS, resEs_nil, without_nil, resSs_nil body]
theorem resSs_nil : (ss : Ss) → resSs [] [] ss = ss
  | .nil => rfl
  | .cons s ss => by simp [resSs, resS_nil s, after_nil, resSs_nil ss]
end

/-! ## The let variables -/

theorem hom_evalBindings (n : Nat) : (bs : List (String × E)) →
    Hom (·.map fun p => (p.1, mapV p.2)) (Spec.Dlet.evalBindings n bs) (evalBindings n bs)
  | [] => hom_ret _ _
  | (x, e) :: rest => by
    have h := hom_evalE n false [] [] e
    rw [resE_nil] at h
    exact hom_bind h fun v => hom_bind (hom_evalBindings n rest) fun vs => hom_ret (·.map fun p => (p.1, mapV p.2)) ((x, v) :: vs)

theorem hom_newVar (x : String) (v : V Seen) : Hom id (Spec.Dlet.newVar x v) (envInit x (mapV v)) := by
  intro s
  unfold Spec.Dlet.newVar envInit
  simp only [mapSt]
  cases s.env x with
  | some w => rfl
  | none =>
    simp only [Option.map_none, Except.map, id]
    rw [put_map]; rfl

theorem hom_noVars : Hom id Spec.Dlet.noVars newEnv := fun _ => rfl

theorem hom_newVars : (vs : List (String × V Seen)) → Hom id (Spec.Dlet.newVars vs) (initLet (vs.map fun p => (p.1, mapV p.2)))
  | [] => hom_ret id ()
  | (x, v) :: rest => hom_bind (hom_newVar x v) fun _ => hom_newVars rest

theorem letlikeE_res (lets : List String) (e : E) : letlikeE lets e = resE lets e := by
  have h : Inv lets lets [] := ⟨fun x hx => by simp [hx], fun x hx => hx⟩
  exact passE e lets [] [] h h

theorem hom_letrec (n : Nat) (lets : List String) : (bs : List (String × E)) → Hom id (Spec.Dlet.letrec n lets bs) (initLetrec n lets bs)
  | [] => hom_ret id ()
  | (x, e) :: rest => by
    intro s
    simp only [Spec.Dlet.letrec, initLetrec]
    have he : (mapSt s).env x = (s.env x).map mapV := rfl
    rw [he]
    cases s.env x with
    | some w => rfl
    | none =>
      have hc := hom_call n (.fn [] [] [] (.cons (.ret e) .nil) [] ⟨true, lets⟩) []
      simp only [mapV, mapVs, resSs, resS, List.map_nil] at hc
      rw [letlikeE_res]
      exact hom_bind hc (fun v => hom_bind (hom_newVar x v) fun _ => hom_letrec n lets rest) s

/-! ## The definition -/

theorem simple_passE {lets : List String} : (e : E) → (n1 n2 : List String) → Simple lets e → nameE lets n2 (assignE lets n1 e) = e
  | .int _, _, _, _ => rfl
  | .var x, n1, n2, h => by simp only [assignE, nameE]; rw [if_neg fun h' => h h'.1]
  | .sub a b, n1, n2, h => by simp only [assignE, nameE, simple_passE a n1 n2 h.1, simple_passE b n1 n2 h.2]
  | .show e, n1, n2, h => by simp only [assignE, nameE, simple_passE e n1 n2 h]
  | .walrus x e, n1, n2, h => by
    simp only [assignE]
    rw [if_neg fun h' => h.1 h'.1]
    simp only [nameE, simple_passE e n1 n2 h.2]

theorem simple_passEs {lets : List String} : (es : Es) → (n1 n2 : List String) → SimpleAll lets es → nameEs lets n2 (assignEs lets n1 es) = es
  | .nil, _, _, _ => rfl
  | .cons e es, n1, n2, h => by simp only [assignEs, nameEs, simple_passE e n1 n2 h.1, simple_passEs es n1 n2 h.2]

/-- The decorated function. -/
theorem letlike_res {p : Prog} (h : CalmProg p) (lets : List String) (hl : lets = p.bindings.map (·.1)) :
    letlike lets (.fdef p.name p.params p.defaults p.globals p.body) =
      .fdef p.name p.params p.defaults p.globals
        (resSs (without lets (p.name :: p.params ++ p.globals)) (without lets (p.name :: p.params ++ p.globals)) p.body) := by
  subst hl
  obtain ⟨hb, hg, hd, _⟩ := h
  have hf : Fits (p.bindings.map (·.1)) (without (p.bindings.map (·.1)) (p.name :: p.params ++ p.globals))
      (without (p.bindings.map (·.1)) (p.name :: p.params ++ p.globals)) false ⟨[] ++ p.name :: p.params, [], p.globals⟩ := by
    refine ⟨⟨fun x hx => ?_, fun x hx => (mem_without.mp hx).1⟩, fun x hx => (mem_without.mp hx).1, fun _ x hx => ?_⟩
    · rw [mem_without]; simp [Scope.names, hx]
    · rw [mem_without]; simp [hx]
      grind
  have := scopedBody_res p.body false _ _ _ _ hb hf hf (fun h => ⟨fun x hx hn => hg h x hn hx, fun x hx hn => hg h x hn hx⟩)
  simp only [letlike, scopedTransform, scopedS, simple_passEs _ _ _ hd]
  rw [this]

/-- The definition, with the defaults evaluated before the let variables are made. -/
def decorate' (n : Nat) (p : Prog) : Spec.Dlet.Run Unit :=
  bind (if p.recursive then ret [] else Spec.Dlet.evalBindings n p.bindings) fun vs =>
  bind (Spec.Dlet.evalEs n false [] [] p.defaults) fun ds =>
  bind Spec.Dlet.noVars fun _ =>
  bind (if p.recursive then Spec.Dlet.letrec n (p.bindings.map (·.1)) p.bindings else Spec.Dlet.newVars vs) fun _ =>
  if p.block then bind (Spec.Dlet.call n (V.fn p.params ds p.globals p.body [] ⟨true, without (p.bindings.map (·.1)) (p.name :: p.params ++ p.globals)⟩) [])
    fun v => store p.name v []
  else store p.name (V.fn p.params ds p.globals p.body [] ⟨true, without (p.bindings.map (·.1)) (p.name :: p.params ++ p.globals)⟩) []

theorem hom_decorate {p : Prog} (h : CalmProg p) (n : Nat) : Hom id (decorate' n p) (decorate n p) := by
  unfold decorate
  simp only [letlike_res h _ rfl]
  have hds := hom_evalEs n false [] [] p.defaults
  rw [resEs_nil] at hds
  refine hom_bind (f := (·.map fun p => (p.1, mapV p.2))) ?_ fun vs => hom_bind hds fun ds => hom_bind hom_noVars fun _ =>
    hom_bind (f := id) ?_ fun _ => ?_
  · split
    · exact hom_ret (·.map fun p : String × V Seen => (p.1, mapV p.2)) []
    · exact hom_evalBindings n _
  · split
    · exact hom_letrec n _ _
    · exact hom_newVars vs
  · have he : ∀ k, mapV (.fn p.params ds p.globals p.body [] k) = .fn p.params (ds.map mapV) p.globals (resSs k.vis k.vis p.body) [] k.inside := by
      intro k; rw [mapV, mapVs_eq]
    split
    · refine hom_bind (f := mapV) ?_ fun v => hom_store p.name v []
      have := hom_call n (.fn p.params ds p.globals p.body [] ⟨true, without (p.bindings.map (·.1)) (p.name :: p.params ++ p.globals)⟩) []
      rw [he] at this
      exact this
    · have := hom_store p.name (.fn p.params ds p.globals p.body [] ⟨true, without (p.bindings.map (·.1)) (p.name :: p.params ++ p.globals)⟩) []
      rw [he] at this
      exact this

/-! ## The order -/

abbrev withEnv (s : St Seen) (e : String → Option (V Seen)) : St Seen := { s with env := e }

/-- Nothing about let variables. -/
def Blind {α : Type} (m m' : M Seen α) : Prop := ∀ s e, m (withEnv s e) = ((m' s).1, withEnv (m' s).2 e)

theorem blind_bind {α β : Type} {m m' : M Seen α} {k k' : α → M Seen β} (hm : Blind m m') (hk : ∀ a, Blind (k a) (k' a)) :
    Blind (bind m k) (bind m' k') := by
  intro s e
  unfold Eff.bind
  rw [hm s e]
  rcases m' s with ⟨r, s'⟩
  cases r with
  | error _ => rfl
  | ok a => exact hk a s' e

theorem blind_evalE {lets : List String} : (n : Nat) → (e : E) → Simple lets e → Blind (Spec.Dlet.evalE n true lets [] e) (Spec.Dlet.evalE n false [] [] e)
  | 0, e, _ => fun _ _ => by cases e <;> rfl
  | n + 1, e, h => by
    cases e with
    | int _ => exact fun _ _ => rfl
    | var x =>
      intro s e
      have h : x ∉ lets := h
      simp only [Spec.Dlet.evalE, if_neg h, List.not_mem_nil, if_false, lookup, getGlobal]
      cases s.globals x <;> rfl
    | sub a b =>
      refine blind_bind (blind_evalE n a h.1) fun v => blind_bind (blind_evalE n b h.2) fun w => ?_
      intro s e; cases v <;> cases w <;> rfl
    | «show» e =>
      refine blind_bind (blind_evalE n e h) fun v => ?_
      intro s e; cases v <;> rfl
    | walrus x e =>
      simp only [Spec.Dlet.evalE, if_neg h.1, List.not_mem_nil, if_false]
      exact blind_bind (blind_evalE n e h.2) fun v => blind_bind (fun _ _ => rfl) fun _ _ _ => rfl
    | lam ps e => exact h.elim
    | call f args => exact h.elim
    | envget x => exact h.elim
    | envset x e => exact h.elim

theorem blind_evalEs {lets : List String} : (n : Nat) → (es : Es) → SimpleAll lets es →
    Blind (Spec.Dlet.evalEs n true lets [] es) (Spec.Dlet.evalEs n false [] [] es)
  | 0, es, _ => fun _ _ => by cases es <;> rfl
  | _ + 1, .nil, _ => fun _ _ => rfl
  | n + 1, .cons e es, h => blind_bind (blind_evalE n e h.1) fun _ => blind_bind (blind_evalEs n es h.2) fun _ _ _ => rfl

/-- The let variables, as a function. -/
def varsOf (e : String → Option (V Seen)) : List (String × V Seen) → String → Option (V Seen)
  | [] => e
  | (x, v) :: rest => varsOf (put e x (some v)) rest

theorem newVars_ok : (vs : List (String × V Seen)) → (s : St Seen) → (vs.map (·.1)).Nodup → (∀ x ∈ vs.map (·.1), s.env x = none) →
    Spec.Dlet.newVars vs s = (.ok (), withEnv s (varsOf s.env vs))
  | [], _, _, _ => rfl
  | (x, v) :: rest, s, hn, he => by
    have h1 : Spec.Dlet.newVar x v s = (.ok (), withEnv s (put s.env x (some v))) := by
      unfold Spec.Dlet.newVar
      rw [he x (by simp)]
    simp only [Spec.Dlet.newVars]
    unfold Eff.bind
    rw [h1]
    simp only [List.map_cons, List.nodup_cons] at hn
    refine (newVars_ok rest _ hn.2 fun y hy => ?_).trans rfl
    have : y ≠ x := fun h => hn.1 (h ▸ hy)
    simp only [put, if_neg this]
    exact he y (List.mem_cons_of_mem _ hy)

theorem evalBindings_fst (n : Nat) : (bs : List (String × E)) → (s s' : St Seen) → (vs : List (String × V Seen)) →
    Spec.Dlet.evalBindings n bs s = (.ok vs, s') → vs.map (·.1) = bs.map (·.1)
  | [], s, s', vs, h => by cases h; rfl
  | (x, e) :: rest, s, s', vs, h => by
    simp only [Spec.Dlet.evalBindings] at h
    unfold Eff.bind at h
    split at h
    · rename_i v s1 _
      simp only [] at h
      split at h
      · rename_i vs' s2 h2
        cases h
        simp only [List.map_cons, evalBindings_fst n rest _ _ vs' h2]
      · cases h
    · cases h

/-- What can be seen from outside. -/
def Same (a b : Except Err Unit × St Seen) : Prop := a = b ∨ ∃ e, a.1 = .error e ∧ b.1 = .error e ∧ a.2.out = b.2.out

theorem decorate_same {p : Prog} (h : CalmProg p) (n : Nat) (s : St Seen) : Same (Spec.Dlet.decorate (n + 1) p s) (decorate' (n + 1) p s) := by
  obtain ⟨_, _, hd, hn⟩ := h
  by_cases hnil : p.defaults = .nil
  · left
    unfold Spec.Dlet.decorate decorate'
    simp only [hnil]
    cases p.recursive with
    | true =>
      simp only [if_true]
      unfold Eff.bind
      simp only [Spec.Dlet.noVars, Spec.Dlet.evalEs, ret]
    | false =>
      simp only [Bool.false_eq_true, if_false]
      unfold Eff.bind
      simp only [Spec.Dlet.noVars, Spec.Dlet.evalEs, ret]
      rcases Spec.Dlet.evalBindings (n + 1) p.bindings s with ⟨r, s1⟩
      cases r with
      | error e => rfl
      | ok vs => rfl
  · obtain ⟨hr, hnd⟩ := hn.resolve_left hnil
    unfold Spec.Dlet.decorate decorate'
    simp only [hr, Bool.false_eq_true, if_false]
    unfold Eff.bind
    cases hb : Spec.Dlet.evalBindings (n + 1) p.bindings s with
    | mk r s1 =>
      cases r with
      | error e => exact .inl rfl
      | ok vs =>
        have hvs := evalBindings_fst _ _ _ _ _ hb
        have hnew : ∀ s' : St Seen, Spec.Dlet.newVars vs (withEnv s' fun _ => none) = (.ok (), withEnv s' (varsOf (fun _ => none) vs)) := by
          intro s'
          exact newVars_ok vs _ (by rw [hvs]; exact hnd) fun _ _ => rfl
        simp only [Spec.Dlet.noVars]
        rw [hnew s1]
        simp only []
        rw [blind_evalEs (n + 1) p.defaults hd s1]
        rcases Spec.Dlet.evalEs (n + 1) false [] [] p.defaults s1 with ⟨r, s2⟩
        cases r with
        | error e => exact .inr ⟨e, rfl, rfl, rfl⟩
        | ok ds =>
          left
          simp only []
          rw [hnew s2]

/-! ## The run -/

theorem run_spec {p : Prog} (h : CalmProg p) (n : Nat) : run n p = Spec.Dlet.run n p := by
  cases n with
  | zero => cases hb : p.before <;> simp only [run, Spec.Dlet.run, hb] <;> rfl
  | succ n =>
    have hbefore := hom_exec (n + 1) false [] [] [] p.before
    have hafter := hom_exec (n + 1) false [] [] [] p.after
    rw [resSs_nil] at hbefore hafter
    have hall : Hom id (bind (Spec.Dlet.exec (n + 1) false [] [] [] p.before) fun _ => bind (decorate' (n + 1) p) fun _ =>
        bind (Spec.Dlet.exec (n + 1) false [] [] [] p.after) fun _ => ret ())
        (bind (exec (n + 1) false [] p.before) fun _ => bind (decorate (n + 1) p) fun _ => bind (exec (n + 1) false [] p.after) fun _ => ret ()) :=
      hom_bind hbefore fun _ => hom_bind (hom_decorate h (n + 1)) fun _ => hom_bind hafter fun _ => hom_ret id ()
    have hall := hall ⟨fun _ => none, [], fun _ => none, []⟩
    have hs : mapSt ⟨fun _ => none, [], fun _ => none, []⟩ = ⟨fun _ => none, [], fun _ => none, []⟩ := rfl
    rw [hs] at hall
    unfold run Spec.Dlet.run
    rw [hall]
    generalize (⟨fun _ => none, [], fun _ => none, []⟩ : St Seen) = s0
    unfold Eff.bind
    rcases Spec.Dlet.exec (n + 1) false [] [] [] p.before s0 with ⟨r, s1⟩
    cases r with
    | error e => rfl
    | ok v =>
      simp only []
      rcases decorate_same h n s1 with hd | ⟨e, h1, h2, h3⟩
      · rw [hd]
        rcases decorate' (n + 1) p s1 with ⟨r, s2⟩
        cases r with
        | error e => rfl
        | ok _ =>
          simp only []
          rcases Spec.Dlet.exec (n + 1) false [] [] [] p.after s2 with ⟨r, s3⟩
          cases r <;> rfl
      · cases hx : Spec.Dlet.decorate (n + 1) p s1 with
        | mk r s2 =>
          cases hy : decorate' (n + 1) p s1 with
          | mk r' s2' =>
            rw [hx] at h1 h3
            rw [hy] at h2 h3
            simp only at h1 h2 h3
            subst h1 h2
            simp only [mapSt, Except.map, h3]

end Unpy.Dlet.Lemmas
