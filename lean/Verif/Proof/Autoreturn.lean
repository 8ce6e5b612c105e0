import Verif.Proof.StSim
import Verif.Model.Autoreturn
import Verif.Spec.Autoreturn
/-!
# Proofs about `with autoreturn`
-/
namespace Unpy.Tail.Auto
open Unpy.Tail Unpy.Tail.Spec Unpy.Tail.StSim
open Unpy.PyExpr (M ret raise bind Err)
variable {β ω ε : Type}

def C : CloRel β := fun _ _ b b' => noBranchDefs .last b = true ∧ b' = tailBody (autoSs b)

theorem lamRel : LamRel (β := β) C := fun _ _ => ⟨rfl, rfl⟩

variable {P : World β ω ε} {N : Nat} {ap ap' : Ap β ω ε}

/-! ## Statements not in tail position -/

mutual
theorem noBranch_no : ∀ {pos : TailPos} {t : St β}, noBranchDef pos t = true → noBranchDef .no t = true
  | pos, .ret _, _ => rfl
  | pos, .expr _, _ => rfl
  | pos, .assign _ _, _ => rfl
  | pos, .ite _ b₁ b₂, h => by
    simp only [noBranchDef, Bool.and_eq_true] at h ⊢
    exact ⟨noBranches_no h.1, noBranches_no h.2⟩
  | pos, .while _ b, h => h
  | pos, .defn .., h => by
    simp only [noBranchDef, Bool.and_eq_true] at h ⊢
    exact ⟨rfl, h.2⟩
  | pos, .tryx b hh hd o f, h => by
    simp only [noBranchDef, Bool.and_eq_true] at h ⊢
    refine ⟨⟨⟨?_, noBranches_no h.1.1.2⟩, noBranches_no h.1.2⟩, h.2⟩
    have := h.1.1.1
    by_cases ho : o.isEmpty
    · simp only [ho, if_true] at this ⊢; exact noBranches_no this
    · simpa [ho] using this

theorem noBranches_no : ∀ {pos : TailPos} {ts : List (St β)}, noBranchDefs pos ts = true → noBranchDefs .no ts = true
  | _, [], _ => rfl
  | _, [t], h => noBranch_no (t := t) h
  | _, t :: t' :: ts, h => by
    simp only [noBranchDefs, Bool.and_eq_true] at h ⊢
    exact ⟨h.1, noBranches_no h.2⟩
end

theorem noBranches_cons {t : St β} {ts : List (St β)} (h : noBranchDefs .no (t :: ts) = true) :
    noBranchDef .no t = true ∧ noBranchDefs .no ts = true := by
  cases ts with
  | nil => exact ⟨h, rfl⟩
  | cons t' ts => simpa only [noBranchDefs, Bool.and_eq_true] using h

mutual
theorem exec_sim (h : ApRel C ap ap') : ∀ (t : St β) (ρ ρ' : Env β), EnvRel C ρ ρ' → noBranchDef .no t = true →
    MRel C (FRel C) (exec P N ap ρ t) (exec P N ap' ρ' (autoS t))
  | .ret none, _, _, _, _ => MRel.ret (.ret .non)
  | .ret (some e), ρ, ρ', hρ, _ => MRel.bind (eval_sim lamRel h e ρ ρ' hρ) fun _ _ hv => MRel.ret (.ret hv)
  | .expr e, ρ, ρ', hρ, _ => MRel.bind (eval_sim lamRel h e ρ ρ' hρ) fun _ _ _ => MRel.ret .next
  | .assign x e, ρ, ρ', hρ, _ => MRel.bind (eval_sim lamRel h e ρ ρ' hρ) fun _ _ hv => MRel.bind (store_sim hρ x hv)
      fun _ _ _ => MRel.ret .next
  | .ite c b₁ b₂, ρ, ρ', hρ, hok => by
    simp only [noBranchDef, Bool.and_eq_true] at hok
    exact MRel.bind (eval_sim lamRel h c ρ ρ' hρ) fun _ _ hv => MRel.ite (by rw [truthy_sim hv])
      (execs_sim h b₁ ρ ρ' hρ hok.1) (execs_sim h b₂ ρ ρ' hρ hok.2)
  | .while c b, ρ, ρ', hρ, hok => while_sim (eval_sim lamRel h c ρ ρ' hρ) (execs_sim h b ρ ρ' hρ hok) N
  | .defn tr x ps ls b, ρ, ρ', hρ, hok => by
    simp only [noBranchDef, Bool.and_eq_true] at hok
    exact MRel.bind (store_sim hρ x (.clo ⟨hok.2, rfl⟩ hρ)) fun _ _ _ => MRel.ret .next
  | .tryx b hh hd o f, ρ, ρ', hρ, hok => by
    simp only [noBranchDef, Bool.and_eq_true, TailPos.inside, ite_self] at hok
    exact finally_sim (except_sim (execs_sim h b ρ ρ' hρ hok.1.1.1) (execs_sim h hd ρ ρ' hρ hok.1.1.2)
      (execs_sim h o ρ ρ' hρ hok.1.2)) (execs_sim h f ρ ρ' hρ hok.2)

theorem execs_sim (h : ApRel C ap ap') : ∀ (ts : List (St β)) (ρ ρ' : Env β), EnvRel C ρ ρ' → noBranchDefs .no ts = true →
    MRel C (FRel C) (execs P N ap ρ ts) (execs P N ap' ρ' (autoSs ts))
  | [], _, _, _, _ => MRel.ret .next
  | t :: ts, ρ, ρ', hρ, hok =>
    seq_sim (exec_sim h t ρ ρ' hρ (noBranches_cons hok).1) (execs_sim h ts ρ ρ' hρ (noBranches_cons hok).2)
end

/-! ## Statements in tail position -/

theorem tailS_single {t : St β} (h : noBranchDef .branch t = true) : ∃ u, tailS (autoS t) = [u] := by
  cases t <;> simp [autoS, tailS, noBranchDef] at h ⊢

theorem tailLast_body : ∀ {ts : List (St β)}, noBranchDefs .branch ts = true → tailLast (autoSs ts) = tailBody (autoSs ts)
  | [], _ => by simp only [autoSs, tailLast, tailBody]
  | [t], h => by
    obtain ⟨u, hu⟩ := tailS_single (t := t) h
    simp only [autoSs, tailLast, tailBody, hu]
  | t :: t' :: ts, h => by
    simp only [noBranchDefs, Bool.and_eq_true] at h
    have := tailLast_body h.2
    simp only [autoSs] at this
    simp only [autoSs, tailLast, tailBody, this]

theorem autoSs_empty (o : List (St β)) : (autoSs o).isEmpty = o.isEmpty := by
  cases o <;> rfl

theorem inside_eq {pos : TailPos} (h : pos ≠ .no) : pos.inside = .branch := by
  cases pos <;> first | rfl | exact absurd rfl h

mutual
theorem valExec_sim (h : ApRel C ap ap') : ∀ (t : St β) (ρ ρ' : Env β) (pos : TailPos), pos ≠ .no → EnvRel C ρ ρ' →
    noBranchDef pos t = true → MRel C (FRel C) (valExec P N ap ρ t) (execs P N ap' ρ' (tailS (autoS t)))
  | .ret e, ρ, ρ', _, _, hρ, _ => by
    have := exec_sim (P := P) (N := N) h (.ret e) ρ ρ' hρ rfl
    simp only [autoS, tailS, valExec, execs_single]
    exact this
  | .expr e, ρ, ρ', _, _, hρ, _ => by
    simp only [autoS, tailS, valExec, execs_single, exec]
    exact MRel.bind (eval_sim lamRel h e ρ ρ' hρ) fun _ _ hv => MRel.ret (.ret hv)
  | .assign x e, ρ, ρ', _, _, hρ, _ => by
    have := exec_sim (P := P) (N := N) h (.assign x e) ρ ρ' hρ rfl
    simp only [autoS, tailS, valExec, execs_single]
    exact this
  | .ite c b₁ b₂, ρ, ρ', pos, hp, hρ, hok => by
    simp only [noBranchDef, Bool.and_eq_true, inside_eq hp] at hok
    simp only [autoS, tailS, valExec, execs_single, exec]
    exact MRel.bind (eval_sim lamRel h c ρ ρ' hρ) fun _ _ hv => MRel.ite (by rw [truthy_sim hv])
      (valExecs_sim h b₁ ρ ρ' hρ hok.1) (valExecs_sim h b₂ ρ ρ' hρ hok.2)
  | .while c b, ρ, ρ', _, _, hρ, hok => by
    have := exec_sim (P := P) (N := N) h (.while c b) ρ ρ' hρ hok
    simp only [autoS, tailS, valExec, execs_single]
    exact this
  | .defn tr x ps ls b, ρ, ρ', _, _, hρ, hok => by
    have := exec_sim (P := P) (N := N) h (.defn tr x ps ls b) ρ ρ' hρ (noBranch_no hok)
    simp only [noBranchDef, Bool.and_eq_true] at hok
    simp only [autoS, tailS, valExec]
    rw [show [St.defn tr x ps ls (tailBody (autoSs b)), .ret (some (.name x))] =
      [St.defn tr x ps ls (tailBody (autoSs b))] ++ [.ret (some (.name x))] from rfl, execs_append, execs_single, execs_single]
    intro s s' hs
    have hst := store_sim (ω := ω) (ε := ε) hρ x (VRel.clo (C := C) (tr := tr) (ps := ps) (ls := ls)
      ⟨hok.2, rfl⟩ hρ) s s' hs
    simp only [exec, PyExpr.bind, eval]
    rcases hm : store ρ x (.clo tr ps ls b ρ) s with _ | ⟨_ | a, t⟩ <;>
      rcases hm' : store ρ' x (.clo tr ps ls (tailBody (autoSs b)) ρ') s' with _ | ⟨_ | a', t'⟩ <;>
      simp only [hm, hm'] at hst ⊢
    · exact hst
    · exact MRel.bind (load_sim hρ x) (fun _ _ hv => MRel.ret (.ret hv)) t t' hst.2
  | .tryx b hh hd o f, ρ, ρ', pos, hp, hρ, hok => by
    simp only [noBranchDef, Bool.and_eq_true, inside_eq hp] at hok
    simp only [autoS, tailS, valExec, execs_single, exec, autoSs_empty]
    refine finally_sim (except_sim ?_ (valExecs_sim h hd ρ ρ' hρ hok.1.1.2) (valExecs_sim h o ρ ρ' hρ hok.1.2))
      (execs_sim h f ρ ρ' hρ hok.2)
    have hb := hok.1.1.1
    by_cases ho : o.isEmpty = true
    · simp only [ho, if_true] at hb ⊢
      exact valExecs_sim h b ρ ρ' hρ hb
    · simp only [ho, if_false] at hb ⊢
      exact execs_sim h b ρ ρ' hρ hb

theorem valExecs_sim (h : ApRel C ap ap') : ∀ (ts : List (St β)) (ρ ρ' : Env β), EnvRel C ρ ρ' →
    noBranchDefs .branch ts = true → MRel C (FRel C) (valExecs P N ap ρ ts) (execs P N ap' ρ' (tailLast (autoSs ts)))
  | [], _, _, _, _ => by simp only [autoSs, tailLast]; exact MRel.ret .next
  | [t], ρ, ρ', hρ, hok => by
    rw [tailLast_body hok]
    exact valExec_sim h t ρ ρ' .branch (by decide) hρ hok
  | t :: t' :: ts, ρ, ρ', hρ, hok => by
    simp only [noBranchDefs, Bool.and_eq_true] at hok
    have := valExecs_sim h (t' :: ts) ρ ρ' hρ hok.2
    simp only [autoSs] at this
    simp only [autoSs, tailLast]
    exact seq_sim (exec_sim h t ρ ρ' hρ hok.1) this
end

theorem body_sim (h : ApRel C ap ap') : ∀ (ts : List (St β)) (ρ ρ' : Env β), EnvRel C ρ ρ' →
    noBranchDefs .last ts = true → MRel C (FRel C) (valExecs P N ap ρ ts) (execs P N ap' ρ' (tailBody (autoSs ts)))
  | [], _, _, _, _ => MRel.ret .next
  | [t], ρ, ρ', hρ, hok => valExec_sim h t ρ ρ' .last (by decide) hρ hok
  | t :: t' :: ts, ρ, ρ', hρ, hok => by
    simp only [noBranchDefs, Bool.and_eq_true] at hok
    exact seq_sim (exec_sim h t ρ ρ' hρ hok.1) (body_sim h (t' :: ts) ρ ρ' hρ hok.2)

theorem call_sim : ∀ d, ApRel C (valCall P N d) (plain P N d)
  | 0 => fun _ _ _ _ _ _ => MRel.none
  | d + 1 => by
    intro f f' as as' hf has
    cases hf with
    | ext k => exact callExt_sim has
    | clo hc hρ =>
      obtain ⟨hok, rfl⟩ := hc
      exact enter_sim hρ has fun ρ ρ' hρ => body_sim (call_sim d) _ ρ ρ' hρ hok
    | _ => exact MRel.raise

/-! ## Whole programs -/

theorem start_env {ρ : Env β} {s : State β ω} (h : Start ρ s) : EnvRel C ρ ρ := by
  intro x
  rcases hx : ρ x with _ | a | v
  · exact .none
  · exact .cell a
  · exact absurd hx (h.1 x v)

theorem start_rel {s : State β ω} (h : ∀ c ∈ s.heap, ∀ v, c = some v → Simple v) : SRel C s s := by
  refine ⟨?_, rfl⟩
  obtain ⟨hp, w⟩ := s
  simp only at h ⊢
  induction hp with
  | nil => exact .nil
  | cons c hp ih =>
    refine .cons ?_ (ih fun c hc => h c (List.mem_cons_of_mem _ hc))
    rcases c with _ | v
    · exact .none
    · have := h _ List.mem_cons_self v rfl
      cases v <;> simp only [Simple] at this
      · exact .some (.base _)
      · exact .some .non
      · exact .some .ff
      · exact .some (.ext _)

mutual
theorem obs_rel : ∀ {v v' : Val β}, VRel C v v' → obs v = obs v'
  | _, _, .base _ => rfl
  | _, _, .non => rfl
  | _, _, .ff => rfl
  | _, _, .ext _ => rfl
  | _, _, .lst h => by simp only [obs, obss_rel h]
  | _, _, .clo _ _ => rfl
  | _, _, .jmp _ _ => rfl

theorem obss_rel : ∀ {vs vs' : List (Val β)}, VsRel C vs vs' → obss vs = obss vs'
  | _, _, .nil => rfl
  | _, _, .cons h hs => by simp only [obss, obs_rel h, obss_rel hs]
end

theorem heap_obs {h h' : List (Option (Val β))} (hr : HRel C h h') :
    h.map (Option.map obs) = h'.map (Option.map obs) := by
  induction hr with
  | nil => rfl
  | cons hc _ ih =>
    simp only [List.map_cons, ih]
    cases hc with
    | none => rfl
    | some hv => simp [obs_rel hv]

theorem sameEnd_of {m m' : M (State β ω) ε (Flow (Val β))} (h : MRel C (FRel C) m m') {s : State β ω} (hs : SRel C s s) :
    SameEnd (m s) (m' s) := by
  have := h s s hs
  rcases hm : m s with _ | ⟨_ | a, t⟩ <;> rcases hm' : m' s with _ | ⟨_ | a', t'⟩ <;> simp only [hm, hm', SameEnd] at this ⊢
  · exact ⟨this.1, heap_obs this.2.1, this.2.2⟩
  · refine ⟨?_, heap_obs this.2.1, this.2.2⟩
    cases this.1 with
    | next => trivial
    | ret hv => exact obs_rel hv

end Unpy.Tail.Auto
