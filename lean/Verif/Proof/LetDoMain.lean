import Verif.Proof.LetDoSim
/-!
# The expansion does what the source means
-/
namespace Unpy.LetDo
open Unpy.PyExpr
open Unpy.Spec.LetDo (reads readsAny assigns assignsAny Usable Wf Wfs WfItems)

variable {β ω ε : Type}

/-- The environments in scope are not bound again in `t`. -/
def Fr (Γ : Sc) (t : Ex β) : Prop := ∀ x e k, Γ x = some (e, k) → binds e t = false
def Frs (Γ : Sc) (ts : List (Ex β)) : Prop := ∀ x e k, Γ x = some (e, k) → bindsAny e ts = false

/-- With calls nesting at most `n` deep, an expansion does what its source means. -/
def Sim (P : World β ω ε) (n : Nat) : Prop :=
  ∀ (t t' : Ex β) (K : List Bool) (O : Nat → String → Prop) (Γ : Sc) (ρ : Name → Option (SRef β)) (ρ' : Name → Option (PVal β))
    (s : SSt β ω) (s' : PSt β ω), Wf P t → ExpR Γ Γ t t' → Uniq t' → Fr Γ t' → EnvRel P K Γ ρ ρ' → SRel P K O s s' →
    ResRel P O (VRel P) K (Spec.LetDo.eval P (Spec.LetDo.apply P n) ρ t s) (eval P (apply P n) ρ' t' s')

section
variable {P : World β ω ε}

theorem ResRel.bind' {O O' : Nat → String → Prop} {α α' γ γ' : Type} {Q : List Bool → α → α' → Prop}
    {Q' : List Bool → γ → γ' → Prop} {K : List Bool}
    {m : M (SSt β ω) ε α} {m' : M (PSt β ω) ε α'} {f : α → M (SSt β ω) ε γ} {f' : α' → M (PSt β ω) ε γ'}
    {s : SSt β ω} {s' : PSt β ω} (hO : ∀ a x, O a x → O' a x) (h : ResRel P O' Q K (m s) (m' s'))
    (hf : ∀ K' v v' s1 s1', Ext K K' → SRel P K' O' s1 s1' → Q K' v v' → ResRel P O Q' K' (f v s1) (f' v' s1')) :
    ResRel P O Q' K (PyExpr.bind m f s) (PyExpr.bind m' f' s') := by
  unfold PyExpr.bind
  rcases hm : m s with _ | ⟨_ | v, s1⟩ <;> rcases hm' : m' s' with _ | ⟨_ | v', s1'⟩ <;> rw [hm, hm'] at h <;>
    simp only [ResRel] at h ⊢
  · obtain ⟨h1, K2, h2, h3⟩ := h; exact ⟨h1, K2, h2, h3.weaken hO⟩
  · obtain ⟨K2, h2, h3, h4⟩ := h
    exact (hf K2 v v' s1 s1' h2 h3 h4).mono h2

/-! ## Calls -/

theorem papply_zero (f : PVal β) (as : List (PVal β)) : apply P 0 f as = fun _ => none := rfl
theorem papply_succ (m : Nat) (ps : List Name) (ds : List (PVal β)) (b : Ex β) (ρ : Name → Option (PVal β)) (as : List (PVal β)) :
    apply P (m + 1) (.clo ps ds b ρ) as = match params ps.length ds as with
      | some vs => eval P (apply P m) (extend ρ ps vs) b
      | none => raise (.py .TypeError) := rfl
theorem sapply_zero (f : SVal β) (as : List (SVal β)) : Spec.LetDo.apply P 0 f as = fun _ => none := rfl
theorem sapply_succ (m : Nat) (ps : List Name) (ds : List (SVal β)) (b : Ex β) (ρ : Name → Option (SRef β)) (as : List (SVal β)) :
    Spec.LetDo.apply P (m + 1) (.clo ps ds b ρ) as = match params ps.length ds as with
      | some vs => Spec.LetDo.eval P (Spec.LetDo.apply P m) (extend ρ ps (vs.map .val)) b
      | none => raise (.py .TypeError) := rfl

theorem apply_rel {n : Nat} (ih : ∀ m, n = m + 1 → Sim P m) {K : List Bool} {O : Nat → String → Prop} {ps : List Name}
    {ds : List (SVal β)} {b : Ex β} {ρ : Name → Option (SRef β)} {f' : PVal β}
    {as : List (SVal β)} {as' : List (PVal β)} {s : SSt β ω} {s' : PSt β ω}
    (hf : VRel P K (.clo ps ds b ρ) f') (ha : VRels P K as as') (hs : SRel P K O s s') :
    ResRel P O (VRel P) K (Spec.LetDo.apply P n (.clo ps ds b ρ) as s) (apply P n f' as' s') := by
  cases n with
  | zero => simp [sapply_zero, papply_zero, ResRel]
  | succ m =>
    cases hf with
    | clo h1 h2 h3 h4 h5 h6 h7 h8 h9 =>
      rename_i ds' b' ρ' Γ
      rcases params_rel ps.length h1 ha with ⟨e1, e2⟩ | ⟨vs, vs', e1, e2, hv, hl⟩
      · simp only [sapply_succ, papply_succ, e1, e2]; exact ResRel.raise hs
      · simp only [sapply_succ, papply_succ, e1, e2]
        have hgen : ∀ e, Name.gen e ∉ ps := by
          intro e he; obtain ⟨x, hx⟩ := h6 _ he; cases hx
        refine ih m rfl b b' K O (hide Γ ps) _ _ s s' h2 h3 h4 ?_ ?_ hs
        · intro x e k hx
          simp only [hide] at hx
          split at hx
          · cases hx
          · exact h5 x e k hx
        · refine ⟨?_, ?_, ?_⟩
          · intro x e k hx
            simp only [hide] at hx
            split at hx
            · cases hx
            · rename_i hp
              obtain ⟨hu, a, ha1, ha2, ha3⟩ := h7 x e k hx
              exact ⟨hu, a, by rw [extend_notMem hp]; exact ha1, by rw [extend_notMem (hgen e)]; exact ha2, ha3⟩
          · intro x hx
            by_cases hp : Name.user x ∈ ps
            · obtain ⟨v, w, hv1, hw1, _⟩ := extend_rel (ρ := ρ) (ρ' := ρ') hp hl hv
              exact .inr ⟨v, w, hv1, hw1⟩
            · simp only [hide, if_neg hp] at hx
              rw [extend_notMem hp, extend_notMem hp]
              exact h8 x hx
          · intro x v w hx hv1 hw1
            by_cases hp : Name.user x ∈ ps
            · obtain ⟨v2, w2, hv2, hw2, hr⟩ := extend_rel (ρ := ρ) (ρ' := ρ') hp hl hv
              rw [hv2] at hv1; rw [hw2] at hw1; cases hv1; cases hw1; exact hr
            · simp only [hide, if_neg hp] at hx
              rw [extend_notMem hp] at hv1 hw1
              exact h9 x v w hx hv1 hw1

theorem callVal_rel {n : Nat} (ih : ∀ m, n = m + 1 → Sim P m) {K : List Bool} {O : Nat → String → Prop} {f : SVal β} {f' : PVal β}
    {as : List (SVal β)} {as' : List (PVal β)} {s : SSt β ω} {s' : PSt β ω}
    (hf : VRel P K f f') (ha : VRels P K as as') (hs : SRel P K O s s') :
    ResRel P O (VRel P) K (Spec.LetDo.callVal P (Spec.LetDo.apply P n) f as s) (callVal P (apply P n) f' as' s') := by
  cases hf with
  | base => exact ResRel.raise hs
  | tup => exact ResRel.raise hs
  | lst => exact ResRel.raise hs
  | clo h1 h2 h3 h4 h5 h6 h7 h8 h9 =>
    exact apply_rel ih (.clo h1 h2 h3 h4 h5 h6 h7 h8 h9) ha hs
  | ext k =>
    simp only [Spec.LetDo.callVal, callVal, bases_rel ha]
    cases bases as' with
    | none => exact ResRel.raise hs
    | some bs =>
      simp only [hs.world]
      rcases P.call k bs s'.world with ⟨_ | b, w⟩
      · exact ⟨rfl, K, Ext.refl K, hs.len, hs.len', rfl, hs.rel, hs.pending⟩
      · exact ⟨K, Ext.refl K, ⟨hs.len, hs.len', rfl, hs.rel, hs.pending⟩, .base b⟩

theorem run_rel {n : Nat} (ih : ∀ m, n = m + 1 → Sim P m) {K : List Bool} {O : Nat → String → Prop} {Γ : Sc}
    {ρ : Name → Option (SRef β)} {ρ' : Name → Option (PVal β)} {e a : Nat} {t t' : Ex β} {s : SSt β ω} {s' : PSt β ω}
    (h1 : Wf P t) (h2 : ExpR Γ Γ t t') (h3 : Uniq t') (h4 : Fr Γ t')
    (h5 : EnvRel P K Γ ρ (extend ρ' [.gen e] [.env a])) (hs : SRel P K O s s') :
    ResRel P O (VRel P) K (Spec.LetDo.run (Spec.LetDo.apply P n) ρ t s)
      (apply P n (.clo [.gen e] [] t' ρ') [.env a] s') := by
  cases n with
  | zero => simp [Spec.LetDo.run, sapply_zero, papply_zero, ResRel]
  | succ m => exact ih m rfl t t' K O Γ _ _ s s' h1 h2 h3 h4 h5 hs

theorem over_env {K : List Bool} {Γ : Sc} {ρ : Name → Option (SRef β)} {ρ' : Name → Option (PVal β)} {xs : List String}
    {e a : Nat} {k : Bool} (h : EnvRel P K Γ ρ ρ') (hne : ∀ x e1 j, Γ x = some (e1, j) → e1 ≠ e) (ha : K[a]? = some k)
    (hx : ∀ x ∈ xs, Usable P x) :
    EnvRel P K (over Γ xs e k) (Spec.LetDo.scope ρ xs a) (extend ρ' [.gen e] [.env a]) := by
  refine ⟨?_, ?_, ?_⟩
  · intro x e1 j hj
    simp only [over] at hj
    split at hj
    · rename_i hm
      cases hj
      exact ⟨hx x hm, a, by simp [Spec.LetDo.scope, hm], by simp [extend], ha⟩
    · rename_i hm
      obtain ⟨hu, b, hb1, hb2, hb3⟩ := h.vars x e1 j hj
      refine ⟨hu, b, by simp [Spec.LetDo.scope, hm, hb1], ?_, hb3⟩
      simp [extend, hne x e1 j hj, hb2]
  · intro x hn
    simp only [over] at hn
    split at hn
    · cases hn
    · rename_i hm
      simpa [Spec.LetDo.scope, hm, extend] using h.pres x hn
  · intro x v w hn hv hw
    simp only [over] at hn
    split at hn
    · cases hn
    · rename_i hm
      simp only [Spec.LetDo.scope, if_neg hm] at hv
      exact h.vals x v w hn hv (by simpa [extend] using hw)

theorem over_fr {Γ : Sc} {xs : List String} {e : Nat} {k : Bool} {t : Ex β} (h : Fr Γ t) (hb : binds e t = false) :
    Fr (over Γ xs e k) t := by
  intro x e1 j hj
  simp only [over] at hj
  split at hj
  · cases hj; exact hb
  · exact h x e1 j hj

/-! ## Items of a `do` -/

theorem eval_meth {ap : PVal β → List (PVal β) → M (PSt β ω) ε (PVal β)} {ρ' : Name → Option (PVal β)} {e a : Nat} {mm : String}
    {x : String} {u : Ex β} (hm : mm = "set" ∨ mm = "_set") (h : ρ' (.gen e) = some (.env a)) :
    eval P ap ρ' (.call (.attr (.name (.gen e)) mm) [.str x, u]) =
      PyExpr.bind (eval P ap ρ' u) fun w => callMeth a mm [.str x, w] := by
  have hm' : mm = "set" ∨ mm = "_set" ∨ mm = "pop" ∨ P.classAttr mm = true := by
    rcases hm with h | h <;> simp [h]
  simp only [eval, evals, h, bind_ret_left, getAttr, if_pos hm', bind_assoc, callVal]

theorem setCode_rel {ap : PVal β → List (PVal β) → M (PSt β ω) ε (PVal β)} {K : List Bool} {O : Nat → String → Prop}
    {ρ' : Name → Option (PVal β)} {e a : Nat} {u : Ex β} {m : M (SSt β ω) ε (SVal β)} {s : SSt β ω} {s' : PSt β ω}
    (h : ResRel P O (VRel P) K (m s) (eval P ap ρ' u s')) (he : ρ' (.gen e) = some (.env a)) (ha : K[a]? = some true) :
    ∀ {xs : List String}, (∀ x ∈ xs, Usable P x) →
    ResRel P O (VRel P) K (PyExpr.bind m (fun v => PyExpr.bind (Spec.LetDo.putAll a v xs) fun _ => ret v) s)
      (eval P ap ρ' (setCode e xs u) s')
  | [], _ => by
    simp only [Spec.LetDo.putAll, bind_ret_left, setCode, List.foldr_nil]
    rw [bind_ret_right]; exact h
  | x :: xs, hx => by
    have ih := setCode_rel h he ha (xs := xs) (fun y hy => hx y (List.mem_cons_of_mem _ hy))
    have hsp : (PyExpr.bind m (fun v => PyExpr.bind (Spec.LetDo.putAll a v (x :: xs)) fun _ => ret v)) =
        PyExpr.bind (PyExpr.bind m (fun v => PyExpr.bind (Spec.LetDo.putAll a v xs) fun _ => ret v))
          (fun v => PyExpr.bind (Spec.LetDo.put a x (some v)) fun _ => ret v) := by
      simp only [Spec.LetDo.putAll, bind_assoc, bind_ret_left]
    have hpy : eval P ap ρ' (setCode e (x :: xs) u) = PyExpr.bind (eval P ap ρ' (setCode e xs u))
        fun w => callMeth a "_set" [.str x, w] := eval_meth (.inr rfl) he
    rw [hsp, hpy]
    refine ResRel.bind ih ?_
    intro K' v v' s1 s1' hK hs1 hv
    exact uset_rel hs1 (hK _ _ ha) (hx x (List.mem_cons_self)) hv

theorem binds_setCode {g e : Nat} {u : Ex β} : ∀ xs : List String, binds g (setCode e xs u) = binds g u
  | [] => rfl
  | x :: xs => by
    have := binds_setCode (g := g) (e := e) (u := u) xs
    simp only [setCode, List.foldr_cons] at this ⊢
    simp [binds, bindsAny, this]
theorem uniq_setCode {e : Nat} {u : Ex β} : ∀ {xs : List String}, Uniq (setCode e xs u) → Uniq u
  | [], h => h
  | x :: xs, h => by
    simp only [setCode, List.foldr_cons, Uniq, Uniqs, true_and, and_true] at h
    exact uniq_setCode (xs := xs) h

theorem pop_rel {K : List Bool} {O : Nat → String → Prop} {a : Nat} {x : String} {s : SSt β ω} {s' : PSt β ω}
    (hs : SRel P K O s s') (ha : K[a]? = some true) :
    ResRel P O (VRel P) K
      (PyExpr.bind (Spec.LetDo.getFrame a) (fun f => match f.vars x with
        | some v => PyExpr.bind (Spec.LetDo.put a x none) fun _ => ret v
        | none => raise (.py .KeyError)) s)
      (callMeth a "pop" [.str x] s') := by
  obtain ⟨f, e, hf, he, hk, hfin, hvars⟩ := hs.rel a true ha
  have hox : ¬ O a x := by
    intro ho
    obtain ⟨f1, e1, hf1, he1, h1, h2, h3⟩ := hs.pending a x ho
    rw [hf] at hf1; cases hf1
    rw [hk] at h1; cases h1
  have := hvars x
  cases hfv : f.vars x with
  | none =>
    rw [hfv] at this
    cases hev : e.vars x with
    | some _ => rw [hev] at this; cases this
    | none =>
      simp only [callMeth, PyExpr.bind, Spec.LetDo.getFrame, hf, getEnv, he, hfin rfl, hfv, hev]
      exact ResRel.raise hs
  | some u =>
    rw [hfv] at this
    cases hev : e.vars x with
    | none => rw [hev] at this; cases this
    | some w =>
      rw [hev] at this
      cases this with
      | some hv =>
        have hp := put_rel hs ha hf he (ORel.none (P := P) (K := K)) hox
        rw [hfin rfl] at hp
        simp only [callMeth, PyExpr.bind, Spec.LetDo.getFrame, hf, getEnv, he, hfin rfl, hfv, hev, put_eq hf, putEnv]
        exact ResRel.ret hp hv

theorem doLoop_rel {m : Nat} (ih : Sim P m) {O : Nat → String → Prop} {Γ : Sc}
    {ρ : Name → Option (SRef β)} {ρ' : Name → Option (PVal β)} {e a : Nat} (hne : ∀ x e1 j, Γ x = some (e1, j) → e1 ≠ e) :
    ∀ {tags : List Tag} {ts ls : List (Ex β)} {K : List Bool} {names : List String} {v : SVal β} {v' : PVal β}
      {s : SSt β ω} {s' : PSt β ω},
    WfItems P names tags ts → ExpItems Γ Γ e names tags ts ls → Uniqs ls → Frs Γ ls → bindsAny e ls = false →
    (∀ x ∈ names, Usable P x) → EnvRel P K Γ ρ ρ' → K[a]? = some true → VRel P K v v' → SRel P K O s s' →
    ResRel P O (VRel P) K (Spec.LetDo.doLoop (Spec.LetDo.apply P (m + 1)) ρ a names v tags ts s)
      (doLoop (apply P (m + 1)) a (ls.map fun b => .clo [.gen e] [] b ρ') v' s')
  | .loc xs :: tags, t :: ts, ls, K, names, v, v', s, s', hw, hx, hu, hf, hb, hna, hE, ha, hv, hs => by
    simp only [WfItems] at hw
    simp only [ExpItems] at hx
    obtain ⟨u, ls', rfl, hx1, hx2⟩ := hx
    simp only [Uniqs] at hu
    simp only [bindsAny, binds_setCode, Bool.or_eq_false_iff] at hb
    have hf1 : Fr Γ u := by
      intro x e1 j hj
      have := hf x e1 j hj
      simp only [bindsAny, binds_setCode, Bool.or_eq_false_iff] at this
      exact this.1
    have hf2 : Frs Γ ls' := by
      intro x e1 j hj
      have := hf x e1 j hj
      simp only [bindsAny, Bool.or_eq_false_iff] at this
      exact this.2
    have hx1' : ExpR (over Γ names e true) (over Γ names e true) t u := by
      refine expR_congr (fun _ _ => rfl) ?_ hx1
      intro x hxa
      simp only [over, List.mem_append]
      by_cases h1 : x ∈ names
      · simp [h1]
      · by_cases h2 : x ∈ xs
        · rw [(hw.1 x h2).2] at hxa; cases hxa
        · simp [h1, h2]
    have hstep : ResRel P O (VRel P) K
        (PyExpr.bind (Spec.LetDo.run (Spec.LetDo.apply P (m + 1)) (Spec.LetDo.scope ρ names a) t)
          (fun v => PyExpr.bind (Spec.LetDo.putAll a v xs) fun _ => ret v) s)
        (apply P (m + 1) (.clo [.gen e] [] (setCode e xs u) ρ') [.env a] s') := by
      refine setCode_rel (P := P) (ap := apply P m) (ρ' := extend ρ' [.gen e] [.env a]) ?_ (by simp [extend]) ha
        (fun x hx => (hw.1 x hx).1)
      exact ih t u K O (over Γ names e true) _ _ s s' hw.2.1 hx1' (uniq_setCode hu.1) (over_fr hf1 hb.1)
        (over_env hE hne ha hna) hs
    have hsp : Spec.LetDo.doLoop (Spec.LetDo.apply P (m + 1)) ρ a names v (.loc xs :: tags) (t :: ts) =
        PyExpr.bind (PyExpr.bind (Spec.LetDo.run (Spec.LetDo.apply P (m + 1)) (Spec.LetDo.scope ρ names a) t)
          (fun v => PyExpr.bind (Spec.LetDo.putAll a v xs) fun _ => ret v))
        (fun v => Spec.LetDo.doLoop (Spec.LetDo.apply P (m + 1)) ρ a (names ++ xs) v tags ts) := by
      simp only [Spec.LetDo.doLoop, bind_assoc, bind_ret_left]
    rw [hsp]
    simp only [List.map_cons, doLoop]
    refine ResRel.bind hstep ?_
    intro K' w w' s1 s1' hK hs1 hw1
    refine doLoop_rel ih hne hw.2.2 hx2 hu.2 hf2 hb.2 ?_ (hE.mono hK) (hK _ _ ha) hw1 hs1
    intro x hx
    rcases List.mem_append.1 hx with h | h
    · exact hna x h
    · exact (hw.1 x h).1
  | .del x :: tags, t :: ts, ls, K, names, v, v', s, s', hw, hx, hu, hf, hb, hna, hE, ha, hv, hs => by
    simp only [WfItems] at hw
    simp only [ExpItems] at hx
    obtain ⟨ls', rfl, hx2⟩ := hx
    simp only [Uniqs] at hu
    simp only [bindsAny, Bool.or_eq_false_iff] at hb
    have hf2 : Frs Γ ls' := by
      intro x e1 j hj
      have := hf x e1 j hj
      simp only [bindsAny, Bool.or_eq_false_iff] at this
      exact this.2
    have hsp : Spec.LetDo.doLoop (Spec.LetDo.apply P (m + 1)) ρ a names v (.del x :: tags) (t :: ts) =
        PyExpr.bind (PyExpr.bind (Spec.LetDo.getFrame a) (fun f => match f.vars x with
          | some v => PyExpr.bind (Spec.LetDo.put a x none) fun _ => ret v
          | none => raise (.py .KeyError)))
        (fun v => Spec.LetDo.doLoop (Spec.LetDo.apply P (m + 1)) ρ a (names.filter (· ≠ x)) v tags ts) := by
      simp only [Spec.LetDo.doLoop, bind_assoc]
      congr 1
      funext f
      cases f.vars x with
      | none => rfl
      | some v => simp only [bind_assoc, bind_ret_left]
    have hpy : apply P (m + 1) (.clo [.gen e] [] (.call (.attr (.name (.gen e)) "pop") [.str x]) ρ') [.env a] =
        callMeth (β := β) (ω := ω) (ε := ε) a "pop" [.str x] := by
      simp [papply_succ, params, eval, evals, extend, bind_ret_left, getAttr, callVal]
    rw [hsp]
    simp only [List.map_cons, doLoop]
    refine ResRel.bind (by rw [hpy]; exact pop_rel hs ha) ?_
    intro K' w w' s1 s1' hK hs1 hw1
    exact doLoop_rel ih hne hw.2.2 hx2 hu.2 hf2 hb.2 (fun y hy => hna y (List.mem_filter.1 hy).1) (hE.mono hK) (hK _ _ ha) hw1 hs1
  | [], _, ls, K, names, v, v', s, s', hw, hx, hu, hf, hb, hna, hE, ha, hv, hs => by
    simp only [ExpItems] at hx; subst hx
    simp only [Spec.LetDo.doLoop, List.map_nil, doLoop]; exact ResRel.ret hs hv
  | .loc _ :: _, [], ls, K, names, v, v', s, s', hw, hx, hu, hf, hb, hna, hE, ha, hv, hs => by
    simp only [ExpItems] at hx; subst hx
    simp only [Spec.LetDo.doLoop, List.map_nil, doLoop]; exact ResRel.ret hs hv
  | .del _ :: _, [], ls, K, names, v, v', s, s', hw, hx, hu, hf, hb, hna, hE, ha, hv, hs => by
    simp only [ExpItems] at hx; subst hx
    simp only [Spec.LetDo.doLoop, List.map_nil, doLoop]; exact ResRel.ret hs hv

/-! ## The bindings of a `let` or `letrec` -/

theorem evals_zip {ap : PVal β → List (PVal β) → M (PSt β ω) ε (PVal β)} {ρ' : Name → Option (PVal β)} :
    ∀ {xs : List String} {vs : List (Ex β)}, xs.length = vs.length →
    evals P ap ρ' (List.zipWith (fun x v => .tup [.str x, v]) xs vs) =
      PyExpr.bind (evals P ap ρ' vs) fun ws => ret (List.zipWith (fun x w => .tup [.str x, w]) xs ws)
  | [], [], _ => rfl
  | x :: xs, v :: vs, h => by
    simp only [List.zipWith_cons_cons, evals, eval, bind_ret_left, bind_assoc, evals_zip (xs := xs) (vs := vs) (by simpa using h)]
  | [], _ :: _, h => by simp at h
  | _ :: _, [], h => by simp at h

theorem evals_lam {ap : PVal β → List (PVal β) → M (PSt β ω) ε (PVal β)} {ρ' : Name → Option (PVal β)} {e : Nat} :
    ∀ {vs : List (Ex β)}, evals P ap ρ' (vs.map (.lam [.gen e] [])) = ret (vs.map fun b => .clo [.gen e] [] b ρ')
  | [] => rfl
  | v :: vs => by simp only [List.map_cons, evals, eval, bind_ret_left, evals_lam (vs := vs)]

theorem expRs_length {r w : Sc} : ∀ {ts ts' : List (Ex β)}, ExpRs r w ts ts' → ts.length = ts'.length
  | [], _, h => by simp only [ExpRs] at h; subst h; rfl
  | t :: ts, _, h => by
    simp only [ExpRs] at h
    obtain ⟨t', ts', rfl, _, h⟩ := h
    simp [expRs_length h]

theorem letLoop_eq {ap : PVal β → List (PVal β) → M (PSt β ω) ε (PVal β)} {a : Nat} :
    ∀ {xs : List String} {ws : List (PVal β)} {s' : PSt β ω} {e : EnvObj β}, xs.length = ws.length → xs.Nodup →
    (∀ x ∈ xs, Usable P x ∧ e.vars x = none) → s'.heap[a]? = some e → e.finalized = false →
    letLoop ap false a (List.zipWith (fun x w => .tup [.str x, w]) xs ws) s' =
      some (.ok (), { s' with heap := (s'.heap.set a
        (⟨fun y => ((match (xs.zip ws).lookup y with | some w => some w | none => e.vars y) : Option (PVal β)), false⟩ : EnvObj β)) })
  | [], [], s', e, _, _, _, he, hf => by
    have hla : a < s'.heap.length := by
      rcases Nat.lt_or_ge a s'.heap.length with h' | h'
      · exact h'
      · rw [List.getElem?_eq_none h'] at he; cases he
    simp only [List.zipWith_nil_left, letLoop, ret, List.zip_nil_left, List.lookup_nil]
    have : (⟨fun y => e.vars y, false⟩ : EnvObj β) = e := by cases e; simp_all
    rw [this]
    have hset : s'.heap.set a e = s'.heap := by
      refine List.ext_getElem? ?_
      intro i
      rw [List.getElem?_set]
      split
      · rename_i hi; subst hi; simp [hla]
        rw [List.getElem?_eq_getElem hla] at he
        injection he with he; exact he.symm
      · rfl
    rw [hset]
  | x :: xs, w :: ws, s', e, hl, hn, hx, he, hf => by
    have hla : a < s'.heap.length := by
      rcases Nat.lt_or_ge a s'.heap.length with h' | h'
      · exact h'
      · rw [List.getElem?_eq_none h'] at he; cases he
    obtain ⟨hx1, hx2⟩ := hx x (List.mem_cons_self)
    rw [List.nodup_cons] at hn
    have hset := setAttr_eq (P := P) (s' := s') (v := w) hx1 he (.inl hf)
    rw [List.zipWith_cons_cons]
    have ih := letLoop_eq (ap := ap) (a := a) (xs := xs) (ws := ws)
      (s' := { s' with heap := s'.heap.set a { e with vars := fun y => if y = x then some w else e.vars y } })
      (e := { e with vars := fun y => if y = x then some w else e.vars y }) (by simpa using hl) hn.2
      (by
        intro y hy
        have hyx : y ≠ x := fun h => hn.1 (h ▸ hy)
        refine ⟨(hx y (List.mem_cons_of_mem _ hy)).1, ?_⟩
        simp [hyx, (hx y (List.mem_cons_of_mem _ hy)).2]) (by simp [hla]) hf
    simp only [letLoop, PyExpr.bind, getEnv, he, hx2, Option.isSome, Bool.false_eq_true, if_false, ret, hset, ih]
    simp only [List.set_set, Option.some.injEq, Prod.mk.injEq, true_and]
    congr 2
    simp only [EnvObj.mk.injEq, and_true]
    funext y
    simp only [List.zip_cons_cons, List.lookup_cons]
    by_cases hy : y = x
    · subst hy
      have : (xs.zip ws).lookup y = none := by
        rw [List.lookup_eq_none_iff]
        intro p hp
        have := (List.of_mem_zip hp).1
        simp
        intro h
        exact hn.1 (h ▸ this)
      simp [this]
    · have hyb : (y == x) = false := by simp [hy]
      simp [hyb, hy]
  | [], _ :: _, _, _, h, _, _, _, _ => by simp at h
  | _ :: _, [], _, _, h, _, _, _, _ => by simp at h

theorem lookup_rel {K : List Bool} {x : String} : ∀ {xs : List String} {vs : List (SVal β)} {vs' : List (PVal β)}, VRels P K vs vs' →
    ORel P K ((xs.zip vs).lookup x) ((xs.zip vs').lookup x)
  | [], _, _, _ => .none
  | _ :: _, _, _, .nil => .none
  | y :: xs, _ :: _, _ :: _, .cons h hs => by
    simp only [List.zip_cons_cons, List.lookup_cons]
    cases x == y with
    | true => exact .some h
    | false => exact lookup_rel hs

theorem recLoop_rel {n : Nat} (ih : ∀ m, n = m + 1 → Sim P m) {O : Nat → String → Prop} {Γ : Sc}
    {ρ : Name → Option (SRef β)} {ρ' : Name → Option (PVal β)} {e a : Nat} :
    ∀ {xs : List String} {vs vs' : List (Ex β)} {K : List Bool} {s : SSt β ω} {s' : PSt β ω},
    xs.length = vs.length → xs.Nodup → (∀ x ∈ xs, Usable P x) → (∀ x, ¬ O a x) → Wfs P vs → ExpRs Γ Γ vs vs' → Uniqs vs' → Frs Γ vs' →
    EnvRel P K Γ ρ (extend ρ' [.gen e] [.env a]) → K[a]? = some false →
    SRel P K (fun b y => O b y ∨ (b = a ∧ y ∈ xs)) s s' →
    ResRel P O (fun _ _ _ => True) K (Spec.LetDo.recLoop (Spec.LetDo.apply P n) ρ a xs vs s)
      (letLoop (apply P n) true a
        (List.zipWith (fun x w => .tup [.str x, w]) xs (vs'.map fun b => .clo [.gen e] [] b ρ')) s')
  | [], [], vs', K, s, s', _, _, _, _, _, hx, _, _, _, _, hs => by
    simp only [ExpRs] at hx; subst hx
    exact ResRel.ret (hs.weaken fun b y h => .inl h) trivial
  | x :: xs, v :: vs, vs', K, s, s', hl, hn, hus, hoa, hw, hx, hu, hf, hE, ha, hs => by
    simp only [ExpRs] at hx
    obtain ⟨v', vs', rfl, hx1, hx2⟩ := hx
    simp only [Wfs] at hw
    simp only [Uniqs] at hu
    rw [List.nodup_cons] at hn
    have hf1 : Fr Γ v' := by
      intro x e1 j hj
      have := hf x e1 j hj
      simp only [bindsAny, Bool.or_eq_false_iff] at this
      exact this.1
    have hf2 : Frs Γ vs' := by
      intro x e1 j hj
      have := hf x e1 j hj
      simp only [bindsAny, Bool.or_eq_false_iff] at this
      exact this.2
    obtain ⟨f, ev, hfr, hev, hfd, hfx, hfin⟩ := hs.pending a x (.inr ⟨rfl, List.mem_cons_self⟩)
    have hevx : ev.vars x = none := by
      obtain ⟨f1, e1, h1, h2, _, _, h5⟩ := hs.rel a false ha
      rw [hfr] at h1; cases h1
      rw [hev] at h2; cases h2
      have := h5 x
      rw [hfx] at this
      cases he1 : ev.vars x with
      | none => rfl
      | some _ => rw [he1] at this; cases this
    have hpy : letLoop (apply P n) true a
        (List.zipWith (fun x w => .tup [.str x, w]) (x :: xs) ((v' :: vs').map fun b => .clo [.gen e] [] b ρ')) s' =
        PyExpr.bind (apply P n (.clo [.gen e] [] v' ρ') [.env a]) (fun v => PyExpr.bind (setAttr a x v) fun _ =>
          letLoop (apply P n) true a
            (List.zipWith (fun x w => .tup [.str x, w]) xs (vs'.map fun b => .clo [.gen e] [] b ρ'))) s' := by
      simp only [List.map_cons, List.zipWith_cons_cons, letLoop]
      have : ∀ g : EnvObj β → M (PSt β ω) ε Unit, PyExpr.bind (getEnv a) g s' = g ev s' := by
        intro g; simp only [PyExpr.bind, getEnv, hev]
      rw [this, hevx]
      rfl
    rw [hpy]
    simp only [Spec.LetDo.recLoop]
    refine ResRel.bind' (O' := fun b y => O b y ∨ (b = a ∧ y ∈ x :: xs)) (fun b y h => .inl h)
      (run_rel ih hw.1 hx1 hu.1 hf1 hE hs) ?_
    intro K' w w' s1 s1' hK hs1 hw1
    obtain ⟨f, ev, hfr, hev, hfd, hfx, hfin⟩ := hs1.pending a x (.inr ⟨rfl, List.mem_cons_self⟩)
    have hs2 := put_rel (x := x) (hs1.weaken (O' := fun b y => O b y ∨ (b = a ∧ y ∈ xs))
        (fun b y h => h.imp id (fun h => ⟨h.1, List.mem_cons_of_mem _ h.2⟩))) (hK _ _ ha) hfr hev (.some hw1)
        (by rintro (h | h)
            · exact hoa x h
            · exact hn.1 h.2)
    have hux := hus x (List.mem_cons_self)
    have e1 : PyExpr.bind (Spec.LetDo.put a x (some w)) (fun _ => Spec.LetDo.recLoop (Spec.LetDo.apply P n) ρ a xs vs) s1 =
        Spec.LetDo.recLoop (Spec.LetDo.apply P n) ρ a xs vs
          { s1 with frames := s1.frames.set a { f with vars := fun y => if y = x then some w else f.vars y } } := by
      simp only [PyExpr.bind, put_eq hfr]
    have e2 : PyExpr.bind (setAttr a x w') (fun _ => letLoop (apply P n) true a
        (List.zipWith (fun x w => .tup [.str x, w]) xs (vs'.map fun b => .clo [.gen e] [] b ρ'))) s1' =
        letLoop (apply P n) true a
        (List.zipWith (fun x w => .tup [.str x, w]) xs (vs'.map fun b => .clo [.gen e] [] b ρ'))
          { s1' with heap := s1'.heap.set a { ev with vars := fun y => if y = x then some w' else ev.vars y } } := by
      simp only [PyExpr.bind, setAttr_eq hux hev (.inl hfin)]
    rw [e1, e2]
    exact recLoop_rel ih (by simpa using hl) hn.2 (fun y hy => hus y (List.mem_cons_of_mem _ hy)) hoa hw.2 hx2 hu.2 hf2
      (hE.mono hK) (hK _ _ ha) hs2
  | [], _ :: _, _, _, _, _, h, _, _, _, _, _, _, _, _, _, _ => by simp at h
  | _ :: _, [], _, _, _, _, h, _, _, _, _, _, _, _, _, _, _ => by simp at h

theorem fin_rel {K : List Bool} {O : Nat → String → Prop} {a : Nat} {s : SSt β ω} {s' : PSt β ω} {e : EnvObj β}
    (hs : SRel P K O s s') (ha : K[a]? = some false) (he : s'.heap[a]? = some e) (ho : ∀ x, ¬ O a x) :
    SRel P K O s { s' with heap := s'.heap.set a { e with finalized := true } } := by
  have hla : a < s'.heap.length := by
    rcases Nat.lt_or_ge a s'.heap.length with h' | h'
    · exact h'
    · rw [List.getElem?_eq_none h'] at he; cases he
  refine ⟨hs.len, by simpa using hs.len', hs.world, ?_, ?_⟩
  · intro b j hb
    obtain ⟨f1, e1, hf1, he1, h1, h2, h3⟩ := hs.rel b j hb
    by_cases hab : a = b
    · subst hab
      rw [he] at he1; cases he1
      rw [ha] at hb; cases hb
      exact ⟨f1, { e with finalized := true }, hf1, by simp [hla], h1, by simp, h3⟩
    · exact ⟨f1, e1, hf1, by simp [List.getElem?_set, hab, he1], h1, h2, h3⟩
  · intro b y hb
    obtain ⟨f1, e1, hf1, he1, h1, h2, h3⟩ := hs.pending b y hb
    have hab : a ≠ b := by rintro rfl; exact ho y hb
    exact ⟨f1, e1, hf1, by simp [List.getElem?_set, hab, he1], h1, h2, h3⟩

/-! ## Putting it together -/

theorem bindsAny_zip_eq {g : Nat} : ∀ {xs : List String} {vs : List (Ex β)}, xs.length = vs.length →
    bindsAny g (List.zipWith (fun x v => .tup [.str x, v]) xs vs) = bindsAny g vs
  | [], [], _ => rfl
  | x :: xs, v :: vs, h => by
    simp [bindsAny, binds, bindsAny_zip_eq (xs := xs) (vs := vs) (by simpa using h)]
  | [], _ :: _, h => by simp at h
  | _ :: _, [], h => by simp at h

theorem uniqs_zip_inv : ∀ {xs : List String} {vs : List (Ex β)}, xs.length = vs.length →
    Uniqs (List.zipWith (fun x v => .tup [.str x, v]) xs vs) → Uniqs vs
  | [], [], _, _ => by simp [Uniqs]
  | x :: xs, v :: vs, hl, h => by
    simp only [Uniqs, List.zipWith_cons_cons, Uniq, true_and, and_true] at h ⊢
    exact ⟨h.1, uniqs_zip_inv (by simpa using hl) h.2⟩
  | [], _ :: _, h, _ => by simp at h
  | _ :: _, [], h, _ => by simp at h

theorem bindsAny_map_lam {e g : Nat} : ∀ {vs : List (Ex β)}, bindsAny g (vs.map (.lam [.gen e] [])) = false → bindsAny g vs = false
  | [], _ => rfl
  | v :: vs, h => by
    simp only [List.map_cons, bindsAny, binds, Bool.or_eq_false_iff] at h ⊢
    exact ⟨h.1.2, bindsAny_map_lam h.2⟩

theorem uniqs_map_lam {e : Nat} : ∀ {vs : List (Ex β)}, Uniqs (vs.map (.lam [.gen e] [])) → Uniqs vs ∧ bindsAny e vs = false
  | [], _ => by simp [Uniqs, bindsAny]
  | v :: vs, h => by
    simp only [List.map_cons, Uniqs, Uniq, true_and] at h
    obtain ⟨h1, h2⟩ := uniqs_map_lam h.2
    exact ⟨by simp only [Uniqs]; exact ⟨h.1.2, h1⟩, by
      simp only [bindsAny, Bool.or_eq_false_iff]; exact ⟨h.1.1 e (by simp), h2⟩⟩

theorem set_last {α : Type} (l : List α) (x y : α) : (l ++ [x]).set l.length y = l ++ [y] := by
  induction l with
  | nil => rfl
  | cons a l ih => simp [ih]

mutual
theorem sim_eval {n : Nat} (ih : ∀ m, n = m + 1 → Sim P m) :
    ∀ {t t' : Ex β} {K : List Bool} {O : Nat → String → Prop} {Γ : Sc} {ρ : Name → Option (SRef β)} {ρ' : Name → Option (PVal β)}
      {s : SSt β ω} {s' : PSt β ω}, Wf P t → ExpR Γ Γ t t' → Uniq t' → Fr Γ t' → EnvRel P K Γ ρ ρ' → SRel P K O s s' →
      ResRel P O (VRel P) K (Spec.LetDo.eval P (Spec.LetDo.apply P n) ρ t s) (eval P (apply P n) ρ' t' s')
  | .cst c, t', K, O, Γ, ρ, ρ', s, s', hw, hx, hu, hf, hE, hs => by
    simp only [ExpR] at hx; subst hx
    simp only [Spec.LetDo.eval, eval]; exact ResRel.ret hs (.base c)
  | .name (.user x), t', K, O, Γ, ρ, ρ', s, s', hw, hx, hu, hf, hE, hs => by
    simp only [ExpR] at hx; subst hx
    cases hg : Γ x with
    | none =>
      simp only [Spec.LetDo.eval, eval]
      rcases hE.pres x hg with ⟨h1, h2⟩ | ⟨v, w, h1, h2⟩
      · rw [h1, h2]; exact ResRel.raise hs
      · rw [h1, h2]; exact ResRel.ret hs (hE.vals x v w hg h1 h2)
    | some p =>
      obtain ⟨e, k⟩ := p
      obtain ⟨hux, a, h1, h2, h3⟩ := hE.vars x e k hg
      simp only [Spec.LetDo.eval, eval, h1, h2, bind_ret_left]
      exact getAttr_rel hs h3 hux
  | .call f args, t', K, O, Γ, ρ, ρ', s, s', hw, hx, hu, hf, hE, hs => by
    simp only [ExpR] at hx
    obtain ⟨f', as', rfl, hx1, hx2⟩ := hx
    simp only [Wf] at hw; simp only [Uniq] at hu
    have hf1 : Fr Γ f' ∧ Frs Γ as' := ⟨fun x e k h => by
        have := hf x e k h; simp only [binds, Bool.or_eq_false_iff] at this; exact this.1, fun x e k h => by
        have := hf x e k h; simp only [binds, Bool.or_eq_false_iff] at this; exact this.2⟩
    simp only [Spec.LetDo.eval, eval]
    refine ResRel.bind (sim_eval ih hw.1 hx1 hu.1 hf1.1 hE hs) ?_
    intro K1 v v' s1 s1' hK1 hs1 hv
    refine ResRel.bind (sim_evals ih hw.2 hx2 hu.2 hf1.2 (hE.mono hK1) hs1) ?_
    intro K2 vs vs' s2 s2' hK2 hs2 hvs
    exact callVal_rel ih (hv.mono hK2) hvs.1 hs2
  | .lam ps ds b, t', K, O, Γ, ρ, ρ', s, s', hw, hx, hu, hf, hE, hs => by
    simp only [ExpR] at hx
    obtain ⟨ds', b', rfl, hx1, hx2⟩ := hx
    simp only [Wf] at hw; simp only [Uniq] at hu
    have hf1 : Frs Γ ds' ∧ Fr Γ b' := ⟨fun x e k h => by
        have := hf x e k h; simp only [binds, Bool.or_eq_false_iff] at this; exact this.1.2, fun x e k h => by
        have := hf x e k h; simp only [binds, Bool.or_eq_false_iff] at this; exact this.2⟩
    simp only [Spec.LetDo.eval, eval]
    refine ResRel.bind (sim_evals ih hw.2.2.1 hx1 hu.2.1 hf1.1 hE hs) ?_
    intro K1 vs vs' s1 s1' hK1 hs1 hvs
    have hE1 := hE.mono hK1
    exact ResRel.ret hs1 (.clo hvs.1 hw.2.2.2 hx2 hu.2.2 hf1.2 hw.1 hE1.vars hE1.pres hE1.vals)
  | .ife c t e, t', K, O, Γ, ρ, ρ', s, s', hw, hx, hu, hf, hE, hs => by
    simp only [ExpR] at hx
    obtain ⟨c', u', e', rfl, hx1, hx2, hx3⟩ := hx
    simp only [Wf] at hw; simp only [Uniq] at hu
    have hf1 : Fr Γ c' ∧ Fr Γ u' ∧ Fr Γ e' := ⟨fun x e k h => by
        have := hf x e k h; simp only [binds, Bool.or_eq_false_iff] at this; exact this.1.1, fun x e k h => by
        have := hf x e k h; simp only [binds, Bool.or_eq_false_iff] at this; exact this.1.2, fun x e k h => by
        have := hf x e k h; simp only [binds, Bool.or_eq_false_iff] at this; exact this.2⟩
    simp only [Spec.LetDo.eval, eval]
    refine ResRel.bind (sim_eval ih hw.1 hx1 hu.1 hf1.1 hE hs) ?_
    intro K1 v v' s1 s1' hK1 hs1 hv
    rw [truthy_rel hv]
    split
    · exact sim_eval ih hw.2.1 hx2 hu.2.1 hf1.2.1 (hE.mono hK1) hs1
    · exact sim_eval ih hw.2.2 hx3 hu.2.2 hf1.2.2 (hE.mono hK1) hs1
  | .tup ts, t', K, O, Γ, ρ, ρ', s, s', hw, hx, hu, hf, hE, hs => by
    simp only [ExpR] at hx
    obtain ⟨ts', rfl, hx1⟩ := hx
    simp only [Wf] at hw; simp only [Uniq] at hu
    simp only [Spec.LetDo.eval, eval]
    refine ResRel.bind (sim_evals ih hw hx1 hu (fun x e k h => by simpa only [binds] using hf x e k h) hE hs) ?_
    intro K1 vs vs' s1 s1' hK1 hs1 hvs
    exact ResRel.ret hs1 (.tup hvs.1)
  | .lst ts, t', K, O, Γ, ρ, ρ', s, s', hw, hx, hu, hf, hE, hs => by
    simp only [ExpR] at hx
    obtain ⟨ts', rfl, hx1⟩ := hx
    simp only [Wf] at hw; simp only [Uniq] at hu
    simp only [Spec.LetDo.eval, eval]
    refine ResRel.bind (sim_evals ih hw hx1 hu (fun x e k h => by simpa only [binds] using hf x e k h) hE hs) ?_
    intro K1 vs vs' s1 s1' hK1 hs1 hvs
    exact ResRel.ret hs1 (.lst hvs.1)
  | .assign (.user x) v, t', K, O, Γ, ρ, ρ', s, s', hw, hx, hu, hf, hE, hs => by
    simp only [ExpR] at hx
    obtain ⟨v', hx1, rfl⟩ := hx
    simp only [Wf] at hw
    cases hg : Γ x with
    | none =>
      simp only [Spec.LetDo.eval]
      rcases hE.pres x hg with ⟨h1, h2⟩ | ⟨v, w, h1, h2⟩
      · rw [h1]; simp only [eval]; exact ResRel.raise hs
      · rw [h1]; simp only [eval]; exact ResRel.raise hs
    | some p =>
      obtain ⟨e, k⟩ := p
      obtain ⟨hux, a, h1, h2, h3⟩ := hE.vars x e k hg
      simp only [hg] at hu hf ⊢
      simp only [Uniq, Uniqs, true_and, and_true] at hu
      have hf1 : Fr Γ v' := fun y e1 j h => by
        have := hf y e1 j h; simpa only [binds, bindsAny, Bool.false_or, Bool.or_false] using this
      have hm : setter k = "set" ∨ setter k = "_set" := by cases k <;> simp [setter]
      rw [eval_meth hm h2]
      simp only [Spec.LetDo.eval, h1]
      refine ResRel.bind (sim_eval ih hw hx1 hu hf1 hE hs) ?_
      intro K1 w w' s1 s1' hK1 hs1 hww
      exact write_rel hs1 (hK1 _ _ h3) hux hww
  | .letx letrec xs vs b, t', K, O, Γ, ρ, ρ', s, s', hw, hx, hu, hf, hE, hs => by
    simp only [ExpR] at hx
    obtain ⟨e, vs', b', rfl, hx1, hx2⟩ := hx
    simp only [Wf] at hw
    obtain ⟨_, hnd, hus, hlen, hwv, hwb⟩ := hw
    have hlen' : xs.length = vs'.length := by rw [← hlen]; exact expRs_length hx1
    have hne : ∀ x e1 j, Γ x = some (e1, j) → e1 ≠ e := by
      rintro x e1 j hj rfl
      have := hf x e1 j hj
      simp [letOut, binds, bindsAny] at this
    cases letrec with
    | false =>
      simp only [letOut, Uniq, Uniqs, true_and, and_true, Bool.false_eq_true, if_false] at hu
      simp only [Bool.false_eq_true, if_false] at hx1
      have hbe : binds e b' = false := hu.2.1 e (by simp)
      have hf1 : Frs Γ vs' ∧ Fr Γ b' := ⟨fun x e1 j h => by
          have := hf x e1 j h
          simp only [letOut, binds, bindsAny, Bool.or_eq_false_iff, Bool.false_eq_true, if_false, bindsAny_zip_eq hlen'] at this
          exact this.2.1, fun x e1 j h => by
          have := hf x e1 j h
          simp only [letOut, binds, bindsAny, Bool.or_eq_false_iff] at this
          exact this.2.2.1.2⟩
      have hpy : eval P (apply P n) ρ' (letOut false e xs vs' b') =
          PyExpr.bind (evals P (apply P n) ρ' vs') fun ws =>
            letCall (apply P n) false (List.zipWith (fun x w => .tup [.str x, w]) xs ws) (.clo [.gen e] [] b' ρ') := by
        simp only [letOut, eval, evals, bind_ret_left, bind_assoc, callVal, Bool.false_eq_true, if_false, evals_zip hlen']
      rw [hpy]
      simp only [Spec.LetDo.eval]
      refine ResRel.bind (sim_evals ih hwv hx1 (uniqs_zip_inv hlen' hu.1) hf1.1 hE hs) ?_
      intro K1 ws ws' s1 s1' hK1 hs1 hws
      have hlw : xs.length = ws'.length := by rw [← hws.1.length, hws.2, hlen]
      have hpl : letCall (apply P n) false (List.zipWith (fun x w => .tup [.str x, w]) xs ws') (.clo [.gen e] [] b' ρ') s1' =
          apply P n (.clo [.gen e] [] b' ρ') [.env s1'.heap.length]
            { s1' with heap := s1'.heap ++ [⟨fun y => (xs.zip ws').lookup y, true⟩] } := by
        have hl := letLoop_eq (P := P) (ap := apply P n) (a := s1'.heap.length) (xs := xs) (ws := ws')
          (s' := { s1' with heap := s1'.heap ++ [⟨fun _ => none, false⟩] }) (e := ⟨fun _ => none, false⟩)
          hlw hnd (fun x hx => ⟨hus x hx, rfl⟩) (by simp) rfl
        simp only [letCall, PyExpr.bind, newEnv, hl, set_last, getEnv, putEnv]
        simp only [List.getElem?_concat_length, set_last]
        congr 4
        simp only [List.cons.injEq, EnvObj.mk.injEq, and_true]
        funext y
        cases (xs.zip ws').lookup y <;> rfl
      have hsn := new_rel (isDo := false) (xs := xs) (vs := ws) (e := ⟨fun y => (xs.zip ws').lookup y, true⟩) hs1 (by simp)
        (fun x => lookup_rel (hws.1.mono (Ext.append K1 false)))
      rw [hpl]
      have hKe : Ext K (K1 ++ [false]) := hK1.trans (Ext.append K1 false)
      have hKa : (K1 ++ [false])[s1'.heap.length]? = some false := by rw [hs1.len']; simp
      have hsl : s1.frames.length = s1'.heap.length := by rw [hs1.len, hs1.len']
      simp only [Spec.LetDo.new, PyExpr.bind, hsl]
      refine ResRel.mono (Ext.append K1 false) ?_
      exact run_rel ih hwb hx2 hu.2.2 (over_fr hf1.2 hbe) (over_env (hE.mono hKe) hne hKa hus) hsn
    | true =>
      simp only [letOut, Uniq, Uniqs, true_and, and_true, if_true] at hu
      simp only [if_true] at hx1
      have hlm : xs.length = (vs'.map (Ex.lam [.gen e] [])).length := by simp [hlen']
      have hbe : binds e b' = false := hu.2.1 e (by simp)
      obtain ⟨huv, hbv⟩ := uniqs_map_lam (uniqs_zip_inv hlm hu.1)
      have hf1 : Frs Γ vs' ∧ Fr Γ b' := ⟨fun x e1 j h => by
          have := hf x e1 j h
          simp only [letOut, binds, bindsAny, Bool.or_eq_false_iff, if_true, bindsAny_zip_eq hlm] at this
          exact bindsAny_map_lam this.2.1, fun x e1 j h => by
          have := hf x e1 j h
          simp only [letOut, binds, bindsAny, Bool.or_eq_false_iff] at this
          exact this.2.2.1.2⟩
      have hpy : eval P (apply P n) ρ' (letOut true e xs vs' b') s' =
          letCall (apply P n) true (List.zipWith (fun x w => .tup [.str x, w]) xs (vs'.map fun b => .clo [.gen e] [] b ρ'))
            (.clo [.gen e] [] b' ρ') s' := by
        simp only [letOut, eval, evals, bind_ret_left, bind_assoc, callVal, if_true, evals_zip hlm, evals_lam]
      rw [hpy]
      have hsl : s.frames.length = s'.heap.length := by rw [hs.len, hs.len']
      simp only [Spec.LetDo.eval, letCall]
      have hsn := new_rel (isDo := false) (xs := []) (vs := []) (e := ⟨fun _ => none, false⟩) hs (by simp) (fun x => .none)
      have hKa : (K ++ [false])[s'.heap.length]? = some false := by rw [hs.len']; simp
      have hoa : ∀ x, ¬ O s'.heap.length x := by
        intro x ho; have := hs.lt ho; rw [hs.len'] at this; omega
      have e1 : ∀ g : Nat → M (SSt β ω) ε (SVal β), PyExpr.bind (Spec.LetDo.new false [] []) g s =
          g s'.heap.length { s with frames := s.frames ++ [⟨false, fun x => (([] : List String).zip []).lookup x⟩] } := by
        intro g; rw [← hsl]; rfl
      have e2 : ∀ g : Nat → M (PSt β ω) ε (PVal β), PyExpr.bind newEnv g s' =
          g s'.heap.length { s' with heap := s'.heap ++ [⟨fun _ => none, false⟩] } := fun g => rfl
      rw [e1, e2]
      refine ResRel.mono (Ext.append K false) ?_
      have hfv : Frs (over Γ xs e false) vs' := by
        intro x e1 j hj
        simp only [over] at hj
        split at hj
        · cases hj; exact hbv
        · exact hf1.1 x e1 j hj
      have hE' := over_env (hE.mono (Ext.append K false)) hne hKa hus
      refine ResRel.bind (recLoop_rel ih hlen.symm hnd hus hoa hwv hx1 huv hfv hE' hKa ?_) ?_
      · refine ⟨hsn.len, hsn.len', hsn.world, hsn.rel, ?_⟩
        rintro a x (h | ⟨rfl, _⟩)
        · exact hsn.pending a x h
        · exact ⟨⟨false, fun x => (([] : List String).zip []).lookup x⟩, ⟨fun _ => none, false⟩,
            by rw [← hsl]; simp, by simp, rfl, rfl, rfl⟩
      · intro K1 _ _ s1 s1' hK1 hs1 _
        obtain ⟨f, ev, hf', hev, _⟩ := hs1.rel _ _ (hK1 _ _ hKa)
        have e3 : PyExpr.bind (getEnv s'.heap.length) (fun e_1 => PyExpr.bind (putEnv s'.heap.length { e_1 with finalized := true })
            fun _ => apply P n (.clo [.gen e] [] b' ρ') [.env s'.heap.length]) s1' =
            apply P n (.clo [.gen e] [] b' ρ') [.env s'.heap.length]
              { s1' with heap := s1'.heap.set s'.heap.length { ev with finalized := true } } := by
          simp only [PyExpr.bind, getEnv, hev, putEnv]
        rw [e3]
        exact run_rel ih hwb hx2 hu.2.2 (over_fr hf1.2 hbe) (hE'.mono hK1) (fin_rel hs1 (hK1 _ _ hKa) hev hoa)
  | .doe tags ts, t', K, O, Γ, ρ, ρ', s, s', hw, hx, hu, hf, hE, hs => by
    simp only [ExpR] at hx
    obtain ⟨e, ls, rfl, hx⟩ := hx
    simp only [Wf] at hw
    obtain ⟨hne0, hlen, hwi⟩ := hw
    simp only [Uniq, true_and] at hu
    obtain ⟨hul, hbl⟩ := uniqs_map_lam hu
    have hpy : eval P (apply P n) ρ' (.call (.cap .dof) (ls.map (.lam [.gen e] []))) =
        doCall (apply P n) (ls.map fun b => .clo [.gen e] [] b ρ') := by
      simp only [eval, evals_lam, bind_ret_left, callVal]
    rw [hpy]
    have hsl : s.frames.length = s'.heap.length := by rw [hs.len, hs.len']
    have hsn := new_rel (isDo := true) (xs := []) (vs := []) (e := ⟨fun _ => none, false⟩) hs (by simp) (fun x => .none)
    have hKa : (K ++ [true])[s'.heap.length]? = some true := by rw [hs.len']; simp
    have e1 : ∀ g : Nat → M (SSt β ω) ε (SVal β), PyExpr.bind (Spec.LetDo.new true [] []) g s =
        g s'.heap.length { s with frames := s.frames ++ [⟨true, fun x => (([] : List String).zip []).lookup x⟩] } := by
      intro g; rw [← hsl]; rfl
    match tags, ts, hne0, hlen, hwi, hx with
    | .del x :: tags, t :: ts, _, _, hwi, _ => simp [WfItems] at hwi
    | .loc xs :: tags, t :: ts, _, _, hwi, hx =>
      obtain ⟨l, ls1, rfl⟩ : ∃ l ls1, ls = l :: ls1 := by
        simp only [ExpItems] at hx
        obtain ⟨u, ls1, rfl, _⟩ := hx
        exact ⟨_, _, rfl⟩
      have hne : ∀ x e1 j, Γ x = some (e1, j) → e1 ≠ e := by
        rintro x e1 j hj rfl
        have := hf x e1 j hj
        simp [binds, bindsAny] at this
      have hfl : Frs Γ (l :: ls1) := fun x e1 j hj => by
        have := hf x e1 j hj
        simp only [binds, Bool.false_or] at this
        exact bindsAny_map_lam this
      simp only [Spec.LetDo.eval]
      rw [e1]
      have e2 : doCall (apply P n) ((l :: ls1).map fun b => .clo [.gen e] [] b ρ') s' =
          doLoop (apply P n) s'.heap.length ((l :: ls1).map fun b => .clo [.gen e] [] b ρ') (.tup [])
            { s' with heap := s'.heap ++ [⟨fun _ => none, false⟩] } := rfl
      rw [e2]
      refine ResRel.mono (Ext.append K true) ?_
      cases n with
      | zero => simp [Spec.LetDo.doLoop, Spec.LetDo.run, doLoop, PyExpr.bind, sapply_zero, papply_zero, ResRel]
      | succ m =>
        exact doLoop_rel (ih m rfl) hne hwi hx hul hfl hbl (by simp) (hE.mono (Ext.append K true)) hKa (.tup .nil) hsn
    | _, [], h, _, _, _ => exact absurd rfl h
    | [], _ :: _, _, h, _, _ => simp at h
  | .str _, _, _, _, _, _, _, _, _, hw, _, _, _, _, _ => by simp [Wf] at hw
  | .cap _, _, _, _, _, _, _, _, _, hw, _, _, _, _, _ => by simp [Wf] at hw
  | .name (.gen _), _, _, _, _, _, _, _, _, hw, _, _, _, _, _ => by simp [Wf] at hw
  | .attr _ _, _, _, _, _, _, _, _, _, hw, _, _, _, _, _ => by simp [Wf] at hw
  | .assign (.gen _) _, _, _, _, _, _, _, _, _, hw, _, _, _, _, _ => by simp [Wf] at hw
  | .bad, _, _, _, _, _, _, _, _, hw, _, _, _, _, _ => by simp [Wf] at hw
theorem sim_evals {n : Nat} (ih : ∀ m, n = m + 1 → Sim P m) :
    ∀ {ts ts' : List (Ex β)} {K : List Bool} {O : Nat → String → Prop} {Γ : Sc} {ρ : Name → Option (SRef β)}
      {ρ' : Name → Option (PVal β)} {s : SSt β ω} {s' : PSt β ω}, Wfs P ts → ExpRs Γ Γ ts ts' → Uniqs ts' → Frs Γ ts' →
      EnvRel P K Γ ρ ρ' → SRel P K O s s' →
      ResRel P O (fun K vs vs' => VRels P K vs vs' ∧ vs.length = ts.length) K (Spec.LetDo.evals P (Spec.LetDo.apply P n) ρ ts s) (evals P (apply P n) ρ' ts' s')
  | [], ts', K, O, Γ, ρ, ρ', s, s', hw, hx, hu, hf, hE, hs => by
    simp only [ExpRs] at hx; subst hx
    simp only [Spec.LetDo.evals, evals]; exact ResRel.ret hs ⟨.nil, rfl⟩
  | t :: ts, _, K, O, Γ, ρ, ρ', s, s', hw, hx, hu, hf, hE, hs => by
    simp only [ExpRs] at hx
    obtain ⟨t', ts', rfl, hx1, hx2⟩ := hx
    simp only [Wfs] at hw; simp only [Uniqs] at hu
    have hf1 : Fr Γ t' ∧ Frs Γ ts' := ⟨fun x e k h => by
        have := hf x e k h; simp only [bindsAny, Bool.or_eq_false_iff] at this; exact this.1, fun x e k h => by
        have := hf x e k h; simp only [bindsAny, Bool.or_eq_false_iff] at this; exact this.2⟩
    simp only [Spec.LetDo.evals, evals]
    refine ResRel.bind (sim_eval ih hw.1 hx1 hu.1 hf1.1 hE hs) ?_
    intro K1 v v' s1 s1' hK1 hs1 hv
    refine ResRel.bind (sim_evals ih hw.2 hx2 hu.2 hf1.2 (hE.mono hK1) hs1) ?_
    intro K2 vs vs' s2 s2' hK2 hs2 hvs
    exact ResRel.ret hs2 ⟨.cons (hv.mono hK2) hvs.1, by simp [hvs.2]⟩
end

theorem sim (n : Nat) : Sim P n := by
  induction n with
  | zero => exact fun t t' K O Γ ρ ρ' s s' h1 h2 h3 h4 h5 h6 => sim_eval (by intro m h; cases h) h1 h2 h3 h4 h5 h6
  | succ n ih =>
    exact fun t t' K O Γ ρ ρ' s s' h1 h2 h3 h4 h5 h6 => sim_eval (by intro m h; cases h; exact ih) h1 h2 h3 h4 h5 h6

/-! ## Programs -/

mutual
theorem ok_of_wf : ∀ {t : Ex β}, Wf P t → Ok t
  | .cst _, _ => by simp [Ok]
  | .name (.user _), _ => by simp [Ok]
  | .call f args, h => by simp only [Wf] at h; simp only [Ok]; exact ⟨ok_of_wf h.1, oks_of_wfs h.2⟩
  | .lam ps ds b, h => by
    simp only [Wf] at h; simp only [Ok]
    exact ⟨fun x hx => h.2.1 _ hx, oks_of_wfs h.2.2.1, ok_of_wf h.2.2.2⟩
  | .ife c t e, h => by simp only [Wf] at h; simp only [Ok]; exact ⟨ok_of_wf h.1, ok_of_wf h.2.1, ok_of_wf h.2.2⟩
  | .tup ts, h => by simp only [Wf] at h; simp only [Ok]; exact oks_of_wfs h
  | .lst ts, h => by simp only [Wf] at h; simp only [Ok]; exact oks_of_wfs h
  | .assign (.user _) v, h => by simp only [Wf] at h; simp only [Ok]; exact ok_of_wf h
  | .letx _ xs vs b, h => by
    simp only [Wf] at h; simp only [Ok]
    exact ⟨h.1, oks_of_wfs h.2.2.2.2.1, ok_of_wf h.2.2.2.2.2⟩
  | .doe tags ts, h => by
    simp only [Wf] at h; simp only [Ok]
    exact ⟨h.2.1, oks_of_items h.2.1 h.2.2⟩
  | .str _, h => by simp [Wf] at h
  | .cap _, h => by simp [Wf] at h
  | .name (.gen _), h => by simp [Wf] at h
  | .attr _ _, h => by simp [Wf] at h
  | .assign (.gen _) _, h => by simp [Wf] at h
  | .bad, h => by simp [Wf] at h
theorem oks_of_wfs : ∀ {ts : List (Ex β)}, Wfs P ts → Oks ts
  | [], _ => by simp [Oks]
  | t :: ts, h => by simp only [Wfs] at h; simp only [Oks]; exact ⟨ok_of_wf h.1, oks_of_wfs h.2⟩
theorem oks_of_items : ∀ {names : List String} {tags : List Tag} {ts : List (Ex β)}, ts.length = tags.length →
    WfItems P names tags ts → Oks ts
  | _, .loc xs :: tags, t :: ts, hl, h => by
    simp only [WfItems] at h; simp only [Oks]
    exact ⟨ok_of_wf h.2.1, oks_of_items (by simpa using hl) h.2.2⟩
  | _, .del _ :: tags, t :: ts, hl, h => by
    simp only [WfItems] at h; simp only [Oks]
    exact ⟨by rw [h.2.1]; simp [Ok], oks_of_items (by simpa using hl) h.2.2⟩
  | _, [], [], _, _ => by simp [Oks]
  | _, [], _ :: _, hl, _ => by simp at hl
  | _, .loc _ :: _, [], _, _ => by simp [Oks]
  | _, .del _ :: _, [], _, _ => by simp [Oks]
end

mutual
theorem uniq_of_wf : ∀ {t : Ex β}, Wf P t → Uniq t ∧ ∀ g, binds g t = false
  | .cst _, _ => by simp [Uniq, binds]
  | .name (.user _), _ => by simp [Uniq, binds]
  | .call f args, h => by
    simp only [Wf] at h; simp only [Uniq, binds, Bool.or_eq_false_iff]
    have h1 := uniq_of_wf h.1; have h2 := uniqs_of_wfs h.2
    exact ⟨⟨h1.1, h2.1⟩, fun g => ⟨h1.2 g, h2.2 g⟩⟩
  | .lam ps ds b, h => by
    simp only [Wf] at h; simp only [Uniq, binds, Bool.or_eq_false_iff, decide_eq_false_iff_not]
    have h1 := uniqs_of_wfs h.2.2.1; have h2 := uniq_of_wf h.2.2.2
    refine ⟨⟨fun g _ => h2.2 g, h1.1, h2.1⟩, fun g => ⟨⟨fun hg => ?_, h1.2 g⟩, h2.2 g⟩⟩
    obtain ⟨x, hx⟩ := h.1 _ hg
    cases hx
  | .ife c t e, h => by
    simp only [Wf] at h; simp only [Uniq, binds, Bool.or_eq_false_iff]
    have h1 := uniq_of_wf h.1; have h2 := uniq_of_wf h.2.1; have h3 := uniq_of_wf h.2.2
    exact ⟨⟨h1.1, h2.1, h3.1⟩, fun g => ⟨⟨h1.2 g, h2.2 g⟩, h3.2 g⟩⟩
  | .tup ts, h => by simp only [Wf] at h; simp only [Uniq, binds]; exact uniqs_of_wfs h
  | .lst ts, h => by simp only [Wf] at h; simp only [Uniq, binds]; exact uniqs_of_wfs h
  | .assign (.user _) v, h => by simp only [Wf] at h; simp only [Uniq, binds]; exact uniq_of_wf h
  | .letx _ xs vs b, h => by
    simp only [Wf] at h; simp only [Uniq, binds, Bool.or_eq_false_iff]
    have h1 := uniqs_of_wfs h.2.2.2.2.1; have h2 := uniq_of_wf h.2.2.2.2.2
    exact ⟨⟨h1.1, h2.1⟩, fun g => ⟨h1.2 g, h2.2 g⟩⟩
  | .doe tags ts, h => by
    simp only [Wf] at h; simp only [Uniq, binds]
    exact uniqs_of_items h.2.1 h.2.2
  | .str _, h => by simp [Wf] at h
  | .cap _, h => by simp [Wf] at h
  | .name (.gen _), h => by simp [Wf] at h
  | .attr _ _, h => by simp [Wf] at h
  | .assign (.gen _) _, h => by simp [Wf] at h
  | .bad, h => by simp [Wf] at h
theorem uniqs_of_wfs : ∀ {ts : List (Ex β)}, Wfs P ts → Uniqs ts ∧ ∀ g, bindsAny g ts = false
  | [], _ => by simp [Uniqs, bindsAny]
  | t :: ts, h => by
    simp only [Wfs] at h; simp only [Uniqs, bindsAny, Bool.or_eq_false_iff]
    have h1 := uniq_of_wf h.1; have h2 := uniqs_of_wfs h.2
    exact ⟨⟨h1.1, h2.1⟩, fun g => ⟨h1.2 g, h2.2 g⟩⟩
theorem uniqs_of_items : ∀ {names : List String} {tags : List Tag} {ts : List (Ex β)}, ts.length = tags.length →
    WfItems P names tags ts → Uniqs ts ∧ ∀ g, bindsAny g ts = false
  | _, .loc xs :: tags, t :: ts, hl, h => by
    simp only [WfItems] at h; simp only [Uniqs, bindsAny, Bool.or_eq_false_iff]
    have h1 := uniq_of_wf h.2.1; have h2 := uniqs_of_items (by simpa using hl) h.2.2
    exact ⟨⟨h1.1, h2.1⟩, fun g => ⟨h1.2 g, h2.2 g⟩⟩
  | _, .del _ :: tags, t :: ts, hl, h => by
    simp only [WfItems] at h; simp only [Uniqs, bindsAny, Bool.or_eq_false_iff]
    have h1 : Uniq t ∧ ∀ g, binds g t = false := by rw [h.2.1]; simp [Uniq, binds]
    have h2 := uniqs_of_items (by simpa using hl) h.2.2
    exact ⟨⟨h1.1, h2.1⟩, fun g => ⟨h1.2 g, h2.2 g⟩⟩
  | _, [], [], _, _ => by simp [Uniqs, bindsAny]
  | _, [], _ :: _, hl, _ => by simp at hl
  | _, .loc _ :: _, [], _, _ => by simp [Uniqs, bindsAny]
  | _, .del _ :: _, [], _, _ => by simp [Uniqs, bindsAny]
end

mutual
theorem obs_rel {K : List Bool} : ∀ {v : SVal β} {v' : PVal β}, VRel P K v v' → Spec.LetDo.obsPy v' = some v.obs
  | _, _, .base b => rfl
  | _, _, .ext k => rfl
  | _, _, .tup h => by simp [Spec.LetDo.obsPy, Spec.LetDo.Val.obs, obss_rel h]
  | _, _, .lst h => by simp [Spec.LetDo.obsPy, Spec.LetDo.Val.obs, obss_rel h]
  | _, _, .clo .. => rfl
theorem obss_rel {K : List Bool} : ∀ {v : List (SVal β)} {v' : List (PVal β)}, VRels P K v v' →
    Spec.LetDo.obsPys v' = some (Spec.LetDo.Val.obss v)
  | _, _, .nil => rfl
  | _, _, .cons h hs => by simp [Spec.LetDo.obsPys, Spec.LetDo.Val.obss, obs_rel h, obss_rel hs]
end

theorem program_eq {t t' : Ex β} {m c : Nat} (hw : Wf P t) (h : expand m t 0 = .ok (t', c)) (n : Nat)
    (globals : String → Option (Spec.LetDo.Glob β)) (w : ω) :
    Spec.LetDo.python P n globals t' w = Spec.LetDo.program P n globals t w := by
  have hu := uniq_of_wf hw
  have hx := expR_expand m t 0 t' c (ok_of_wf hw) h
  have hf := fresh_expand m t 0 t' c (fun g hg => by rw [hu.2 g] at hg; cases hg) hu.1 h
  have := sim (P := P) n t t' [] (fun _ _ => False) none'
    (fun x => match x with
      | .user y => (globals y).map (fun g => match g with | .base b => .val (.base b) | .ext k => .val (.ext k))
      | .gen _ => none)
    (fun x => match x with
      | .user y => (globals y).map (fun g => match g with | .base b => .base b | .ext k => .ext k)
      | .gen _ => none) ⟨[], w⟩ ⟨[], w⟩ hw hx hf.uniq (by intro x e k hx; cases hx)
    (by
      refine ⟨(fun x e k hx => by cases hx), fun x _ => ?_, fun x v w _ hv hw => ?_⟩
      · cases hg : globals x with
        | none => left; simp [hg]
        | some g => right; cases g <;> simp [hg]
      · cases hg : globals x with
        | none => simp [hg] at hv
        | some g => cases g <;> simp [hg] at hv hw <;> subst hv <;> subst hw <;> constructor)
    ⟨rfl, rfl, rfl, (fun a k hk => by simp at hk), fun a x hx => hx.elim⟩
  unfold Spec.LetDo.python Spec.LetDo.program
  revert this
  generalize PyExpr.eval P _ _ t' _ = r'
  generalize Spec.LetDo.eval P _ _ t _ = r
  intro this
  rcases r with _ | ⟨_ | v, s⟩ <;> rcases r' with _ | ⟨_ | v', s'⟩ <;> simp only [ResRel] at this
  · rfl
  · obtain ⟨h1, K', _, h2⟩ := this; simp [h1, h2.world]
  · obtain ⟨K', _, h2, h3⟩ := this; simp [h2.world, obs_rel h3]

end

end Unpy.LetDo
