import Verif.Spec.Multilambda
import Verif.Proof.LetDoClash
/-! `multilambda`: the meaning of a program is that of its expansion. -/
namespace Unpy.Multilambda
open Unpy.PyExpr (Tag Ex Name World M Err ret raise bind params)
open Unpy.Spec
variable {β ω ε α γ : Type}

abbrev Vl (β : Type) := Spec.Multilambda.Val β
abbrev Rf (β : Type) := Spec.Multilambda.Ref β
abbrev S (β ω : Type) := Spec.Multilambda.St β ω
abbrev LS (β ω : Type) := Spec.LetDo.St β ω

def trCode : Spec.Multilambda.Code β → Ex β
  | .expr t => multi t
  | .items tags ts => .doe tags (multis ts)

mutual
def tr : Vl β → Spec.LetDo.Val β
  | .base b => .base b
  | .ext k => .ext k
  | .tup vs => .tup (trs vs)
  | .lst vs => .lst (trs vs)
  | .clo ps ds code ρ => .clo (ps.map .user) (trs ds) (trCode code) (fun x => match x with
      | .user y => trOpt (ρ y)
      | .gen _ => none)
def trs : List (Vl β) → List (Spec.LetDo.Val β)
  | [] => []
  | v :: vs => tr v :: trs vs
def trRef : Rf β → Spec.LetDo.Ref β
  | .val v => .val (tr v)
  | .var a => .var a
def trOpt : Option (Rf β) → Option (Spec.LetDo.Ref β)
  | none => none
  | some r => some (trRef r)
end

def trEnv (ρ : String → Option (Rf β)) : Name → Option (Spec.LetDo.Ref β)
  | .user y => trOpt (ρ y)
  | .gen _ => none

theorem tr_clo (ps : List String) (ds : List (Vl β)) (code : Spec.Multilambda.Code β) (ρ) :
    tr (.clo ps ds code ρ) = .clo (ps.map .user) (trs ds) (trCode code) (trEnv ρ) := by
  rw [tr]
  congr 1

/-- The body of a lambda. -/
def bodyOf : Src β → Ex β
  | .lst tags ts => .doe tags (multis ts)
  | b => multi b

theorem multi_lam (ps : List String) (ds : List (Src β)) (b : Src β) :
    multi (.lam ps ds b) = .lam (ps.map .user) (multis ds) (bodyOf b) := by
  cases b <;> simp [multi, bodyOf]

theorem trs_map (vs : List (Vl β)) : trs vs = vs.map tr := by
  induction vs with
  | nil => rfl
  | cons v vs ih => simp [trs, ih]

theorem multis_map (ts : List (Src β)) : multis ts = ts.map multi := by
  induction ts with
  | nil => rfl
  | cons v vs ih => simp [multis, ih]

def trFrame (f : Spec.Multilambda.Frame β) : Spec.LetDo.Frame β := ⟨f.isDo, fun x => (f.vars x).map tr⟩
def trSt (s : S β ω) : LS β ω := ⟨s.frames.map trFrame, s.world⟩

def mapR (g : α → γ) : Option (Except (Err ε) α × S β ω) → Option (Except (Err ε) γ × LS β ω)
  | none => none
  | some (.ok a, s) => some (.ok (g a), trSt s)
  | some (.error e, s) => some (.error e, trSt s)

def Corr (g : α → γ) (m : M (S β ω) ε α) (m' : M (LS β ω) ε γ) : Prop := ∀ s, m' (trSt s) = mapR g (m s)

theorem corr_ret (g : α → γ) (a : α) : Corr g (ret a : M (S β ω) ε α) (ret (g a)) := fun _ => rfl
theorem corr_raise (g : α → γ) (e : Err ε) : Corr g (raise e : M (S β ω) ε α) (raise e) := fun _ => rfl

theorem corr_clo (ps : List String) (vs : List (Vl β)) (code : Spec.Multilambda.Code β) (ρ : String → Option (Rf β)) :
    Corr tr (ret (.clo ps vs code ρ) : M (S β ω) ε (Vl β))
      (ret (.clo (ps.map .user) (trs vs) (trCode code) (trEnv ρ))) := by
  have := corr_ret (β := β) (ω := ω) (ε := ε) tr (.clo ps vs code ρ)
  rwa [tr_clo] at this

theorem corr_bind {α' γ' : Type} {g : α → γ} {h : α' → γ'} {m : M (S β ω) ε α} {m' : M (LS β ω) ε γ}
    {f : α → M (S β ω) ε α'} {f' : γ → M (LS β ω) ε γ'} (hm : Corr g m m') (hf : ∀ a, Corr h (f a) (f' (g a))) :
    Corr h (bind m f) (bind m' f') := by
  intro s
  have := hm s
  simp only [PyExpr.bind, this]
  cases hr : m s with
  | none => rfl
  | some r =>
    obtain ⟨o, s'⟩ := r
    cases o with
    | error e => rfl
    | ok a => exact hf a s'

theorem corr_getFrame (a : Nat) : Corr trFrame (Spec.Multilambda.getFrame a : M (S β ω) ε _) (Spec.LetDo.getFrame a) := by
  intro s
  simp only [Spec.Multilambda.getFrame, Spec.LetDo.getFrame, trSt, List.getElem?_map]
  cases s.frames[a]? <;> rfl

theorem corr_load (a : Nat) (x : String) : Corr tr (Spec.Multilambda.load a x : M (S β ω) ε _) (Spec.LetDo.read a x) := by
  refine corr_bind (corr_getFrame a) fun f => ?_
  simp only [trFrame]
  cases f.vars x with
  | none => exact corr_raise _ _
  | some v => exact corr_ret tr v

theorem corr_put (a : Nat) (x : String) (v : Option (Vl β)) :
    Corr id (Spec.Multilambda.put a x v : M (S β ω) ε _) (Spec.LetDo.put a x (v.map tr)) := by
  refine corr_bind (corr_getFrame a) fun f => ?_
  intro s
  simp only [mapR, trSt, List.map_set, id]
  congr 5
  simp only [trFrame, Spec.LetDo.Frame.mk.injEq, true_and]
  funext y
  split <;> rfl

theorem corr_write (a : Nat) (x : String) (v : Vl β) :
    Corr id (Spec.Multilambda.write a x v : M (S β ω) ε _) (Spec.LetDo.write a x (tr v)) := by
  refine corr_bind (corr_getFrame a) fun f => ?_
  have : ((trFrame f).isDo || ((trFrame f).vars x).isSome) = (f.isDo || (f.vars x).isSome) := by simp [trFrame]
  rw [this]
  split
  · exact corr_put a x (some v)
  · exact corr_raise _ _

theorem lookup_tr (xs : List String) (vs : List (Vl β)) (x : String) :
    (xs.zip (trs vs)).lookup x = ((xs.zip vs).lookup x).map tr := by
  induction xs generalizing vs with
  | nil => rfl
  | cons y ys ih =>
    cases vs with
    | nil => rfl
    | cons v vs =>
      simp only [trs, List.zip_cons_cons, List.lookup_cons]
      split
      · rfl
      · exact ih vs

theorem corr_new (isDo : Bool) (xs : List String) (vs : List (Vl β)) :
    Corr id (Spec.Multilambda.new isDo xs vs : M (S β ω) ε _) (Spec.LetDo.new isDo xs (trs vs)) := by
  intro s
  simp only [Spec.LetDo.new, Spec.Multilambda.new, mapR, trSt, List.length_map, List.map_append, List.map_cons, List.map_nil,
    trFrame, id, lookup_tr]

theorem trEnv_scope (ρ : String → Option (Rf β)) (xs : List String) (a : Nat) :
    trEnv (Spec.Multilambda.scope ρ xs a) = Spec.LetDo.scope (trEnv ρ) xs a := by
  funext x
  cases x with
  | gen n => rfl
  | user y =>
    simp only [trEnv, Spec.Multilambda.scope, Spec.LetDo.scope]
    split <;> rfl

theorem trEnv_extend (ρ : String → Option (Rf β)) : ∀ (ps : List String) (vs : List (Vl β)),
    trEnv (Spec.Multilambda.extend ρ ps vs) = PyExpr.extend (trEnv ρ) (ps.map .user) ((trs vs).map .val)
  | [], vs => by cases vs <;> rfl
  | p :: ps, [] => rfl
  | p :: ps, v :: vs => by
    have ih := trEnv_extend ρ ps vs
    funext x
    simp only [trs, List.map_cons, PyExpr.extend, ← ih]
    cases x with
    | gen n => simp [trEnv]
    | user y =>
      simp only [trEnv, Spec.Multilambda.extend, Name.user.injEq]
      split <;> rfl

/-- The two ways of calling agree. -/
def CorrAp (ap : Spec.Multilambda.Ap β ω ε) (ap' : Spec.LetDo.Val β → List (Spec.LetDo.Val β) → M (LS β ω) ε (Spec.LetDo.Val β)) :
    Prop := ∀ f args, Corr tr (ap f args) (ap' (tr f) (trs args))

section
variable {ap : Spec.Multilambda.Ap β ω ε}
  {ap' : Spec.LetDo.Val β → List (Spec.LetDo.Val β) → M (LS β ω) ε (Spec.LetDo.Val β)}

theorem corr_run (h : CorrAp ap ap') (ρ : String → Option (Rf β)) (t : Src β) :
    Corr tr (Spec.Multilambda.run ap ρ t) (Spec.LetDo.run ap' (trEnv ρ) (multi t)) := by
  have := h (.clo [] [] (.expr t) ρ) []
  rw [tr_clo] at this
  exact this

theorem corr_recLoop (h : CorrAp ap ap') (ρ : String → Option (Rf β)) (a : Nat) : ∀ (xs : List String) (ts : List (Src β)),
    Corr id (Spec.Multilambda.recLoop ap ρ a xs ts) (Spec.LetDo.recLoop ap' (trEnv ρ) a xs (multis ts))
  | [], ts => by
    simp only [Spec.Multilambda.recLoop, Spec.LetDo.recLoop]
    exact corr_ret id ()
  | x :: xs, [] => by
    simp only [Spec.Multilambda.recLoop, Spec.LetDo.recLoop, multis]
    exact corr_ret id ()
  | x :: xs, t :: ts => by
    simp only [Spec.Multilambda.recLoop, Spec.LetDo.recLoop, multis]
    exact corr_bind (corr_run h ρ t) fun v => corr_bind (corr_put a x (some v)) fun _ => corr_recLoop h ρ a xs ts

theorem corr_putAll (a : Nat) (v : Vl β) : ∀ xs : List String,
    Corr id (Spec.Multilambda.putAll a v xs : M (S β ω) ε _) (Spec.LetDo.putAll a (tr v) xs)
  | [] => corr_ret id ()
  | x :: xs => corr_bind (corr_putAll a v xs) fun _ => corr_put a x (some v)

theorem corr_doLoop (h : CorrAp ap ap') (ρ : String → Option (Rf β)) (a : Nat) : ∀ (names : List String) (last : Vl β)
    (tags : List Tag) (ts : List (Src β)),
    Corr tr (Spec.Multilambda.doLoop ap ρ a names last tags ts)
      (Spec.LetDo.doLoop ap' (trEnv ρ) a names (tr last) tags (multis ts))
  | names, last, [], ts => by
    simp only [Spec.Multilambda.doLoop, Spec.LetDo.doLoop]
    exact corr_ret tr last
  | names, last, .loc xs :: tags, [] => by
    simp only [Spec.Multilambda.doLoop, Spec.LetDo.doLoop, multis]
    exact corr_ret tr last
  | names, last, .del x :: tags, [] => by
    simp only [Spec.Multilambda.doLoop, Spec.LetDo.doLoop, multis]
    exact corr_ret tr last
  | names, last, .loc xs :: tags, t :: ts => by
    simp only [Spec.Multilambda.doLoop, Spec.LetDo.doLoop, multis]
    rw [← trEnv_scope]
    exact corr_bind (corr_run h _ t) fun v => corr_bind (corr_putAll a v xs) fun _ => corr_doLoop h ρ a _ v tags ts
  | names, last, .del x :: tags, t :: ts => by
    simp only [Spec.Multilambda.doLoop, Spec.LetDo.doLoop, multis]
    refine corr_bind (corr_getFrame a) fun f => ?_
    simp only [trFrame]
    cases f.vars x with
    | none => exact corr_raise _ _
    | some v => exact corr_bind (corr_put a x none) fun _ => corr_doLoop h ρ a _ v tags ts

theorem bases_tr (vs : List (Vl β)) : Spec.LetDo.bases (trs vs) = Spec.Multilambda.bases vs := by
  induction vs with
  | nil => rfl
  | cons v vs ih => cases v <;> simp [trs, tr, Spec.LetDo.bases, Spec.Multilambda.bases, ih]

theorem truthy_tr (P : World β ω ε) (v : Vl β) : Spec.LetDo.truthy P (tr v) = Spec.Multilambda.truthy P v := by
  cases v <;> simp [tr, Spec.LetDo.truthy, Spec.Multilambda.truthy, trs_map]

theorem corr_callVal (P : World β ω ε) (h : CorrAp ap ap') (f : Vl β) (args : List (Vl β)) :
    Corr tr (Spec.Multilambda.callVal P ap f args) (Spec.LetDo.callVal P ap' (tr f) (trs args)) := by
  cases f with
  | clo ps ds code ρ =>
    have := h (.clo ps ds code ρ) args
    rw [tr_clo] at this ⊢
    exact this
  | ext k =>
    simp only [tr, Spec.Multilambda.callVal, Spec.LetDo.callVal, bases_tr]
    cases Spec.Multilambda.bases args with
    | none => exact corr_raise _ _
    | some bs =>
      intro s
      simp only [trSt]
      cases hc : P.call k bs s.world with
      | mk o w => cases o <;> rfl
  | base b => simp only [tr]; exact corr_raise _ _
  | tup vs => simp only [tr]; exact corr_raise _ _
  | lst vs => simp only [tr]; exact corr_raise _ _

mutual
theorem corr_eval (P : World β ω ε) (h : CorrAp ap ap') (ρ : String → Option (Rf β)) : ∀ t : Src β,
    Corr tr (Spec.Multilambda.eval P ap ρ t) (Spec.LetDo.eval P ap' (trEnv ρ) (multi t))
  | .cst c => by simp only [Spec.Multilambda.eval, multi, Spec.LetDo.eval]; exact corr_ret tr (.base c)
  | .name x => by
    simp only [Spec.Multilambda.eval, multi, Spec.LetDo.eval, trEnv]
    cases ρ x with
    | none => exact corr_raise _ _
    | some r => cases r with
      | val v => exact corr_ret tr v
      | var a => exact corr_load a x
  | .call f args => by
    simp only [Spec.Multilambda.eval, multi, Spec.LetDo.eval]
    exact corr_bind (corr_eval P h ρ f) fun fv => corr_bind (corr_evals P h ρ args) fun vs => corr_callVal P h fv vs
  | .lam ps ds b => by
    simp only [Spec.Multilambda.eval, multi_lam, Spec.LetDo.eval]
    refine corr_bind (corr_evals P h ρ ds) fun vs => ?_
    cases b <;> exact corr_clo ps vs _ ρ
  | .ife c t e => by
    simp only [Spec.Multilambda.eval, multi, Spec.LetDo.eval]
    refine corr_bind (corr_eval P h ρ c) fun v => ?_
    rw [truthy_tr]
    split
    · exact corr_eval P h ρ t
    · exact corr_eval P h ρ e
  | .tup ts => by
    simp only [Spec.Multilambda.eval, multi, Spec.LetDo.eval]
    exact corr_bind (corr_evals P h ρ ts) fun vs => by
      have := corr_ret (β := β) (ω := ω) (ε := ε) tr (.tup vs)
      simpa only [tr] using this
  | .lst tags ts => by
    simp only [Spec.Multilambda.eval, multi]
    split
    · rename_i hc
      simp only [Spec.LetDo.eval]
      exact corr_bind (corr_evals P h ρ ts) fun vs => by
        have := corr_ret (β := β) (ω := ω) (ε := ε) tr (.lst vs)
        simpa only [tr] using this
    · simp only [Spec.LetDo.eval]
      exact corr_raise _ _
  | .assign x v => by
    simp only [Spec.Multilambda.eval, multi, Spec.LetDo.eval, trEnv]
    cases ρ x with
    | none => exact corr_raise _ _
    | some r => cases r with
      | val v => exact corr_raise _ _
      | var a =>
        exact corr_bind (corr_eval P h ρ v) fun w => corr_bind (corr_write a x w) fun _ => corr_ret tr w
  | .letx false xs vs b => by
    simp only [Spec.Multilambda.eval, multi, Spec.LetDo.eval]
    refine corr_bind (corr_evals P h ρ vs) fun ws => corr_bind (corr_new false xs ws) fun a => ?_
    rw [id, ← trEnv_scope]
    exact corr_run h _ b
  | .letx true xs vs b => by
    simp only [Spec.Multilambda.eval, multi, Spec.LetDo.eval]
    refine corr_bind (corr_new false [] []) fun a => ?_
    rw [id, ← trEnv_scope]
    exact corr_bind (corr_recLoop h _ a xs vs) fun _ => corr_run h _ b
  | .doe tags ts => by
    simp only [Spec.Multilambda.eval, multi, Spec.LetDo.eval]
    exact corr_bind (corr_new true [] []) fun a => corr_doLoop h ρ a [] (.tup []) tags ts

theorem corr_evals (P : World β ω ε) (h : CorrAp ap ap') (ρ : String → Option (Rf β)) : ∀ ts : List (Src β),
    Corr trs (Spec.Multilambda.evals P ap ρ ts) (Spec.LetDo.evals P ap' (trEnv ρ) (multis ts))
  | [] => by simp only [Spec.Multilambda.evals, multis, Spec.LetDo.evals]; exact corr_ret trs []
  | t :: ts => by
    simp only [Spec.Multilambda.evals, multis, Spec.LetDo.evals]
    exact corr_bind (corr_eval P h ρ t) fun v => corr_bind (corr_evals P h ρ ts) fun vs => corr_ret trs (v :: vs)
end
end

theorem params_tr (n : Nat) (ds args : List (Vl β)) : params n (trs ds) (trs args) = (params n ds args).map trs := by
  simp only [params, trs_map, List.length_map]
  split
  · simp [trs_map]
  · rfl

theorem mapply_succ (P : World β ω ε) (n : Nat) (ps : List String) (ds : List (Vl β)) (code : Spec.Multilambda.Code β) (ρ)
    (args : List (Vl β)) :
    Spec.Multilambda.apply P (n + 1) (.clo ps ds code ρ) args = match params ps.length ds args with
      | some vs => Spec.Multilambda.exec P (Spec.Multilambda.apply P n) (Spec.Multilambda.extend ρ ps vs) code
      | none => raise (.py .TypeError) := rfl

theorem corr_apply (P : World β ω ε) : ∀ n, CorrAp (Spec.Multilambda.apply P n) (Spec.LetDo.apply P n)
  | 0 => fun f args s => by
    cases f <;> rfl
  | n + 1 => fun f args => by
    cases f with
    | clo ps ds code ρ =>
      rw [tr_clo, LetDo.sapply_succ, mapply_succ]
      simp only [List.length_map, params_tr]
      cases params ps.length ds args with
      | none => exact corr_raise _ _
      | some vs =>
        simp only [Option.map_some, ← trEnv_extend]
        cases code with
        | expr t => exact corr_eval P (corr_apply P n) _ t
        | items tags ts =>
          simp only [Spec.Multilambda.exec, trCode, Spec.LetDo.eval]
          exact corr_bind (corr_new true [] []) fun a => corr_doLoop (corr_apply P n) _ a [] (.tup []) tags ts
    | base b => simp only [tr]; exact corr_raise _ _
    | ext k => simp only [tr]; exact corr_raise _ _
    | tup vs => simp only [tr]; exact corr_raise _ _
    | lst vs => simp only [tr]; exact corr_raise _ _

mutual
theorem obs_tr : ∀ v : Vl β, (tr v).obs = v.obs
  | .base b => by simp only [tr, Spec.LetDo.Val.obs, Spec.Multilambda.Val.obs]
  | .ext k => by simp only [tr, Spec.LetDo.Val.obs, Spec.Multilambda.Val.obs]
  | .tup vs => by simp only [tr, Spec.LetDo.Val.obs, Spec.Multilambda.Val.obs, obss_tr vs]
  | .lst vs => by simp only [tr, Spec.LetDo.Val.obs, Spec.Multilambda.Val.obs, obss_tr vs]
  | .clo ps ds code ρ => by simp only [tr, Spec.LetDo.Val.obs, Spec.Multilambda.Val.obs]
theorem obss_tr : ∀ vs : List (Vl β), Spec.LetDo.Val.obss (trs vs) = Spec.Multilambda.Val.obss vs
  | [] => rfl
  | v :: vs => by simp only [trs, Spec.LetDo.Val.obss, Spec.Multilambda.Val.obss, obs_tr v, obss_tr vs]
end

theorem program_tr (P : World β ω ε) (n : Nat) (globals : String → Option (Spec.LetDo.Glob β)) (t : Src β) (w : ω) :
    Spec.LetDo.program P n globals (multi t) w = Spec.Multilambda.program P n globals t w := by
  have key : ∀ (ρ : String → Option (Rf β)) (ρ' : Name → Option (Spec.LetDo.Ref β)), ρ' = trEnv ρ →
      Spec.LetDo.eval P (Spec.LetDo.apply P n) ρ' (multi t) ⟨[], w⟩ =
      mapR tr (Spec.Multilambda.eval P (Spec.Multilambda.apply P n) ρ t ⟨[], w⟩) := by
    intro ρ ρ' e
    subst e
    exact corr_eval P (corr_apply P n) ρ t ⟨[], w⟩
  simp only [Spec.LetDo.program, Spec.Multilambda.program]
  rw [key (fun x => (globals x).map fun g => match g with
      | .base b => .val (.base b)
      | .ext k => .val (.ext k)) _ (by
    funext x
    cases x with
    | gen n => rfl
    | user y =>
      simp only [trEnv]
      cases globals y with
      | none => rfl
      | some g => cases g <;> simp [trOpt, trRef, tr])]
  cases Spec.Multilambda.eval P (Spec.Multilambda.apply P n) _ t ⟨[], w⟩ with
  | none => rfl
  | some r =>
    obtain ⟨o, s⟩ := r
    cases o with
    | error e => rfl
    | ok v => simp only [mapR, obs_tr]; rfl

/-! ## Conditions -/

mutual
theorem assigns_multi (x : String) : ∀ t : Src β, Spec.Multilambda.assigns x t = false →
    Spec.LetDo.assigns (.user x) (multi t) = false
  | .cst c, _ => by simp [multi, Spec.LetDo.assigns]
  | .name y, _ => by simp [multi, Spec.LetDo.assigns]
  | .call f args, h => by
    simp only [Spec.Multilambda.assigns, Bool.or_eq_false_iff] at h
    simp [multi, Spec.LetDo.assigns, assigns_multi x f h.1, assignsAny_multi x args h.2]
  | .lam ps ds b, h => by
    simp only [Spec.Multilambda.assigns, Bool.or_eq_false_iff] at h
    simp only [multi_lam, Spec.LetDo.assigns, assignsAny_multi x ds h.1, Bool.false_or]
    unfold bodyOf
    split
    · rename_i tags ts
      simp only [Spec.Multilambda.assigns] at h
      simp [Spec.LetDo.assigns, assignsAny_multi x ts h.2]
    · exact assigns_multi x b h.2
  | .ife c t e, h => by
    simp only [Spec.Multilambda.assigns, Bool.or_eq_false_iff] at h
    simp [multi, Spec.LetDo.assigns, assigns_multi x c h.1.1, assigns_multi x t h.1.2, assigns_multi x e h.2]
  | .tup ts, h => by
    simp only [Spec.Multilambda.assigns] at h
    simp [multi, Spec.LetDo.assigns, assignsAny_multi x ts h]
  | .lst tags ts, h => by
    simp only [Spec.Multilambda.assigns] at h
    simp only [multi]
    split <;> simp [Spec.LetDo.assigns, assignsAny_multi x ts h]
  | .assign y v, h => by
    simp only [Spec.Multilambda.assigns, Bool.or_eq_false_iff] at h
    have : x ≠ y := by simpa using h.1
    simp [multi, Spec.LetDo.assigns, assigns_multi x v h.2, this]
  | .letx r xs vs b, h => by
    simp only [Spec.Multilambda.assigns, Bool.or_eq_false_iff] at h
    simp [multi, Spec.LetDo.assigns, assignsAny_multi x vs h.1, assigns_multi x b h.2]
  | .doe tags ts, h => by
    simp only [Spec.Multilambda.assigns] at h
    simp [multi, Spec.LetDo.assigns, assignsAny_multi x ts h]
theorem assignsAny_multi (x : String) : ∀ ts : List (Src β), Spec.Multilambda.assignsAny x ts = false →
    Spec.LetDo.assignsAny (.user x) (multis ts) = false
  | [], _ => rfl
  | t :: ts, h => by
    simp only [Spec.Multilambda.assignsAny, Bool.or_eq_false_iff] at h
    simp [multis, Spec.LetDo.assignsAny, assigns_multi x t h.1, assignsAny_multi x ts h.2]
end

mutual
theorem reads_multi (x : String) : ∀ t : Src β, Spec.Multilambda.mentions x t = false →
    Spec.LetDo.reads (.user x) (multi t) = false ∧ Spec.LetDo.assigns (.user x) (multi t) = false
  | .cst c, _ => by simp [multi, Spec.LetDo.reads, Spec.LetDo.assigns]
  | .name y, h => by
    have : x ≠ y := by simpa [Spec.Multilambda.mentions] using h
    simp [multi, Spec.LetDo.reads, Spec.LetDo.assigns, this]
  | .call f args, h => by
    simp only [Spec.Multilambda.mentions, Bool.or_eq_false_iff] at h
    simp [multi, Spec.LetDo.reads, Spec.LetDo.assigns, reads_multi x f h.1, readsAny_multi x args h.2]
  | .lam ps ds b, h => by
    simp only [Spec.Multilambda.mentions, Bool.or_eq_false_iff] at h
    simp only [multi_lam, Spec.LetDo.reads, Spec.LetDo.assigns, readsAny_multi x ds h.1, Bool.false_or]
    unfold bodyOf
    split
    · rename_i tags ts
      simp only [Spec.Multilambda.mentions] at h
      simp [Spec.LetDo.reads, Spec.LetDo.assigns, readsAny_multi x ts h.2]
    · exact reads_multi x b h.2
  | .ife c t e, h => by
    simp only [Spec.Multilambda.mentions, Bool.or_eq_false_iff] at h
    simp [multi, Spec.LetDo.reads, Spec.LetDo.assigns, reads_multi x c h.1.1, reads_multi x t h.1.2, reads_multi x e h.2]
  | .tup ts, h => by
    simp only [Spec.Multilambda.mentions] at h
    simp [multi, Spec.LetDo.reads, Spec.LetDo.assigns, readsAny_multi x ts h]
  | .lst tags ts, h => by
    simp only [Spec.Multilambda.mentions] at h
    simp only [multi]
    split <;> simp [Spec.LetDo.reads, Spec.LetDo.assigns, readsAny_multi x ts h]
  | .assign y v, h => by
    simp only [Spec.Multilambda.mentions, Bool.or_eq_false_iff] at h
    have : x ≠ y := by simpa using h.1
    simp [multi, Spec.LetDo.reads, Spec.LetDo.assigns, reads_multi x v h.2, this]
  | .letx r xs vs b, h => by
    simp only [Spec.Multilambda.mentions, Bool.or_eq_false_iff] at h
    simp [multi, Spec.LetDo.reads, Spec.LetDo.assigns, readsAny_multi x vs h.1, reads_multi x b h.2]
  | .doe tags ts, h => by
    simp only [Spec.Multilambda.mentions] at h
    simp [multi, Spec.LetDo.reads, Spec.LetDo.assigns, readsAny_multi x ts h]
theorem readsAny_multi (x : String) : ∀ ts : List (Src β), Spec.Multilambda.mentionsAny x ts = false →
    Spec.LetDo.readsAny (.user x) (multis ts) = false ∧ Spec.LetDo.assignsAny (.user x) (multis ts) = false
  | [], _ => ⟨rfl, rfl⟩
  | t :: ts, h => by
    simp only [Spec.Multilambda.mentionsAny, Bool.or_eq_false_iff] at h
    simp [multis, Spec.LetDo.readsAny, Spec.LetDo.assignsAny, reads_multi x t h.1, readsAny_multi x ts h.2]
end

/-- The body of a lambda. -/
def WfBody (P : World β ω ε) : Src β → Prop
  | .lst tags ts => ts ≠ [] ∧ ts.length = tags.length ∧ Spec.Multilambda.WfItems P [] tags ts
  | b => Spec.Multilambda.Wf P b

theorem wf_lam {P : World β ω ε} {ps : List String} {ds : List (Src β)} {b : Src β} (h : Spec.Multilambda.Wf P (.lam ps ds b)) :
    (∀ p ∈ ps, Spec.Multilambda.mentionsAny p ds = false) ∧ Spec.Multilambda.Wfs P ds ∧ WfBody P b := by
  cases b <;> (simp only [Spec.Multilambda.Wf] at h; exact h)

theorem multis_nil {ts : List (Src β)} : multis ts = [] ↔ ts = [] := by simp [multis_map]
theorem multis_length (ts : List (Src β)) : (multis ts).length = ts.length := by simp [multis_map]

mutual
theorem wf_multi (P : World β ω ε) : ∀ t : Src β, Spec.Multilambda.Wf P t → Spec.LetDo.Wf P (multi t)
  | .cst c, _ => by simp [multi, Spec.LetDo.Wf]
  | .name y, _ => by simp [multi, Spec.LetDo.Wf]
  | .call f args, h => by
    simp only [Spec.Multilambda.Wf] at h
    exact ⟨wf_multi P f h.1, wfs_multi P args h.2⟩
  | .lam ps ds b, h => by
    obtain ⟨h1, h2, h3⟩ := wf_lam h
    simp only [multi_lam, Spec.LetDo.Wf]
    unfold bodyOf
    refine ⟨?_, ?_, wfs_multi P ds h2, ?_⟩
    · intro p hp
      obtain ⟨x, _, rfl⟩ := List.mem_map.mp hp
      exact ⟨x, rfl⟩
    · intro p hp
      obtain ⟨x, hx, rfl⟩ := List.mem_map.mp hp
      exact readsAny_multi x ds (h1 x hx)
    · split
      · rename_i tags ts
        simp only [Spec.LetDo.Wf]
        exact ⟨by simpa [multis_nil] using h3.1, by rw [multis_length]; exact h3.2.1, wfItems_multi P [] tags ts h3.2.2⟩
      · rename_i hb
        refine wf_multi P b ?_
        unfold WfBody at h3
        split at h3
        · exact absurd rfl (hb _ _)
        · exact h3
  | .ife c t e, h => by
    simp only [Spec.Multilambda.Wf] at h
    exact ⟨wf_multi P c h.1, wf_multi P t h.2.1, wf_multi P e h.2.2⟩
  | .tup ts, h => by
    simp only [Spec.Multilambda.Wf] at h
    exact wfs_multi P ts h
  | .lst tags ts, h => by
    simp only [Spec.Multilambda.Wf] at h
    simp only [multi]
    rw [if_pos]
    · exact wfs_multi P ts h.2
    · rw [List.all_eq_true]
      intro t ht
      rw [h.1 t ht]
      rfl
  | .assign x v, h => by
    simp only [Spec.Multilambda.Wf] at h
    exact wf_multi P v h
  | .letx r xs vs b, h => by
    simp only [Spec.Multilambda.Wf] at h
    obtain ⟨h1, h2, h3, h4, h5, h6⟩ := h
    exact ⟨h1, h2, h3, by rw [multis_length]; exact h4, wfs_multi P vs h5, wf_multi P b h6⟩
  | .doe tags ts, h => by
    simp only [Spec.Multilambda.Wf] at h
    exact ⟨by simpa [multis_nil] using h.1, by rw [multis_length]; exact h.2.1, wfItems_multi P [] tags ts h.2.2⟩
theorem wfs_multi (P : World β ω ε) : ∀ ts : List (Src β), Spec.Multilambda.Wfs P ts → Spec.LetDo.Wfs P (multis ts)
  | [], _ => trivial
  | t :: ts, h => by
    simp only [Spec.Multilambda.Wfs] at h
    exact ⟨wf_multi P t h.1, wfs_multi P ts h.2⟩
theorem wfItems_multi (P : World β ω ε) : ∀ (names : List String) (tags : List Tag) (ts : List (Src β)),
    Spec.Multilambda.WfItems P names tags ts → Spec.LetDo.WfItems P names tags (multis ts)
  | names, [], ts, _ => by cases ts <;> simp [multis, Spec.LetDo.WfItems]
  | names, .loc xs :: tags, [], _ => by simp [multis, Spec.LetDo.WfItems]
  | names, .del x :: tags, [], _ => by simp [multis, Spec.LetDo.WfItems]
  | names, .loc xs :: tags, t :: ts, h => by
    simp only [Spec.Multilambda.WfItems] at h
    simp only [multis, Spec.LetDo.WfItems]
    exact ⟨fun x hx => ⟨(h.1 x hx).1, assigns_multi x t (h.1 x hx).2⟩, wf_multi P t h.2.1, wfItems_multi P _ tags ts h.2.2⟩
  | names, .del x :: tags, t :: ts, h => by
    simp only [Spec.Multilambda.WfItems] at h
    obtain ⟨h1, h2, h3⟩ := h
    subst h2
    simp only [multis, multi, Spec.LetDo.WfItems]
    exact ⟨h1, trivial, wfItems_multi P _ tags ts h3⟩
end

end Unpy.Multilambda
