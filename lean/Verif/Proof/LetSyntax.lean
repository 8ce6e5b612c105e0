import Verif.Spec.LetSyntax
/-!
# Helper lemmas for `let_syntax`
-/
namespace Unpy.LetSyntax.Lemmas
open Unpy.LetSyntax Spec

/-! ## Enough fuel -/

/-- With enough fuel, this is the outcome. -/
def Conv {α : Type} (f : Nat → R α) (o : R α) : Prop := ∃ n, ∀ m, n ≤ m → f m = o

theorem conv_const {α : Type} (o : R α) : Conv (fun _ => o) o := ⟨0, fun _ _ => rfl⟩

theorem conv_succ {α : Type} {f g : Nat → R α} {o : R α} (h : ∀ n, f (n + 1) = g n) (hg : Conv g o) : Conv f o := by
  obtain ⟨n, hn⟩ := hg
  refine ⟨n + 1, fun m hm => ?_⟩
  obtain ⟨k, rfl⟩ : ∃ k, m = k + 1 := ⟨m - 1, by omega⟩
  rw [h]; exact hn k (by omega)

theorem conv_pred {α : Type} {f g : Nat → R α} {o : R α} (h : ∀ n, f (n + 1) = g n) (hf : Conv f o) : Conv g o := by
  obtain ⟨n, hn⟩ := hf
  exact ⟨n, fun m hm => by rw [← h]; exact hn (m + 1) (by omega)⟩

theorem conv_bind {α β : Type} {f : Nat → R α} {g : α → Nat → R β} {o : R α} {k : α → R β} (hf : Conv f o)
    (hg : ∀ a, o = .ok a → Conv (g a) (k a)) : Conv (fun n => (f n).bind fun a => g a n) (o.bind k) := by
  obtain ⟨n, hn⟩ := hf
  cases o with
  | error e => exact ⟨n, fun m hm => by simp only [hn m hm]; rfl⟩
  | ok a =>
    obtain ⟨n', hn'⟩ := hg a rfl
    refine ⟨max n n', fun m hm => ?_⟩
    simp only [hn m (by omega)]
    exact hn' m (by omega)

theorem conv_bind_ok {α β : Type} {f : Nat → R α} {g : α → Nat → R β} {a : α} {o : R β} (hf : Conv f (.ok a)) (hg : Conv (g a) o) :
    Conv (fun n => (f n).bind fun a => g a n) o :=
  conv_bind (k := fun _ => o) hf (by intro a' ha'; cases ha'; exact hg)

theorem conv_unique {α : Type} {f : Nat → R α} {o o' : R α} (h : Conv f o) (h' : Conv f o') : o = o' := by
  obtain ⟨n, hn⟩ := h
  obtain ⟨n', hn'⟩ := h'
  rw [← hn (max n n') (by omega), hn' (max n n') (by omega)]

/-- The code does what the specification says, if that does not stop. -/
def Sim {α β : Type} (Rel : α → β → Prop) (f : Nat → R α) (x : X β) : Prop :=
  match x with
  | .ok b => ∃ a, Rel a b ∧ Conv f (.ok a)
  | .error .syntax => Conv f (.error .syntax)
  | .error .stopped => True

theorem sim_ok {α β : Type} {Rel : α → β → Prop} {a : α} {b : β} (h : Rel a b) : Sim Rel (fun _ => .ok a) (.ok b) :=
  ⟨a, h, conv_const _⟩

theorem sim_syntax {α β : Type} {Rel : α → β → Prop} : Sim Rel (fun _ => .error .syntax) (.error .syntax) := conv_const _

theorem sim_stopped {α β : Type} {Rel : α → β → Prop} (f : Nat → R α) : Sim Rel f (.error .stopped) := trivial

theorem sim_succ {α β : Type} {Rel : α → β → Prop} {f g : Nat → R α} {x : X β} (h : ∀ n, f (n + 1) = g n) (hg : Sim Rel g x) :
    Sim Rel f x := by
  match x, hg with
  | .ok b, hg => obtain ⟨a, hr, hc⟩ := hg; exact ⟨a, hr, conv_succ h hc⟩
  | .error .syntax, hg => exact conv_succ h hg
  | .error .stopped, _ => trivial

theorem sim_pred {α β : Type} {Rel : α → β → Prop} {f g : Nat → R α} {x : X β} (h : ∀ n, f (n + 1) = g n) (hf : Sim Rel f x) :
    Sim Rel g x := by
  match x, hf with
  | .ok b, hg => obtain ⟨a, hr, hc⟩ := hg; exact ⟨a, hr, conv_pred h hc⟩
  | .error .syntax, hg => exact conv_pred h hg
  | .error .stopped, _ => trivial

theorem sim_bind {α β γ δ : Type} {Rel : α → β → Prop} {Rel' : γ → δ → Prop} {f : Nat → R α} {x : X β} {g : α → Nat → R γ}
    {k : β → X δ} (hf : Sim Rel f x) (hg : ∀ a b, Rel a b → x = .ok b → Sim Rel' (g a) (k b)) :
    Sim Rel' (fun n => (f n).bind fun a => g a n) (x.bind k) := by
  match x, hf with
  | .ok b, hf =>
    obtain ⟨a, hr, hc⟩ := hf
    have h := hg a b hr rfl
    show Sim Rel' _ (k b)
    match k b, h with
    | .ok d, h =>
      obtain ⟨c, hr', hc'⟩ := h
      exact ⟨c, hr', conv_bind (k := fun _ => .ok c) hc (by intro a' ha'; cases ha'; exact hc')⟩
    | .error .syntax, h =>
      exact conv_bind (k := fun _ => .error .syntax) hc (by intro a' ha'; cases ha'; exact h)
    | .error .stopped, _ => trivial
  | .error .syntax, hf => exact conv_bind (k := fun _ => .error .syntax) (o := .error .syntax) hf (by intro a ha; cases ha)
  | .error .stopped, _ => trivial

theorem sim_map {α β γ : Type} {Rel : α → β → Prop} {Rel' : γ → β → Prop} {f : Nat → R α} {x : X β} {g : α → γ} (hf : Sim Rel f x)
    (hg : ∀ a b, Rel a b → Rel' (g a) b) : Sim Rel' (fun n => (f n).bind fun a => .ok (g a)) x := by
  match x, hf with
  | .ok b, hf =>
    obtain ⟨a, hr, hc⟩ := hf
    exact ⟨g a, hg a b hr, conv_bind_ok hc (conv_const _)⟩
  | .error .syntax, hf => exact conv_bind (k := fun _ => .error .syntax) (o := .error .syntax) hf (by intro a ha; cases ha)
  | .error .stopped, _ => trivial

theorem sim_shift {α β : Type} {Rel : α → β → Prop} {f : Nat → R α} {x : X β} (hf : Sim Rel f x) : Sim Rel (fun n => f (n + 1)) x :=
  sim_pred (fun _ => rfl) hf

/-- An equality of outcomes. -/
abbrev SimE {α : Type} (f : Nat → R α) (x : X α) : Prop := Sim Eq f x

theorem simE_bind {α γ δ : Type} {Rel' : γ → δ → Prop} {f : Nat → R α} {x : X α} {g : α → Nat → R γ} {k : α → X δ} (hf : SimE f x)
    (hg : ∀ a, x = .ok a → Sim Rel' (g a) (k a)) : Sim Rel' (fun n => (f n).bind fun a => g a n) (x.bind k) :=
  sim_bind hf (by intro a b hab hx; cases hab; exact hg a hx)

theorem simE_ok {α : Type} {f : Nat → R α} {a : α} : SimE f (.ok a) ↔ Conv f (.ok a) :=
  ⟨by rintro ⟨_, rfl, h⟩; exact h, fun h => ⟨a, rfl, h⟩⟩

theorem sim_congr {α β : Type} {Rel : α → β → Prop} {f : Nat → R α} {x y : X β} (h : x = y) (hf : Sim Rel f x) : Sim Rel f y := h ▸ hf

/-! ## Right hand sides; spliced statements -/

mutual
/-- The second list has some `if 1` of the first spliced. -/
inductive Spl : List Stmt → List Stmt → Prop
  | nil : Spl [] []
  | expr (e : T) {ss ss' : List Stmt} : Spl ss ss' → Spl (.expr e :: ss) (.expr e :: ss')
  | op (t : String) (es : List T) {bs bs' : List (List Stmt)} {ss ss' : List Stmt} : SplBs bs bs' → Spl ss ss' →
      Spl (.op t es bs :: ss) (.op t es bs' :: ss')
  | wrap {b b' ss ss' : List Stmt} : Spl b b' → Spl ss ss' → Spl (ifOne b :: ss) (b' ++ ss')
inductive SplBs : List (List Stmt) → List (List Stmt) → Prop
  | nil : SplBs [] []
  | cons {b b' : List Stmt} {bs bs' : List (List Stmt)} : Spl b b' → SplBs bs bs' → SplBs (b :: bs) (b' :: bs')
end

mutual
theorem spl_refl_S : (s : Stmt) → {ss ss' : List Stmt} → Spl ss ss' → Spl (s :: ss) (s :: ss')
  | .expr e, _, _, h => .expr e h
  | .op t es bs, _, _, h => .op t es (spl_refl_Bs bs) h
theorem spl_refl : (ss : List Stmt) → Spl ss ss
  | [] => .nil
  | s :: ss => spl_refl_S s (spl_refl ss)
theorem spl_refl_Bs : (bs : List (List Stmt)) → SplBs bs bs
  | [] => .nil
  | b :: bs => .cons (spl_refl b) (spl_refl_Bs bs)
end

theorem spl_append : {a a' b b' : List Stmt} → Spl a a' → Spl b b' → Spl (a ++ b) (a' ++ b')
  | _, _, _, _, .nil, h => h
  | _, _, _, _, .expr e h1, h => .expr e (spl_append h1 h)
  | _, _, _, _, .op t es hb h1, h => .op t es hb (spl_append h1 h)
  | _, _, _, _, .wrap hb h1, h => by
    rw [List.append_assoc]
    exact .wrap hb (spl_append h1 h)

theorem elimSs_append : (a b : List Stmt) → elimSs (a ++ b) = elimSs a ++ elimSs b
  | [], _ => rfl
  | s :: ss, b => by
    rw [List.cons_append]
    simp only [elimSs, elimSs_append ss b, List.append_assoc]

mutual
/-- Splicing before `eliminate_ifones` makes no difference. -/
theorem spl_elim : {a a' : List Stmt} → Spl a a' → elimSs a = elimSs a'
  | _, _, .nil => rfl
  | _, _, .expr e h => by simp only [elimSs, spl_elim h]
  | _, _, .op t es hb h => by simp only [elimSs, elimS, spl_elim h, splBs_elim hb]
  | _, _, .wrap hb h => by
    rw [elimSs_append, ← spl_elim hb, ← spl_elim h]
    simp [elimSs, elimS, ifOne, optimize, elimBs]
theorem splBs_elim : {a a' : List (List Stmt)} → SplBs a a' → elimBs a = elimBs a'
  | _, _, .nil => rfl
  | _, _, .cons h hb => by simp only [elimBs, spl_elim h, splBs_elim hb]
end

/-- Right hand sides, up to splicing. -/
inductive ValRel : Value → Value → Prop
  | expr (e : T) : ValRel (.expr e) (.expr e)
  | block {b b' : List Stmt} : Spl b b' → ValRel (.block b) (.block b')

/-! ## Bare names -/

mutual
theorem bareE_absent {x : String} {val : Value} : (e : T) → occursE x e = false → Conv (fun n => bareE x val n e) (.ok e)
  | .name y, h => by
    have hy : y ≠ x := by simpa [occursE] using h
    exact conv_succ (g := fun _ => .ok (.name y)) (by intro n; simp [bareE, hy]) (conv_const _)
  | .const c, _ => conv_succ (g := fun _ => .ok (.const c)) (by intro n; simp [bareE, genE]) (conv_const _)
  | .call f args, h => by
    simp only [occursE, Bool.or_eq_false_iff] at h
    exact conv_succ (g := fun n => genE (bareE x val n) (.call f args)) (by intro n; simp [bareE])
      (conv_bind_ok (bareE_absent f h.1) (conv_bind_ok (bareEs_absent args h.2) (conv_const _)))
  | .op t es, h => by
    simp only [occursE] at h
    exact conv_succ (g := fun n => genE (bareE x val n) (.op t es)) (by intro n; simp [bareE])
      (conv_bind_ok (bareEs_absent es h) (conv_const _))
theorem bareEs_absent {x : String} {val : Value} : (es : List T) → occursEs x es = false →
    Conv (fun n => mapR (bareE x val n) es) (.ok es)
  | [], _ => conv_const _
  | e :: es, h => by
    simp only [occursEs, Bool.or_eq_false_iff] at h
    exact conv_bind_ok (bareE_absent e h.1) (conv_bind_ok (bareEs_absent es h.2) (conv_const _))
end

mutual
theorem bareE_sim {x : String} {val val' : Value} (hv : ValRel val val') : (e : T) →
    SimE (fun n => bareE x val n e) (subE (bare true x val') e)
  | .name y => by
    by_cases hy : y = x
    · subst hy
      cases hv with
      | block hb =>
        refine sim_succ (g := fun _ => .error .syntax) (by intro n; simp [bareE]) ?_
        simp only [subE, bare, if_true]
        exact sim_syntax
      | expr v =>
        refine sim_succ (g := fun n => genE (bareE y (.expr v) n) v) (by intro n; simp [bareE]) ?_
        simp only [subE, bare, if_true, Bool.true_and]
        cases hs : selfRef y v with
        | true => exact sim_stopped _
        | false =>
          refine simE_ok.2 ?_
          cases v with
          | name z => exact conv_const _
          | const c => exact conv_const _
          | call f args => exact conv_pred (f := fun n => bareE y (.expr (.call f args)) n (.call f args)) (fun n => by simp [bareE]) (bareE_absent _ hs)
          | op t es => exact conv_pred (f := fun n => bareE y (.expr (.op t es)) n (.op t es)) (fun n => by simp [bareE]) (bareE_absent _ hs)
    · refine sim_succ (g := fun _ => .ok (.name y)) (by intro n; simp [bareE, hy]) ?_
      simp only [subE, bare, if_neg hy]
      exact sim_ok rfl
  | .const c => sim_succ (g := fun _ => .ok (.const c)) (by intro n; simp [bareE, genE]) (sim_ok rfl)
  | .call f args => by
    refine sim_succ (g := fun n => genE (bareE x val n) (.call f args)) (by intro n; simp [bareE]) ?_
    simp only [genE, subE]
    exact simE_bind (bareE_sim hv f) fun f _ => simE_bind (bareEs_sim hv args) fun a _ => sim_ok rfl
  | .op t es => by
    refine sim_succ (g := fun n => genE (bareE x val n) (.op t es)) (by intro n; simp [bareE]) ?_
    simp only [genE, subE]
    exact simE_bind (bareEs_sim hv es) fun a _ => sim_ok rfl
theorem bareEs_sim {x : String} {val val' : Value} (hv : ValRel val val') : (es : List T) →
    SimE (fun n => mapR (bareE x val n) es) (subEs (bare true x val') es)
  | [] => sim_ok rfl
  | e :: es => by
    simp only [mapR, subEs]
    exact simE_bind (bareE_sim hv e) fun f _ => simE_bind (bareEs_sim hv es) fun a _ => sim_ok rfl
end

theorem bind_assoc' {ε α β γ : Type} (x : Except ε α) (f : α → Except ε β) (g : β → Except ε γ) :
    (x.bind f).bind g = x.bind fun a => (f a).bind g := by cases x <;> rfl

theorem subSs_append (σ : Subst) : (a b : List Stmt) →
    subSs σ (a ++ b) = (subSs σ a).bind fun a => (subSs σ b).bind fun b => .ok (a ++ b)
  | [], b => by simp only [List.nil_append, subSs, Except.bind]; cases subSs σ b <;> rfl
  | s :: ss, b => by
    simp only [List.cons_append, subSs, subSs_append σ ss b]
    cases subS σ s with
    | error e => rfl
    | ok s => cases subSs σ ss with
      | error e => rfl
      | ok ss => cases subSs σ b with
        | error e => rfl
        | ok b => simp [Except.bind]

theorem genS_wrap (vE : T → R T) (vS : Stmt → R Stmt) (h : vE (.const (some 1)) = .ok (.const (some 1))) (b : List Stmt) :
    genS vE vS (ifOne b) = (mapR vS b).bind fun b => .ok (ifOne b) := by
  simp only [ifOne, genS, mapR, h, Except.bind]
  cases mapR vS b <;> rfl

theorem bareX_sim {x : String} {val val' : Value} (hv : ValRel val val') (e : T) :
    Sim (fun s S => Spl [s] S) (fun n => bareS x val n (.expr e)) (subX (bare true x val') e) := by
  have gen : (∀ n, bareS x val (n + 1) (.expr e) = genS (bareE x val n) (bareS x val n) (.expr e)) →
      subX (bare true x val') e = (subE (bare true x val') e).bind (fun e => .ok [.expr e]) →
      Sim (fun s S => Spl [s] S) (fun n => bareS x val n (.expr e)) (subX (bare true x val') e) := by
    intro h1 h2
    rw [h2]
    refine sim_succ h1 ?_
    simp only [genS]
    exact simE_bind (bareE_sim hv e) fun e _ => sim_ok (spl_refl _)
  cases hv with
  | expr v =>
    refine gen (by intro n; simp [bareS]) ?_
    cases e with
    | name y =>
      simp only [subX, subE, bare]
      by_cases hy : y = x
      · simp only [if_pos hy]
        cases selfRef x v <;> rfl
      · simp only [if_neg hy]; rfl
    | _ => rfl
  | block hb =>
    cases e with
    | name y =>
      by_cases hy : y = x
      · subst hy
        refine sim_succ (g := fun _ => .ok (ifOne _)) (by intro n; simp only [bareS, if_true]; rfl) ?_
        simp only [subX, bare, if_true]
        exact sim_ok (by simpa using Spl.wrap hb .nil)
      · refine sim_succ (g := fun _ => .ok (.expr (.name y))) (by intro n; simp only [bareS, if_neg hy]) ?_
        simp only [subX, bare, if_neg hy]
        exact sim_ok (spl_refl _)
    | _ => exact gen (by intro n; simp [bareS]) rfl

mutual
theorem bareS_sim {x : String} {val val' : Value} (hv : ValRel val val') : {S S' : List Stmt} → Spl S S' →
    Sim Spl (fun n => mapR (bareS x val n) S) (subSs (bare true x val') S')
  | _, _, .nil => sim_ok .nil
  | _, _, .expr e h => by
    simp only [mapR, subSs, subS]
    exact sim_bind (bareX_sim hv e) fun a b hab _ => sim_bind (bareS_sim hv h) fun _ _ hr _ => sim_ok (spl_append hab hr)
  | _, _, .op t es (bs := bs) hb h => by
    simp only [mapR, subSs, subS]
    refine sim_bind (Rel := fun s S => Spl [s] S) ?_ ?_
    · refine sim_succ (g := fun n => genS (bareE x val n) (bareS x val n) (.op t es bs)) (by intro n; cases hv <;> simp [bareS]) ?_
      simp only [genS]
      exact simE_bind (bareEs_sim hv es) fun es _ => sim_bind (bareBs_sim hv hb) fun _ _ hr _ => sim_ok (.op t es hr .nil)
    · intro a b hab _
      exact sim_bind (bareS_sim hv h) fun _ _ hr _ => sim_ok (spl_append hab hr)
  | _, _, .wrap (b := b) hb h => by
    rw [subSs_append]
    simp only [mapR]
    refine sim_bind (Rel := fun s S => Spl [s] S) ?_ ?_
    · refine sim_succ (g := fun n => genS (bareE x val n) (bareS x val n) (ifOne b)) (by intro n; cases hv <;> simp [bareS, ifOne]) ?_
      refine sim_succ (g := fun n => (mapR (bareS x val (n + 1)) b).bind fun b => .ok (ifOne b))
        (fun n => genS_wrap _ _ (by simp [bareE, genE]) b) ?_
      exact sim_map (sim_shift (bareS_sim hv hb)) fun _ _ h => by simpa using Spl.wrap h .nil
    · intro a b hab _
      exact sim_bind (bareS_sim hv h) fun _ _ hr _ => sim_ok (spl_append hab hr)
theorem bareBs_sim {x : String} {val val' : Value} (hv : ValRel val val') : {S S' : List (List Stmt)} → SplBs S S' →
    Sim SplBs (fun n => mapR (mapR (bareS x val n)) S) (subBs (bare true x val') S')
  | _, _, .nil => sim_ok .nil
  | _, _, .cons h hb => by
    simp only [mapR, subBs]
    exact sim_bind (bareS_sim hv h) fun _ _ hr _ => sim_bind (bareBs_sim hv hb) fun _ _ hr' _ => sim_ok (.cons hr hr')
end

/-! ## Plain substitution -/

mutual
/-- Replace names, all at the same time. -/
def rawE (ρ : String → Option T) : T → T
  | .name y => (ρ y).getD (.name y)
  | .const c => .const c
  | .call f args => .call (rawE ρ f) (rawEs ρ args)
  | .op t es => .op t (rawEs ρ es)
def rawEs (ρ : String → Option T) : List T → List T
  | [] => []
  | e :: es => rawE ρ e :: rawEs ρ es
end

mutual
def rawS (ρ : String → Option T) : Stmt → Stmt
  | .expr e => .expr (rawE ρ e)
  | .op t es bs => .op t (rawEs ρ es) (rawBs ρ bs)
def rawSs (ρ : String → Option T) : List Stmt → List Stmt
  | [] => []
  | s :: ss => rawS ρ s :: rawSs ρ ss
def rawBs (ρ : String → Option T) : List (List Stmt) → List (List Stmt)
  | [] => []
  | b :: bs => rawSs ρ b :: rawBs ρ bs
end

mutual
theorem subE_raw {σ : Subst} {ρ : String → Option T} (h : ∀ y, σ.inExpr y = (ρ y).map .ok) : (e : T) → subE σ e = .ok (rawE ρ e)
  | .name y => by
    simp only [subE, h, rawE]
    cases ρ y <;> rfl
  | .const c => rfl
  | .call f args => by simp only [subE, subE_raw h f, subEs_raw h args, rawE, Except.bind]
  | .op t es => by simp only [subE, subEs_raw h es, rawE, Except.bind]
theorem subEs_raw {σ : Subst} {ρ : String → Option T} (h : ∀ y, σ.inExpr y = (ρ y).map .ok) : (es : List T) →
    subEs σ es = .ok (rawEs ρ es)
  | [] => rfl
  | e :: es => by simp only [subEs, subE_raw h e, subEs_raw h es, rawEs, Except.bind]
end

mutual
theorem subS_raw {σ : Subst} {ρ : String → Option T} (h : ∀ y, σ.inExpr y = (ρ y).map .ok)
    (h' : ∀ y, σ.asStmt y = (ρ y).map fun a => .ok [.expr a]) : (s : Stmt) → subS σ s = .ok [rawS ρ s]
  | .expr e => by
    cases e with
    | name y =>
      simp only [subS, subX, h', rawS, rawE]
      cases ρ y <;> rfl
    | _ => simp only [subS, subX, subE_raw h, rawS, Except.bind]
  | .op t es bs => by simp only [subS, subEs_raw h es, subBs_raw h h' bs, rawS, Except.bind]
theorem subSs_raw {σ : Subst} {ρ : String → Option T} (h : ∀ y, σ.inExpr y = (ρ y).map .ok)
    (h' : ∀ y, σ.asStmt y = (ρ y).map fun a => .ok [.expr a]) : (ss : List Stmt) → subSs σ ss = .ok (rawSs ρ ss)
  | [] => rfl
  | s :: ss => by simp only [subSs, subS_raw h h' s, subSs_raw h h' ss, rawSs, Except.bind, List.cons_append, List.nil_append]
theorem subBs_raw {σ : Subst} {ρ : String → Option T} (h : ∀ y, σ.inExpr y = (ρ y).map .ok)
    (h' : ∀ y, σ.asStmt y = (ρ y).map fun a => .ok [.expr a]) : (bs : List (List Stmt)) → subBs σ bs = .ok (rawBs ρ bs)
  | [] => rfl
  | b :: bs => by simp only [subBs, subSs_raw h h' b, subBs_raw h h' bs, rawBs, Except.bind]
end

mutual
theorem rawE_absent {ρ : String → Option T} : (e : T) → (∀ y, occursE y e = true → ρ y = none) → rawE ρ e = e
  | .name y, h => by simp [rawE, h y (by simp [occursE])]
  | .const c, _ => rfl
  | .call f args, h => by
    simp only [rawE, rawE_absent f (fun y hy => h y (by simp [occursE, hy])), rawEs_absent args (fun y hy => h y (by simp [occursE, hy]))]
  | .op t es, h => by simp only [rawE, rawEs_absent es (fun y hy => h y (by simp [occursE, hy]))]
theorem rawEs_absent {ρ : String → Option T} : (es : List T) → (∀ y, occursEs y es = true → ρ y = none) → rawEs ρ es = es
  | [], _ => rfl
  | e :: es, h => by
    simp only [rawEs, rawE_absent e (fun y hy => h y (by simp [occursEs, hy])), rawEs_absent es (fun y hy => h y (by simp [occursEs, hy]))]
end

mutual
theorem rawE_comp {ρ ρ1 ρ2 : String → Option T} (h : ∀ y, rawE ρ2 (rawE ρ1 (.name y)) = rawE ρ (.name y)) : (e : T) →
    rawE ρ2 (rawE ρ1 e) = rawE ρ e
  | .name y => h y
  | .const c => rfl
  | .call f args => by simp only [rawE, rawE_comp h f, rawEs_comp h args]
  | .op t es => by simp only [rawE, rawEs_comp h es]
theorem rawEs_comp {ρ ρ1 ρ2 : String → Option T} (h : ∀ y, rawE ρ2 (rawE ρ1 (.name y)) = rawE ρ (.name y)) : (es : List T) →
    rawEs ρ2 (rawEs ρ1 es) = rawEs ρ es
  | [] => rfl
  | e :: es => by simp only [rawEs, rawE_comp h e, rawEs_comp h es]
end

mutual
theorem rawS_comp {ρ ρ1 ρ2 : String → Option T} (h : ∀ y, rawE ρ2 (rawE ρ1 (.name y)) = rawE ρ (.name y)) : (s : Stmt) →
    rawS ρ2 (rawS ρ1 s) = rawS ρ s
  | .expr e => by simp only [rawS, rawE_comp h e]
  | .op t es bs => by simp only [rawS, rawEs_comp h es, rawBs_comp h bs]
theorem rawSs_comp {ρ ρ1 ρ2 : String → Option T} (h : ∀ y, rawE ρ2 (rawE ρ1 (.name y)) = rawE ρ (.name y)) : (ss : List Stmt) →
    rawSs ρ2 (rawSs ρ1 ss) = rawSs ρ ss
  | [] => rfl
  | s :: ss => by simp only [rawSs, rawS_comp h s, rawSs_comp h ss]
theorem rawBs_comp {ρ ρ1 ρ2 : String → Option T} (h : ∀ y, rawE ρ2 (rawE ρ1 (.name y)) = rawE ρ (.name y)) : (bs : List (List Stmt)) →
    rawBs ρ2 (rawBs ρ1 bs) = rawBs ρ bs
  | [] => rfl
  | b :: bs => by simp only [rawBs, rawSs_comp h b, rawBs_comp h bs]
end

mutual
theorem rawE_none : (e : T) → rawE (fun _ => none) e = e
  | .name y => rfl
  | .const c => rfl
  | .call f args => by simp only [rawE, rawE_none f, rawEs_none args]
  | .op t es => by simp only [rawE, rawEs_none es]
theorem rawEs_none : (es : List T) → rawEs (fun _ => none) es = es
  | [] => rfl
  | e :: es => by simp only [rawEs, rawE_none e, rawEs_none es]
end

mutual
theorem rawS_none : (s : Stmt) → rawS (fun _ => none) s = s
  | .expr e => by simp only [rawS, rawE_none e]
  | .op t es bs => by simp only [rawS, rawEs_none es, rawBs_none bs]
theorem rawSs_none : (ss : List Stmt) → rawSs (fun _ => none) ss = ss
  | [] => rfl
  | s :: ss => by simp only [rawSs, rawS_none s, rawSs_none ss]
theorem rawBs_none : (bs : List (List Stmt)) → rawBs (fun _ => none) bs = bs
  | [] => rfl
  | b :: bs => by simp only [rawBs, rawSs_none b, rawBs_none bs]
end

def one (k : String) (a : T) : String → Option T := fun y => if y = k then some a else none

theorem selfRef_of_absent {k : String} {a : T} (h : occursE k a = false) : selfRef k a = false := by
  cases a <;> simp_all [selfRef]

theorem bare_one_E {k : String} {a : T} (h : occursE k a = false) (y : String) :
    (bare true k (.expr a)).inExpr y = (one k a y).map .ok := by
  simp only [bare, one, selfRef_of_absent h]
  split <;> simp

theorem bare_one_S {k : String} {a : T} (h : occursE k a = false) (y : String) :
    (bare true k (.expr a)).asStmt y = (one k a y).map fun a => .ok [.expr a] := by
  simp only [bare, one, selfRef_of_absent h]
  split <;> simp

theorem lookup_nil_left {α : Type} (as : List α) : lookup [] as = fun _ => none := by funext x; simp [lookup]
theorem lookup_nil_right {α : Type} (ps : List String) : lookup ps ([] : List α) = fun _ => none := by
  funext x; cases ps <;> simp [lookup]

theorem lookup_mem {α : Type} : (ps : List String) → (as : List α) → {y : String} → {a : α} → lookup ps as y = some a →
    y ∈ ps ∧ a ∈ as
  | [], as, y, a, h => by simp [lookup] at h
  | p :: ps, [], y, a, h => by simp [lookup] at h
  | p :: ps, a' :: as, y, a, h => by
    simp only [lookup] at h
    split at h
    · rename_i hy; cases h; simp [hy]
    · have := lookup_mem ps as h; simp [this.1, this.2]

theorem lookup_map {α β : Type} (g : α → β) : (ps : List String) → (as : List α) → (y : String) →
    lookup ps (as.map g) y = (lookup ps as y).map g
  | [], as, y => by simp [lookup]
  | p :: ps, [], y => by simp [lookup]
  | p :: ps, a' :: as, y => by
    simp only [lookup, List.map_cons]
    split
    · rfl
    · exact lookup_map g ps as y

theorem occursEs_mem {p : String} : {es : List T} → {a : T} → occursEs p es = false → a ∈ es → occursE p a = false
  | e :: es, a, h, ha => by
    simp only [occursEs, Bool.or_eq_false_iff] at h
    rcases List.mem_cons.1 ha with rfl | ha
    · exact h.1
    · exact occursEs_mem h.2 ha

/-- One after the other is all at the same time, if the parameters do not occur in the arguments. -/
theorem comp_name {p : String} {a : T} {ps : List String} {as : List T} (h : ∀ q ∈ ps, occursE q a = false) (y : String) :
    rawE (lookup ps as) (rawE (one p a) (.name y)) = rawE (lookup (p :: ps) (a :: as)) (.name y) := by
  simp only [rawE, one, lookup]
  by_cases hy : y = p
  · simp only [if_pos hy, Option.getD_some]
    refine rawE_absent a fun z hz => ?_
    cases hl : lookup ps as z with
    | none => rfl
    | some b => have := h z (lookup_mem ps as hl).1; rw [this] at hz; cases hz
  · simp only [if_neg hy, Option.getD_none, rawE]

theorem plugE_conv : (ps : List String) → (args : List T) → (∀ p ∈ ps, occursEs p args = false) → (v : T) →
    Conv (fun n => plugE n (ps.zip args) v) (.ok (rawE (lookup ps args) v))
  | [], args, _, v => by rw [lookup_nil_left, rawE_none]; exact conv_const _
  | p :: ps, [], _, v => by rw [lookup_nil_right, rawE_none]; exact conv_const _
  | p :: ps, a :: args, h, v => by
    have h1 : ∀ q ∈ p :: ps, occursE q a = false ∧ occursEs q args = false := by
      intro q hq; simpa [occursEs] using h q hq
    rw [← rawE_comp (comp_name (fun q hq => (h1 q (by simp [hq])).1))]
    simp only [List.zip_cons_cons, plugE]
    refine conv_bind_ok (a := rawE (one p a) v) ?_ (plugE_conv ps args (fun q hq => (h1 q (by simp [hq])).2) _)
    have hp := (h1 p (by simp)).1
    have := bareE_sim (x := p) (ValRel.expr a) v
    rw [subE_raw (bare_one_E hp)] at this
    exact simE_ok.1 this

theorem conv_mapR_one {α β : Type} {f : Nat → α → R β} {a : α} {l : List β} (h : Conv (fun n => mapR (f n) [a]) (.ok l)) :
    ∃ b, l = [b] ∧ Conv (fun n => f n a) (.ok b) := by
  obtain ⟨n, hn⟩ := h
  have key : ∀ m, n ≤ m → ∃ b, l = [b] ∧ f m a = .ok b := by
    intro m hm
    have := hn m hm
    simp only [mapR, Except.bind] at this
    cases hf : f m a with
    | error e => rw [hf] at this; cases this
    | ok b => rw [hf] at this; cases this; exact ⟨b, rfl, rfl⟩
  obtain ⟨b, hb, _⟩ := key n (Nat.le_refl _)
  refine ⟨b, hb, n, fun m hm => ?_⟩
  obtain ⟨b', hb', hf⟩ := key m hm
  rw [hb] at hb'; cases hb'; exact hf

theorem sim_one {α β γ : Type} {Rel : List β → γ → Prop} {f : Nat → α → R β} {a : α} {x : X γ}
    (h : Sim Rel (fun n => mapR (f n) [a]) x) : Sim (fun b c => Rel [b] c) (fun n => f n a) x := by
  match x, h with
  | .ok c, h =>
    obtain ⟨l, hr, hc⟩ := h
    obtain ⟨b, rfl, hb⟩ := conv_mapR_one hc
    exact ⟨b, hr, hb⟩
  | .error .syntax, h =>
    obtain ⟨n, hn⟩ := h
    refine ⟨n, fun m hm => ?_⟩
    have := hn m hm
    simp only [mapR, Except.bind] at this
    cases hf : f m a with
    | error e => rw [hf] at this; cases this; exact hf
    | ok b => rw [hf] at this; cases this
  | .error .stopped, _ => trivial

theorem plugS_conv : (ps : List String) → (args : List T) → (∀ p ∈ ps, occursEs p args = false) → (s : Stmt) → (S : List Stmt) →
    Spl [s] S → ∃ s', Spl [s'] (rawSs (lookup ps args) S) ∧ Conv (fun n => plugS n (ps.zip args) s) (.ok s')
  | [], args, _, s, S, hs => by rw [lookup_nil_left, rawSs_none]; exact ⟨s, hs, conv_const _⟩
  | p :: ps, [], _, s, S, hs => by rw [lookup_nil_right, rawSs_none]; exact ⟨s, hs, conv_const _⟩
  | p :: ps, a :: args, h, s, S, hs => by
    have h1 : ∀ q ∈ p :: ps, occursE q a = false ∧ occursEs q args = false := by
      intro q hq; simpa [occursEs] using h q hq
    rw [← rawSs_comp (comp_name (fun q hq => (h1 q (by simp [hq])).1))]
    simp only [List.zip_cons_cons, plugS]
    have hp := (h1 p (by simp)).1
    have := bareS_sim (x := p) (ValRel.expr a) hs
    rw [subSs_raw (bare_one_E hp) (bare_one_S hp)] at this
    obtain ⟨s1, hs1, hc1⟩ := sim_one this
    obtain ⟨s2, hs2, hc2⟩ := plugS_conv ps args (fun q hq => (h1 q (by simp [hq])).2) s1 _ hs1
    exact ⟨s2, hs2, conv_bind_ok hc1 hc2⟩

/-! ## Templates -/

theorem temEl_map (c : Bool) (f : String) (ps : List String) (val : Value) : (es : List T) →
    temEl c f ps val es = es.map (temE c f ps val)
  | [] => rfl
  | e :: es => by simp only [temEl, temEl_map c f ps val es, List.map_cons]

theorem temXl_map (c : Bool) (f : String) (ps : List String) (val : Value) : (es : List T) →
    temXl c f ps val es = es.map (temX c f ps val)
  | [] => rfl
  | e :: es => by simp only [temXl, temXl_map c f ps val es, List.map_cons]

theorem mapR_sim {α β : Type} {F : Nat → α → R β} {g : α → X β} : (es : List α) → (∀ a ∈ es, SimE (fun n => F n a) (g a)) →
    SimE (fun n => mapR (F n) es) (seq (es.map g))
  | [], _ => sim_ok rfl
  | e :: es, h => by
    simp only [mapR, seq, List.map_cons]
    exact simE_bind (h e (by simp)) fun _ _ => simE_bind (mapR_sim es fun a ha => h a (by simp [ha])) fun _ _ => sim_ok rfl

theorem tempE_gen {f : String} {ps : List String} {val : Value} {e : T} (h : isUse f e = false) (n : Nat) :
    tempE f ps val (n + 1) e = genE (tempE f ps val n) e := by
  cases e with
  | call g args =>
    cases g with
    | name g =>
      have : g ≠ f := by simpa [isUse] using h
      simp only [tempE, if_neg this]
    | _ => simp only [tempE]
  | _ => simp only [tempE]

/-- The arguments in place are visited, and nothing else in the right hand side is a use of the template. -/
theorem raw_isUse {f : String} {ps : List String} {args : List T} (hf : args.any (isThe f) = false) {g : T} {es : List T}
    (h : occursE f g = false) : isUse f (.call (rawE (lookup ps args) g) es) = false := by
  cases g with
  | name y =>
    have hy : y ≠ f := by simpa [occursE] using h
    simp only [rawE]
    cases hl : lookup ps args y with
    | none => simpa [isUse] using hy
    | some a =>
      have ha := (lookup_mem ps args hl).2
      have := List.any_eq_false.1 hf a ha
      cases a with
      | name z => simpa [isUse, isThe] using this
      | _ => rfl
  | _ => rfl

mutual
theorem rhs_sim {f : String} {ps : List String} {val val' : Value} {args : List T}
    (ih : ∀ a ∈ args, SimE (fun n => tempE f ps val n a) (temE true f ps val' a)) (hf : args.any (isThe f) = false) : (e : T) →
    occursE f e = false → SimE (fun n => tempE f ps val n (rawE (lookup ps args) e))
      (subE ⟨lookup ps (temEl true f ps val' args), fun _ => none⟩ e)
  | .name y, h => by
    simp only [rawE, subE, temEl_map, lookup_map]
    cases hl : lookup ps args y with
    | none => exact sim_succ (g := fun _ => .ok (.name y)) (fun n => by simp [tempE, genE]) (sim_ok rfl)
    | some a => exact ih a (lookup_mem ps args hl).2
  | .const c, _ => sim_succ (g := fun _ => .ok (.const c)) (fun n => by simp [tempE, genE, rawE]) (sim_ok rfl)
  | .call g es, h => by
    simp only [occursE, Bool.or_eq_false_iff] at h
    refine sim_succ (fun n => tempE_gen (by simpa only [rawE] using raw_isUse hf h.1) n) ?_
    simp only [rawE, genE, subE]
    exact simE_bind (rhs_sim ih hf g h.1) fun g _ => simE_bind (rhss_sim ih hf es h.2) fun a _ => sim_ok rfl
  | .op t es, h => by
    simp only [occursE] at h
    refine sim_succ (fun n => tempE_gen (by simp [rawE, isUse]) n) ?_
    simp only [rawE, genE, subE]
    exact simE_bind (rhss_sim ih hf es h) fun a _ => sim_ok rfl
theorem rhss_sim {f : String} {ps : List String} {val val' : Value} {args : List T}
    (ih : ∀ a ∈ args, SimE (fun n => tempE f ps val n a) (temE true f ps val' a)) (hf : args.any (isThe f) = false) : (es : List T) →
    occursEs f es = false → SimE (fun n => mapR (tempE f ps val n) (rawEs (lookup ps args) es))
      (subEs ⟨lookup ps (temEl true f ps val' args), fun _ => none⟩ es)
  | [], _ => sim_ok rfl
  | e :: es, h => by
    simp only [occursEs, Bool.or_eq_false_iff] at h
    simp only [rawEs, mapR, subEs]
    exact simE_bind (rhs_sim ih hf e h.1) fun e _ => simE_bind (rhss_sim ih hf es h.2) fun a _ => sim_ok rfl
end

theorem bind_ok_self {α : Type} (x : X α) : (x.bind fun a => .ok a) = x := by cases x <;> rfl

mutual
theorem tempE_sim {f : String} {ps : List String} {val val' : Value} (hv : ValRel val val') : (e : T) →
    SimE (fun n => tempE f ps val n e) (temE true f ps val' e)
  | .name y => sim_succ (g := fun _ => .ok (.name y)) (fun n => by simp [tempE, genE]) (by simp only [temE]; exact sim_ok rfl)
  | .const c => sim_succ (g := fun _ => .ok (.const c)) (fun n => by simp [tempE, genE]) (by simp only [temE]; exact sim_ok rfl)
  | .op t es => by
    refine sim_succ (fun n => tempE_gen (by simp [isUse]) n) ?_
    simp only [genE, temE, temEl_map]
    exact simE_bind (mapR_sim es (tempE_all hv es)) fun a _ => sim_ok rfl
  | .call g args => by
    cases hg : isThe f g with
    | false =>
      refine sim_succ (fun n => tempE_gen (by cases g <;> simp_all [isUse, isThe]) n) ?_
      simp only [genE, temE, hg, temEl_map]
      exact simE_bind (tempE_sim hv g) fun g _ => simE_bind (mapR_sim args (tempE_all hv args)) fun a _ => sim_ok rfl
    | true =>
      obtain rfl : g = .name f := by cases g <;> simp_all [isThe]
      have ih := tempE_all (f := f) (ps := ps) hv args
      cases hv with
      | block hb =>
        refine sim_succ (g := fun _ => .error .syntax) (fun n => by simp [tempE]) ?_
        simp only [temE, hg, if_true]
        exact sim_syntax
      | expr v =>
        by_cases hlen : args.length ≠ ps.length
        · refine sim_succ (g := fun _ => .error .syntax) (fun n => by simp only [tempE, if_true, if_pos hlen]) ?_
          simp only [temE, hg, if_true, if_pos hlen]
          exact sim_syntax
        · refine sim_succ (g := fun n => (plugE n (ps.zip args) v).bind fun e => genE (tempE f ps (.expr v) n) e)
            (fun n => by simp only [tempE, if_true, if_neg hlen]) ?_
          simp only [temE, hg, if_true, if_neg hlen, Bool.true_and]
          cases hbad : badUseE f ps v args with
          | true => exact sim_stopped _
          | false =>
            simp only [badUseE, Bool.or_eq_false_iff, Bool.and_eq_false_iff] at hbad
            obtain ⟨⟨⟨hp, hf⟩, hfv⟩, hn⟩ := hbad
            have hp' : ∀ p ∈ ps, occursEs p args = false := by
              intro p hp1; simpa using List.any_eq_false.1 hp p hp1
            have huse : isUse f (rawE (lookup ps args) v) = false := by
              cases v with
              | name y =>
                have hu : args.any (isUse f) = false := by simpa [isName] using hn
                simp only [rawE]
                cases hl : lookup ps args y with
                | none => rfl
                | some a => simpa using List.any_eq_false.1 hu a (lookup_mem ps args hl).2
              | const c => rfl
              | call g es => exact raw_isUse hf (by simp only [occursE, Bool.or_eq_false_iff] at hfv; exact hfv.1)
              | op t es => rfl
            have h2 := rhs_sim ih hf v hfv
            have h3 := sim_pred (fun n => tempE_gen (ps := ps) (val := .expr v) huse n) h2
            have h4 := plugE_conv ps args hp' v
            have := simE_bind (x := .ok (rawE (lookup ps args) v)) (simE_ok.2 h4)
              (g := fun e n => genE (tempE f ps (.expr v) n) e)
              (k := fun _ => subE ⟨lookup ps (temEl true f ps (.expr v) args), fun _ => none⟩ v) (Rel' := Eq)
              (by intro a ha; cases ha; exact h3)
            exact this
theorem tempE_all {f : String} {ps : List String} {val val' : Value} (hv : ValRel val val') : (es : List T) → ∀ a ∈ es,
    SimE (fun n => tempE f ps val n a) (temE true f ps val' a)
  | [], _, h => by cases h
  | e :: es, a, h => by
    rcases List.mem_cons.1 h with h | h
    · rw [h]; exact tempE_sim hv e
    · exact tempE_all hv es a h
end

mutual
theorem temE_absent {c : Bool} {f : String} {ps : List String} {val : Value} : (e : T) → occursE f e = false →
    temE c f ps val e = .ok e
  | .name y, _ => by simp only [temE]
  | .const _, _ => by simp only [temE]
  | .call g args, h => by
    simp only [occursE, Bool.or_eq_false_iff] at h
    have hg : isThe f g = false := by cases g <;> simp_all [isThe, occursE]
    simp only [temE, hg, temE_absent g h.1, temEs_absent args h.2, Except.bind, Bool.false_eq_true, if_false]
  | .op t es, h => by
    simp only [occursE] at h
    simp only [temE, temEs_absent es h, Except.bind]
theorem temEs_absent {c : Bool} {f : String} {ps : List String} {val : Value} : (es : List T) → occursEs f es = false →
    seq (temEl c f ps val es) = .ok es
  | [], _ => rfl
  | e :: es, h => by
    simp only [occursEs, Bool.or_eq_false_iff] at h
    simp only [temEl, seq, temE_absent e h.1, temEs_absent es h.2, Except.bind]
end

theorem temX_absent {c : Bool} {f : String} {ps : List String} {val : Value} (e : T) (h : occursE f e = false) :
    temX c f ps val e = .ok [.expr e] := by
  cases e with
  | call g args =>
    have hg : isThe f g = false := by
      simp only [occursE, Bool.or_eq_false_iff] at h
      cases g <;> simp_all [isThe, occursE]
    cases val <;> simp only [temX, hg, temE_absent _ h, Except.bind]
  | _ => simp only [temX, temE_absent _ h, Except.bind]

theorem temSs_append (c : Bool) (f : String) (ps : List String) (val : Value) : (a b : List Stmt) →
    temSs c f ps val (a ++ b) = (temSs c f ps val a).bind fun a => (temSs c f ps val b).bind fun b => .ok (a ++ b)
  | [], b => by simp only [List.nil_append, temSs, Except.bind]; cases temSs c f ps val b <;> rfl
  | s :: ss, b => by
    simp only [List.cons_append, temSs, temSs_append c f ps val ss b]
    cases temS c f ps val s with
    | error e => rfl
    | ok s => cases temSs c f ps val ss with
      | error e => rfl
      | ok ss => cases temSs c f ps val b with
        | error e => rfl
        | ok b => simp [Except.bind]

theorem tempX_sim {f : String} {ps : List String} {val val' : Value} (hv : ValRel val val') (e : T) :
    Sim (fun s S => Spl [s] S) (fun n => tempS f ps val n (.expr e)) (temX true f ps val' e) := by
  have gen : (∀ n, tempS f ps val (n + 1) (.expr e) = genS (tempE f ps val n) (tempS f ps val n) (.expr e)) →
      temX true f ps val' e = (temE true f ps val' e).bind (fun e => .ok [.expr e]) →
      Sim (fun s S => Spl [s] S) (fun n => tempS f ps val n (.expr e)) (temX true f ps val' e) := by
    intro h1 h2
    rw [h2]
    refine sim_succ h1 ?_
    simp only [genS]
    exact simE_bind (tempE_sim hv e) fun e _ => sim_ok (spl_refl _)
  cases hv with
  | expr v => exact gen (by intro n; simp [tempS]) (by cases e <;> simp only [temX])
  | @block b b' hb =>
    cases e with
    | call g args =>
      cases hg : isThe f g with
      | false =>
        refine gen (fun n => ?_) (by simp only [temX, hg])
        cases g with
        | name g =>
          have : g ≠ f := by simpa [isThe] using hg
          simp only [tempS, if_neg this]
        | _ => simp only [tempS]
      | true =>
        obtain rfl : g = .name f := by cases g <;> simp_all [isThe]
        by_cases hlen : args.length ≠ ps.length
        · refine sim_succ (g := fun _ => .error .syntax) (fun n => by simp only [tempS, if_true, if_pos hlen]) ?_
          simp only [temX, hg, if_pos hlen]
          exact sim_syntax
        · refine sim_succ (g := fun n => plugS n (ps.zip args) (ifOne b)) (fun n => by simp only [tempS, if_true, if_neg hlen]) ?_
          simp only [temX, hg, if_neg hlen, Bool.true_and]
          cases hbad : badUseB f ps args with
          | true => exact sim_stopped _
          | false =>
            simp only [badUseB, Bool.or_eq_false_iff] at hbad
            have hp' : ∀ p ∈ ps, occursEs p args = false := by
              intro p hp1; simpa using List.any_eq_false.1 hbad.1 p hp1
            have hw : Spl [ifOne b] b' := by simpa using Spl.wrap hb .nil
            obtain ⟨s', hs', hc'⟩ := plugS_conv ps args hp' _ _ hw
            simp only [Bool.false_eq_true, if_false]
            rw [subSs_raw (ρ := lookup ps args)]
            · exact ⟨s', hs', hc'⟩
            · intro y
              simp only [temEl_map, lookup_map]
              cases hl : lookup ps args y with
              | none => rfl
              | some a => simp only [Option.map_some, temE_absent a (occursEs_mem hbad.2 (lookup_mem ps args hl).2)]
            · intro y
              simp only [temXl_map, lookup_map]
              cases hl : lookup ps args y with
              | none => rfl
              | some a => simp only [Option.map_some, temX_absent a (occursEs_mem hbad.2 (lookup_mem ps args hl).2)]
    | _ => exact gen (by intro n; simp [tempS]) (by simp only [temX])

mutual
theorem tempS_sim {f : String} {ps : List String} {val val' : Value} (hv : ValRel val val') : {S S' : List Stmt} → Spl S S' →
    Sim Spl (fun n => mapR (tempS f ps val n) S) (temSs true f ps val' S')
  | _, _, .nil => by simp only [temSs]; exact sim_ok .nil
  | _, _, .expr e h => by
    simp only [mapR, temSs, temS]
    exact sim_bind (tempX_sim hv e) fun a b hab _ => sim_bind (tempS_sim hv h) fun _ _ hr _ => sim_ok (spl_append hab hr)
  | _, _, .op t es (bs := bs) hb h => by
    simp only [mapR, temSs, temS]
    refine sim_bind (Rel := fun s S => Spl [s] S) ?_ ?_
    · refine sim_succ (g := fun n => genS (tempE f ps val n) (tempS f ps val n) (.op t es bs))
        (by intro n; cases hv <;> simp [tempS]) ?_
      simp only [genS, temEl_map]
      exact simE_bind (mapR_sim es (tempE_all hv es)) fun es _ => sim_bind (tempBs_sim hv hb) fun _ _ hr _ => sim_ok (.op t es hr .nil)
    · intro a b hab _
      exact sim_bind (tempS_sim hv h) fun _ _ hr _ => sim_ok (spl_append hab hr)
  | _, _, .wrap (b := b) hb h => by
    rw [temSs_append]
    simp only [mapR]
    refine sim_bind (Rel := fun s S => Spl [s] S) ?_ ?_
    · refine sim_succ (g := fun n => genS (tempE f ps val n) (tempS f ps val n) (ifOne b))
        (by intro n; cases hv <;> simp [tempS, ifOne]) ?_
      refine sim_succ (g := fun n => (mapR (tempS f ps val (n + 1)) b).bind fun b => .ok (ifOne b))
        (fun n => genS_wrap _ _ (by simp [tempE, genE]) b) ?_
      exact sim_map (sim_shift (tempS_sim hv hb)) fun _ _ h => by simpa using Spl.wrap h .nil
    · intro a b hab _
      exact sim_bind (tempS_sim hv h) fun _ _ hr _ => sim_ok (spl_append hab hr)
theorem tempBs_sim {f : String} {ps : List String} {val val' : Value} (hv : ValRel val val') : {S S' : List (List Stmt)} → SplBs S S' →
    Sim SplBs (fun n => mapR (mapR (tempS f ps val n)) S) (temBs true f ps val' S')
  | _, _, .nil => by simp only [temBs]; exact sim_ok .nil
  | _, _, .cons h hb => by
    simp only [mapR, temBs]
    exact sim_bind (tempS_sim hv h) fun _ _ hr _ => sim_bind (tempBs_sim hv hb) fun _ _ hr' _ => sim_ok (.cons hr hr')
end

/-! ## All definitions -/

structure DefRel (d d' : Def) : Prop where
  name : d.name = d'.name
  ps : d.ps = d'.ps
  val : ValRel d.val d'.val

inductive DefsRel : List Def → List Def → Prop
  | nil : DefsRel [] []
  | cons {d d' : Def} {ds ds' : List Def} : DefRel d d' → DefsRel ds ds' → DefsRel (d :: ds) (d' :: ds')

theorem DefsRel.snoc {d d' : Def} (h : DefRel d d') : {ds ds' : List Def} → DefsRel ds ds' → DefsRel (ds ++ [d]) (ds' ++ [d'])
  | _, _, .nil => .cons h .nil
  | _, _, .cons h1 h2 => .cons h1 (h2.snoc h)

theorem DefsRel.filter {p : Def → Bool} (hp : ∀ d d', DefRel d d' → p d = p d') : {ds ds' : List Def} → DefsRel ds ds' →
    DefsRel (ds.filter p) (ds'.filter p)
  | _, _, .nil => .nil
  | _, _, .cons (d := d) (d' := d') h1 h2 => by
    simp only [List.filter_cons, hp d d' h1]
    split
    · exact .cons h1 (h2.filter hp)
    · exact h2.filter hp

theorem DefsRel.names : {ds ds' : List Def} → DefsRel ds ds' → ds.map (·.name) = ds'.map (·.name)
  | _, _, .nil => rfl
  | _, _, .cons h1 h2 => by simp only [List.map_cons, h1.name, h2.names]

theorem DefsRel.refl : (ds : List Def) → DefsRel ds ds
  | [] => .nil
  | d :: ds => .cons ⟨rfl, rfl, by cases d.val <;> constructor; exact spl_refl _⟩ (DefsRel.refl ds)

theorem fold_sim {α β : Type} {Rel : α → β → Prop} {f : Def → Nat → α → R α} {g : Def → β → X β} :
    {ds ds' : List Def} → DefsRel ds ds' →
    (∀ d d', DefRel d d' → d' ∈ ds' → ∀ a b, Rel a b → Sim Rel (fun n => f d n a) (g d' b)) → {a : α} → {b : β} →
    Rel a b → Sim Rel (fun n => foldR (fun d => f d n) ds a) (foldX g ds' b)
  | _, _, .nil, _, _, _, h => sim_ok h
  | _, _, .cons hd hds, hs, a, b, h => by
    simp only [foldR, foldX]
    exact sim_bind (hs _ _ hd (by simp) a b h) fun a b hab _ => fold_sim hds (fun d d' hd hm => hs d d' hd (by simp [hm])) hab

theorem DefsRel.templates {ds ds' : List Def} (h : DefsRel ds ds') : DefsRel (templates ds) (ds'.filter isTemplate) :=
  h.filter (p := isTemplate) fun d d' hd => by simp [isTemplate, hd.ps]

theorem DefsRel.barenames {ds ds' : List Def} (h : DefsRel ds ds') :
    DefsRel (barenames ds) (ds'.filter fun d => !isTemplate d) := by
  have := h.filter (p := fun d => !isTemplate d) fun d d' hd => by simp [isTemplate, hd.ps]
  simpa [LetSyntax.barenames, isTemplate] using this

theorem substE_sim {ds ds' : List Def} (h : DefsRel ds ds') (e : T) : SimE (fun n => substE n ds e) (applyE true ds' e) := by
  unfold substE applyE
  refine sim_bind (Rel := Eq) (fold_sim (f := fun d n => tempE d.name d.ps d.val n) h.templates ?_ rfl) ?_
  · rintro d d' hd _ a b rfl
    rw [hd.name, hd.ps]; exact tempE_sim hd.val a
  · rintro a b rfl _
    refine fold_sim (f := fun d n => bareE d.name d.val n) h.barenames ?_ rfl
    rintro d d' hd _ a b rfl
    rw [hd.name]; exact bareE_sim hd.val a

theorem substS_sim {ds ds' : List Def} (h : DefsRel ds ds') (s : Stmt) (S : List Stmt) (hs : Spl [s] S) :
    Sim (fun s S => Spl [s] S) (fun n => substS n ds s) (applySs true ds' S) := by
  unfold substS applySs
  refine sim_bind (Rel := fun s S => Spl [s] S) (fold_sim (f := fun d n => tempS d.name d.ps d.val n) h.templates ?_ hs) ?_
  · intro d d' hd _ a b hab
    rw [hd.name, hd.ps]; exact sim_one (tempS_sim hd.val hab)
  · intro a b hab _
    refine fold_sim (f := fun d n => bareS d.name d.val n) h.barenames ?_ hab
    intro d d' hd _ a b hab
    rw [hd.name]; exact sim_one (bareS_sim hd.val hab)

/-! ## Definitions in a block -/

def isExpr : Stmt → Bool
  | .expr _ => true
  | .op _ _ _ => false

/-- One substitution, in the code and in the specification. -/
structure Step (stepS : Nat → Stmt → R Stmt) (stepE : Nat → T → R T) (specS : List Stmt → X (List Stmt)) (specE : T → X T) : Prop where
  genOp : ∀ n t es bs, stepS (n + 1) (.op t es bs) = genS (stepE n) (stepS n) (.op t es bs)
  op : ∀ n t es bs s, stepS n (.op t es bs) = .ok s → isExpr s = false
  simE : ∀ e, SimE (fun n => stepE n e) (specE e)
  simS : ∀ S S', Spl S S' → Sim Spl (fun n => mapR (stepS n) S) (specS S')
  expr : ∀ e, (∀ n, stepS (n + 2) (.expr e) = (stepE (n + 1) e).bind fun e => .ok (.expr e)) ∨
    (specE e = .error .syntax ∧ ∀ n s, stepS n (.expr e) = .ok s → isExpr s = false)

theorem genS_op {vE : T → R T} {vS : Stmt → R Stmt} {t : String} {es : List T} {bs : List (List Stmt)} {s : Stmt}
    (h : genS vE vS (.op t es bs) = .ok s) : isExpr s = false := by
  simp only [genS] at h
  cases h1 : mapR vE es with
  | error e => rw [h1] at h; cases h
  | ok es' => cases h2 : mapR (mapR vS) bs with
    | error e => rw [h1, h2] at h; cases h
    | ok bs' => rw [h1, h2] at h; cases h; rfl

theorem bareS_op {x : String} {val : Value} {n : Nat} {s s' : Stmt} (hs : isExpr s = false) (h : bareS x val n s = .ok s') :
    isExpr s' = false := by
  cases s with
  | expr e => cases hs
  | op t es bs =>
    cases n with
    | zero => simp [bareS] at h
    | succ n => exact genS_op (vE := bareE x val n) (vS := bareS x val n) (by cases val <;> simpa [bareS] using h)

theorem tempS_op {f : String} {ps : List String} {val : Value} {n : Nat} {s s' : Stmt} (hs : isExpr s = false)
    (h : tempS f ps val n s = .ok s') : isExpr s' = false := by
  cases s with
  | expr e => cases hs
  | op t es bs =>
    cases n with
    | zero => simp [tempS] at h
    | succ n => exact genS_op (vE := tempE f ps val n) (vS := tempS f ps val n) (by cases val <;> simpa [tempS] using h)

theorem plugS_op {n : Nat} : (kvs : List (String × T)) → {s s' : Stmt} → isExpr s = false → plugS n kvs s = .ok s' → isExpr s' = false
  | [], _, _, hs, h => by cases h; exact hs
  | (k, v) :: kvs, s, s', hs, h => by
    simp only [plugS] at h
    cases h1 : bareS k (.expr v) n s with
    | error e => rw [h1] at h; cases h
    | ok s1 => rw [h1] at h; exact plugS_op kvs (bareS_op hs h1) h

theorem bare_step {x : String} {val val' : Value} (hv : ValRel val val') :
    Step (bareS x val) (bareE x val) (subSs (bare true x val')) (subE (bare true x val')) where
  genOp n t es bs := by cases val <;> simp [bareS]
  op n t es bs s h := bareS_op rfl h
  simE e := bareE_sim hv e
  simS S S' h := bareS_sim hv h
  expr e := by
    cases hv with
    | expr v => exact .inl fun n => by simp [bareS, genS]
    | block hb =>
      cases e with
      | name y =>
        by_cases hy : y = x
        · refine .inr ⟨by simp only [subE, bare, if_pos hy], fun n s h => ?_⟩
          cases n with
          | zero => simp [bareS] at h
          | succ n => simp only [bareS, if_pos hy] at h; cases h; rfl
        · refine .inl fun n => by simp [bareS, bareE, hy, Except.bind]
      | _ => exact .inl fun n => by simp [bareS, genS]

theorem temp_step {f : String} {ps : List String} {val val' : Value} (hv : ValRel val val') :
    Step (tempS f ps val) (tempE f ps val) (temSs true f ps val') (temE true f ps val') where
  genOp n t es bs := by cases val <;> simp [tempS]
  op n t es bs s h := tempS_op rfl h
  simE e := tempE_sim hv e
  simS S S' h := tempS_sim hv h
  expr e := by
    cases hv with
    | expr v => exact .inl fun n => by simp [tempS, genS]
    | block hb =>
      cases e with
      | call g args =>
        cases hg : isThe f g with
        | false =>
          refine .inl fun n => ?_
          cases g with
          | name g =>
            have : g ≠ f := by simpa [isThe] using hg
            simp only [tempS, if_neg this, genS]
          | _ => simp only [tempS, genS]
        | true =>
          obtain rfl : g = .name f := by cases g <;> simp_all [isThe]
          refine .inr ⟨by simp only [temE, hg, if_true], fun n s h => ?_⟩
          cases n with
          | zero => simp [tempS] at h
          | succ n =>
            simp only [tempS, if_true] at h
            split at h
            · cases h
            · exact plugS_op _ rfl h
      | _ => exact .inl fun n => by simp [tempS, genS]

/-- The `with` of a definition, its body, and what the body is as an expression. -/
def WRel (isBlock : Bool) (ps : List String) (name : String) (r : X T) (s : Stmt) (S : List Stmt) : Prop :=
  ∃ b, s = asWith isBlock ps name b ∧ Spl b S ∧
    ((∃ e, b = [.expr e] ∧ r = .ok e) ∨ ((∀ e, b ≠ [.expr e]) ∧ r = .error .syntax) ∨ r = .error .stopped)

theorem sim_and {α β : Type} {Rel : α → β → Prop} {P : α → Prop} {f : Nat → R α} {x : X β} (h : Sim Rel f x)
    (hp : ∃ n0, ∀ n, n0 ≤ n → ∀ a, f n = .ok a → P a) : Sim (fun a b => Rel a b ∧ P a) f x := by
  match x, h with
  | .ok b, h =>
    obtain ⟨a, hr, n, hn⟩ := h
    obtain ⟨n0, hp⟩ := hp
    exact ⟨a, ⟨hr, hp (max n n0) (by omega) a (hn _ (by omega))⟩, n, hn⟩
  | .error .syntax, h => exact h
  | .error .stopped, _ => trivial

theorem mapR_noexpr {stepS : Stmt → R Stmt} (h : ∀ t es bs s, stepS (.op t es bs) = .ok s → isExpr s = false) {b b' : List Stmt}
    (hb : ∀ e, b ≠ [.expr e]) (hm : mapR stepS b = .ok b') : ∀ e, b' ≠ [.expr e] := by
  rintro e rfl
  match b, hb, hm with
  | [], _, hm => cases hm
  | [.expr e'], hb, _ => exact hb e' rfl
  | [.op t es bs], _, hm =>
    simp only [mapR] at hm
    cases h1 : stepS (.op t es bs) with
    | error e => rw [h1] at hm; cases hm
    | ok s => rw [h1] at hm; cases hm; cases h _ _ _ _ h1
  | s1 :: s2 :: ss, _, hm =>
    simp only [mapR] at hm
    cases h1 : stepS s1 with
    | error e => rw [h1] at hm; cases hm
    | ok s1 => cases h2 : stepS s2 with
      | error e => rw [h1, h2] at hm; cases hm
      | ok s2 => cases h3 : mapR stepS ss with
        | error e => rw [h1, h2, h3] at hm; cases hm
        | ok ss => rw [h1, h2, h3] at hm; cases hm

theorem mapR_single {stepS : Stmt → R Stmt} {s : Stmt} {b : List Stmt} (hm : mapR stepS [s] = .ok b) :
    ∃ s', b = [s'] ∧ stepS s = .ok s' := by
  simp only [mapR] at hm
  cases h1 : stepS s with
  | error e => rw [h1] at hm; cases hm
  | ok s1 => rw [h1] at hm; cases hm; exact ⟨s1, rfl, rfl⟩

theorem with_step {stepS : Nat → Stmt → R Stmt} {stepE : Nat → T → R T} {specS : List Stmt → X (List Stmt)} {specE : T → X T}
    (hst : Step stepS stepE specS specE) {isBlock : Bool} {ps : List String} {name : String}
    (hn : Conv (fun n => mapR (stepE n) (.name name :: ps.map .name)) (.ok (.name name :: ps.map .name)))
    {r : X T} {s : Stmt} {S : List Stmt} (h : WRel isBlock ps name r s S) :
    Sim (WRel isBlock ps name (r.bind specE)) (fun n => stepS n s) (specS S) := by
  obtain ⟨b, rfl, hspl, hq⟩ := h
  refine sim_succ (fun n => hst.genOp n _ _ _) ?_
  have h1 := hst.simS b S hspl
  have h2 := sim_and (P := fun b => (∃ e, b = [.expr e] ∧ r.bind specE = .ok e) ∨
    ((∀ e, b ≠ [.expr e]) ∧ r.bind specE = .error .syntax) ∨ r.bind specE = .error .stopped) h1 (by
      rcases hq with ⟨e, rfl, rfl⟩ | ⟨hne, rfl⟩ | rfl
      · simp only [Except.bind]
        rcases hst.expr e with hex | ⟨hsyn, hop⟩
        · have hsim0 := hst.simE e
          revert hsim0
          match specE e with
          | .ok e2 =>
            intro hsim
            obtain ⟨n0, hn0⟩ := simE_ok.1 hsim
            refine ⟨n0 + 2, fun n hn b hb => .inl ⟨e2, ?_, rfl⟩⟩
            obtain ⟨s', rfl, hs'⟩ := mapR_single hb
            obtain ⟨k, rfl⟩ : ∃ k, n = k + 2 := ⟨n - 2, by omega⟩
            have h0 : stepE (k + 1) e = .ok e2 := hn0 (k + 1) (by omega)
            rw [hex, h0] at hs'
            cases hs'; rfl
          | .error .syntax =>
            intro hsim
            obtain ⟨n0, hn0⟩ := hsim
            refine ⟨n0 + 2, fun n hn b hb => ?_⟩
            obtain ⟨s', rfl, hs'⟩ := mapR_single hb
            obtain ⟨k, rfl⟩ : ∃ k, n = k + 2 := ⟨n - 2, by omega⟩
            have h0 : stepE (k + 1) e = .error .syntax := hn0 (k + 1) (by omega)
            rw [hex, h0] at hs'
            cases hs'
          | .error .stopped => exact fun _ => ⟨0, fun n hn b hb => .inr (.inr rfl)⟩
        · refine ⟨0, fun n _ b hb => .inr (.inl ⟨?_, hsyn⟩)⟩
          obtain ⟨s', rfl, hs'⟩ := mapR_single hb
          rintro e' he'
          cases he'
          cases hop n _ hs'
      · exact ⟨0, fun n _ b' hb => .inr (.inl ⟨mapR_noexpr (hst.op n) hne hb, rfl⟩)⟩
      · exact ⟨0, fun n _ b' hb => .inr (.inr rfl)⟩)
  have h3 := sim_map (g := fun b => asWith isBlock ps name b)
    (Rel' := WRel isBlock ps name (r.bind specE)) h2 (fun b S hb => ⟨b, rfl, hb.1, hb.2⟩)
  have h4 := simE_bind (x := .ok (.name name :: ps.map .name)) (simE_ok.2 hn)
    (g := fun es n => (mapR (mapR (stepS n)) [b]).bind fun bs => .ok (.op (if isBlock then "with block" else "with expr") es bs))
    (k := fun _ => specS S) (Rel' := WRel isBlock ps name (r.bind specE)) (by
      intro es hes; cases hes
      have : (fun n => (mapR (mapR (stepS n)) [b]).bind fun bs =>
          Except.ok (Stmt.op (if isBlock then "with block" else "with expr") (.name name :: ps.map .name) bs)) =
          fun n => (mapR (stepS n) b).bind fun b => Except.ok (asWith isBlock ps name b) := by
        funext n
        simp only [mapR, asWith]
        cases mapR (stepS n) b <;> rfl
      rw [this]; exact h3)
  exact h4

theorem fold_with {isBlock : Bool} {ps : List String} {name : String} {f : Def → Nat → Stmt → R Stmt} {fE : Def → Nat → T → R T}
    {g : Def → List Stmt → X (List Stmt)} {gE : Def → T → X T} :
    {ds ds' : List Def} → DefsRel ds ds' →
    (∀ d d', DefRel d d' → d' ∈ ds' → Step (f d) (fE d) (g d') (gE d') ∧
      Conv (fun n => mapR (fE d n) (.name name :: ps.map .name)) (.ok (.name name :: ps.map .name))) → {r : X T} → {s : Stmt} →
    {S : List Stmt} → WRel isBlock ps name r s S →
    Sim (WRel isBlock ps name (r.bind (foldX gE ds'))) (fun n => foldR (fun d => f d n) ds s) (foldX g ds' S)
  | _, _, .nil, _, r, s, S, h => sim_ok (by
      have : r.bind (foldX gE []) = r := by cases r <;> rfl
      rw [this]; exact h)
  | _, _, .cons (ds' := ds') hd hds, hs, r, s, S, h => by
    simp only [foldR, foldX]
    have h0 := hs _ _ hd (by simp)
    refine sim_bind (with_step h0.1 h0.2 h) fun s S hr _ => ?_
    have := fold_with hds (fun d d' hd hm => hs d d' hd (by simp [hm])) hr
    rw [bind_assoc'] at this
    exact this

theorem names_conv {f : String} {ps : List String} {val : Value} (es : List String) :
    Conv (fun n => mapR (tempE f ps val n) (es.map .name)) (.ok (es.map .name)) := by
  induction es with
  | nil => exact conv_const _
  | cons e es ih =>
    simp only [List.map_cons, mapR]
    exact conv_bind_ok (conv_succ (g := fun _ => .ok (.name e)) (fun n => by simp [tempE, genE]) (conv_const _))
      (conv_bind_ok ih (conv_const _))

theorem occursEs_names {x : String} : {es : List String} → x ∉ es → occursEs x (es.map .name) = false
  | [], _ => rfl
  | e :: es, h => by
    simp only [List.mem_cons, not_or] at h
    have : (e == x) = false := by simpa using Ne.symm h.1
    simp only [List.map_cons, occursEs, occursE, this, occursEs_names h.2, Bool.or_self]

theorem substW_sim {isBlock : Bool} {ps : List String} {name : String} {ds ds' : List Def} (h : DefsRel ds ds')
    (hn : (name :: ps).any (fun x => ds'.any (fun d => !isTemplate d && d.name == x)) = false) (b : List Stmt) :
    Sim (WRel isBlock ps name (match single b with | some e => applyE true ds' e | none => .error .syntax))
      (fun n => substS n ds (asWith isBlock ps name b)) (applySs true ds' b) := by
  have hr : (match single b with | some e => applyE true ds' e | none => .error .syntax) =
      ((match single b with | some e => .ok e | none => .error .syntax : X T).bind
        (foldX (fun d => temE true d.name d.ps d.val) (ds'.filter isTemplate))).bind
        (foldX (fun d => subE (bare true d.name d.val)) (ds'.filter (fun d => !isTemplate d))) := by
    cases single b <;> rfl
  rw [hr]
  unfold substS applySs
  refine sim_bind (fold_with (isBlock := isBlock) (ps := ps) (name := name) (f := fun d n => tempS d.name d.ps d.val n) (fE := fun d n => tempE d.name d.ps d.val n)
    (gE := fun d => temE true d.name d.ps d.val) (r := match single b with | some e => .ok e | none => .error .syntax)
    h.templates ?_ ?_) ?_
  · intro d d' hd _
    rw [hd.name, hd.ps]
    refine ⟨temp_step hd.val, ?_⟩
    exact names_conv (name :: ps)
  · refine ⟨b, rfl, spl_refl _, ?_⟩
    match b with
    | [.expr e] => exact .inl ⟨e, rfl, rfl⟩
    | [] => exact .inr (.inl ⟨(fun e h => nomatch h), rfl⟩)
    | [.op _ _ _] => exact .inr (.inl ⟨(fun e h => nomatch h), rfl⟩)
    | .op _ _ _ :: _ :: _ => exact .inr (.inl ⟨(fun e h => nomatch h), rfl⟩)
    | .expr _ :: _ :: _ => exact .inr (.inl ⟨(fun e h => nomatch h), rfl⟩)
  · intro s S hw _
    refine fold_with (f := fun d n => bareS d.name d.val n) (fE := fun d n => bareE d.name d.val n)
      (gE := fun d => subE (bare true d.name d.val)) h.barenames ?_ hw
    intro d d' hd hm
    rw [hd.name]
    refine ⟨bare_step hd.val, ?_⟩
    have hx : d'.name ∉ name :: ps := by
      intro hx
      have h1 := List.any_eq_false.1 hn d'.name hx
      have hm' := List.mem_filter.1 hm
      have h2 : ds'.any (fun d => !isTemplate d && d.name == d'.name) = false := by simpa using h1
      have h3 := List.any_eq_false.1 h2 d' hm'.1
      simp [hm'.2] at h3
    exact bareEs_absent (.name name :: ps.map .name) (occursEs_names (es := name :: ps) hx)

theorem ids_names : (ps : List String) → ids (ps.map .name) = .ok ps
  | [] => rfl
  | p :: ps => by simp only [List.map_cons, ids, ids_names ps, Except.bind]

theorem loop_sim : (is : List Item) → {ds ds' : List Def} → DefsRel ds ds' →
    Sim Spl (fun n => LetSyntax.loop n ds is) (Spec.loop true ds' is)
  | [], _, _, _ => sim_ok .nil
  | .stmt s :: is, ds, ds', h => by
    simp only [LetSyntax.loop, Spec.loop]
    exact sim_bind (substS_sim h s [s] (spl_refl _)) fun a b hab _ => sim_bind (loop_sim is h) fun _ _ hr _ => sim_ok (spl_append hab hr)
  | .define isBlock ps name body :: is, ds, ds', h => by
    simp only [LetSyntax.loop, Spec.loop, Bool.true_and]
    cases hn : (name :: ps).any (fun x => ds'.any (fun d => !isTemplate d && d.name == x)) with
    | true => exact sim_stopped _
    | false =>
      simp only [Bool.false_eq_true, if_false]
      refine sim_bind (substW_sim h hn body) ?_
      rintro s S ⟨b, rfl, hspl, hq⟩ _
      simp only [asWith, destructure, ids_names, h.names]
      cases hc : (ds'.map (·.name)).contains name with
      | true => exact sim_syntax
      | false =>
        cases isBlock with
        | true =>
          have := loop_sim is (h.snoc (d := ⟨name, ps, .block b⟩) (d' := ⟨name, ps, .block S⟩) ⟨rfl, rfl, .block hspl⟩)
          simpa [Except.bind] using this
        | false =>
          simp only [Bool.false_eq_true, if_false, Except.bind]
          cases hs : single body with
          | none =>
            simp only [hs] at hq
            have hne : ∀ e, b ≠ [.expr e] := by
              rcases hq with ⟨e, _, h⟩ | h | h
              · cases h
              · exact h.1
              · cases h
            match b, hne with
            | [], _ => exact sim_syntax
            | [.expr e], hne => exact (hne e rfl).elim
            | [.op _ _ _], _ => exact sim_syntax
            | .op _ _ _ :: _ :: _, _ => exact sim_syntax
            | .expr _ :: _ :: _, _ => exact sim_syntax
          | some e0 =>
            simp only [hs] at hq
            rcases hq with ⟨e, rfl, hr⟩ | ⟨hne, hr⟩ | hr
            · simp only [hr]
              exact loop_sim is (h.snoc (d := ⟨name, ps, .expr e⟩) (d' := ⟨name, ps, .expr e⟩) ⟨rfl, rfl, .expr e⟩)
            · simp only [hr]
              match b, hne with
              | [], _ => exact sim_syntax
              | [.expr e], hne => exact (hne e rfl).elim
              | [.op _ _ _], _ => exact sim_syntax
              | .op _ _ _ :: _ :: _, _ => exact sim_syntax
              | .expr _ :: _ :: _, _ => exact sim_syntax
            · simp only [hr]; exact sim_stopped _

/-! ## The careful specification agrees with the other one, where it does not stop -/

def Le {α : Type} (x y : X α) : Prop := x = .error .stopped ∨ x = y

theorem Le.rfl {α : Type} {x : X α} : Le x x := .inr (Eq.refl x)

theorem le_bind {α β : Type} {x y : X α} {k k' : α → X β} (h : Le x y) (hk : ∀ a, x = .ok a → Le (k a) (k' a)) :
    Le (x.bind k) (y.bind k') := by
  rcases h with h | h
  · exact .inl (by rw [h]; exact Eq.refl _)
  · subst h
    cases x with
    | error e => exact .inr (Eq.refl _)
    | ok a => exact hk a (Eq.refl _)

inductive LeO {α : Type} : Option (X α) → Option (X α) → Prop
  | none : LeO none none
  | some {x y : X α} : Le x y → LeO (some x) (some y)

structure LeSub (σ σ' : Subst) : Prop where
  inExpr : ∀ y, LeO (σ.inExpr y) (σ'.inExpr y)
  asStmt : ∀ y, LeO (σ.asStmt y) (σ'.asStmt y)

mutual
theorem subE_le {σ σ' : Subst} (h : ∀ y, LeO (σ.inExpr y) (σ'.inExpr y)) : (e : T) → Le (subE σ e) (subE σ' e)
  | .name y => by
    simp only [subE]
    have hy := h y
    revert hy
    generalize σ.inExpr y = a, σ'.inExpr y = b
    intro hy
    cases hy with
    | none => exact Le.rfl
    | some h => exact h
  | .const c => Le.rfl
  | .call f args => by
    simp only [subE]
    exact le_bind (subE_le h f) fun _ _ => le_bind (subEs_le h args) fun _ _ => Le.rfl
  | .op t es => by
    simp only [subE]
    exact le_bind (subEs_le h es) fun _ _ => Le.rfl
theorem subEs_le {σ σ' : Subst} (h : ∀ y, LeO (σ.inExpr y) (σ'.inExpr y)) : (es : List T) → Le (subEs σ es) (subEs σ' es)
  | [] => Le.rfl
  | e :: es => by
    simp only [subEs]
    exact le_bind (subE_le h e) fun _ _ => le_bind (subEs_le h es) fun _ _ => Le.rfl
end

theorem subX_le {σ σ' : Subst} (h : LeSub σ σ') (e : T) : Le (subX σ e) (subX σ' e) := by
  cases e with
  | name y =>
    simp only [subX]
    have hy := h.asStmt y
    revert hy
    generalize σ.asStmt y = a, σ'.asStmt y = b
    intro hy
    cases hy with
    | none => exact Le.rfl
    | some h => exact h
  | _ =>
    simp only [subX]
    exact le_bind (subE_le h.inExpr _) fun _ _ => Le.rfl

mutual
theorem subS_le {σ σ' : Subst} (h : LeSub σ σ') : (s : Stmt) → Le (subS σ s) (subS σ' s)
  | .expr e => by simp only [subS]; exact subX_le h e
  | .op t es bs => by
    simp only [subS]
    exact le_bind (subEs_le h.inExpr es) fun _ _ => le_bind (subBs_le h bs) fun _ _ => Le.rfl
theorem subSs_le {σ σ' : Subst} (h : LeSub σ σ') : (ss : List Stmt) → Le (subSs σ ss) (subSs σ' ss)
  | [] => Le.rfl
  | s :: ss => by
    simp only [subSs]
    exact le_bind (subS_le h s) fun _ _ => le_bind (subSs_le h ss) fun _ _ => Le.rfl
theorem subBs_le {σ σ' : Subst} (h : LeSub σ σ') : (bs : List (List Stmt)) → Le (subBs σ bs) (subBs σ' bs)
  | [] => Le.rfl
  | b :: bs => by
    simp only [subBs]
    exact le_bind (subSs_le h b) fun _ _ => le_bind (subBs_le h bs) fun _ _ => Le.rfl
end

theorem bare_le (x : String) (val : Value) : LeSub (bare true x val) (bare false x val) where
  inExpr y := by
    simp only [bare]
    split
    · cases val with
      | block b => exact .some Le.rfl
      | expr v =>
        simp only [Bool.true_and, Bool.false_and]
        cases selfRef x v
        · exact .some Le.rfl
        · exact .some (.inl rfl)
    · exact .none
  asStmt y := by
    simp only [bare]
    split
    · cases val with
      | block b => exact .some Le.rfl
      | expr v =>
        simp only [Bool.true_and, Bool.false_and]
        cases selfRef x v
        · exact .some Le.rfl
        · exact .some (.inl rfl)
    · exact .none

theorem lookup_le {α β : Type} {g g' : α → X β} (ps : List String) (as : List α) (h : ∀ a ∈ as, Le (g a) (g' a)) (y : String) :
    LeO (lookup ps (as.map g) y) (lookup ps (as.map g') y) := by
  rw [lookup_map, lookup_map]
  cases hl : lookup ps as y with
  | none => exact .none
  | some a => exact .some (h a (lookup_mem ps as hl).2)

theorem seq_le {α β : Type} {g g' : α → X β} : (as : List α) → (∀ a ∈ as, Le (g a) (g' a)) → Le (seq (as.map g)) (seq (as.map g'))
  | [], _ => Le.rfl
  | a :: as, h => by
    simp only [List.map_cons, seq]
    exact le_bind (h a (by simp)) fun _ _ => le_bind (seq_le as fun a ha => h a (by simp [ha])) fun _ _ => Le.rfl

mutual
theorem temE_le (f : String) (ps : List String) (val : Value) : (e : T) → Le (temE true f ps val e) (temE false f ps val e)
  | .name y => by simp only [temE]; exact Le.rfl
  | .const y => by simp only [temE]; exact Le.rfl
  | .op t es => by
    simp only [temE, temEl_map]
    exact le_bind (seq_le es (temE_le_all f ps val es)) fun _ _ => Le.rfl
  | .call g args => by
    simp only [temE, temEl_map]
    split
    · cases val with
      | block b => exact Le.rfl
      | expr v =>
        by_cases hlen : args.length ≠ ps.length
        · simp only [if_pos hlen]; exact Le.rfl
        · simp only [if_neg hlen, Bool.true_and, Bool.false_and]
          split
          · exact .inl rfl
          · simp only [Bool.false_eq_true, if_false]
            exact subE_le (lookup_le ps args (temE_le_all f ps _ args)) v
    · exact le_bind (temE_le f ps val g) fun _ _ => le_bind (seq_le args (temE_le_all f ps val args)) fun _ _ => Le.rfl
theorem temE_le_all (f : String) (ps : List String) (val : Value) : (es : List T) → ∀ e ∈ es,
    Le (temE true f ps val e) (temE false f ps val e)
  | [], _, h => by cases h
  | e :: es, a, h => by
    rcases List.mem_cons.1 h with h | h
    · rw [h]; exact temE_le f ps val e
    · exact temE_le_all f ps val es a h
end

mutual
theorem temX_le (f : String) (ps : List String) (val : Value) : (e : T) → Le (temX true f ps val e) (temX false f ps val e)
  | .name y => by simp only [temX]; exact le_bind (temE_le f ps val _) fun _ _ => Le.rfl
  | .const y => by simp only [temX]; exact le_bind (temE_le f ps val _) fun _ _ => Le.rfl
  | .op t es => by simp only [temX]; exact le_bind (temE_le f ps val _) fun _ _ => Le.rfl
  | .call g args => by
    cases val with
    | expr v => simp only [temX]; exact le_bind (temE_le f ps _ _) fun _ _ => Le.rfl
    | block b =>
      cases hg : isThe f g with
      | false => simp only [temX, hg]; exact le_bind (temE_le f ps _ _) fun _ _ => Le.rfl
      | true =>
        simp only [temX, hg, temEl_map, temXl_map]
        by_cases hlen : args.length ≠ ps.length
        · simp only [if_pos hlen]; exact Le.rfl
        · simp only [if_neg hlen, Bool.true_and, Bool.false_and]
          split
          · exact .inl rfl
          · simp only [Bool.false_eq_true, if_false]
            exact subSs_le ⟨lookup_le ps args (temE_le_all f ps _ args), lookup_le ps args (temX_le_all f ps _ args)⟩ b
theorem temX_le_all (f : String) (ps : List String) (val : Value) : (es : List T) → ∀ e ∈ es,
    Le (temX true f ps val e) (temX false f ps val e)
  | [], _, h => by cases h
  | e :: es, a, h => by
    rcases List.mem_cons.1 h with h | h
    · rw [h]; exact temX_le f ps val e
    · exact temX_le_all f ps val es a h
end

mutual
theorem temS_le (f : String) (ps : List String) (val : Value) : (s : Stmt) → Le (temS true f ps val s) (temS false f ps val s)
  | .expr e => by simp only [temS]; exact temX_le f ps val e
  | .op t es bs => by
    simp only [temS, temEl_map]
    exact le_bind (seq_le es (temE_le_all f ps val es)) fun _ _ => le_bind (temBs_le f ps val bs) fun _ _ => Le.rfl
theorem temSs_le (f : String) (ps : List String) (val : Value) : (ss : List Stmt) → Le (temSs true f ps val ss) (temSs false f ps val ss)
  | [] => by simp only [temSs]; exact Le.rfl
  | s :: ss => by
    simp only [temSs]
    exact le_bind (temS_le f ps val s) fun _ _ => le_bind (temSs_le f ps val ss) fun _ _ => Le.rfl
theorem temBs_le (f : String) (ps : List String) (val : Value) : (bs : List (List Stmt)) →
    Le (temBs true f ps val bs) (temBs false f ps val bs)
  | [] => by simp only [temBs]; exact Le.rfl
  | b :: bs => by
    simp only [temBs]
    exact le_bind (temSs_le f ps val b) fun _ _ => le_bind (temBs_le f ps val bs) fun _ _ => Le.rfl
end

theorem fold_le {α β : Type} {g g' : α → β → X β} (h : ∀ a b, Le (g a b) (g' a b)) : (as : List α) → (b : β) →
    Le (foldX g as b) (foldX g' as b)
  | [], _ => Le.rfl
  | a :: as, b => by
    simp only [foldX]
    exact le_bind (h a b) fun b _ => fold_le h as b

theorem applyE_le (ds : List Def) (e : T) : Le (applyE true ds e) (applyE false ds e) := by
  unfold applyE
  exact le_bind (fold_le (fun d e => temE_le _ _ _ e) _ _) fun _ _ => fold_le (fun d e => subE_le (bare_le _ _).inExpr e) _ _

theorem applySs_le (ds : List Def) (ss : List Stmt) : Le (applySs true ds ss) (applySs false ds ss) := by
  unfold applySs
  exact le_bind (fold_le (fun d e => temSs_le _ _ _ e) _ _) fun _ _ => fold_le (fun d e => subSs_le (bare_le _ _) e) _ _

theorem loop_le : (is : List Item) → (ds : List Def) → Le (Spec.loop true ds is) (Spec.loop false ds is)
  | [], _ => Le.rfl
  | .stmt s :: is, ds => by
    simp only [Spec.loop]
    exact le_bind (applySs_le ds [s]) fun _ _ => le_bind (loop_le is ds) fun _ _ => Le.rfl
  | .define isBlock ps name body :: is, ds => by
    simp only [Spec.loop, Bool.true_and, Bool.false_and]
    split
    · exact .inl rfl
    · simp only [Bool.false_eq_true, if_false]
      refine le_bind (applySs_le ds body) fun body' _ => ?_
      split
      · exact Le.rfl
      · split
        · exact loop_le is _
        · cases single body with
          | none => exact Le.rfl
          | some e => exact le_bind (applyE_le ds e) fun _ _ => loop_le is _

/-! ## `eliminate_ifones` -/

theorem mean_append {M : Type} (m : Meaning M) : (a b : List Stmt) → meanSs m (a ++ b) = m.next (meanSs m a) (meanSs m b)
  | [], b => by simp only [List.nil_append, meanSs, m.skip_next]
  | s :: ss, b => by simp only [List.cons_append, meanSs, mean_append m ss b, m.next_assoc]

/-- The cases of `optimize`. -/
theorem optimize_cases (t : String) (es : List T) (bs : List (List Stmt)) :
    (∃ b e, t = "if" ∧ es = [.const (some 1)] ∧ bs = [b, e] ∧ optimize t es bs = b) ∨
    (∃ b e c, t = "if" ∧ es = [.const c] ∧ (c = some 0 ∨ c = none) ∧ bs = [b, e] ∧ optimize t es bs = e) ∨
    (optimize t es bs = [.op t es bs] ∧ isConstIf t es bs = false) := by
  unfold optimize
  split
  · rename_i c b e
    split
    · rename_i h; subst h; exact .inl ⟨b, e, rfl, rfl, rfl, rfl⟩
    · split
      · rename_i h; exact .inr (.inl ⟨b, e, c, rfl, rfl, h, rfl, rfl⟩)
      · rename_i h1 h2
        refine .inr (.inr ⟨rfl, ?_⟩)
        simp only [not_or] at h2
        cases c <;> simp_all [isConstIf]
  · rename_i h
    refine .inr (.inr ⟨rfl, ?_⟩)
    unfold isConstIf
    split
    · exact (h _ _ _ rfl rfl rfl).elim
    · rfl

mutual
theorem elimS_mean {M : Type} (m : Meaning M) : (s : Stmt) → meanSs m (elimS s) = meanS m s
  | .expr e => by simp only [elimS, meanSs, meanS, m.next_skip]
  | .op t es bs => by
    have ih := elimBs_mean m bs
    simp only [elimS, meanS]
    rcases optimize_cases t es (elimBs bs) with ⟨b, e, rfl, rfl, hb, ho⟩ | ⟨b, e, c, rfl, rfl, hc, hb, ho⟩ | ⟨ho, _⟩
    · rw [ho, ← ih, hb]
      simp only [meanBs, m.if_one]
    · rw [ho, ← ih, hb]
      rcases hc with rfl | rfl <;> simp only [meanBs, m.if_zero, m.if_none]
    · rw [ho, ← ih]
      simp only [meanSs, meanS, m.next_skip]
theorem elimSs_mean {M : Type} (m : Meaning M) : (ss : List Stmt) → meanSs m (elimSs ss) = meanSs m ss
  | [] => rfl
  | s :: ss => by simp only [elimSs, mean_append, elimS_mean m s, elimSs_mean m ss, meanSs]
theorem elimBs_mean {M : Type} (m : Meaning M) : (bs : List (List Stmt)) → meanBs m (elimBs bs) = meanBs m bs
  | [] => rfl
  | b :: bs => by simp only [elimBs, meanBs, elimSs_mean m b, elimBs_mean m bs]
end

theorem noConstIf_append : (a b : List Stmt) → noConstIfSs (a ++ b) = (noConstIfSs a && noConstIfSs b)
  | [], b => by simp [noConstIfSs]
  | s :: ss, b => by simp only [List.cons_append, noConstIfSs, noConstIf_append ss b, Bool.and_assoc]

mutual
theorem elimS_clean : (s : Stmt) → noConstIfSs (elimS s) = true
  | .expr e => rfl
  | .op t es bs => by
    have ih := elimBs_clean bs
    simp only [elimS]
    rcases optimize_cases t es (elimBs bs) with ⟨b, e, rfl, rfl, hb, ho⟩ | ⟨b, e, c, rfl, rfl, hc, hb, ho⟩ | ⟨ho, hn⟩
    · rw [hb] at ih; rw [ho]; simp only [noConstIfBs, Bool.and_eq_true] at ih; exact ih.1
    · rw [hb] at ih; rw [ho]; simp only [noConstIfBs, Bool.and_eq_true] at ih; exact ih.2.1
    · rw [ho]; simp [noConstIfSs, noConstIfS, hn, ih]
theorem elimSs_clean : (ss : List Stmt) → noConstIfSs (elimSs ss) = true
  | [] => rfl
  | s :: ss => by simp only [elimSs, noConstIf_append, elimS_clean s, elimSs_clean ss, Bool.and_self]
theorem elimBs_clean : (bs : List (List Stmt)) → noConstIfBs (elimBs bs) = true
  | [] => rfl
  | b :: bs => by simp only [elimBs, noConstIfBs, elimSs_clean b, elimBs_clean bs, Bool.and_self]
end

mutual
theorem elimS_id : (s : Stmt) → noConstIfS s = true → elimS s = [s]
  | .expr e, _ => rfl
  | .op t es bs, h => by
    simp only [noConstIfS, Bool.and_eq_true, Bool.not_eq_true'] at h
    have ih := elimBs_id bs h.2
    simp only [elimS, ih]
    rcases optimize_cases t es bs with ⟨b, e, rfl, rfl, rfl, ho⟩ | ⟨b, e, c, rfl, rfl, hc, rfl, ho⟩ | ⟨ho, hn⟩
    · simp [isConstIf] at h
    · rcases hc with rfl | rfl <;> simp [isConstIf] at h
    · exact ho
theorem elimSs_id : (ss : List Stmt) → noConstIfSs ss = true → elimSs ss = ss
  | [], _ => rfl
  | s :: ss, h => by
    simp only [noConstIfSs, Bool.and_eq_true] at h
    simp only [elimSs, elimS_id s h.1, elimSs_id ss h.2, List.cons_append, List.nil_append]
theorem elimBs_id : (bs : List (List Stmt)) → noConstIfBs bs = true → elimBs bs = bs
  | [], _ => rfl
  | b :: bs, h => by
    simp only [noConstIfBs, Bool.and_eq_true] at h
    simp only [elimBs, elimSs_id b h.1, elimBs_id bs h.2]
end

theorem duplicates_iff : (xs : List String) → duplicates xs = false ↔ xs.Nodup
  | [] => by simp [duplicates]
  | x :: xs => by simp [duplicates, List.nodup_cons, duplicates_iff xs]

end Unpy.LetSyntax.Lemmas
