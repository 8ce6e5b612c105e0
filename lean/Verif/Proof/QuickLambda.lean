import Verif.Spec.QuickLambda
/-!
# Proofs about `fn[]`
-/
namespace Unpy.QuickLambda.Lemmas
open Unpy.QuickLambda Unpy.QuickLambda.Spec

/-! ## Counting -/

mutual
theorem collected_eq : (e : E) → collected e = count e
  | .int _ => by simp only [collected, count]
  | .name x => by simp only [collected, count]
  | .sub a b => by simp only [collected, count, collected_eq a, collected_eq b]
  | .ite b t e => by simp only [collected, count, collected_eq b, collected_eq t, collected_eq e]; omega
  | .lam _ e => by simp only [collected, count, collected_eq e]
  | .call f args => by simp only [collected, count, collected_eq f, collectedAll_eq args]
  | .tuple es => by simp only [collected, count, collectedAll_eq es]
  | .dict is => by simp only [collected, count, collectedItems_eq is]
  | .emit e => by simp only [collected, count, collected_eq e]
  | .fn _ _ => by simp only [collected, count]
theorem collectedAll_eq : (es : Es) → collectedAll es = countAll es
  | .nil => by simp only [collectedAll, countAll]
  | .cons e es => by simp only [collectedAll, countAll, collected_eq e, collectedAll_eq es]
theorem collectedItems_eq : (is : Items) → collectedKeys is + collectedVals is = countItems is
  | .nil => by simp only [collectedKeys, collectedVals, countItems]
  | .cons k v is => by
    simp only [collectedKeys, collectedVals, countItems, collected_eq k, collected_eq v, ← collectedItems_eq is]; omega
end

theorem collectedKeys_eq : (is : Items) → collectedKeys is = countKeys is
  | .nil => by simp only [collectedKeys, countKeys]
  | .cons k v is => by simp only [collectedKeys, countKeys, collected_eq k, collectedKeys_eq is]

theorem countKeys_le (is : Items) : countKeys is ≤ countItems is := by
  rw [← collectedItems_eq, collectedKeys_eq]; omega

mutual
/-- Without underscores the count does not matter. -/
theorem expand_none (i j l : Nat) : (e : E) → count e = 0 → expand (some (i, j)) e = expand (some (i, l)) e
  | .int _, _ => by simp only [expand]
  | .name x, h => by
    simp only [count] at h
    have : ¬ x = "_" := by intro hx; simp [hx] at h
    simp only [expand, underscore, if_neg this]
  | .sub a b, h => by
    simp only [count] at h
    simp only [expand, skipTo]
    rw [expand_none i j l a (by omega), expand_none i _ (l + collected a) b (by omega)]
  | .ite b t e, h => by
    simp only [count] at h
    simp only [expand, skipTo]
    rw [expand_none i _ (l + collected t) b (by omega), expand_none i j l t (by omega), expand_none i _ (l + (collected t + collected b)) e (by omega)]
  | .lam _ e, h => by
    simp only [count] at h
    simp only [expand, expand_none i j l e h]
  | .call f args, h => by
    simp only [count] at h
    simp only [expand, skipTo]
    rw [expand_none i j l f (by omega), expandAll_none i _ (l + collected f) args (by omega)]
  | .tuple es, h => by
    simp only [count] at h
    simp only [expand, expandAll_none i j l es h]
  | .dict is, h => by
    simp only [count] at h
    simp only [expand, skipTo]
    rw [expandItems_none i j l _ (l + collectedKeys is) is h]
  | .emit e, h => by
    simp only [count] at h
    simp only [expand, expand_none i j l e h]
  | .fn _ _, _ => by simp only [expand]
theorem expandAll_none (i j l : Nat) : (es : Es) → countAll es = 0 → expandAll (some (i, j)) es = expandAll (some (i, l)) es
  | .nil, _ => by simp only [expandAll]
  | .cons e es, h => by
    simp only [countAll] at h
    simp only [expandAll, skipTo]
    rw [expand_none i j l e (by omega), expandAll_none i _ (l + collected e) es (by omega)]
theorem expandItems_none (i j l j' l' : Nat) : (is : Items) → countItems is = 0 →
    expandItems (some (i, j)) (some (i, j')) is = expandItems (some (i, l)) (some (i, l')) is
  | .nil, _ => by simp only [expandItems]
  | .cons k v is, h => by
    simp only [countItems] at h
    simp only [expandItems, skipTo]
    rw [expand_none i j l k (by omega), expand_none i j' l' v (by omega), expandItems_none i _ (l + collected k) _ (l' + collected v) is (by omega)]
end

/-! ## Relations -/

/-- What is before is nothing, or the place for the underscore number `j` in `fn` number `i`. -/
def place (i : Option Nat) (j : Nat) : Option (Nat × Nat) := i.map fun i => (i, j)

mutual
inductive VRel (asTree : Bool) : V → RV → Prop
  | int (n : Int) : VRel asTree (.int n) (.int n)
  | tuple {vs ws} : VsRel asTree vs ws → VRel asTree (.tuple vs) (.tuple ws)
  | dict {vs ws} : VsRel asTree vs ws → VRel asTree (.dict vs) (.dict ws)
  | clo {env renv hs i j ps e} : EnvRel asTree env renv → HolesRel asTree i env hs → (∀ vs, hs = some vs → j + count e ≤ vs.length) →
      (asTree = false → Inorder e) → VRel asTree (.clo (ps.map .user) (expand (place i j) e) env) (.clo ps e renv hs j)
  | quick {env renv i e} : EnvRel asTree env renv → (asTree = false → Inorder e) →
      VRel asTree (.clo ((List.range (count e)).map (.gen i)) (expand (some (i, 0)) e) env) (.quick e renv)
inductive VsRel (asTree : Bool) : List V → List RV → Prop
  | nil : VsRel asTree [] []
  | cons {v w vs ws} : VRel asTree v w → VsRel asTree vs ws → VsRel asTree (v :: vs) (w :: ws)
inductive EnvRel (asTree : Bool) : List (Name × V) → List (String × RV) → Prop
  | nil : EnvRel asTree [] []
  | user {x v w env renv} : VRel asTree v w → EnvRel asTree env renv → EnvRel asTree ((.user x, v) :: env) ((x, w) :: renv)
  | gen {i j v env renv} : EnvRel asTree env renv → EnvRel asTree ((.gen i j, v) :: env) renv
inductive HoleList (asTree : Bool) : Nat → Nat → List (Name × V) → List RV → Prop
  | nil {i k env} : HoleList asTree i k env []
  | cons {i k env v w ws} : find (.gen i k) env = some v → VRel asTree v w → HoleList asTree i (k + 1) env ws → HoleList asTree i k env (w :: ws)
inductive HolesRel (asTree : Bool) : Option Nat → List (Name × V) → Option (List RV) → Prop
  | none {env} : HolesRel asTree none env none
  | some {i env ws} : HoleList asTree i 0 env ws → HolesRel asTree (some i) env (some ws)
end

variable {asTree : Bool}

theorem vs_length : {vs : List V} → {ws : List RV} → VsRel asTree vs ws → vs.length = ws.length
  | _, _, .nil => rfl
  | _, _, .cons _ h => by simp only [List.length_cons, vs_length h]

theorem env_find (x : String) : {env : List (Name × V)} → {renv : List (String × RV)} → EnvRel asTree env renv →
    (find (.user x) env = none ∧ find x renv = none) ∨ ∃ v w, find (.user x) env = some v ∧ find x renv = some w ∧ VRel asTree v w
  | _, _, .nil => .inl ⟨rfl, rfl⟩
  | _, _, .gen h => by
    rcases env_find x h with h | h
    · exact .inl (by simpa [find] using h)
    · exact .inr (by simpa [find] using h)
  | _, _, .user (x := y) hv h => by
    by_cases hx : y = x
    · subst hx; exact .inr ⟨_, _, by simp [find], by simp [find], hv⟩
    · rcases env_find x h with h | h
      · exact .inl (by simpa [find, hx] using h)
      · exact .inr (by simpa [find, hx] using h)

theorem holes_find {i : Nat} {env : List (Name × V)} : {k : Nat} → {ws : List RV} → HoleList asTree i k env ws → (j : Nat) → j < ws.length →
    ∃ v w, find (.gen i (k + j)) env = some v ∧ ws[j]? = some w ∧ VRel asTree v w
  | _, _, .nil, _, hj => by simp at hj
  | k, _, .cons h1 h2 h3, 0, _ => ⟨_, _, h1, rfl, h2⟩
  | k, _, .cons h1 h2 h3, j + 1, hj => by
    obtain ⟨v, w, h4, h5, h6⟩ := holes_find h3 j (by simpa using hj)
    exact ⟨v, w, by rw [← h4]; congr 2; omega, by simpa using h5, h6⟩

theorem holes_user {i : Nat} {x : String} {v : V} {env : List (Name × V)} : {k : Nat} → {ws : List RV} → HoleList asTree i k env ws →
    HoleList asTree i k ((.user x, v) :: env) ws
  | _, _, .nil => .nil
  | _, _, .cons h1 h2 h3 => .cons (by simpa [find] using h1) h2 (holes_user h3)

theorem holesRel_user {i : Option Nat} {x : String} {v : V} {env : List (Name × V)} {hs : Option (List RV)} (h : HolesRel asTree i env hs) :
    HolesRel asTree i ((.user x, v) :: env) hs := by
  cases h with
  | none => exact .none
  | some h => exact .some (holes_user h)

/-- A function is called. -/
theorem params {i : Option Nat} {hs : Option (List RV)} {env : List (Name × V)} {renv : List (String × RV)} (he : EnvRel asTree env renv)
    (hh : HolesRel asTree i env hs) : (ps : List String) → {vs : List V} → {ws : List RV} → VsRel asTree vs ws →
    EnvRel asTree ((ps.map .user).zip vs ++ env) (ps.zip ws ++ renv) ∧ HolesRel asTree i ((ps.map Name.user).zip vs ++ env) hs
  | [], _, _, _ => ⟨by simpa using he, by simpa using hh⟩
  | p :: ps, _, _, .nil => ⟨by simpa using he, by simpa using hh⟩
  | p :: ps, _, _, .cons hv h => by
    obtain ⟨h1, h2⟩ := params he hh ps h
    exact ⟨.user hv h1, holesRel_user h2⟩

theorem quick_env {i : Nat} {env : List (Name × V)} {renv : List (String × RV)} (he : EnvRel asTree env renv) : (ks : List Nat) → (vs : List V) →
    EnvRel asTree ((ks.map (Name.gen i)).zip vs ++ env) renv
  | [], _ => by simpa using he
  | _ :: _, [] => by simpa using he
  | k :: ks, v :: vs => .gen (quick_env he ks vs)

theorem holes_skip {i k l : Nat} (hk : k < l) {v : V} {env : List (Name × V)} : {m : Nat} → {ws : List RV} → l ≤ m → HoleList asTree i m env ws →
    HoleList asTree i m ((.gen i k, v) :: env) ws
  | _, _, _, .nil => .nil
  | m, _, hm, .cons h1 h2 h3 => by
    refine .cons ?_ h2 (holes_skip hk (by omega) h3)
    have : ¬ k = m := by omega
    simpa [find, this] using h1

theorem quick_holes {i : Nat} {env : List (Name × V)} : (s : Nat) → {vs : List V} → {ws : List RV} → VsRel asTree vs ws →
    HoleList asTree i s (((List.range' s vs.length).map (Name.gen i)).zip vs ++ env) ws
  | _, _, _, .nil => .nil
  | s, _, _, .cons hv h => by
    simp only [List.length_cons, List.range'_succ, List.map_cons, List.zip_cons_cons, List.cons_append]
    exact .cons (by simp [find]) hv (holes_skip (Nat.lt_succ_self s) (Nat.le_refl _) (quick_holes (s + 1) h))

theorem shown_rel {v : V} {w : RV} (h : VRel asTree v w) : v.shown = w.shown := by
  cases h <;> rfl

/-! ## The simulation -/

/-- Both end in the same way and show the same. -/
def Sim {α β : Type} (R : α → β → Prop) (m : M α) (m' : M β) : Prop := ∀ s,
  match m s, m' s with
  | (.ok a, t), (.ok b, t') => R a b ∧ t = t'
  | (.error e, t), (.error e', t') => e = e' ∧ t = t'
  | _, _ => False

theorem sim_pure {α β : Type} {R : α → β → Prop} {a : α} {b : β} (h : R a b) : Sim R (M.pure a) (M.pure b) := fun _ => ⟨h, rfl⟩
theorem sim_fail {α β : Type} {R : α → β → Prop} (e : Err) : Sim R (M.fail e) (M.fail e) := fun _ => ⟨rfl, rfl⟩
theorem sim_bind {α β γ δ : Type} {R : α → β → Prop} {S : γ → δ → Prop} {m : M α} {m' : M β} {k : α → M γ} {k' : β → M δ}
    (h : Sim R m m') (hk : ∀ a b, R a b → Sim S (k a) (k' b)) : Sim S (m.bind k) (m'.bind k') := by
  intro s
  have h1 := h s
  simp only [M.bind]
  revert h1
  cases m s with
  | mk r t => cases m' s with
    | mk r' t' => cases r with
      | ok a => cases r' with
        | ok b => rintro ⟨h1, rfl⟩; exact hk a b h1 t
        | error e => exact fun h => h.elim
      | error e => cases r' with
        | ok b => exact fun h => h.elim
        | error e => rintro ⟨rfl, rfl⟩; exact ⟨rfl, rfl⟩

theorem place_skip (i : Option Nat) (j n : Nat) : skipTo n (place i j) = place i (j + n) := by
  cases i <;> rfl

theorem expand_place (i : Option Nat) {j l : Nat} {e : E} (h : count e = 0) : expand (place i j) e = expand (place i l) e := by
  cases i with
  | none => rfl
  | some i => exact expand_none i j l e h

theorem sim_output {v : V} {w : RV} (h : VRel asTree v w) :
    Sim (VRel asTree) ((output v.shown).bind fun _ => M.pure v) ((output w.shown).bind fun _ => M.pure w) := by
  rw [shown_rel h]
  intro s
  cases hw : w.shown with
  | none => exact ⟨rfl, rfl⟩
  | some n => exact ⟨h, rfl⟩

mutual
theorem sim_E : (n : Nat) → {i : Option Nat} → {hs : Option (List RV)} → {env : List (Name × V)} → {renv : List (String × RV)} →
    EnvRel asTree env renv → HolesRel asTree i env hs → (j : Nat) → (e : E) → (∀ vs, hs = some vs → j + count e ≤ vs.length) →
    (asTree = false → Inorder e) → Sim (VRel asTree) (evalT n env (expand (place i j) e)) (eval asTree n renv hs j e)
  | 0, _, _, _, _, _, _, _, _, _, _ => by simp only [evalT, eval]; exact sim_fail _
  | n + 1, _, _, _, _, _, _, j, .int k, _, _ => by simp only [expand, evalT, eval]; exact sim_pure (.int k)
  | n + 1, i, hs, env, renv, he, hh, j, .name x, hj, _ => by
    simp only [expand, evalT, eval]
    have : (find (underscore (place i j) x) env = none ∧ Spec.read renv hs j x = none) ∨
        ∃ v w, find (underscore (place i j) x) env = some v ∧ Spec.read renv hs j x = some w ∧ VRel asTree v w := by
      cases hh with
      | none => simp only [place, Option.map, underscore, Spec.read]; exact env_find x he
      | @some i _ ws hh =>
        simp only [place, Option.map, underscore, Spec.read]
        by_cases hx : x = "_"
        · simp only [if_pos hx]
          have := hj ws rfl
          simp only [count, if_pos hx] at this
          obtain ⟨v, w, h1, h2, h3⟩ := holes_find hh j (by omega)
          exact .inr ⟨v, w, by simpa using h1, h2, h3⟩
        · simp only [if_neg hx]; exact env_find x he
    rcases this with ⟨h1, h2⟩ | ⟨v, w, h1, h2, h3⟩
    · rw [h1, h2]; exact sim_fail _
    · rw [h1, h2]; exact sim_pure h3
  | n + 1, i, hs, env, renv, he, hh, j, .sub a b, hj, ho => by
    simp only [count] at hj
    simp only [Inorder] at ho
    simp only [expand, evalT, eval, place_skip, collected_eq]
    refine sim_bind (sim_E n he hh j a (fun vs h => by have := hj vs h; omega) (fun h => (ho h).1)) fun v w hv => ?_
    refine sim_bind (sim_E n he hh _ b (fun vs h => by have := hj vs h; omega) (fun h => (ho h).2)) fun v' w' hv' => ?_
    cases hv <;> cases hv' <;> first | exact sim_pure (.int _) | exact sim_fail _
  | n + 1, i, hs, env, renv, he, hh, j, .ite b t e, hj, ho => by
    simp only [count] at hj
    simp only [Inorder] at ho
    simp only [expand, evalT, eval, place_skip, collected_eq]
    have ht : expand (place i j) t = expand (place i (if asTree = true then j else j + count b)) t := by
      cases asTree with
      | true => simp
      | false =>
        rcases (ho rfl).2.2.2 with h | h
        · simp [h]
        · exact expand_place i h
    have hb : expand (place i (j + count t)) b = expand (place i (if asTree = true then j + count t else j)) b := by
      cases asTree with
      | true => simp
      | false =>
        rcases (ho rfl).2.2.2 with h | h
        · exact expand_place i h
        · simp [h]
    rw [ht, hb, show j + (count t + count b) = j + count b + count t by omega]
    refine sim_bind (sim_E n he hh _ t (fun vs h => by have := hj vs h; split <;> omega) (fun h => (ho h).2.1)) fun v w hv => ?_
    rw [shown_rel hv]
    split
    · exact sim_E n he hh _ b (fun vs h => by have := hj vs h; split <;> omega) (fun h => (ho h).1)
    · exact sim_E n he hh _ e (fun vs h => by have := hj vs h; omega) (fun h => (ho h).2.2.1)
  | n + 1, i, hs, env, renv, he, hh, j, .lam ps e, hj, ho => by
    simp only [count] at hj
    simp only [Inorder] at ho
    simp only [expand, evalT, eval]
    exact sim_pure (.clo he hh hj ho)
  | n + 1, i, hs, env, renv, he, hh, j, .call f args, hj, ho => by
    simp only [count] at hj
    simp only [Inorder] at ho
    simp only [expand, evalT, eval, place_skip, collected_eq]
    refine sim_bind (sim_E n he hh j f (fun vs h => by have := hj vs h; omega) (fun h => (ho h).1)) fun v w hv => ?_
    refine sim_bind (sim_Es n he hh _ args (fun vs h => by have := hj vs h; omega) (fun h => (ho h).2)) fun vs ws hvs => ?_
    have hl := vs_length hvs
    cases hv with
    | int _ => exact sim_fail _
    | tuple _ => exact sim_fail _
    | dict _ => exact sim_fail _
    | @clo env' renv' hs' i' j' ps e' he' hh' hj' ho' =>
      simp only [hl, List.length_map]
      split
      · obtain ⟨h1, h2⟩ := params he' hh' ps hvs
        exact sim_E n h1 h2 j' e' hj' ho'
      · exact sim_fail _
    | @quick env' renv' i' e' he' ho' =>
      simp only [hl, List.length_map, List.length_range]
      split
      · next hc =>
        refine sim_E n (i := some i') (quick_env he' _ vs) (.some ?_) 0 e' ?_ ho'
        · rw [← hc, ← hl, List.range_eq_range']
          exact quick_holes 0 hvs
        · intro vs' h; cases h; omega
      · exact sim_fail _
  | n + 1, i, hs, env, renv, he, hh, j, .tuple es, hj, ho => by
    simp only [count] at hj
    simp only [Inorder] at ho
    simp only [expand, evalT, eval]
    exact sim_bind (sim_Es n he hh j es hj ho) fun vs ws hvs => sim_pure (.tuple hvs)
  | n + 1, i, hs, env, renv, he, hh, j, .dict is, hj, ho => by
    simp only [count] at hj
    simp only [Inorder] at ho
    simp only [expand, evalT, eval, place_skip, collectedKeys_eq]
    refine sim_bind (sim_Items n he hh j j (j + countKeys is) is ?_ (fun _ => rfl) ?_ ho) fun vs ws hvs => sim_pure (.dict hvs)
    · intro vs h
      have := hj vs h
      rw [← collectedItems_eq, collectedKeys_eq] at this
      exact ⟨by omega, by omega⟩
    · intro h; exact ⟨.inl rfl, rfl⟩
  | n + 1, i, hs, env, renv, he, hh, j, .emit e, hj, ho => by
    simp only [count] at hj
    simp only [Inorder] at ho
    simp only [expand, evalT, eval]
    exact sim_bind (sim_E n he hh j e hj ho) fun v w hv => sim_output hv
  | n + 1, i, hs, env, renv, he, hh, j, .fn i' e, hj, ho => by
    simp only [Inorder] at ho
    simp only [expand, evalT, eval, collected_eq]
    exact sim_pure (.quick he ho)
theorem sim_Es : (n : Nat) → {i : Option Nat} → {hs : Option (List RV)} → {env : List (Name × V)} → {renv : List (String × RV)} →
    EnvRel asTree env renv → HolesRel asTree i env hs → (j : Nat) → (es : Es) → (∀ vs, hs = some vs → j + countAll es ≤ vs.length) →
    (asTree = false → InorderAll es) → Sim (VsRel asTree) (evalTs n env (expandAll (place i j) es)) (evalAll asTree n renv hs j es)
  | 0, _, _, _, _, _, _, _, _, _, _ => by simp only [evalTs, evalAll]; exact sim_fail _
  | n + 1, _, _, _, _, _, _, j, .nil, _, _ => by simp only [expandAll, evalTs, evalAll]; exact sim_pure .nil
  | n + 1, i, hs, env, renv, he, hh, j, .cons e es, hj, ho => by
    simp only [countAll] at hj
    simp only [InorderAll] at ho
    simp only [expandAll, evalTs, evalAll, place_skip, collected_eq]
    refine sim_bind (sim_E n he hh j e (fun vs h => by have := hj vs h; omega) (fun h => (ho h).1)) fun v w hv => ?_
    refine sim_bind (sim_Es n he hh _ es (fun vs h => by have := hj vs h; omega) (fun h => (ho h).2)) fun vs ws hvs => ?_
    exact sim_pure (.cons hv hvs)
/-- `a` and `l` are where the macro counts keys and values. -/
theorem sim_Items : (n : Nat) → {i : Option Nat} → {hs : Option (List RV)} → {env : List (Name × V)} → {renv : List (String × RV)} →
    EnvRel asTree env renv → HolesRel asTree i env hs → (a j l : Nat) → (is : Items) →
    (∀ vs, hs = some vs → j + countKeys is ≤ vs.length ∧ l + collectedVals is ≤ vs.length) →
    (asTree = true → a = j) → (asTree = false → (a = j ∨ countKeys is = 0) ∧ l = j + countKeys is) → (asTree = false → InorderItems is) →
    Sim (VsRel asTree) (evalTItems n env (expandItems (place i a) (place i l) is)) (evalItems asTree n renv hs j l is)
  | 0, _, _, _, _, _, _, _, _, _, _, _, _, _, _ => by simp only [evalTItems, evalItems]; exact sim_fail _
  | n + 1, _, _, _, _, _, _, _, _, _, .nil, _, _, _, _ => by simp only [expandItems, evalTItems, evalItems]; exact sim_pure .nil
  | n + 1, i, hs, env, renv, he, hh, a, j, l, .cons k v is, hj, ht, hf, ho => by
    simp only [countKeys, collectedVals, collected_eq] at hj
    simp only [countKeys] at hf
    simp only [InorderItems] at ho
    simp only [expandItems, evalTItems, evalItems, place_skip, collected_eq]
    have hk : expand (place i a) k = expand (place i j) k := by
      cases asTree with
      | true => rw [ht rfl]
      | false =>
        rcases (hf rfl).1 with h | h
        · rw [h]
        · exact expand_place i (by omega)
    have hv : expand (place i l) v = expand (place i (if asTree = true then l else j + count k)) v := by
      cases asTree with
      | true => simp
      | false =>
        rcases (ho rfl).2.2.2 with h | h
        · exact expand_place i h
        · have := (hf rfl).2; rw [h] at this; rw [this]; rfl
    rw [hk, hv]
    refine sim_bind (sim_E n he hh j k (fun vs h => by have := (hj vs h).1; omega) (fun h => (ho h).1)) fun v1 w1 hv1 => ?_
    refine sim_bind (sim_E n he hh _ v (fun vs h => ?_) (fun h => (ho h).2.1)) fun v2 w2 hv2 => ?_
    · have := hj vs h
      cases asTree with
      | true => simp; omega
      | false => have := (hf rfl).2; simp; omega
    refine sim_bind (sim_Items n he hh (a + count k) _ (l + count v) is ?_ ?_ ?_ (fun h => (ho h).2.2.1)) fun vs ws hvs => ?_
    · intro vs h
      have := hj vs h
      refine ⟨?_, by omega⟩
      cases asTree with
      | true => simp; omega
      | false =>
        have h2 := (hf rfl).2
        simp only [Bool.false_eq_true, if_false]; omega
    · intro h; simp only [h, if_true, ht h]
    · intro h
      simp only [h, Bool.false_eq_true, if_false]
      have h1 := hf h
      refine ⟨?_, by omega⟩
      rcases (ho h).2.2.2 with h2 | h2
      · rcases h1.1 with h3 | h3
        · exact .inl (by omega)
        · exact .inr (by omega)
      · exact .inr h2
    · exact sim_pure (.cons hv1 (.cons hv2 hvs))
end

mutual
theorem seen_rel : {v : V} → {w : RV} → VRel asTree v w → seenV v = seenRV w
  | _, _, .int k => by simp only [seenV, seenRV]
  | _, _, .tuple h => by simp only [seenV, seenRV, seens_rel h]
  | _, _, .dict h => by simp only [seenV, seenRV, seens_rel h]
  | _, _, .clo _ _ _ _ => by simp only [seenV, seenRV]
  | _, _, .quick _ _ => by simp only [seenV, seenRV]
theorem seens_rel : {vs : List V} → {ws : List RV} → VsRel asTree vs ws → seenVs vs = seenRVs ws
  | _, _, .nil => by simp only [seenVs, seenRVs]
  | _, _, .cons h hs => by simp only [seenVs, seenRVs, seen_rel h, seens_rel hs]
end

end Unpy.QuickLambda.Lemmas
