import Verif.Spec.Amb
namespace Unpy.Amb
open Unpy.Fold (Err)
open Unpy.Eff Unpy.Spec.Amb
variable {σ ε α : Type}

theorem mk_of_holds {xs : List (Obj α)} (h : Holds xs) : mk xs = xs := by
  unfold mk
  split
  · rename_i x
    cases x <;> simp [Obj.isNil] <;> exact absurd rfl h
  · rfl

theorem holds_mk (xs : List (Obj α)) : Holds (mk xs) := by
  unfold mk Holds
  split
  · rename_i x; cases x <;> simp [Obj.isNil]
  · rename_i h; intro h'; exact h _ h'

theorem holds_nil : Holds ([] : List (Obj α)) := by simp [Holds]

theorem holds_append {xs ys : List (Obj α)} (hx : Holds xs) (hy : Holds ys) : Holds (xs ++ ys) := by
  intro h
  cases xs with
  | nil => exact hy h
  | cons x xs =>
    simp at h
    obtain ⟨rfl, rfl, rfl⟩ := h
    exact hx rfl

theorem holds_flatten {mss : List (List (Obj α))} (h : ∀ m ∈ mss, Holds m) : Holds mss.flatten := by
  induction mss with
  | nil => exact holds_nil
  | cons m mss ih =>
    rw [List.flatten_cons]
    exact holds_append (h m (by simp)) (ih fun m hm => h m (by simp [hm]))

theorem asMLs_map (mss : List (List (Obj α))) : asMLs (mss.map .ml) = some mss := by
  induction mss with
  | nil => rfl
  | cons m mss ih => simp [asMLs, ih]

theorem holds_ml (mss : List (List (Obj α))) : Holds (mss.map Obj.ml) := by
  intro h
  cases mss <;> simp at h

theorem mapE_ret (f : Obj α → Obj α) (m : List (Obj α)) :
    mapE (σ := σ) (ε := ε) (fun x => ret (f x)) m = ret (m.map f) := by
  induction m with
  | nil => rfl
  | cons x m ih => simp only [mapE, eff_ret_bind, ih, List.map_cons]

theorem fmap_ret (f : Obj α → Obj α) (m : List (Obj α)) :
    fmap (σ := σ) (ε := ε) m (fun x => ret (f x)) = ret (mk (m.map f)) := by
  unfold fmap fromGen
  rw [mapE_ret]
  rfl

theorem join_ml {mss : List (List (Obj α))} : join (σ := σ) (ε := ε) (mss.map .ml) = ret (mk mss.flatten) := by
  unfold join; rw [asMLs_map]

theorem mbind_ret (f : Obj α → List (Obj α)) (m : List (Obj α)) (hf : ∀ x, Holds (f x)) :
    mbind (σ := σ) (ε := ε) m (fun x => ret (.ml (f x))) = ret (m.flatMap f) := by
  unfold mbind
  rw [fmap_ret (fun x => .ml (f x)), eff_ret_bind]
  have : m.map (fun x => Obj.ml (f x)) = (m.map f).map Obj.ml := by simp
  rw [this, mk_of_holds (holds_ml _), join_ml, mk_of_holds (holds_flatten _)]
  · rfl
  · intro x hx
    obtain ⟨y, _, rfl⟩ := List.mem_map.mp hx
    exact hf y

/-! ## forall -/

theorem delattrs_ok {ks : List String} (hk : ks.Nodup) {a : String → Option (Obj α)} (h : ∀ k ∈ ks, (a k).isSome) :
    delattrs (ε := ε) ks a = .ok (fun j => if j ∈ ks then none else a j) := by
  induction ks generalizing a with
  | nil => simp [delattrs]
  | cons k ks ih =>
    rw [List.nodup_cons] at hk
    simp only [delattrs, h k (by simp), if_true]
    rw [ih hk.2]
    · congr 1
      funext j
      by_cases h1 : j = k <;> by_cases h2 : j ∈ ks <;> simp [h1, h2]
    · intro j hj
      have : j ≠ k := fun e => hk.1 (e ▸ hj)
      simp [this, h j (by simp [hj])]

theorem nodup_eraseDups (l : List String) : l.eraseDups.Nodup := by
  suffices ∀ n (l : List String), l.length ≤ n → l.eraseDups.Nodup from this _ l (Nat.le_refl _)
  intro n
  induction n with
  | zero => intro l h; cases l with
    | nil => simp
    | cons a l => simp at h
  | succ n ih =>
    intro l h
    cases l with
    | nil => simp
    | cons a l =>
      rw [List.eraseDups_cons, List.nodup_cons]
      refine ⟨?_, ih _ ?_⟩
      · rw [List.mem_eraseDups]; simp
      · have := List.length_filter_le (fun b => !b == a) l
        simp at h; omega

/-- the object `e` after some lines have run: the names from before are as they were -/
def Good (names : List String) (env : String → Option (Obj α)) (e : Env α) : Prop :=
  (∀ k, (e.attrs k).isSome ↔ k ∈ e.names) ∧ (∀ k ∈ names, k ∈ e.names ∧ e.attrs k = env k)

def Exact (names : List String) (env : String → Option (Obj α)) : Prop := ∀ k, (env k).isSome ↔ k ∈ names

theorem closeOver_good {names : List String} {env : String → Option (Obj α)} {e : Env α} (hx : Exact names env)
    (hg : Good names env e) : closeOver (ε := ε) names e = (.ok (), ⟨names, env⟩) := by
  unfold closeOver
  rw [delattrs_ok (nodup_eraseDups _)]
  · simp only
    congr 2
    funext j
    simp only [List.mem_eraseDups, List.mem_filter, List.contains_iff_mem, Bool.not_eq_true', List.contains_eq_mem,
      decide_eq_false_iff_not]
    by_cases h1 : j ∈ names
    · simp [h1, (hg.2 j h1).2]
    · by_cases h2 : j ∈ e.names
      · simp only [h1, h2, not_false_eq_true, and_self, if_true]
        have := mt (hx j).mp h1
        simpa using (Option.not_isSome_iff_eq_none.mp this).symm
      · simp only [h1, h2, not_false_eq_true, and_true, if_false]
        have a := Option.not_isSome_iff_eq_none.mp (mt (hg.1 j).mp h2)
        have b := Option.not_isSome_iff_eq_none.mp (mt (hx j).mp h1)
        rw [a, b]
  · intro k hk
    rw [List.mem_eraseDups, List.mem_filter] at hk
    exact (hg.1 k).mpr hk.1

theorem good_self {names : List String} {env : String → Option (Obj α)} (hx : Exact names env) :
    Good names env ⟨names, env⟩ := ⟨hx, fun k hk => ⟨hk, rfl⟩⟩

theorem exact_cons {names : List String} {env : String → Option (Obj α)} (hx : Exact names env) (k : String) (v : Obj α) :
    Exact (k :: names) (fun j => if j = k then some v else env j) := by
  intro j
  by_cases h : j = k <;> simp [h, hx j]

theorem good_weaken {names : List String} {env : String → Option (Obj α)} {k v} {e : Env α} (hk : k ∉ names)
    (hg : Good (k :: names) (fun j => if j = k then some v else env j) e) : Good names env e := by
  refine ⟨hg.1, fun j hj => ?_⟩
  have := hg.2 j (by simp [hj])
  have hne : j ≠ k := fun e => hk (e ▸ hj)
  simpa [hne] using this

/-- `x` was raised by one of the lines -/
def FromLine (lines : List (Line ε α)) (x : Err ε) : Prop := ∃ l ∈ lines, ∃ env, l.body env = .error x

theorem mapE_good {P : Env α → Prop} {Q : Err ε → Prop} {f : Obj α → Eff (Env α) (Err ε) (Obj α)}
    {g : Obj α → Except (Err ε) (List (Obj α))}
    (hf : ∀ x e, P e → (∀ v e', f x e = (.ok v, e') → ∃ ys, v = .ml ys ∧ g x = .ok ys ∧ Holds ys ∧ P e') ∧
      (∀ err e', f x e = (.error err, e') → Q err)) (m : List (Obj α)) (e : Env α) (he : P e) :
    (∀ vs e', mapE f m e = (.ok vs, e') → ∃ mss : List (List (Obj α)), vs = mss.map .ml ∧
      collect g m = .ok mss.flatten ∧ (∀ ys ∈ mss, Holds ys) ∧ P e') ∧
    (∀ err e', mapE f m e = (.error err, e') → Q err) := by
  induction m generalizing e with
  | nil =>
    constructor
    · intro vs e' h
      simp [mapE, ret] at h
      obtain ⟨rfl, rfl⟩ := h
      exact ⟨[], rfl, rfl, by simp, he⟩
    · intro err e' h; simp [mapE, ret] at h
  | cons x m ih =>
    simp only [mapE]
    unfold Eff.bind ret
    cases hx : f x e with
    | mk r e1 =>
      cases r with
      | error err =>
        refine ⟨by simp, ?_⟩
        intro err' e' h
        simp at h
        obtain ⟨rfl, rfl⟩ := h
        exact (hf x e he).2 _ _ hx
      | ok v =>
        obtain ⟨ys, rfl, hg, hh, hp⟩ := (hf x e he).1 _ _ hx
        simp only
        have ih := ih e1 hp
        cases hm : mapE f m e1 with
        | mk r e2 =>
          cases r with
          | error err =>
            refine ⟨by simp, ?_⟩
            intro err' e' h
            simp at h
            obtain ⟨rfl, rfl⟩ := h
            exact ih.2 _ _ hm
          | ok vs =>
            refine ⟨?_, by simp⟩
            intro vs' e' h
            simp at h
            obtain ⟨rfl, rfl⟩ := h
            obtain ⟨mss, rfl, h1, h2, h3⟩ := ih.1 _ _ hm
            refine ⟨ys :: mss, rfl, by simp [collect, hg, h1], ?_, h3⟩
            intro z hz
            rcases List.mem_cons.mp hz with rfl | hz
            · exact hh
            · exact h2 z hz

theorem mbind_good {P : Env α → Prop} {Q : Err ε → Prop} {f : Obj α → Eff (Env α) (Err ε) (Obj α)}
    {g : Obj α → Except (Err ε) (List (Obj α))} (hQ : ¬ Q (.py .TypeError))
    (hf : ∀ x e, P e → (∀ v e', f x e = (.ok v, e') → ∃ ys, v = .ml ys ∧ g x = .ok ys ∧ Holds ys ∧ P e') ∧
      (∀ err e', f x e = (.error err, e') → Q err)) (m : List (Obj α)) (e : Env α) (he : P e) :
    (∀ ys e', mbind m f e = (.ok ys, e') → collect g m = .ok ys ∧ Holds ys ∧ P e') ∧
    (∀ err e', mbind m f e = (.error err, e') → Q err) := by
  have key := mapE_good hf m e he
  unfold mbind Eff.bind fmap fromGen
  cases hm : mapE f m e with
  | mk r e1 =>
    cases r with
    | error err =>
      have hq := key.2 _ _ hm
      have hne : err ≠ .py .TypeError := fun h => hQ (h ▸ hq)
      simp only
      refine ⟨by simp, ?_⟩
      intro err' e' h
      simp at h
      exact h.1 ▸ hq
    | ok vs =>
      obtain ⟨mss, rfl, h1, h2, h3⟩ := key.1 _ _ hm
      simp only
      rw [mk_of_holds (holds_ml _), join_ml, mk_of_holds (holds_flatten h2)]
      refine ⟨?_, by simp [ret]⟩
      intro ys e' h
      simp [ret] at h
      obtain ⟨rfl, rfl⟩ := h
      exact ⟨h1, holds_flatten h2, h3⟩

theorem monadify_true {v : Obj α} (h : Holds (items v)) : monadify v true = items v := by
  cases v with
  | nil => rfl
  | ml xs => rfl
  | iter xs => simp only [monadify, if_true]; exact mk_of_holds h
  | atom a => rfl

theorem monadify_false {v : Obj α} (h : Holds (results v)) : monadify v false = results v := by
  cases v with
  | nil => exact absurd rfl h
  | ml xs => rfl
  | iter xs => rfl
  | atom a => rfl

theorem andThen_good (m ys : List (Obj α)) (hy : Holds ys) :
    andThen (σ := σ) (ε := ε) m (.ml ys) = ret (m.flatMap fun _ => ys) :=
  mbind_ret (fun _ => ys) m (fun _ => hy)

theorem collect_const {g : Obj α → Except (Err ε) (List (Obj α))} {ys} (m : List (Obj α)) (h : ∀ x, g x = .ok ys) :
    collect g m = .ok (m.flatMap fun _ => ys) := by
  induction m with
  | nil => rfl
  | cons x m ih => simp [collect, h, ih]

theorem bind_eq_ok {β γ : Type} {m : Eff σ ε β} {k : β → Eff σ ε γ} {s a s'} (h : m s = (.ok a, s')) :
    Eff.bind m k s = k a s' := by unfold Eff.bind; rw [h]
theorem bind_eq_err {β γ : Type} {m : Eff σ ε β} {k : β → Eff σ ε γ} {s e s'} (h : m s = (.error e, s')) :
    Eff.bind m k s = (.error e, s') := by unfold Eff.bind; rw [h]

theorem code_good (lines : List (Line ε α)) :
    ∀ (first : Bool) (names : List String) (env : String → Option (Obj α)) (e : Env α), lines ≠ [] →
      (first = true → names = []) → Exact names env → e.attrs = env → Good names env e →
      (∀ l ∈ lines, ∀ k, l.name = some k → k ∉ names) → (lines.filterMap Line.name).Nodup →
      ¬ FromLine lines (.py .TypeError) →
      (∀ l ∈ lines, ∀ env v, l.body env = .ok v → Holds (items v) ∧ Holds (results v)) →
      (∀ ys e', code first names lines e = (.ok ys, e') → loops env lines = .ok ys ∧ Holds ys ∧ Good names env e') ∧
      (∀ err e', code first names lines e = (.error err, e') → FromLine lines err) := by
  induction lines with
  | nil => intro _ _ _ _ h; exact absurd rfl h
  | cons l rest ih =>
    intro first names env e _ hfirst hx he hg hdis hnd hte hnil
    cases rest with
    | nil =>
      simp only [code, loops]
      unfold Eff.bind callBody ret
      rw [he]
      cases hb : l.body env with
      | error err =>
        refine ⟨by simp, ?_⟩
        intro err' e' h
        simp at h
        exact ⟨l, by simp, env, by rw [hb, h.1]⟩
      | ok v =>
        have hv := hnil l (by simp) env v hb
        refine ⟨?_, by simp⟩
        intro ys e' h
        simp [monadify_false hv.2] at h
        obtain ⟨rfl, rfl⟩ := h
        exact ⟨rfl, hv.2, hg⟩
    | cons l2 rest =>
      have hlift : ∀ err, FromLine (l2 :: rest) err → FromLine (l :: l2 :: rest) err := by
        rintro err ⟨l', h1, h2⟩; exact ⟨l', by simp [List.mem_cons.mp h1], h2⟩
      have hte' : ¬ FromLine (l2 :: rest) (.py .TypeError) := fun h => hte (hlift _ h)
      have hnil' : ∀ l' ∈ l2 :: rest, ∀ env v, l'.body env = .ok v → Holds (items v) ∧ Holds (results v) :=
        fun l' h => hnil l' (by simp [List.mem_cons.mp h])
      have hcb : callBody l e = (l.body env, e) := by rw [callBody, he]
      simp only [code, loops]
      cases hb : l.body env with
      | error err =>
        rw [hb] at hcb
        simp only [bind_eq_err hcb]
        refine ⟨by simp, ?_⟩
        intro err' e' h
        simp at h
        exact ⟨l, by simp, env, by rw [hb, h.1]⟩
      | ok v =>
        have hv := (hnil l (by simp) env v hb).1
        rw [hb] at hcb
        simp only [bind_eq_ok hcb, monadify_true hv]
        cases hn : l.name with
        | some k =>
          simp only
          have hk : k ∉ names := hdis l (by simp) k hn
          simp only [List.filterMap_cons, hn, List.nodup_cons] at hnd
          refine mbind_good (P := Good names env) (Q := FromLine (l :: l2 :: rest)) hte ?_ _ e hg
          intro x e1 hg1
          rw [bind_eq_ok (closeOver_good hx hg1), bind_eq_ok (show assign k x _ = (.ok (), ⟨k :: names, fun j => if j = k then some x else env j⟩) from rfl)]
          have ih := ih false (k :: names) (fun j => if j = k then some x else env j)
            ⟨k :: names, fun j => if j = k then some x else env j⟩ (by simp) (by simp) (exact_cons hx k x) rfl
            (good_self (exact_cons hx k x))
            (fun l' hl' k' hk' hm => by
              rcases List.mem_cons.mp hm with rfl | hm
              · exact hnd.1 (List.mem_filterMap.mpr ⟨l', hl', hk'⟩)
              · exact hdis l' (by simp [List.mem_cons.mp hl']) k' hk' hm)
            hnd.2 hte' hnil'
          cases hc : code false (k :: names) (l2 :: rest) ⟨k :: names, fun j => if j = k then some x else env j⟩ with
          | mk r e2 =>
            cases r with
            | error err =>
              rw [bind_eq_err hc]
              refine ⟨by simp, ?_⟩
              intro err' e' h
              simp at h
              obtain ⟨rfl, rfl⟩ := h
              exact hlift _ (ih.2 _ _ hc)
            | ok ys =>
              rw [bind_eq_ok hc]
              refine ⟨?_, by simp [ret]⟩
              intro v' e' h
              simp [ret] at h
              obtain ⟨rfl, rfl⟩ := h
              obtain ⟨h1, h2, h3⟩ := ih.1 _ _ hc
              exact ⟨ys, rfl, h1, h2, good_weaken hk h3⟩
        | none =>
          simp only [List.filterMap_cons, hn] at hnd
          have hdis' : ∀ l' ∈ l2 :: rest, ∀ k, l'.name = some k → k ∉ names :=
            fun l' hl' => hdis l' (by simp [List.mem_cons.mp hl'])
          cases first with
          | true =>
            have hn0 := hfirst rfl
            subst hn0
            simp only [if_true]
            refine mbind_good (P := Good [] env) (Q := FromLine (l :: l2 :: rest)) hte ?_ _ e hg
            intro x e1 hg1
            rw [bind_eq_ok (closeOver_good hx hg1)]
            have ih := ih false [] env ⟨[], env⟩ (by simp) (by simp) hx rfl (good_self hx) hdis' hnd hte' hnil'
            cases hc : code false [] (l2 :: rest) ⟨[], env⟩ with
            | mk r e2 =>
              cases r with
              | error err =>
                rw [bind_eq_err hc]
                refine ⟨by simp, ?_⟩
                intro err' e' h
                simp at h
                obtain ⟨rfl, rfl⟩ := h
                exact hlift _ (ih.2 _ _ hc)
              | ok ys =>
                rw [bind_eq_ok hc]
                refine ⟨?_, by simp [ret]⟩
                intro v' e' h
                simp [ret] at h
                obtain ⟨rfl, rfl⟩ := h
                obtain ⟨h1, h2, h3⟩ := ih.1 _ _ hc
                exact ⟨ys, rfl, h1, h2, h3⟩
          | false =>
            simp only [Bool.false_eq_true, if_false]
            have ih := ih false names env e (by simp) (by simp) hx he hg hdis' hnd hte' hnil'
            cases hc : code false names (l2 :: rest) e with
            | mk r e2 =>
              cases r with
              | error err =>
                rw [bind_eq_err hc]
                refine ⟨by simp, ?_⟩
                intro err' e' h
                simp at h
                obtain ⟨rfl, rfl⟩ := h
                exact hlift _ (ih.2 _ _ hc)
              | ok ys =>
                obtain ⟨h1, h2, h3⟩ := ih.1 _ _ hc
                rw [bind_eq_ok hc, andThen_good _ _ h2]
                refine ⟨?_, by simp [ret]⟩
                intro v' e' h
                simp [ret] at h
                obtain ⟨rfl, rfl⟩ := h
                refine ⟨collect_const _ (fun _ => h1), ?_, h3⟩
                rw [List.flatMap_def]
                refine holds_flatten ?_
                intro z hz
                obtain ⟨_, _, rfl⟩ := List.mem_map.mp hz
                exact h2

end Unpy.Amb
