import Verif.Model.DynView
import Verif.Props.Dyn
/-!
# `dyn` as a mapping (C84)
-/
namespace Unpy.Props
open Unpy Unpy.Dyn Unpy.Spec.Dyn
universe u
variable {V : Type u}

/-- C05: `name in dyn` says whether the name is bound.
(Missing: names of attributes of the class of `dyn`, see `C84_method_names_refuted`.) -/
theorem C05_dyn_contains_partial (cls : String → Option V) (st : St V) (th : Nat) (x : String) (hx : cls x = none) :
    Dyn.contains cls st th x = (readScopes x (deref st 0) (scopesOf st th)).isSome := by
  simp only [Dyn.contains, readAttr, hx, getattr_eq_readScopes]
  cases readScopes x (deref st 0) (scopesOf st th) <;> rfl

example : Dyn.contains demoClass (run (init [("d", 0)]) [.enter 0 [("x", 1)]]) 0 "x" = true ∧
    Dyn.contains demoClass (run (init [("d", 0)]) [.enter 0 [("x", 1)]]) 0 "d" = true ∧
    Dyn.contains demoClass (run (init [("d", 0)]) [.enter 0 [("x", 1)]]) 0 "y" = false := by decide

private theorem get_eq_bound (d : Dict V) (x : String) : d.get x = bound d x := by
  unfold Dict.get
  induction d with
  | nil => rfl
  | cons p d ih =>
    simp only [List.find?_cons, bound]
    by_cases h : p.1 = x
    · simp [h]
    · simp [h, ih]

private theorem chainGet_eq (st : St V) (rs : List Nat) (x : String) :
    chainGet ((rs ++ [0]).map (deref st)) x = readScopes x (deref st 0) (rs.map (deref st)) := by
  induction rs with
  | nil => simp only [List.nil_append, List.map_cons, List.map_nil, chainGet, readScopes, get_eq_bound]; split <;> simp [*]
  | cons r rs ih => simp only [List.cons_append, List.map_cons, chainGet, readScopes, get_eq_bound, ih]; cases bound (deref st r) x <;> rfl

private theorem dedup_spec (l acc : List String) (h : acc.Nodup) :
    (l.foldl (fun ks k => if k ∈ ks then ks else ks ++ [k]) acc).Nodup ∧
    ∀ x, x ∈ l.foldl (fun ks k => if k ∈ ks then ks else ks ++ [k]) acc ↔ x ∈ acc ∨ x ∈ l := by
  induction l generalizing acc with
  | nil => simp [h]
  | cons a l ih =>
    simp only [List.foldl_cons]
    split
    · rename_i ha
      refine ⟨(ih acc h).1, fun x => ?_⟩
      rw [(ih acc h).2]
      simp only [List.mem_cons]
      constructor
      · rintro (h | h) <;> simp [h]
      · rintro (h | rfl | h)
        · exact .inl h
        · exact .inl ha
        · exact .inr h
    · rename_i ha
      have hn : (acc ++ [a]).Nodup := by
        rw [List.nodup_append]
        exact ⟨h, by simp, fun x hx y hy => by simp at hy; rintro rfl; exact ha (hy ▸ hx)⟩
      refine ⟨(ih _ hn).1, fun x => ?_⟩
      rw [(ih _ hn).2]
      simp [or_assoc]

private theorem mem_chainKeys (ds : List (Dict V)) (x : String) : x ∈ chainKeys ds ↔ (chainGet ds x).isSome := by
  rw [chainKeys, (dedup_spec _ [] (by simp)).2]
  simp only [List.not_mem_nil, false_or, List.mem_flatMap, List.mem_reverse, List.mem_map]
  have hb : ∀ d : Dict V, (∃ p ∈ d, p.1 = x) ↔ (bound d x).isSome := by
    intro d
    induction d with
    | nil => simp [bound]
    | cons p d ih =>
      simp only [List.mem_cons, bound]
      split
      · rename_i h; simp; exact .inl h
      · rename_i h
        rw [← ih]
        constructor
        · rintro ⟨q, (rfl | hq), hx⟩
          · exact absurd hx h
          · exact ⟨q, hq, hx⟩
        · rintro ⟨q, hq, hx⟩; exact ⟨q, .inr hq, hx⟩
  induction ds with
  | nil => simp [chainGet]
  | cons d ds ih =>
    simp only [chainGet, get_eq_bound]
    cases hd : bound d x with
    | some v =>
      simp only [Option.isSome_some, iff_true]
      obtain ⟨p, hp, hx⟩ := (hb d).mpr (by simp [hd])
      exact ⟨d, by simp, p, hp, hx⟩
    | none =>
      simp only
      refine Iff.trans ?_ ih
      constructor
      · rintro ⟨d', hd', p, hp, hx⟩
        rcases List.mem_cons.mp hd' with rfl | hd'
        · have := (hb d').mp ⟨p, hp, hx⟩; simp [hd] at this
        · exact ⟨d', hd', p, hp, hx⟩
      · rintro ⟨d', hd', h⟩; exact ⟨d', by simp [hd'], h⟩

/-- C84: iterating over `dyn` gives each name that is bound, once; `len` counts them. -/
theorem C84_dyn_keys (st : St V) (th : Nat) :
    (dynKeys st th).Nodup ∧ (∀ x, x ∈ dynKeys st th ↔ (readScopes x (deref st 0) (scopesOf st th)).isSome) ∧
    dynLen st th = (dynKeys st th).length := by
  refine ⟨(dedup_spec _ [] (by simp)).1, fun x => ?_, rfl⟩
  rw [dynKeys, mem_chainKeys, freshMaps, chainGet_eq, scopesOf]

example : dynKeys (run (init [("d", 0)]) [.enter 0 [("x", 1), ("y", 2)], .enter 0 [("z", 3), ("x", 4)]]) 0 =
    ["d", "x", "y", "z"] := by decide

/-- C84: `dyn.items()` succeeds, and pairs these names, in that order, with the values they are bound to. -/
theorem C84_dyn_items (st : St V) (th : Nat) :
    ∃ its, dynItems st th = .ok its ∧ its.map Prod.fst = dynKeys st th ∧
      ∀ p ∈ its, readScopes p.1 (deref st 0) (scopesOf st th) = some p.2 := by
  have key : ∀ ks : List String, (∀ k ∈ ks, k ∈ dynKeys st th) →
      ∃ its, ks.mapM (fun k => match chainGet ((freshMaps st th).map (deref st)) k with
        | some v => (.ok (k, v) : Res (String × V))
        | none => .error .KeyError) = .ok its ∧ its.map Prod.fst = ks ∧
        ∀ p ∈ its, readScopes p.1 (deref st 0) (scopesOf st th) = some p.2 := by
    intro ks
    induction ks with
    | nil => intro _; exact ⟨[], rfl, rfl, by simp⟩
    | cons k ks ih =>
      intro h
      obtain ⟨its, h1, h2, h3⟩ := ih (fun x hx => h x (by simp [hx]))
      have hk := h k (by simp)
      rw [dynKeys, mem_chainKeys] at hk
      obtain ⟨v, hv⟩ := Option.isSome_iff_exists.mp hk
      refine ⟨(k, v) :: its, ?_, by simp [h2], ?_⟩
      · rw [List.mapM_cons, hv, h1]; rfl
      · intro p hp
        rcases List.mem_cons.mp hp with rfl | hp
        · rw [scopesOf, ← chainGet_eq]
          rw [freshMaps] at hv
          exact hv
        · exact h3 p hp
  exact key _ (fun _ h => h)

example : dynItems (run (init [("d", 0)]) [.enter 0 [("x", 1), ("y", 2)], .enter 0 [("z", 3), ("x", 4)]]) 0 =
    .ok [("d", 0), ("x", 4), ("y", 2), ("z", 3)] := rfl

/-- C84: `dyn.get(name, default)` is the value read by attribute, or the default if that fails.
(Missing: names of attributes of the class of `dyn`, see `C84_method_names_refuted`.) -/
theorem C84_dyn_get_partial (cls : String → Option V) (st : St V) (th : Nat) (x : String) (d : V) (hx : cls x = none) :
    dynGet cls st th x d = .ok ((readScopes x (deref st 0) (scopesOf st th)).getD d) := by
  rw [dynGet, C05_dyn_contains_partial cls st th x hx, readAttr, hx]
  simp only [getattr_eq_readScopes]
  cases readScopes x (deref st 0) (scopesOf st th) <;> rfl

example : dynGet demoClass (run (init [("d", 0)]) [.enter 0 [("x", 1)]]) 0 "x" 9 = .ok 1 ∧
    dynGet demoClass (run (init [("d", 0)]) [.enter 0 [("x", 1)]]) 0 "q" 9 = .ok 9 := ⟨rfl, rfl⟩

/-- C84 is violated for names of attributes of the class of `dyn`: `x in dyn` although iteration does not give it
(nor does a live view have it), and where it is bound, the mapping gives the value but `get` gives the method. -/
theorem C84_method_names_refuted :
    Dyn.contains demoClass (init []) 0 "items" = true ∧ dynKeys (init ([] : List (String × Nat))) 0 = [] ∧
    dynGet demoClass (init []) 0 "items" 7 = .ok 1000 ∧
    dynItems (init [("items", 5)]) 0 = .ok [("items", 5)] ∧
    dynGet demoClass (init [("items", 5)]) 0 "items" 7 = .ok 1000 := ⟨rfl, rfl, rfl, rfl, rfl⟩

/-- C84: in every interleaving of the threads, each live view shows, at all times, what its thread would read.
(Missing: names of attributes of the class of `dyn`, see `C84_method_names_refuted`.) -/
theorem C84_dyn_live_view_partial (cls : String → Option V) (defaults : List (String × V)) (evs : List (VEvent V)) (th : Nat) (maps : List Nat) (x : String)
    (hx : cls x = none) (h : (th, maps) ∈ (vrun ⟨init defaults, []⟩ evs).views) :
    (match viewGet (vrun ⟨init defaults, []⟩ evs) maps x with
      | some v => .ok v
      | none => .error .AttributeError) = readAttr cls (vrun ⟨init defaults, []⟩ evs).st th x := by
  rw [readAttr, hx]
  have inv : ∀ (evs : List (VEvent V)) (s : VSt V),
      (∀ v ∈ s.views, v.2 = freshMaps s.st v.1 ∧ (s.st.stacks v.1).isSome) →
      ∀ v ∈ (vrun s evs).views, v.2 = freshMaps (vrun s evs).st v.1 ∧ ((vrun s evs).st.stacks v.1).isSome := by
    intro evs
    induction evs with
    | nil => intro s h; exact h
    | cons e evs ih =>
      intro s hs
      refine ih _ ?_
      have fr : ∀ (a b : St V) (t : Nat), b.stacks t = a.stacks t → (a.stacks t).isSome → freshMaps b t = freshMaps a t := by
        intro a b t hab ha
        obtain ⟨z, hz⟩ := Option.isSome_iff_exists.mp ha
        simp only [freshMaps, getstack, hab, hz]
      have tch : ∀ (st : St V) (t t' : Nat), (st.stacks t').isSome → (touch st t).stacks t' = st.stacks t' := by
        intro st t t' h
        obtain ⟨z, hz⟩ := Option.isSome_iff_exists.mp h
        simp only [touch]
        split
        · rename_i he; subst he; simp [getstack, hz]
        · rfl
      have keep : ∀ (st' : St V), (∀ v ∈ s.views, st'.stacks v.1 = s.st.stacks v.1) →
          ∀ v ∈ s.views, v.2 = freshMaps st' v.1 ∧ (st'.stacks v.1).isSome := by
        intro st' h v hv
        have h1 := hs v hv
        rw [h v hv]
        exact ⟨h1.1.trans (fr _ _ _ (h v hv) h1.2).symm, h1.2⟩
      have refr : ∀ (st' : St V) (t : Nat), (st'.stacks t).isSome → (∀ v ∈ s.views, v.1 ≠ t → st'.stacks v.1 = s.st.stacks v.1) →
          ∀ v ∈ refresh st' t s.views, v.2 = freshMaps st' v.1 ∧ (st'.stacks v.1).isSome := by
        intro st' t ht h v hv
        obtain ⟨v0, hv0, rfl⟩ := List.mem_map.mp hv
        split
        · exact ⟨rfl, ht⟩
        · rename_i hne
          have h1 := hs v0 hv0
          rw [h v0 hv0 hne]
          exact ⟨h1.1.trans (fr _ _ _ (h v0 hv0 hne) h1.2).symm, h1.2⟩
      match e with
      | .asdict t =>
        intro v hv
        simp only [vstep, List.mem_append, List.mem_singleton] at hv ⊢
        rcases hv with hv | rfl
        · exact keep (touch s.st t) (fun v hv => tch _ _ _ (hs v hv).2) v hv
        · exact ⟨rfl, by simp [touch]⟩
      | .op (.spawn t) => exact hs
      | .op (.read t y) => exact keep (touch s.st t) (fun v hv => tch _ _ _ (hs v hv).2)
      | .op (.assign t y w) =>
        simp only [vstep, Dyn.step]
        split
        · rename_i st' hst
          refine keep st' (fun v hv => ?_)
          rw [← tch s.st t v.1 (hs v hv).2]
          unfold setattr at hst
          split at hst
          · cases hst
          · cases hst; rfl
        · exact keep (touch s.st t) (fun v hv => tch _ _ _ (hs v hv).2)
      | .op (.enter t bs) =>
        simp only [vstep, Dyn.step]
        split
        · exact hs
        · rename_i hb
          refine refr _ t ?_ (fun v hv hne => ?_)
          · simp [enter, hb]
          · simp only [enter, hb, Bool.false_eq_true, if_false, hne]
            exact tch _ _ _ (hs v hv).2
      | .op (.exit t bs) =>
        simp only [vstep, Dyn.step]
        split
        · exact hs
        · rename_i hb
          refine refr _ t ?_ (fun v hv hne => ?_)
          · simp [Dyn.exit, hb]
          · simp only [Dyn.exit, hb, Bool.false_eq_true, if_false, hne]
            exact tch _ _ _ (hs v hv).2
  have h1 := (inv evs ⟨init defaults, []⟩ (by simp) _ h).1
  simp only at h1
  rw [h1, viewGet, freshMaps, chainGet_eq, getattr_eq_readScopes, scopesOf]
  cases readScopes x _ ((getstack (vrun ⟨init defaults, []⟩ evs).st th).map _) <;> rfl

example : let s := vrun ⟨init [("d", 0)], []⟩ [.op (.enter 0 [("x", 1)]), .asdict 0, .asdict 1, .op (.enter 0 [("x", 2)]),
      .op (.enter 1 [("d", 5)])]
    s.views = [(0, [2, 1, 0]), (1, [3, 1, 0])] ∧ viewGet s [2, 1, 0] "x" = some 2 ∧ viewGet s [3, 1, 0] "x" = some 1 ∧
    viewGet s [3, 1, 0] "d" = some 5 := by decide

end Unpy.Props
