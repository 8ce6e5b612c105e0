import Verif.Proof.Deco
/-!
# C93: order of decorators
-/
namespace Unpy.Props
open Unpy.Deco Unpy.Deco.Spec
variable {φ κ : Type}

/-- C93.  However decorators are registered, the registry is in order of priority and holds exactly what was registered. -/
theorem C93_registry {r : Registry} {es : List (Int × String)} (h : Made r es) :
    Ascending (r.map Prod.fst) ∧ r.Perm es ∧ ∀ n, isRegistered r n = true ↔ n ∈ es.map Prod.snd := by
  refine ⟨?_, Pf.made_perm h, fun n => ?_⟩
  · exact List.pairwise_map.2 (Pf.made_sorted h)
  · rw [Pf.isRegistered_eq h]
    constructor
    · intro hs
      obtain ⟨p, hp⟩ := Option.isSome_iff_exists.1 hs
      exact List.mem_map.2 ⟨_, (Pf.priority_iff (Pf.made_nodup h)).1 hp, rfl⟩
    · intro hm
      obtain ⟨⟨p, m⟩, hpm, rfl⟩ := List.mem_map.1 hm
      rw [(Pf.priority_iff (Pf.made_nodup h)).2 hpm]
      rfl

private theorem all_known {r : Registry} {es} (h : Made r es) {ds : List (Deco φ κ)}
    (hk : ∀ d ∈ ds, (priority es d.name).isSome = true) : ds.all (fun d => isRegistered r d.name) = true :=
  List.all_eq_true.2 fun d hd => by rw [Pf.isRegistered_eq h]; exact hk d hd

private theorem sort_known {r : Registry} {es} (h : Made r es) {ds : List (Deco φ κ)}
    (hk : ∀ d ∈ ds, (priority es d.name).isSome = true) : sortDecorators r ds = sortKnown r ds := by
  cases ds with
  | nil => rfl
  | cons d ds => rw [sortDecorators, if_pos (all_known h hk)]

/-- C93.  Sorting the decorators of a lambda, all of them registered: the same decorators are applied, in order of priority. -/
theorem C93_sorted {r : Registry} {es : List (Int × String)} (h : Made r es) (ds : List (Deco φ κ))
    (hk : ∀ d ∈ ds, (priority es d.name).isSome = true) :
    ((sortDecorators r ds).map (fun d => (d.name, d.func))).Perm (ds.map (fun d => (d.name, d.func))) ∧
    Ascending ((sortDecorators r ds).filterMap (fun d => priority es d.name)) := by
  rw [sort_known h hk]
  have hp : (Pf.ordered r ds).Perm ds := Pf.sortBy_perm _ ds
  refine ⟨?_, ?_⟩
  · rw [(Pf.sortKnown_parts r ds).1]
    exact hp.map _
  · have h₁ : (sortKnown r ds).filterMap (fun d => priority es d.name) =
        (Pf.ordered r ds).filterMap (fun d => priority es d.name) := by
      have := congrArg (fun l => l.filterMap (fun x : String × φ => priority es x.1)) (Pf.sortKnown_parts r ds).1
      simpa only [List.filterMap_map, Function.comp_def] using this
    rw [h₁, Ascending, List.pairwise_filterMap]
    refine (Pf.ordered_sorted r ds).imp fun {a b} hle p hp q hq => Pf.prioritize_le h hp hq hle

/-- C93.  Decorators that are in order are left as they are.  Partial: no two of the same priority; those are put in alphabetic
order (`C93_same_priority_refuted`). -/
theorem C93_in_order_partial {r : Registry} {es : List (Int × String)} (h : Made r es) (ds : List (Deco φ κ))
    (hk : ∀ d ∈ ds, (priority es d.name).isSome = true)
    (ho : (ds.filterMap (fun d => priority es d.name)).Pairwise (· < ·)) :
    sortDecorators r ds = ds := by
  rw [sort_known h hk]
  apply Pf.sortKnown_fixed
  refine (List.pairwise_filterMap.1 ho).imp_of_mem fun {a b} ha hb hlt => ?_
  obtain ⟨p, hp⟩ := Option.isSome_iff_exists.1 (hk a ha)
  obtain ⟨q, hq⟩ := Option.isSome_iff_exists.1 (hk b hb)
  exact Pf.prioritize_of_lt h hp hq (hlt p hp q hq)

/-- C93.  A decorator that is not registered stays where it is, and so does everything outside of it. -/
theorem C93_unknown {r : Registry} {es : List (Int × String)} (h : Made r es) (outer inner : List (Deco φ κ)) (d : Deco φ κ)
    (hd : priority es d.name = none) :
    sortDecorators r (outer ++ d :: inner) = outer ++ d :: sortDecorators r inner := by
  have hu : isRegistered r d.name = false := by rw [Pf.isRegistered_eq h, hd]; rfl
  induction outer with
  | nil =>
    rw [List.nil_append, sortDecorators, if_neg (by simp [hu])]
    rfl
  | cons x outer ih =>
    rw [List.cons_append, sortDecorators, if_neg (by simp [hu]), ih]
    rfl

/-- C93.  Sorting twice does no more than sorting once. -/
theorem C93_twice {r : Registry} (ds : List (Deco φ κ)) :
    sortDecorators r (sortDecorators r ds) = sortDecorators r ds := by
  induction ds with
  | nil => rfl
  | cons d ds ih =>
    by_cases hk : (d :: ds).all (fun d => isRegistered r d.name) = true
    · rw [sortDecorators, if_pos hk]
      have hparts := (Pf.sortKnown_parts r (d :: ds)).1
      have hperm : (Pf.ordered r (d :: ds)).Perm (d :: ds) := Pf.sortBy_perm _ _
      have hk' : (sortKnown r (d :: ds)).all (fun d => isRegistered r d.name) = true := by
        have h₁ : ((sortKnown r (d :: ds)).map (fun d => (d.name, d.func))).all (fun x => isRegistered r x.1) =
            ((Pf.ordered r (d :: ds)).map (fun d => (d.name, d.func))).all (fun x => isRegistered r x.1) := by rw [hparts]
        simp only [List.all_map] at h₁
        have h₂ : (Pf.ordered r (d :: ds)).all (fun d => isRegistered r d.name) = true := by
          rw [List.all_eq_true] at hk ⊢
          exact fun x hx => hk x (hperm.mem_iff.1 hx)
        exact h₁.trans h₂
      have hfix : sortKnown r (sortKnown r (d :: ds)) = sortKnown r (d :: ds) := by
        apply Pf.sortKnown_fixed
        have h₁ := Pf.ordered_sorted r (d :: ds)
        have h₂ : ((Pf.ordered r (d :: ds)).map (fun d => (d.name, d.func))).Pairwise
            (fun a b => r.findIdx (fun e => e.2 == a.1) ≤ r.findIdx (fun e => e.2 == b.1)) := List.pairwise_map.2 h₁
        rw [← hparts] at h₂
        have h₃ := List.pairwise_map.1 h₂
        exact h₃
      cases hs : sortKnown r (d :: ds) with
      | nil => rfl
      | cons x xs =>
        rw [hs] at hk' hfix
        rw [sortDecorators, if_pos hk', hfix]
    · rw [sortDecorators, if_neg hk]
      have hk' : ¬ (d :: sortDecorators r ds).all (fun d => isRegistered r d.name) = true := by
        intro hc
        apply hk
        have hn : ∀ (ds : List (Deco φ κ)), (sortDecorators r ds).all (fun d => isRegistered r d.name) = true →
            ds.all (fun d => isRegistered r d.name) = true := by
          intro ds
          induction ds with
          | nil => exact fun h => h
          | cons y ds ih =>
            intro hy
            by_cases h : (y :: ds).all (fun d => isRegistered r d.name) = true
            · exact h
            · rw [sortDecorators, if_neg h] at hy
              rw [List.all_cons, Bool.and_eq_true] at hy ⊢
              exact ⟨hy.1, ih hy.2⟩
        rw [List.all_cons, Bool.and_eq_true] at hc ⊢
        exact ⟨hc.1, hn ds hc.2⟩
      rw [sortDecorators, if_neg hk', ih]

/-- C93.  The index suggested for a decorator in the list of decorators of a function: if the known ones among them are in order,
then inserting it there keeps them in order.  Partial: when they are not in order, an index is suggested all the same
(`C93_not_in_order_refuted`). -/
theorem C93_suggest_partial {r : Registry} {es : List (Int × String)} (h : Made r es) (deco : String)
    (names : List (Option String)) (k : Nat) (hs : suggestIndex r deco names = some k) (ho : Ascending (known es names)) :
    k ≤ names.length ∧ Ascending (known es (names.take k ++ some deco :: names.drop k)) := by
  have hfun : priByName r = priority es := funext fun n => Pf.priByName_eq h n
  simp only [suggestIndex, hfun, Pf.isRegistered_eq h, Pf.knownpris_eq, Pf.isascending_true, if_true] at hs
  split at hs
  · split at hs
    · rename_i first rest last target hkp hlast ht
      rw [hkp] at hlast hs
      have hcons : known es [some deco] = [target] := by simp [known, ht]
      have hko := ho
      rw [hkp] at hko
      unfold Ascending at hko
      have hlast' : ∀ p ∈ known es names, p ≤ last := by
        intro p hp
        rw [hkp] at hp
        rw [List.getLast?_eq_some_iff] at hlast
        obtain ⟨ys, hys⟩ := hlast
        rw [hys] at hp hko
        rw [List.pairwise_append] at hko
        rcases List.mem_append.1 hp with hp | hp
        · exact hko.2.2 p hp last (by simp)
        · simp at hp; omega
      split at hs
      · rename_i hlt
        cases hs
        refine ⟨Nat.zero_le _, ?_⟩
        simp only [List.take_zero, List.drop_zero, List.nil_append]
        rw [show some deco :: names = [some deco] ++ names from rfl, Pf.known_append, hcons, hkp]
        refine List.pairwise_cons.2 ⟨fun p hp => ?_, hko⟩
        rcases List.mem_cons.1 hp with rfl | hp
        · omega
        · have := (List.pairwise_cons.1 hko).1 p hp; omega
      · split at hs
        · rename_i hgt
          cases hs
          refine ⟨Nat.le_refl _, ?_⟩
          rw [List.take_length, List.drop_length, Pf.known_append, hcons, hkp]
          refine List.pairwise_append.2 ⟨hko, by simp, fun p hp q hq => ?_⟩
          simp only [List.mem_singleton] at hq
          have := hlast' p (hkp ▸ hp)
          omega
        · rename_i hge hle
          have hex : ∃ p ∈ known es names, target ≤ p := by
            refine ⟨last, ?_, by omega⟩
            rw [hkp]
            exact List.mem_of_getLast? hlast
          obtain ⟨a, n, b, q, rfl, h₁, h₂, h₃, h₄, h₅⟩ := Pf.find_split es target names hex
          rw [hkp] at h₄
          rw [h₄] at hs
          cases hs
          have hidx : (a ++ some n :: b).findIdx (fun m => m == some n) = a.length := by
            rw [List.findIdx_append]
            have : a.findIdx (fun m => m == some n) = a.length :=
              List.findIdx_eq_length_of_false fun x hx => by
                rw [beq_eq_false_iff_ne]; rintro rfl; exact h₅ hx
            rw [this, List.findIdx_cons]; simp
          rw [hidx]
          refine ⟨by simp, ?_⟩
          have ht' : (a ++ some n :: b).take a.length = a := by simp
          have hd' : (a ++ some n :: b).drop a.length = some n :: b := by simp
          rw [ht', hd', show some deco :: some n :: b = [some deco] ++ (some n :: b) from rfl, Pf.known_append, Pf.known_append,
            hcons]
          unfold Ascending at ho
          rw [Pf.known_append] at ho
          rw [List.pairwise_append] at ho
          refine List.pairwise_append.2 ⟨ho.1, List.pairwise_cons.2 ⟨fun p hp => ?_, ho.2.1⟩, fun p hp p' hp' => ?_⟩
          · have hc : known es (some n :: b) = q :: known es b := by simp [known, h₁]
            rw [hc] at hp
            have ho2 := ho.2.1
            rw [hc] at ho2
            rcases List.mem_cons.1 hp with rfl | hp
            · exact h₂
            · have := (List.pairwise_cons.1 ho2).1 p hp
              omega
          · rcases List.mem_cons.1 hp' with rfl | hp'
            · exact Int.le_of_lt (h₃ p hp)
            · exact ho.2.2 p hp p' hp'
    · cases hs
  · cases hs

/-- C93.  An index is suggested if the decorator is registered and at least one of those in the list is; otherwise not. -/
theorem C93_suggest_when {r : Registry} {es : List (Int × String)} (h : Made r es) (deco : String)
    (names : List (Option String)) :
    (suggestIndex r deco names).isSome = true ↔ (priority es deco).isSome = true ∧ known es names ≠ [] := by
  have hfun : priByName r = priority es := funext fun n => Pf.priByName_eq h n
  simp only [suggestIndex, hfun, Pf.isRegistered_eq h, Pf.knownpris_eq, Pf.isascending_true, if_true]
  rcases ht : priority es deco with _ | t
  · simp
  · rcases hk : known es names with _ | ⟨first, rest⟩
    · simp
    · have hlast : ∃ last, (first :: rest).getLast? = some last := by
        rcases hl : (first :: rest).getLast? with _ | l
        · simp at hl
        · exact ⟨l, rfl⟩
      obtain ⟨last, hl⟩ := hlast
      simp only [Option.isSome_some, if_true, hl, ne_eq, reduceCtorEq, not_false_eq_true, and_self, iff_true]
      split
      · rfl
      · split
        · rfl
        · have hex : ∃ p ∈ known es names, t ≤ p := by
            refine ⟨last, ?_, by omega⟩
            rw [hk]
            exact List.mem_of_getLast? hl
          obtain ⟨a, n, b, q, rfl, h₁, h₂, h₃, h₄, h₅⟩ := Pf.find_split es t names hex
          rw [hk] at h₄
          rw [h₄]
          rfl

/-! ## Examples, with some of the library's decorators -/

def decoEntries : List (Int × String) := [(80, "withself"), (80, "call_ec"), (40, "trampolined"), (10, "memoize"), (8, "curry")]

def decoRegistry : Registry :=
  register (register (register (register (register [] 80 "withself") 80 "call_ec") 40 "trampolined") 10 "memoize") 8 "curry"

private theorem deco_made : Made decoRegistry decoEntries :=
  .reg (.reg (.reg (.reg (.reg (es := []) .nil (by simp)) (by decide)) (by decide)) (by decide)) (by decide)

example : decoRegistry = [(8, "curry"), (10, "memoize"), (40, "trampolined"), (80, "call_ec"), (80, "withself")] := by decide +kernel

def decoChain (names : List String) : List (Deco String Unit) := names.map fun n => ⟨n, n, ()⟩

/-- `memoize(trampolined(curry(lambda ...)))` -/
example : (sortDecorators decoRegistry (decoChain ["memoize", "trampolined", "curry"])).map Deco.func =
    ["curry", "memoize", "trampolined"] := by decide +kernel
example : ∀ d ∈ decoChain ["memoize", "trampolined", "curry"], (priority decoEntries d.name).isSome = true := by decide
example : sortDecorators decoRegistry (decoChain ["curry", "memoize", "call_ec"]) = decoChain ["curry", "memoize", "call_ec"] :=
  C93_in_order_partial deco_made _ (by decide) (by decide)
/-- `memoize(artdeco(call_ec(curry(lambda ...))))` -/
example : (sortDecorators decoRegistry (decoChain ["memoize", "artdeco", "call_ec", "curry"])).map Deco.func =
    ["memoize", "artdeco", "curry", "call_ec"] := by decide +kernel
example : suggestIndex decoRegistry "trampolined" [some "curry", none, some "memoize", some "artdeco", some "withself"] = some 4 := by
  decide +kernel
example : Ascending (known decoEntries [some "curry", none, some "memoize", some "artdeco", some "withself"]) := by
  unfold Ascending; decide
example : suggestIndex decoRegistry "trampolined" [some "artdeco"] = none := by decide +kernel

/-- C93.  Decorators of the same priority are not left in the order that they are in: `withself(call_ec(lambda ...))` becomes
`call_ec(withself(lambda ...))`. -/
theorem C93_same_priority_refuted : Made decoRegistry decoEntries ∧
    Ascending ((decoChain ["withself", "call_ec"]).filterMap (fun d => priority decoEntries d.name)) ∧
    (sortDecorators decoRegistry (decoChain ["withself", "call_ec"])).map Deco.func = ["call_ec", "withself"] :=
  ⟨deco_made, by unfold Ascending; decide, by decide +kernel⟩

/-- C93.  Named arguments do not follow their function when the decorators are put in order:
`trampolined(curry(lambda x, y: ..., x=1))` becomes `curry(trampolined(lambda x, y: ..., x=1))`. -/
theorem C93_named_arguments_refuted : sortDecorators decoRegistry
      [(⟨"trampolined", "trampolined", []⟩ : Deco String (List String)), ⟨"curry", "curry", ["x=1"]⟩] =
    [⟨"curry", "curry", []⟩, ⟨"trampolined", "trampolined", ["x=1"]⟩] := by rfl

/-- C93.  The docstring of `sort_lambda_decorators` says that `call_ec(curry(trampolined(lambda ...)))` becomes
`trampolined(call_ec(curry(lambda ...)))`; with the priorities of the library it becomes `curry(trampolined(call_ec(lambda ...)))`. -/
theorem C93_documented_order_refuted :
    (sortDecorators decoRegistry (decoChain ["call_ec", "curry", "trampolined"])).map Deco.func =
      ["curry", "trampolined", "call_ec"] := by decide +kernel

/-- C93.  The check that the existing decorators are in order never fails (it looks at the running maximum, which always is), so
that an index is suggested for `trampolined` in the list `memoize`, `curry`, `call_ec`; where there is no correct one. -/
theorem C93_not_in_order_refuted : suggestIndex decoRegistry "trampolined" [some "memoize", some "curry", some "call_ec"] =
      some 2 ∧ ¬ Ascending (known decoEntries [some "memoize", some "curry", some "call_ec"]) ∧
    ∀ l, isascending l = true :=
  ⟨by decide +kernel, by unfold Ascending; decide, Pf.isascending_true⟩

end Unpy.Props
