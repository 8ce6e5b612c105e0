import Verif.Spec.LazyMemo
namespace Unpy.LazyMemo
open Unpy.Spec.LazyMemo

variable {V E : Type}

def add (l : List Nat) (i : Nat) : List Nat := if i ∈ l then l else l ++ [i]
def adds (l : List Nat) (is : List Nat) : List Nat := is.foldl add l

theorem adds_append (l a b : List Nat) : adds l (a ++ b) = adds (adds l a) b := by simp [adds]

theorem mem_add (l : List Nat) (i j : Nat) : j ∈ add l i ↔ j ∈ l ∨ j = i := by
  unfold add; split
  · constructor
    · exact Or.inl
    · rintro (h | h)
      · exact h
      · exact h ▸ ‹_›
  · simp

theorem mem_adds (is : List Nat) : ∀ (l : List Nat) (j : Nat), j ∈ adds l is ↔ j ∈ l ∨ j ∈ is := by
  induction is with
  | nil => intro l j; simp [adds]
  | cons i is ih =>
    intro l j
    show j ∈ adds (add l i) is ↔ _
    rw [ih, mem_add, List.mem_cons, or_assoc]

theorem adds_of_mem (is : List Nat) (l : List Nat) (h : ∀ i ∈ is, i ∈ l) : adds l is = l := by
  induction is with
  | nil => rfl
  | cons i is ih =>
    show adds (add l i) is = l
    rw [show add l i = l from if_pos (h i List.mem_cons_self)]
    exact ih fun j hj => h j (List.mem_cons_of_mem _ hj)

theorem adds_eq (is : List Nat) : ∀ l : List Nat, adds l is = l ++ (firsts is).filter (fun i => decide (i ∉ l)) := by
  induction is with
  | nil => intro l; simp [adds, firsts]
  | cons i is ih =>
    intro l
    show adds (add l i) is = _
    rw [ih]
    rw [show firsts (i :: is) = i :: (firsts is).filter (· ≠ i) from rfl]
    unfold add
    by_cases h : i ∈ l
    · simp only [h, if_true, List.filter_cons, not_true_eq_false, decide_false]
      simp only [List.filter_filter, Bool.false_eq_true, if_false]
      congr 1
      apply List.filter_congr
      intro x _
      by_cases hx : x = i
      · subst hx; simp [h]
      · simp [hx]
    · simp only [h, if_false, List.filter_cons, not_false_eq_true, decide_true, if_true, List.append_assoc,
        List.singleton_append, List.filter_filter]
      congr 2
      apply List.filter_congr
      intro x _
      by_cases hx : x = i
      · subst hx; simp
      · simp [hx]

theorem adds_nil (is : List Nat) : adds [] is = firsts is := by
  rw [adds_eq]; simp

theorem force1_eq (thunk : Nat → Except E V) (forced : List Nat) (a : Arg V) :
    force1 thunk forced a = (value thunk a, adds forced (promises a)) := by
  cases a with
  | plain v => rfl
  | promise i =>
    simp only [force1, value, promises, adds, List.foldl, add]
    split <;> rfl

theorem forceAll_eq (thunk : Nat → Except E V) (as : List (Arg V)) : ∀ forced,
    (forceAll thunk forced as).2 = adds forced (before thunk as) ∧
    match firstError thunk as with
    | some e => (forceAll thunk forced as).1 = .error e
    | none => ∃ vs : List V, (forceAll thunk forced as).1 = .ok vs ∧ as.map (value thunk) = vs.map .ok := by
  induction as with
  | nil => intro forced; exact ⟨rfl, [], rfl, rfl⟩
  | cons a as ih =>
    intro forced
    simp only [forceAll, force1_eq, before, firstError]
    cases hv : value thunk a with
    | error e => simp
    | ok v =>
      obtain ⟨h1, h2⟩ := ih (adds forced (promises a))
      simp only
      cases hf : forceAll thunk (adds forced (promises a)) as with
      | mk r forced' =>
        rw [hf] at h1 h2
        simp only at h1 h2
        cases hfail : firstError thunk as with
        | some e =>
          rw [hfail] at h2; simp only at h2; subst h2
          simp [h1, adds_append]
        | none =>
          rw [hfail] at h2; simp only at h2
          obtain ⟨vs, hvs, hm⟩ := h2
          subst hvs
          simp [h1, adds_append, hm, hv]

theorem run_eq (thunk : Nat → Except E V) (f : Fn V E) (args : List (Arg V)) (b : Body V E) : ∀ forced,
    run thunk f.dflt args b forced = (outcome thunk f args b, adds forced (used thunk f args b)) := by
  induction b with
  | done r => intro forced; rfl
  | use k next ih =>
    intro forced
    simp only [run, outcome, used, adds_append, arg, List.getD]
    cases h : args[k]? with
    | none => simp only [Option.getD_none, value, promises, ih]; rfl
    | some a => simp only [force1_eq, Option.getD_some, ih]

/-- A call with the values gives what the call with the arguments gives. -/
theorem outcome_values (thunk : Nat → Except E V) (f : Fn V E) (as bs : List (Arg V))
    (h : as.map (value thunk) = bs.map (value thunk)) (b : Body V E) : outcome thunk f as b = outcome thunk f bs b := by
  have ha : ∀ k, value thunk (arg f as k) = value thunk (arg f bs k) := by
    intro k
    have := congrArg (fun l => l[k]?) h
    simp only [List.getElem?_map] at this
    simp only [arg, List.getD]
    cases h1 : as[k]? <;> cases h2 : bs[k]? <;> simp_all
  induction b with
  | done r => rfl
  | use k next ih => simp only [outcome, ha k, ih]

theorem values_plain (thunk : Nat → Except E V) (vs : List V) :
    (vs.map Arg.plain).map (value thunk) = vs.map .ok := by simp [value, Function.comp_def]

theorem used_plain (thunk : Nat → Except E V) (f : Fn V E) (vs : List V) (b : Body V E) :
    used thunk f (vs.map .plain) b = [] := by
  have ha : ∀ k, promises (arg f (vs.map .plain) k) = [] := by
    intro k
    simp only [arg, List.getD, List.getElem?_map]
    cases vs[k]? <;> rfl
  induction b with
  | done r => rfl
  | use k next ih => simp only [used, ha k, ih, List.append_nil]

theorem forceAll_plain (thunk : Nat → Except E V) (forced : List Nat) (vs : List V) :
    forceAll thunk forced (vs.map .plain) = (.ok vs, forced) := by
  induction vs with
  | nil => rfl
  | cons v vs ih => simp [forceAll, force1, ih]

variable [DecidableEq V]

/-- What holds between calls. -/
structure Inv (thunk : Nat → Except E V) (f : Fn V E) (s : St V E) : Prop where
  memo : ∀ e ∈ s.memo, e.2 = outcome thunk f e.1 f.body ∧ ∀ i ∈ used thunk f e.1 f.body, i ∈ s.forced
  keys : s.evals = (s.memo.map Prod.fst).reverse
  nodup : s.evals.Nodup
  plain : f.isLazy = false → ∀ a ∈ s.evals, ∃ vs : List V, a = vs.map .plain

theorem inv_init (thunk : Nat → Except E V) (f : Fn V E) : Inv thunk f St.init :=
  ⟨by simp [St.init], rfl, List.nodup_nil, by simp [St.init]⟩

/-- A call of the memoized function, with values if the function is not lazy. -/
theorem memoized_step (thunk : Nat → Except E V) (f : Fn V E) (args : List (Arg V))
    (hp : f.isLazy = false → ∃ vs : List V, args = vs.map .plain) (s : St V E) (hi : Inv thunk f s) :
    (memoized thunk f args s).1 = outcome thunk f args f.body ∧
    (memoized thunk f args s).2.forced = adds s.forced (used thunk f args f.body) ∧
    Inv thunk f (memoized thunk f args s).2 := by
  unfold memoized lookup
  cases hl : s.memo.find? (fun e => e.1 == args) with
  | some e =>
    have h1 : e.1 = args := by simpa using List.find?_some hl
    have h2 := hi.memo e (List.mem_of_find?_eq_some hl)
    rw [h1] at h2
    simp only [Option.map_some]
    exact ⟨h2.1, (adds_of_mem _ _ h2.2).symm, hi⟩
  | none =>
    have hn : args ∉ s.evals := by
      rw [hi.keys]
      intro hm
      simp only [List.mem_reverse, List.mem_map] at hm
      obtain ⟨e, he, h⟩ := hm
      have := List.find?_eq_none.1 hl e he
      simp [h] at this
    have key : maybeForceArgs thunk f.isLazy (callFn thunk f) args s =
        (outcome thunk f args f.body, { s with forced := adds s.forced (used thunk f args f.body), evals := s.evals ++ [args] }) := by
      unfold maybeForceArgs
      cases hz : f.isLazy with
      | true => simp [callFn, run_eq]
      | false =>
        obtain ⟨vs, rfl⟩ := hp hz
        simp only [Bool.false_eq_true, if_false, forceAll_plain, callFn, run_eq]
    simp only [Option.map_none, key]
    refine ⟨trivial, trivial, ?_, ?_, ?_, ?_⟩
    · intro e he
      simp only [List.mem_cons] at he
      rcases he with rfl | he
      · exact ⟨rfl, fun i hm => (mem_adds _ _ _).2 (.inr hm)⟩
      · exact ⟨(hi.memo e he).1, fun i hm => (mem_adds _ _ _).2 (.inl ((hi.memo e he).2 i hm))⟩
    · simp [hi.keys]
    · exact List.nodup_append.2 ⟨hi.nodup, by simp, by
        intro a ha b hb
        simp only [List.mem_singleton] at hb
        subst hb; rintro rfl; exact hn ha⟩
    · intro hz a ha
      simp only [List.mem_append, List.mem_singleton] at ha
      rcases ha with ha | rfl
      · exact hi.plain hz a ha
      · exact hp hz

theorem lazyCall_step (thunk : Nat → Except E V) (f : Fn V E) (args : List (Arg V)) (s : St V E) (hi : Inv thunk f s) :
    (lazyCall thunk f args s).1 = result thunk f args ∧
    (lazyCall thunk f args s).2.forced = adds s.forced (needed thunk f args) ∧
    Inv thunk f (lazyCall thunk f args s).2 := by
  unfold lazyCall maybeForceArgs result needed
  cases hz : f.isLazy with
  | true =>
    simp only [if_true]
    exact memoized_step thunk f args (by simp [hz]) s hi
  | false =>
    simp only [Bool.false_eq_true, if_false]
    have h := forceAll_eq thunk args s.forced
    cases hf : forceAll thunk s.forced args with
    | mk r forced =>
      rw [hf] at h
      obtain ⟨h1, h2⟩ := h
      simp only at h1 h2
      have hi' : Inv thunk f { s with forced := forced } :=
        ⟨fun e he => ⟨(hi.memo e he).1, fun i hm => by
          show i ∈ forced
          rw [h1]; exact (mem_adds _ _ _).2 (.inl ((hi.memo e he).2 i hm))⟩, hi.keys, hi.nodup, hi.plain⟩
      cases hfail : firstError thunk args with
      | some e =>
        rw [hfail] at h2; simp only at h2; subst h2
        exact ⟨rfl, h1, hi'⟩
      | none =>
        rw [hfail] at h2; simp only at h2
        obtain ⟨vs, rfl, hm⟩ := h2
        obtain ⟨g1, g2, g3⟩ := memoized_step thunk f (vs.map .plain) (fun _ => ⟨vs, rfl⟩) _ hi'
        refine ⟨?_, ?_, g3⟩
        · simp only
          rw [g1]
          exact outcome_values thunk f _ _ (by rw [values_plain, hm]) _
        · simp only
          rw [g2, used_plain]
          exact h1

theorem calls_eq (thunk : Nat → Except E V) (f : Fn V E) (cs : List (List (Arg V))) : ∀ s : St V E, Inv thunk f s →
    (calls thunk f cs s).1 = cs.map (result thunk f) ∧
    (calls thunk f cs s).2.forced = adds s.forced (cs.flatMap (needed thunk f)) ∧
    Inv thunk f (calls thunk f cs s).2 := by
  induction cs with
  | nil => intro s hi; exact ⟨rfl, rfl, hi⟩
  | cons c cs ih =>
    intro s hi
    obtain ⟨h1, h2, h3⟩ := lazyCall_step thunk f c s hi
    obtain ⟨g1, g2, g3⟩ := ih _ h3
    simp only [calls]
    refine ⟨by simp [h1, g1], ?_, g3⟩
    rw [g2, h2, List.flatMap_cons, adds_append]

end Unpy.LazyMemo
