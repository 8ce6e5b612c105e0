import Verif.Proof.Dyn
/-!
# C05, C06, C07: dynamic assignment
-/
namespace Unpy.Props
open Unpy.Dyn Unpy.Spec.Dyn
universe u
variable {V : Type u}

/-! ## C05 -/

/-- C05: every program of nested `with dyn.let` blocks, reads, assignments, mass updates, exceptions and
try/except, of any depth, run with any defaults, reads the same values and raises in the same cases as
under the textbook semantics of dynamic scoping.
(Missing: names of attributes of the class of `dyn`, and `self`, see `C05_method_names_refuted`.) -/
theorem C05_dyn_is_dynamic_scoping_partial (cls : String → Option V) (defaults : List (String × V)) (p : Prog V)
    (h : Ordinary (fun x => cls x ≠ none) p) :
    (exec cls 0 p (init defaults)).1 = (eval p (start defaults).1 (start defaults).2).1 ∧
    (exec cls 0 p (init defaults)).2.1 = (eval p (start defaults).1 (start defaults).2).2.1 := by
  rw [exec_ordinary cls 0 p h]
  obtain ⟨f', h1, h2, _⟩ := exec_spec 0 p (init defaults) _ _ id (init_rel defaults)
  exact ⟨h1, h2⟩

/-- C05, reading: in any state, `dyn.x` is the value in the innermost live block of this thread that binds
`x`, else the default, else AttributeError.
(Missing: names of attributes of the class of `dyn`, see `C05_method_names_refuted`.) -/
theorem C05_dyn_reads_innermost_partial (cls : String → Option V) (st : St V) (th : Nat) (x : String)
    (hx : cls x = none) :
    readAttr cls st th x = match readScopes x (deref st 0) (scopesOf st th) with
      | some v => .ok v
      | none => .error .AttributeError := by
  rw [readAttr, hx]; exact getattr_eq_readScopes st th x

/-- C05 is violated for names of attributes of the class of `dyn`, such as `items`: inside `with dyn.let(items=v)`,
reading `dyn.items` gives the method, and reading it does not raise where it is not bound.  Moreover, no name can be
bound by `dyn.let` if one of them is called `self`. -/
theorem C05_method_names_refuted (cls : String → Option V) (x : String) (m v : V) (hx : cls x = some m) (st : St V)
    (th : Nat) (bs : List (String × V)) (body rest : Prog V) :
    readAttr cls (enter st th [(x, v)]) th x = .ok m ∧
    bound [(x, v)] x = some v ∧
    readAttr cls st th x = .ok m ∧
    exec cls th (.block (("self", v) :: bs) body rest) st = ([], true, st) := by
  refine ⟨by rw [readAttr, hx], by simp [bound], by rw [readAttr, hx], ?_⟩
  simp [exec, letCall, Dict.has, Dict.get]

/-- C05, restoring: after any program (for instance a whole `with` block) has finished, normally or with
an exception, every name reads as before, except possibly the names which the program assigns while
they are not bound by one of its own blocks. -/
theorem C05_dyn_restores (cls : String → Option V) (st : St V) (th : Nat) (hwf : WF th st) (p : Prog V) (x : String)
    (h : ¬ AssignsOutside x p) : readAttr cls (exec cls th p st).2.2 th x = readAttr cls st th x := by
  have h : ¬ AssignsOutside x (expand cls p) := fun hh => h (assignsOutside_expand cls x p hh)
  rw [exec_expand]
  generalize expand cls p = p at h
  unfold readAttr
  cases cls x with
  | some m => rfl
  | none =>
  simp only
  have hrel := rel_of_wf hwf
  obtain ⟨f', h1, h2, h3, h4, h5, h6⟩ := exec_spec th p st _ _ id hrel
  rw [h3.getattr x, hrel.getattr x]
  rw [h4.resolve hwf]
  cases hr : resolve st th x with
  | error e => rfl
  | ok r =>
    have hlt := (resolve_ok hwf hr).1
    simp only [Option.bind_some]
    rw [(eval_val_kept x p _ _ r hlt h).1]

/-- C05, restoring: the set of live scopes after the program is the set before it. -/
theorem C05_dyn_stack_balanced (cls : String → Option V) (st : St V) (th : Nat) (hwf : WF th st) (p : Prog V) :
    getstack (exec cls th p st).2.2 th = getstack st th := by
  rw [exec_expand]
  generalize expand cls p = p
  obtain ⟨f', h1, h2, h3, h4, h5, h6⟩ := exec_spec th p st _ _ id (rel_of_wf hwf)
  exact h4.stack

/-- shadowing, rebinding, an assignment that escapes, and an exception out of two blocks -/
def demoProg : Prog Nat :=
  .block [("a", 1), ("b", 2)]
    (.attempt (.block [("a", 10)] (.block [("c", 30)] (.read "a" fun _ => .assign "a" 11 (.assign "b" 20
        (.read "a" fun _ => .raise))) .done) .done)
      (.read "a" fun _ => .read "b" fun _ => .read "c" fun _ => .done))
    .done
/-- the attributes of the class of `dyn`, here with numbers for the methods -/
def demoClass : String → Option Nat := fun x => if x = "items" ∨ x = "update" ∨ x = "let" then some 1000 else none
example : (exec demoClass 0 demoProg (init [("c", 3)])).1 = [10, 11, 1, 20, 3] ∧
    (exec demoClass 0 demoProg (init [("c", 3)])).2.1 = false := by decide
example : Ordinary (fun x => demoClass x ≠ none) demoProg := by simp [Ordinary, demoProg, demoClass]
example : (exec demoClass 0 (.block [("items", 5)] (.read "items" fun _ => .done) .done) (init [])).1 = [1000] := by
  decide
example : WF 0 (init [("c", 3)] : St Nat) := ⟨by decide, by simp [init, makeDynvar, getstack, setScope]⟩
example : ¬ AssignsOutside "a" demoProg := by simp [demoProg, AssignsOutside, bound]
example : AssignsOutside "x" (Prog.block [("y", 1)] (.assign "x" 5 .done) .done) := by
  simp [AssignsOutside, bound]

/-! ## C07 -/

/-- C07 is violated for a dynamic variable called `self`: although it is bound, updating it raises TypeError. -/
theorem C07_self_refuted (v w : V) :
    getattr (init [("self", v)]) 0 "self" = .ok v ∧
    updateCall (init [("self", v)]) 0 [("self", w)] = (.error .TypeError, init [("self", v)]) := by
  constructor
  · simp [init, makeDynvar, setScope, getattr, resolve, getstack, deref, Dict.set, Dict.has, Dict.get]
  · simp [updateCall, Dict.has, Dict.get]

/-- C07: `dyn.update(**bs)` raises AttributeError, changing nothing, if one of the names is unbound.
(Missing: bindings called `self`, see `C07_self_refuted`.) -/
theorem C07_dyn_update_nothing_partial (st : St V) (th : Nat) (bs : List (String × V))
    (hs : ∀ b ∈ bs, b.1 ≠ "self") (h : ∃ b ∈ bs, getattr st th b.1 = .error .AttributeError) :
    updateCall st th bs = (.error .AttributeError, st) := by
  rw [updateCall, dict_has_false hs, if_neg (by simp)]
  clear hs
  have key : resolveAll st th bs = .error .AttributeError := by
    obtain ⟨b, hb, hg⟩ := h
    have hres : ∀ y, (∃ r, resolve st th y = .ok r) ∨ resolve st th y = .error .AttributeError := by
      intro y; unfold resolve; split
      · exact .inl ⟨_, rfl⟩
      · split
        · exact .inl ⟨_, rfl⟩
        · exact .inr rfl
    have hb1 : resolve st th b.1 = .error .AttributeError := by
      rcases hres b.1 with ⟨r, hr⟩ | hr
      · unfold getattr at hg; rw [hr] at hg; simp only at hg
        split at hg <;> simp at hg
      · exact hr
    induction bs with
    | nil => simp at hb
    | cons c bs ih =>
      obtain ⟨y, v⟩ := c
      simp only [resolveAll]
      rcases hres y with ⟨r, hr⟩ | hr
      · rw [hr]
        rcases List.mem_cons.mp hb with rfl | hb
        · simp only at hb1; rw [hr] at hb1; simp at hb1
        · rw [ih hb]
      · rw [hr]
  simp [update, key]

/-- C07: otherwise it succeeds, every given name then reads as the (last) value given for it, all other
names read as before, and each name was rebound in the very scope where it was bound: nothing else in
any scope has changed.
(Missing: bindings called `self`, see `C07_self_refuted`.) -/
theorem C07_dyn_update_all_partial (st : St V) (th : Nat) (hwf : WF th st) (bs : List (String × V))
    (hs : ∀ b ∈ bs, b.1 ≠ "self")
    (h : ∀ b ∈ bs, ∃ v, getattr st th b.1 = .ok v) :
    ∃ st', updateCall st th bs = (.ok (), st') ∧
      (∀ x, getattr st' th x = match bound bs.reverse x with
        | some v => .ok v
        | none => getattr st th x) ∧
      (∀ r x, (deref st' r).get x = if resolve st th x = .ok r ∧ (bound bs.reverse x).isSome then bound bs.reverse x
        else (deref st r).get x) ∧
      st'.stacks = st.stacks := by
  rw [updateCall, dict_has_false hs, if_neg (by simp)]
  -- resolution succeeds
  have key : ∀ (bs : List (String × V)), (∀ b ∈ bs, ∃ v, getattr st th b.1 = .ok v) →
      ∃ rs, resolveAll st th bs = .ok rs ∧ ∀ (st0 : St V), Same th st st0 → st0.heap.length = st.heap.length →
        ∃ st1, st1 = rs.foldl (fun st (r, x, v) => setScope st r x v) st0 ∧ Same th st st1 ∧
          st1.stacks = st0.stacks ∧
          ∀ r x, (deref st1 r).get x = if resolve st th x = .ok r ∧ (bound bs.reverse x).isSome
            then bound bs.reverse x else (deref st0 r).get x := by
    intro bs
    induction bs with
    | nil =>
      intro _
      refine ⟨[], rfl, fun st0 hs hl => ⟨st0, rfl, hs, rfl, fun r x => ?_⟩⟩
      simp [bound]
    | cons b bs ih =>
      obtain ⟨y, v⟩ := b
      intro hb
      obtain ⟨rs, h1, h2⟩ := ih (fun b hb' => hb b (List.mem_cons_of_mem _ hb'))
      obtain ⟨w, hw⟩ := hb (y, v) (by simp)
      obtain ⟨ry, hry⟩ : ∃ r, resolve st th y = .ok r := by
        unfold getattr at hw
        cases hr : resolve st th y with
        | error e => simp only [hr] at hw; simp at hw
        | ok r => exact ⟨r, rfl⟩
      obtain ⟨hlt, hk⟩ := resolve_ok hwf hry
      refine ⟨(ry, y, v) :: rs, by simp [resolveAll, hry, h1], fun st0 hs hl => ?_⟩
      have hk0 : (deref st0 ry).has y = true := by rw [hs.keys ry hlt]; exact hk
      obtain ⟨st1, e1, e2, e3, e4⟩ := h2 (setScope st0 ry y v) (hs.trans (setScope_same v hk0))
        (by simp [setScope, hl])
      refine ⟨st1, by rw [e1]; rfl, e2, e3, fun r x => ?_⟩
      have hba : bound ((y, v) :: bs).reverse x =
          match bound bs.reverse x with | some w => some w | none => if y = x then some v else none := by
        rw [List.reverse_cons, ← get_eq_bound, get_append, get_eq_bound]
        cases bound bs.reverse x <;> simp
      rw [e4, hba, deref_setScope]
      cases hb' : bound bs.reverse x with
      | some w' =>
        simp only [Option.isSome_some, and_true]
        split
        · rfl
        · rename_i hne
          split
          · rename_i hr
            rw [get_set, if_neg]
            · rw [hr.1]
            · rintro rfl; exact hne (by rw [hry, hr.1])
          · rfl
      | none =>
        simp only [Option.isSome_none, and_false, if_false]
        by_cases hyx : y = x
        · subst hyx
          simp only [if_true, Option.isSome_some, and_true, hry]
          by_cases hr : r = ry
          · subst hr
            rw [if_pos (⟨rfl, by rw [hl]; exact hlt⟩ : r = r ∧ r < st0.heap.length), get_set]; simp
          · have hne : ¬ (Except.ok ry : Res Nat) = .ok r := by intro h; cases h; exact hr rfl
            simp [hr]; exact fun h => absurd h.symm hr
        · simp only [hyx, if_false, Option.isSome_none, and_false]
          rw [if_neg (by simp)]
          split
          · rename_i hr
            rw [get_set, if_neg (fun h => hyx h.symm), hr.1]; simp
          · simp
  obtain ⟨rs, h1, h2⟩ := key bs h
  obtain ⟨st1, e1, e2, e3, e4⟩ := h2 st (.refl _ _) rfl
  refine ⟨st1, by simp [update, h1, e1], ?_, e4, e3⟩
  intro x
  unfold getattr
  rw [e2.resolve hwf]
  cases hr : resolve st th x with
  | error e =>
    simp only
    cases hbx : bound bs.reverse x with
    | none => rfl
    | some v =>
      exfalso
      have hm : ∃ b ∈ bs, b.1 = x := by
        have : ∀ (l : List (String × V)), bound l x = some v → ∃ b ∈ l, b.1 = x := by
          intro l
          induction l with
          | nil => simp [bound]
          | cons c l ih =>
            simp only [bound]
            split
            · rename_i e; intro _; exact ⟨c, by simp, e⟩
            · intro h'; obtain ⟨b, hb, e⟩ := ih h'; exact ⟨b, List.mem_cons_of_mem _ hb, e⟩
        obtain ⟨b, hb, e⟩ := this _ hbx
        exact ⟨b, by simpa using hb, e⟩
      obtain ⟨b, hb, rfl⟩ := hm
      obtain ⟨w, hw⟩ := h b hb
      unfold getattr at hw
      rw [hr] at hw; simp at hw
  | ok r =>
    simp only [e4, hr]
    cases hbx : bound bs.reverse x with
    | none => simp
    | some v => simp

/-- a mass update across two scopes and the defaults, and one that is rejected -/
example : let st := enter (enter (init [("d", 0)]) 0 [("a", 1), ("b", 2)]) 0 [("a", 10)]
    ((updateCall st 0 [("a", 11), ("b", 22), ("d", 33)]).2.heap = [[("d", 33)], [("a", 1), ("b", 22)], [("a", 11)]]) ∧
    (updateCall st 0 [("a", 11), ("nope", 5)]).2.heap = st.heap := by decide

/-! ## C06 -/

/-- The scopes of thread `t`, by value, after one of its own operations. -/
def ownStep (scopes : List (List (String × V))) : Event V → List (List (String × V))
  | .enter _ bs => if bs.isEmpty then scopes else bs :: scopes
  | .exit _ bs => if bs.isEmpty then scopes else scopes.tail
  | .assign _ x v => assignScopes x v scopes
  | .read _ _ => scopes
  | .spawn _ => scopes

/-- An assignment is private if the scope in which it finds the name is not the shared default scope and
is not on the stack of another thread.  (Other operations are always private.) -/
def Private (st : St V) : Event V → Prop
  | .assign th x _ => ∀ r, resolve (touch st th) th x = .ok r →
      r ≠ 0 ∧ ∀ t s, t ≠ th → st.stacks t = some s → r ∉ s
  | _ => True

/-- every event is private at its time -/
def AllPrivate (st : St V) : List (Event V) → Prop
  | [] => True
  | e :: evs => Private st e ∧ AllPrivate (step st e) evs

private theorem step_own {st : St V} (w : WFAll st) (e : Event V) (hp : Private st e) (t : Nat) (s : List Nat)
    (hs : st.stacks t = some s) :
    (∃ s', (step st e).stacks t = some s') ∧
    scopesOf (step st e) t = (if e.thread = t then ownStep (scopesOf st t) e else scopesOf st t) ∧
    deref (step st e) 0 = deref st 0 := by
  have hgs : getstack st t = s := by simp [getstack, hs]
  have htouch : ∀ th, (touch st th).stacks t = some s := by
    intro th
    by_cases h : t = th
    · subst h; simp [touch, hgs]
    · rw [touch_other _ _ _ h, hs]
  have hsc : ∀ th, scopesOf (touch st th) t = scopesOf st t := by
    intro th
    unfold scopesOf
    have : getstack (touch st th) t = s := by simp [getstack, htouch th]
    rw [this, hgs]; rfl
  cases e with
  | spawn th => exact ⟨⟨s, hs⟩, by simp [ownStep, step], rfl⟩
  | read th x => exact ⟨⟨s, htouch th⟩, by simp [ownStep, step, hsc], rfl⟩
  | enter th bs =>
    simp only [step, ownStep, Event.thread]
    cases hb : bs.isEmpty with
    | true => exact ⟨⟨s, by simp [hs]⟩, by simp, by simp⟩
    | false =>
      simp only [if_false, Bool.false_eq_true]
      have w' := touch_wf w th
      have hd : ∀ r, r < (touch st th).heap.length → deref (enter (touch st th) th bs) r = deref (touch st th) r := by
        intro r hr; rw [deref_enter _ _ _ hb, if_neg (by omega)]
      refine ⟨?_, ?_, ?_⟩
      · by_cases h : t = th
        · exact ⟨_, by simp [enter, hb, h]; rfl⟩
        · exact ⟨s, by simp [enter, hb, h]; rw [htouch]⟩
      · by_cases h : t = th
        · subst h
          simp only [if_true]
          unfold scopesOf
          rw [getstack_enter _ _ _ hb, List.map_cons, deref_enter _ _ _ hb]
          simp only [if_true]
          congr 1
          rw [getstack_touch]
          apply List.map_congr_left
          intro r hr
          exact hd r ((getstack_spec w t).1 r hr).2
        · rw [if_neg (fun e => h e.symm)]
          unfold scopesOf
          have e1 : getstack (enter (touch st th) th bs) t = s := by
            simp [getstack, enter, hb, h]; rw [htouch]
          rw [e1, hgs]
          apply List.map_congr_left
          intro r hr
          exact hd r (w.lt t s hs r hr).2
      · exact hd 0 w'.pos
  | exit th bs =>
    simp only [step, ownStep, Event.thread]
    cases hb : bs.isEmpty with
    | true => exact ⟨⟨s, by simp [hs]⟩, by simp, by simp⟩
    | false =>
      simp only [if_false, Bool.false_eq_true]
      have hd : ∀ r, deref (exit (touch st th) th bs) r = deref st r := by
        intro r; simp [exit, hb, deref, touch]
      refine ⟨?_, ?_, hd 0⟩
      · by_cases h : t = th
        · exact ⟨_, by simp [exit, hb, h]; rfl⟩
        · exact ⟨s, by simp [exit, hb, h]; rw [htouch]⟩
      · by_cases h : t = th
        · subst h
          simp only [if_true]
          unfold scopesOf
          have e1 : getstack (exit (touch st t) t bs) t = (getstack st t).tail := by
            rw [← getstack_touch st t]
            simp [exit, hb, getstack]
          rw [e1, List.map_tail]
          congr 1
          exact List.map_congr_left (fun r _ => hd r)
        · rw [if_neg (fun e => h e.symm)]
          unfold scopesOf
          have e1 : getstack (exit (touch st th) th bs) t = s := by
            simp [getstack, exit, hb, h]; rw [htouch]
          rw [e1, hgs]
          apply List.map_congr_left
          intro r hr
          exact hd r
  | assign th x v =>
    have hite : ∀ (a b : List (List (String × V))), (if (Event.assign th x v : Event V).thread = t then a else b) =
        if th = t then a else b := fun a b => rfl
    rw [hite]
    simp only [step, ownStep, setattr]
    simp only [Private] at hp
    have w' := touch_wf w th
    cases hr : resolve (touch st th) th x with
    | error e =>
      simp only
      refine ⟨⟨s, htouch th⟩, ?_, rfl⟩
      rw [hsc]
      split
      · rename_i h; subst h
        -- unbound: the scopes do not bind x
        have hn : ∀ r ∈ getstack (touch st th) th, (deref (touch st th) r).has x = false := by
          unfold resolve at hr
          split at hr
          · simp at hr
          · rename_i hf; intro r hrm; simpa using List.find?_eq_none.mp hf r hrm
        rw [← hsc th]
        unfold scopesOf
        generalize getstack (touch st th) th = l at hn
        induction l with
        | nil => rfl
        | cons r l ih =>
          simp only [List.map_cons, assignScopes]
          have := hn r (by simp)
          simp only [Dict.has, get_eq_bound] at this
          rw [if_neg (by simp [this])]
          rw [← ih (fun r hr => hn r (List.mem_cons_of_mem _ hr))]
      · rfl
    | ok r =>
      simp only
      obtain ⟨hr0, hpriv⟩ := hp r hr
      have hd : ∀ r', r' ≠ r → deref (setScope (touch st th) r x v) r' = deref (touch st th) r' := by
        intro r' hne; rw [deref_setScope, if_neg (fun h => hne h.1)]
      refine ⟨⟨s, htouch th⟩, ?_, hd 0 (fun h => hr0 h.symm)⟩
      rw [← hsc th]
      by_cases h : th = t
      · subst h
        simp only [if_true]
        have hwf : WF th (touch st th) := ⟨w'.pos, fun r hr => ((getstack_spec w' th).1 r hr).2⟩
        obtain ⟨hlt, hk⟩ := resolve_ok hwf hr
        -- r is the first scope binding x
        have hf : (getstack (touch st th) th).find? (fun r => (deref (touch st th) r).has x) = some r := by
          unfold resolve at hr
          split at hr
          · rename_i r' hf; simp at hr; rw [hf, hr]
          · split at hr
            · simp at hr; exact absurd hr.symm hr0
            · simp at hr
        have hnd := (getstack_spec w' th).2
        unfold scopesOf
        have e1 : getstack (setScope (touch st th) r x v) th = getstack (touch st th) th := rfl
        rw [e1]
        generalize getstack (touch st th) th = l at hf hnd
        induction l with
        | nil => simp at hf
        | cons r' l ih =>
          simp only [List.map_cons, assignScopes]
          rw [List.find?_cons] at hf
          rw [List.nodup_cons] at hnd
          cases hh : (deref (touch st th) r').has x with
          | true =>
            rw [hh] at hf
            simp at hf; subst hf
            have hb : (bound (deref (touch st th) r') x).isSome := by
              simpa [Dict.has, get_eq_bound] using hh
            rw [if_pos hb]
            congr 1
            · rw [deref_setScope, if_pos ⟨rfl, hlt⟩]
              simp [Dict.set, hh]
            · apply List.map_congr_left
              intro r'' hm
              exact hd r'' (fun e => hnd.1 (by rw [← e]; exact hm))
          | false =>
            rw [hh] at hf
            have hb : ¬ (bound (deref (touch st th) r') x).isSome := by
              have : (bound (deref (touch st th) r') x).isSome = false := by
                simpa [Dict.has, get_eq_bound] using hh
              simp [this]
            rw [if_neg hb, ih hf hnd.2]
            congr 1
            apply hd
            intro e; subst e
            rw [hk] at hh; simp at hh
      · rw [if_neg h]
        unfold scopesOf
        have e1 : getstack (setScope (touch st th) r x v) t = s := by
          simp [getstack, setScope, htouch th]
        have e2 : getstack (touch st th) t = s := by simp [getstack, htouch th]
        rw [e1, e2]
        apply List.map_congr_left
        intro r' hm
        exact hd r' (fun e => hpriv t s (fun e' => h e'.symm) hs (by rw [← e]; exact hm))

/-- C06 (the part that holds): in every interleaving of the operations of any number of threads in which
no assignment hits a scope shared with another thread, the scopes of a thread (once it has used `dyn`),
hence everything it reads, depend on its own operations only.
Missing: assignments to inherited or default bindings, refuted below. -/
theorem C06_dyn_isolation_partial (st : St V) (hwf : WFAll st) (evs : List (Event V))
    (hp : AllPrivate st evs) (t : Nat) (s : List Nat) (hs : st.stacks t = some s) (x : String) :
    scopesOf (run st evs) t =
      (evs.filter (fun e => e.thread = t)).foldl ownStep (scopesOf st t) ∧
    getattr (run st evs) t x =
      match readScopes x (deref st 0) ((evs.filter (fun e => e.thread = t)).foldl ownStep (scopesOf st t)) with
      | some v => .ok v
      | none => .error .AttributeError := by
  have key : scopesOf (run st evs) t = (evs.filter (fun e => e.thread = t)).foldl ownStep (scopesOf st t) ∧
      deref (run st evs) 0 = deref st 0 := by
    induction evs generalizing st s with
    | nil => exact ⟨rfl, rfl⟩
    | cons e evs ih =>
      obtain ⟨⟨s', hs'⟩, h2, h3⟩ := step_own hwf e hp.1 t s hs
      obtain ⟨i1, i2⟩ := ih (step st e) (step_wf hwf e) hp.2 s' hs'
      have e1 : run st (e :: evs) = run (step st e) evs := rfl
      rw [e1, i1, i2, h2, h3]
      by_cases h : e.thread = t <;> simp [h]
  refine ⟨key.1, ?_⟩
  rw [getattr_eq_readScopes, key.1, key.2]
  split <;> rename_i h <;> simp [h]

/-- C06 for programs that only bind and read (no assignment): nothing another thread does is visible. -/
theorem C06_dyn_isolation_no_assign (defaults : List (String × V)) (evs₀ evs : List (Event V))
    (hna : ∀ e ∈ evs, ∀ th x v, e ≠ .assign th x v) (t : Nat) (s : List Nat)
    (hs : (run (init defaults) evs₀).stacks t = some s) (x : String) :
    getattr (run (run (init defaults) evs₀) evs) t x =
      getattr (run (run (init defaults) evs₀) (evs.filter (fun e => e.thread = t))) t x := by
  have hwf := run_wf (init_wf defaults) evs₀
  have hpriv : ∀ (evs : List (Event V)), (∀ e ∈ evs, ∀ th x v, e ≠ .assign th x v) → ∀ st, AllPrivate st evs := by
    intro evs
    induction evs with
    | nil => intro _ _; trivial
    | cons e evs ih =>
      intro h st
      refine ⟨?_, ih (fun e he => h e (List.mem_cons_of_mem _ he)) _⟩
      cases e with
      | assign th x v => exact absurd rfl (h _ (by simp) th x v)
      | _ => trivial
  rw [(C06_dyn_isolation_partial _ hwf evs (hpriv evs hna _) t s hs x).2,
    (C06_dyn_isolation_partial _ hwf (evs.filter (fun e => e.thread = t))
      (hpriv _ (fun e he => hna e (List.mem_filter.mp he).1) _) t s hs x).2]
  simp [List.filter_filter]

/-- C06: a thread's first use of `dyn` gives it the bindings the main thread has in effect at that
moment, and from then on it has its own stack. -/
theorem C06_dyn_inherits_at_first_use (st : St V) (t : Nat) (hs : st.stacks t = none) (e : Event V)
    (he : e = .read t x) :
    scopesOf (step st e) t = scopesOf st 0 ∧ ∃ s, (step st e).stacks t = some s := by
  subst he
  constructor
  · simp only [step, scopesOf, getstack_touch]
    have : getstack st t = getstack st 0 := by
      simp [getstack, hs]; cases st.stacks 0 <;> rfl
    rw [this]; rfl
  · exact ⟨_, by simp [step, touch]; rfl⟩

/-- C06 is violated (1): a child thread assigns to an inherited binding, and the main thread sees it. -/
theorem C06_dyn_child_assignment_visible_refuted :
    getattr (run (init ([] : Dict Nat)) [.enter 0 [("x", 1)], .read 1 "x", .assign 1 "x" 2]) 0 "x" = .ok 2 := by
  decide

/-- C06 is violated (2): a thread started inside the main thread's block, but using `dyn` first after that
block has exited, does not see the binding. -/
theorem C06_dyn_inherits_late_refuted :
    getattr (run (init ([] : Dict Nat)) [.enter 0 [("x", 1)], .spawn 1, .exit 0 [("x", 1)], .read 1 "x"]) 1 "x" =
      .error .AttributeError := by decide

/-- concrete case of the isolation theorem: main and child both rebind and assign the same name -/
example : let st := run (init ([("d", 0)] : Dict Nat)) [.enter 0 [("x", 1)], .read 1 "x"]
    let evs : List (Event Nat) := [.enter 1 [("x", 10)], .enter 0 [("x", 5)], .assign 1 "x" 11, .assign 0 "x" 6]
    (getattr (run st evs) 1 "x", getattr (run st evs) 0 "x", getattr (run st evs) 1 "d") = (.ok 11, .ok 6, .ok 0) := by
  decide
example : AllPrivate (run (init ([("d", 0)] : Dict Nat)) [.enter 0 [("x", 1)], .read 1 "x"])
    [.enter 1 [("x", 10)], .assign 1 "x" 11] := by
  refine ⟨trivial, ?_, trivial⟩
  intro r hr
  have : r = 2 := by
    have h : resolve (touch (step (run (init ([("d", 0)] : Dict Nat)) [.enter 0 [("x", 1)], .read 1 "x"])
      (.enter 1 [("x", 10)])) 1) 1 "x" = .ok 2 := by decide
    rw [h] at hr; simpa using hr.symm
  subst this
  refine ⟨by decide, ?_⟩
  intro t s ht hs
  by_cases h0 : t = 0
  · subst h0
    have : s = [1] := by
      have h : (step (run (init ([("d", 0)] : Dict Nat)) [.enter 0 [("x", 1)], .read 1 "x"])
        (.enter 1 [("x", 10)])).stacks 0 = some [1] := by decide
      rw [h] at hs; simpa using hs.symm
    simp [this]
  · simp [step, run, init, makeDynvar, setScope, enter, touch, h0, ht, show t ≠ 1 from ht] at hs

end Unpy.Props
