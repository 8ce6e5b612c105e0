import Verif.Model.Dyn
import Verif.Spec.Dyn
/-! Simulation of the dict-stack implementation by the textbook semantics. -/
namespace Unpy.Dyn
open Unpy.Spec.Dyn
universe u
variable {V : Type u}

theorem get_eq_bound (d : Dict V) (x : String) : d.get x = bound d x := by
  induction d with
  | nil => rfl
  | cons e d ih =>
    obtain ⟨y, v⟩ := e
    unfold Dict.get bound
    by_cases h : y = x
    · simp [h]
    · simp only [h, if_false]
      rw [← ih]; unfold Dict.get; simp [h]

theorem get_append (d : Dict V) (x y : String) (v : V) :
    Dict.get (d ++ [(y, v)]) x = if (d.get x).isSome then d.get x else if y = x then some v else none := by
  rw [get_eq_bound, get_eq_bound]
  induction d with
  | nil => simp [bound]
  | cons e d ih =>
    obtain ⟨z, w⟩ := e
    simp only [List.cons_append, bound]
    by_cases h : z = x
    · simp [h]
    · simp only [h, if_false]; exact ih

theorem get_set (d : Dict V) (x y : String) (v : V) :
    (Dict.set d y v).get x = if x = y then some v else d.get x := by
  unfold Dict.set
  split
  · rename_i hy
    induction d with
    | nil => simp [Dict.has, Dict.get] at hy
    | cons e d ih =>
      unfold Dict.has at hy ih
      unfold Dict.get at hy ih ⊢
      by_cases h1 : e.1 = y
      · by_cases h2 : x = y
        · simp [h1, h2]
        · have h3 : ¬ y = x := fun h => h2 h.symm
          have h4 : ¬ e.1 = x := by rw [h1]; exact h3
          simp only [List.map_cons, h1, if_true, List.find?_cons, h3, decide_false, h2, if_false]
          by_cases h5 : (Option.map Prod.snd (List.find? (fun e => decide (e.1 = y)) d)).isSome
          · have := ih h5; simp only [h2, if_false] at this; exact this
          · -- y not in d
            have : ∀ z ∈ d, ¬ z.1 = y := by
              intro z hz hzy
              apply h5
              simp only [Option.isSome_map, List.find?_isSome]
              exact ⟨z, hz, by simp [hzy]⟩
            congr 2
            conv => rhs; rw [← List.map_id d]
            apply List.map_congr_left
            intro z hz
            simp [this z hz]
      · have hy' : (Option.map Prod.snd (List.find? (fun e => decide (e.1 = y)) d)).isSome := by
          simpa [h1] using hy
        have := ih hy'
        by_cases h2 : e.1 = x
        · have h3 : ¬ x = y := by rw [← h2]; exact h1
          simp [h1, h2, h3]
        · simp [h1, h2] at this ⊢
          exact this
  · rename_i hy
    rw [get_append]
    have hn : d.get y = none := by
      unfold Dict.has at hy
      cases h : d.get y with
      | none => rfl
      | some w => simp [h] at hy
    by_cases h : x = y
    · subst h; simp [hn]
    · have h' : ¬ y = x := fun e => h e.symm
      simp only [h, h', if_false]
      cases d.get x <;> simp

theorem has_set (d : Dict V) (x y : String) (v : V) :
    (Dict.set d y v).has x = (x = y || d.has x) := by
  unfold Dict.has
  rw [get_set]
  by_cases h : x = y <;> simp [h]

theorem deref_setScope (st : St V) (r r' : Nat) (x : String) (v : V) :
    deref (setScope st r x v) r' = if r' = r ∧ r < st.heap.length then Dict.set (deref st r) x v else deref st r' := by
  unfold deref setScope
  simp only [List.getElem?_modify]
  by_cases h : r' = r
  · subst h
    by_cases h2 : r' < st.heap.length
    · simp [h2]
    · simp [h2]
  · have h' : ¬ r = r' := fun e => h e.symm
    simp [h, h']

/-- same stack of thread `th`, same names bound in the old scopes -/
structure Same (th : Nat) (st st' : St V) : Prop where
  stack : getstack st' th = getstack st th
  len : st.heap.length ≤ st'.heap.length
  keys : ∀ r, r < st.heap.length → ∀ x, (deref st' r).has x = (deref st r).has x

theorem Same.refl (th : Nat) (st : St V) : Same th st st := ⟨rfl, Nat.le_refl _, fun _ _ _ => rfl⟩

theorem Same.trans {th : Nat} {a b c : St V} (h1 : Same th a b) (h2 : Same th b c) : Same th a c :=
  ⟨by rw [h2.stack, h1.stack], Nat.le_trans h1.len h2.len, fun r hr x => by
    rw [h2.keys r (Nat.lt_of_lt_of_le hr h1.len), h1.keys r hr]⟩

/-- the stack only holds existing scopes -/
def WF (th : Nat) (st : St V) : Prop := 0 < st.heap.length ∧ ∀ r ∈ getstack st th, r < st.heap.length

theorem Same.wf {th : Nat} {st st' : St V} (h : Same th st st') (w : WF th st) : WF th st' :=
  ⟨Nat.lt_of_lt_of_le w.1 h.len, by rw [h.stack]; exact fun r hr => Nat.lt_of_lt_of_le (w.2 r hr) h.len⟩

theorem find?_congr' {α : Type _} {p q : α → Bool} {l : List α} (h : ∀ a ∈ l, p a = q a) :
    l.find? p = l.find? q := by
  induction l with
  | nil => rfl
  | cons a l ih =>
    simp only [List.find?_cons]
    rw [h a (by simp)]
    cases q a
    · exact ih (fun a ha => h a (List.mem_cons_of_mem _ ha))
    · rfl

theorem Same.resolve {th : Nat} {st st' : St V} (h : Same th st st') (w : WF th st) (x : String) :
    resolve st' th x = resolve st th x := by
  unfold Dyn.resolve
  rw [h.stack]
  have : (getstack st th).find? (fun r => (deref st' r).has x) =
      (getstack st th).find? (fun r => (deref st r).has x) :=
    find?_congr' (fun r hr => h.keys r (w.2 r hr) x)
  rw [this, h.keys 0 w.1]

theorem resolve_ok {th : Nat} {st : St V} (w : WF th st) {x : String} {r : Nat}
    (h : resolve st th x = .ok r) : r < st.heap.length ∧ (deref st r).has x = true := by
  unfold Dyn.resolve at h
  split at h
  · rename_i r' hf
    simp at h; subst h
    exact ⟨w.2 _ (List.mem_of_find?_eq_some hf), by simpa using List.find?_some hf⟩
  · split at h
    · rename_i h0; simp at h; subst h; exact ⟨w.1, h0⟩
    · simp at h

theorem setScope_same {th : Nat} {st : St V} {r : Nat} {x : String} (v : V)
    (hk : (deref st r).has x = true) : Same th st (setScope st r x v) := by
  refine ⟨rfl, by simp [setScope], ?_⟩
  intro r' _ y
  rw [deref_setScope]
  split
  · rename_i h
    rw [has_set, h.1]
    by_cases e : y = x
    · subst e; simp [hk]
    · simp [e]
  · rfl

/-- correspondence between the model's state and the textbook state -/
structure Rel (th : Nat) (f : Nat → Nat) (st : St V) (env : Env) (s : Store V) : Prop where
  wf : WF th st
  inj : ∀ r r', r < st.heap.length → r' < st.heap.length → f r = f r' → r = r'
  lt : ∀ r, r < st.heap.length → f r < s.next
  val : ∀ r, r < st.heap.length → ∀ x, s.val (f r) x = (deref st r).get x
  env : ∀ x, env x = match resolve st th x with | .ok r => some (f r) | .error _ => none

theorem Rel.write {th : Nat} {f : Nat → Nat} {st : St V} {env : Env} {s : Store V} (h : Rel th f st env s)
    {r : Nat} {x : String} (hr : r < st.heap.length) (hk : (deref st r).has x = true) (v : V) :
    Rel th f (setScope st r x v) env (s.write (f r) x v) := by
  have hs := setScope_same (th := th) v hk
  have hl : (setScope st r x v).heap.length = st.heap.length := by simp [setScope]
  refine ⟨hs.wf h.wf, ?_, ?_, ?_, ?_⟩
  · intro a b ha hb; rw [hl] at ha hb; exact h.inj a b ha hb
  · intro a ha; rw [hl] at ha; exact h.lt a ha
  · intro a ha y
    rw [hl] at ha
    simp only [Store.write]
    rw [deref_setScope]
    by_cases e : a = r
    · subst e
      simp only [true_and, hr, and_true, if_true, get_set]
      split
      · rfl
      · exact h.val a ha y
    · have : ¬ f a = f r := fun e' => e (h.inj a r ha hr e')
      simp only [this, e, false_and, if_false]
      exact h.val a ha y
  · intro y
    rw [hs.resolve h.wf]; exact h.env y

theorem Rel.writeAll {th : Nat} {f : Nat → Nat} {env : Env} (bs : Dict V) {st st0 : St V} {s : Store V}
    (h0 : Rel th f st0 env s) (same : Same th st st0) (w : WF th st) (hf : st0.heap.length = st.heap.length) :
    (∀ e, resolveAll st th bs = .error e → writeAll env bs s = none) ∧
    (∀ rs, resolveAll st th bs = .ok rs → ∃ s', writeAll env bs s = some s' ∧
      Rel th f (rs.foldl (fun st (r, x, v) => setScope st r x v) st0) env s' ∧
      Same th st (rs.foldl (fun st (r, x, v) => setScope st r x v) st0) ∧
      (rs.foldl (fun st (r, x, v) => setScope st r x v) st0).heap.length = st.heap.length) := by
  induction bs generalizing st0 s with
  | nil =>
    refine ⟨by simp [resolveAll], ?_⟩
    intro rs h
    simp [resolveAll] at h; subst h
    exact ⟨s, rfl, h0, same, hf⟩
  | cons b bs ih =>
    obtain ⟨x, v⟩ := b
    have henv := h0.env x
    rw [same.resolve w] at henv
    simp only [resolveAll, Spec.Dyn.writeAll]
    cases hr : resolve st th x with
    | error e =>
      rw [hr] at henv
      simp only [henv]
      simp
    | ok r =>
      rw [hr] at henv
      simp only [henv]
      obtain ⟨hlt, hk⟩ := resolve_ok w hr
      have hk0 : (deref st0 r).has x = true := by rw [same.keys r hlt]; exact hk
      have h1 := h0.write (by rw [hf]; exact hlt) hk0 v
      have same1 := same.trans (setScope_same (th := th) v hk0)
      have ih := ih h1 same1 (by simp [setScope, hf])
      cases hra : resolveAll st th bs with
      | error e =>
        rw [hra] at ih
        simp only
        exact ⟨fun e' _ => ih.1 e rfl, by simp⟩
      | ok rs =>
        rw [hra] at ih
        simp only
        refine ⟨by simp, ?_⟩
        intro rs' e
        simp at e; subst e
        exact ih.2 rs rfl

theorem getstack_enter (st : St V) (th : Nat) (bs : Dict V) (h : bs.isEmpty = false) :
    getstack (enter st th bs) th = st.heap.length :: getstack st th := by
  simp [enter, h, getstack]

theorem deref_enter (st : St V) (th : Nat) (bs : Dict V) (h : bs.isEmpty = false) (r : Nat) :
    deref (enter st th bs) r = if r = st.heap.length then bs else deref st r := by
  unfold deref
  simp only [enter, h]
  rcases Nat.lt_trichotomy r st.heap.length with h1 | h1 | h1
  · have : ¬ r = st.heap.length := by omega
    simp [this, List.getElem?_append_left h1]
  · simp [h1]
  · have : ¬ r = st.heap.length := by omega
    simp [this]
    rw [List.getElem?_eq_none (by simp; omega), List.getElem?_eq_none (by omega)]

theorem resolve_enter (st : St V) (th : Nat) (w : WF th st) (bs : Dict V) (h : bs.isEmpty = false) (x : String) :
    resolve (enter st th bs) th x = if (bound bs x).isSome then .ok st.heap.length else resolve st th x := by
  unfold resolve
  rw [getstack_enter _ _ _ h, List.find?_cons]
  have e : (deref (enter st th bs) st.heap.length).has x = (bound bs x).isSome := by
    rw [deref_enter _ _ _ h]; simp [Dict.has, get_eq_bound]
  rw [e]
  cases hb : (bound bs x).isSome
  · simp only [hb, if_false]
    have e2 : (getstack st th).find? (fun r => (deref (enter st th bs) r).has x) =
        (getstack st th).find? (fun r => (deref st r).has x) := by
      apply find?_congr'
      intro r hr
      rw [deref_enter _ _ _ h, if_neg (by have := w.2 r hr; omega)]
    have e3 : deref (enter st th bs) 0 = deref st 0 := by
      rw [deref_enter _ _ _ h, if_neg (by have := w.1; omega)]
    rw [e2, e3]
    simp
  · simp

/-- `execO` for programs without special names. -/
def execO (th : Nat) : Prog V → St V → List V × Bool × St V
  | .done, st => ([], false, st)
  | .raise, st => ([], true, st)
  | .read x k, st =>
    match getattr st th x with
    | .error _ => ([], true, st)
    | .ok v => let (vs, r, st') := execO th (k v) st; (v :: vs, r, st')
  | .assign x v rest, st =>
    match setattr st th x v with
    | .error _ => ([], true, st)
    | .ok st' => execO th rest st'
  | .update bs rest, st =>
    match update st th bs with
    | (.error _, st') => ([], true, st')
    | (.ok _, st') => execO th rest st'
  | .block bs body rest, st =>
    let (vs, r, st') := execO th body (enter st th bs)
    let st'' := exit st' th bs
    if r then (vs, true, st'')
    else let (ws, r', st3) := execO th rest st''; (vs ++ ws, r', st3)
  | .attempt body rest, st =>
    let (vs, _, st') := execO th body st
    let (ws, r', st3) := execO th rest st'
    (vs ++ ws, r', st3)

theorem exec_spec (th : Nat) (p : Prog V) : ∀ (st : St V) (env : Env) (s : Store V) (f : Nat → Nat),
    Rel th f st env s →
    ∃ f', (execO th p st).1 = (eval p env s).1 ∧ (execO th p st).2.1 = (eval p env s).2.1 ∧
      Rel th f' (execO th p st).2.2 env (eval p env s).2.2 ∧ Same th st (execO th p st).2.2 ∧
      (∀ r, r < st.heap.length → f' r = f r) ∧ s.next ≤ (eval p env s).2.2.next := by
  induction p with
  | done => intro st env s f h; exact ⟨f, by first | rfl | trivial, by first | rfl | trivial, h, .refl _ _, fun _ _ => rfl, Nat.le_refl _⟩
  | raise => intro st env s f h; exact ⟨f, by first | rfl | trivial, by first | rfl | trivial, h, .refl _ _, fun _ _ => rfl, Nat.le_refl _⟩
  | read x k ih =>
    intro st env s f h
    have henv := h.env x
    simp only [execO, eval, getattr]
    cases hr : resolve st th x with
    | error e =>
      rw [hr] at henv
      simp only [henv, Option.bind_none]
      exact ⟨f, by first | rfl | trivial, by first | rfl | trivial, h, .refl _ _, fun _ _ => rfl, Nat.le_refl _⟩
    | ok r =>
      rw [hr] at henv
      obtain ⟨hlt, hk⟩ := resolve_ok h.wf hr
      simp only [henv, Option.bind_some, h.val r hlt x]
      cases hg : (deref st r).get x with
      | none => simp [Dict.has, hg] at hk
      | some v =>
        simp only
        obtain ⟨f', h1, h2, h3, h4, h5, h6⟩ := ih v st env s f h
        exact ⟨f', by rw [h1], h2, h3, h4, h5, h6⟩
  | assign x v rest ih =>
    intro st env s f h
    have henv := h.env x
    simp only [execO, eval, setattr]
    cases hr : resolve st th x with
    | error e =>
      rw [hr] at henv
      simp only [henv]
      exact ⟨f, by first | rfl | trivial, by first | rfl | trivial, h, .refl _ _, fun _ _ => rfl, Nat.le_refl _⟩
    | ok r =>
      rw [hr] at henv
      obtain ⟨hlt, hk⟩ := resolve_ok h.wf hr
      simp only [henv]
      obtain ⟨f', h1, h2, h3, h4, h5, h6⟩ := ih _ env _ f (h.write hlt hk v)
      exact ⟨f', h1, h2, h3, (setScope_same v hk).trans h4,
        fun r hr => h5 r (by simp [setScope]; exact hr), h6⟩
  | update bs rest ih =>
    intro st env s f h
    have hw := Rel.writeAll bs h (.refl _ _) h.wf rfl
    simp only [execO, eval, update]
    cases hra : resolveAll st th bs with
    | error e =>
      rw [hw.1 e hra]
      exact ⟨f, by first | rfl | trivial, by first | rfl | trivial, h, .refl _ _, fun _ _ => rfl, Nat.le_refl _⟩
    | ok rs =>
      obtain ⟨s', e1, e2, e3, e4⟩ := hw.2 rs hra
      simp only [e1]
      obtain ⟨f', h1, h2, h3, h4, h5, h6⟩ := ih _ env _ f e2
      refine ⟨f', h1, h2, h3, e3.trans h4, fun r hr => h5 r (by omega), ?_⟩
      have : s'.next = s.next := by
        clear h1 h2 h3 h4 h5 h6 e2 e3 e4 hra hw ih h
        induction bs generalizing s with
        | nil => simp [Spec.Dyn.writeAll] at e1; rw [e1]
        | cons b bs ihb =>
          simp only [Spec.Dyn.writeAll] at e1
          split at e1
          · simp at e1
          · have := ihb _ e1; exact this
      omega
  | block bs body rest ihb ihr =>
    intro st env s f h
    cases hbs : bs.isEmpty with
    | true =>
      have hnil : bs = [] := by simpa using hbs
      subst hnil
      have e1 : enter st th ([] : Dict V) = st := rfl
      have e2 : ∀ st : St V, exit st th ([] : Dict V) = st := fun _ => rfl
      -- the textbook semantics opens an activation without names
      have hrel : Rel th f st (fun x => if (bound ([] : Dict V) x).isSome then some s.next else env x)
          ⟨s.next + 1, fun a' x => if a' = s.next then bound ([] : Dict V) x else s.val a' x⟩ := by
        refine ⟨h.wf, h.inj, fun r hr => Nat.lt_succ_of_lt (h.lt r hr), ?_, ?_⟩
        · intro r hr x
          have := h.lt r hr
          simp only [if_neg (show ¬ f r = s.next by omega)]
          exact h.val r hr x
        · intro x; simp [bound]; exact h.env x
      obtain ⟨f1, h1, h2, h3, h4, h5, h6⟩ := ihb _ _ _ f hrel
      simp only [execO, eval, e1, e2]
      simp only at h6
      rw [← h2]
      have hrel2 : Rel th f1 (execO th body st).2.2 env
          (eval body (fun x => if (bound ([] : Dict V) x).isSome then some s.next else env x)
            ⟨s.next + 1, fun a' x => if a' = s.next then bound ([] : Dict V) x else s.val a' x⟩).2.2 := by
        refine ⟨h3.wf, h3.inj, h3.lt, h3.val, ?_⟩
        intro x; rw [← h3.env x]; simp [bound]
      cases hr : (execO th body st).2.1 with
      | true =>
        simp only [if_true]
        exact ⟨f1, h1, by first | rfl | trivial, hrel2, h4, h5, Nat.le_of_succ_le h6⟩
      | false =>
        simp only [if_false, Bool.false_eq_true]
        obtain ⟨f2, g1, g2, g3, g4, g5, g6⟩ := ihr _ env _ f1 hrel2
        refine ⟨f2, by rw [h1, g1], g2, g3, h4.trans g4, ?_, Nat.le_trans (Nat.le_of_succ_le h6) g6⟩
        intro r hr'
        rw [g5 r (Nat.lt_of_lt_of_le hr' h4.len), h5 r hr']
    | false =>
      -- open the scope
      let f0 : Nat → Nat := fun r => if r = st.heap.length then s.next else f r
      have hlen : (enter st th bs).heap.length = st.heap.length + 1 := by simp [enter, hbs]
      have hrel : Rel th f0 (enter st th bs) (fun x => if (bound bs x).isSome then some s.next else env x)
          ⟨s.next + 1, fun a' x => if a' = s.next then bound bs x else s.val a' x⟩ := by
        refine ⟨⟨by omega, ?_⟩, ?_, ?_, ?_, ?_⟩
        · rw [getstack_enter _ _ _ hbs]
          intro r hr
          rcases List.mem_cons.mp hr with rfl | hr
          · omega
          · have := h.wf.2 r hr; omega
        · intro a b ha hb e
          rw [hlen] at ha hb
          simp only [f0] at e
          split at e
          · split at e
            · omega
            · have := h.lt b (by omega); omega
          · split at e
            · have := h.lt a (by omega); omega
            · exact h.inj a b (by omega) (by omega) e
        · intro r hr
          rw [hlen] at hr
          simp only [f0]
          split
          · omega
          · have := h.lt r (by omega); omega
        · intro r hr x
          rw [hlen] at hr
          rw [deref_enter _ _ _ hbs]
          simp only [f0]
          split
          · simp [get_eq_bound]
          · have := h.lt r (by omega)
            rw [if_neg (show ¬ f r = s.next by omega)]
            exact h.val r (by omega) x
        · intro x
          rw [resolve_enter _ _ h.wf _ hbs]
          split
          · simp [f0]
          · rw [h.env x]
            cases hr : resolve st th x with
            | error e => rfl
            | ok r =>
              have := (resolve_ok h.wf hr).1
              simp only [f0, if_neg (show ¬ r = st.heap.length by omega)]
      obtain ⟨f1, h1, h2, h3, h4, h5, h6⟩ := ihb _ _ _ f0 hrel
      simp only [execO, eval]
      simp only at h6
      rw [← h2]
      -- close it
      have hstack : getstack (exit (execO th body (enter st th bs)).2.2 th bs) th = getstack st th := by
        simp only [exit, hbs]
        simp [getstack]
        have := h4.stack
        rw [getstack_enter _ _ _ hbs] at this
        simp only [getstack] at this
        rw [this]; rfl
      have hsame : Same th st (exit (execO th body (enter st th bs)).2.2 th bs) := by
        refine ⟨hstack, ?_, ?_⟩
        · have := h4.len; rw [hlen] at this
          simp [exit, hbs]; omega
        · intro r hr x
          have := h4.keys r (by omega) x
          rw [deref_enter _ _ _ hbs, if_neg (by omega)] at this
          simpa [exit, hbs, deref] using this
      have hheap : (exit (execO th body (enter st th bs)).2.2 th bs).heap = (execO th body (enter st th bs)).2.2.heap := by
        simp [exit, hbs]
      have hderef : ∀ r, deref (exit (execO th body (enter st th bs)).2.2 th bs) r =
          deref (execO th body (enter st th bs)).2.2 r := by
        intro r; simp [deref, hheap]
      have hrel2 : Rel th f1 (exit (execO th body (enter st th bs)).2.2 th bs) env
          (eval body (fun x => if (bound bs x).isSome then some s.next else env x)
            ⟨s.next + 1, fun a' x => if a' = s.next then bound bs x else s.val a' x⟩).2.2 := by
        refine ⟨hsame.wf h.wf, ?_, ?_, ?_, ?_⟩
        · rw [hheap]; exact h3.inj
        · rw [hheap]; exact h3.lt
        · intro r hr x; rw [hheap] at hr; rw [hderef]; exact h3.val r hr x
        · intro x
          rw [hsame.resolve h.wf, h.env x]
          cases hr : resolve st th x with
          | error e => rfl
          | ok r =>
            have := (resolve_ok h.wf hr).1
            simp only
            rw [h5 r (by omega)]
            simp only [f0, if_neg (show ¬ r = st.heap.length by omega)]
      have hf : ∀ r, r < st.heap.length → f1 r = f r := by
        intro r hr
        rw [h5 r (by omega)]
        simp only [f0, if_neg (show ¬ r = st.heap.length by omega)]
      cases hr : (execO th body (enter st th bs)).2.1 with
      | true =>
        simp only [if_true]
        exact ⟨f1, h1, by first | rfl | trivial, hrel2, hsame, hf, Nat.le_of_succ_le h6⟩
      | false =>
        simp only [if_false, Bool.false_eq_true]
        obtain ⟨f2, g1, g2, g3, g4, g5, g6⟩ := ihr _ env _ f1 hrel2
        refine ⟨f2, by rw [h1, g1], g2, g3, hsame.trans g4, ?_, Nat.le_trans (Nat.le_of_succ_le h6) g6⟩
        intro r hr'
        rw [g5 r (Nat.lt_of_lt_of_le hr' hsame.len), hf r hr']
  | attempt body rest ihb ihr =>
    intro st env s f h
    obtain ⟨f1, h1, h2, h3, h4, h5, h6⟩ := ihb _ _ _ f h
    obtain ⟨f2, g1, g2, g3, g4, g5, g6⟩ := ihr _ env _ f1 h3
    simp only [execO, eval]
    refine ⟨f2, by rw [h1, g1], g2, g3, h4.trans g4, ?_, Nat.le_trans h6 g6⟩
    intro r hr'
    rw [g5 r (Nat.lt_of_lt_of_le hr' h4.len), h5 r hr']

/-! Facts about the textbook semantics -/

theorem write_next (s : Store V) (a : Nat) (x : String) (v : V) : (s.write a x v).next = s.next := rfl

theorem writeAll_val {env : Env} {bs : List (String × V)} {s s' : Store V} (h : Spec.Dyn.writeAll env bs s = some s')
    (a : Nat) (x : String) (hne : env x ≠ some a ∨ bound bs x = none) :
    s'.val a x = s.val a x ∧ s'.next = s.next := by
  induction bs generalizing s with
  | nil => simp [Spec.Dyn.writeAll] at h; subst h; exact ⟨rfl, rfl⟩
  | cons b bs ih =>
    obtain ⟨y, v⟩ := b
    simp only [Spec.Dyn.writeAll] at h
    split at h
    · simp at h
    · rename_i a' ha'
      have hne' : env x ≠ some a ∨ bound bs x = none := by
        rcases hne with hne | hne
        · exact .inl hne
        · right
          simp only [bound] at hne
          split at hne
          · simp at hne
          · exact hne
      obtain ⟨h1, h2⟩ := ih h hne'
      refine ⟨?_, h2⟩
      rw [h1]
      simp only [Store.write]
      rw [if_neg]
      rintro ⟨rfl, rfl⟩
      rcases hne with hne | hne
      · exact hne ha'
      · simp [bound] at hne

/-- a program changes `x` only in the activation where it is bound, or in activations it creates -/
theorem eval_val_other (p : Prog V) : ∀ (env : Env) (s : Store V) (a : Nat) (x : String), a < s.next →
    env x ≠ some a → (eval p env s).2.2.val a x = s.val a x ∧ s.next ≤ (eval p env s).2.2.next := by
  induction p with
  | done => intros; exact ⟨rfl, Nat.le_refl _⟩
  | raise => intros; exact ⟨rfl, Nat.le_refl _⟩
  | read y k ih =>
    intro env s a x ha hne
    simp only [eval]
    split
    · exact ⟨rfl, Nat.le_refl _⟩
    · exact ih _ env s a x ha hne
  | assign y v rest ih =>
    intro env s a x ha hne
    simp only [eval]
    split
    · exact ⟨rfl, Nat.le_refl _⟩
    · rename_i a' ha'
      obtain ⟨h1, h2⟩ := ih env (s.write a' y v) a x ha hne
      refine ⟨?_, h2⟩
      rw [h1]
      simp only [Store.write]
      rw [if_neg]
      rintro ⟨rfl, rfl⟩
      exact hne ha'
  | update bs rest ih =>
    intro env s a x ha hne
    simp only [eval]
    split
    · exact ⟨rfl, Nat.le_refl _⟩
    · rename_i s' hs'
      obtain ⟨h1, h2⟩ := writeAll_val hs' a x (.inl hne)
      obtain ⟨h3, h4⟩ := ih env s' a x (by omega) hne
      exact ⟨by rw [h3, h1], by omega⟩
  | block bs body rest ihb ihr =>
    intro env s a x ha hne
    obtain ⟨h1, h2⟩ := ihb (fun y => if (bound bs y).isSome then some s.next else env y)
      ⟨s.next + 1, fun a' x => if a' = s.next then bound bs x else s.val a' x⟩ a x
      (Nat.lt_succ_of_lt ha) (by
        split
        · intro e; simp at e; omega
        · exact hne)
    simp only [if_neg (show ¬ a = s.next by omega)] at h1
    simp only [eval]
    split
    · exact ⟨h1, Nat.le_of_succ_le h2⟩
    · obtain ⟨h3, h4⟩ := ihr env (eval body (fun y => if (bound bs y).isSome then some s.next else env y)
        ⟨s.next + 1, fun a' x => if a' = s.next then bound bs x else s.val a' x⟩).2.2 a x
        (Nat.lt_of_lt_of_le (Nat.lt_succ_of_lt ha) h2) hne
      exact ⟨by rw [← h1]; exact h3, Nat.le_trans (Nat.le_of_succ_le h2) h4⟩
  | attempt body rest ihb ihr =>
    intro env s a x ha hne
    obtain ⟨h1, h2⟩ := ihb env s a x ha hne
    obtain ⟨h3, h4⟩ := ihr env (eval body env s).2.2 a x (Nat.lt_of_lt_of_le ha h2) hne
    exact ⟨by rw [← h1]; exact h3, Nat.le_trans h2 h4⟩

theorem eval_val_kept (x : String) (p : Prog V) : ∀ (env : Env) (s : Store V) (a : Nat), a < s.next →
    ¬ AssignsOutside x p → (eval p env s).2.2.val a x = s.val a x ∧ s.next ≤ (eval p env s).2.2.next := by
  induction p with
  | done => intros; exact ⟨rfl, Nat.le_refl _⟩
  | raise => intros; exact ⟨rfl, Nat.le_refl _⟩
  | read y k ih =>
    intro env s a ha hne
    simp only [AssignsOutside, not_exists] at hne
    simp only [eval]
    split
    · exact ⟨rfl, Nat.le_refl _⟩
    · exact ih _ env s a ha (hne _)
  | assign y v rest ih =>
    intro env s a ha hne
    simp only [AssignsOutside, not_or] at hne
    simp only [eval]
    split
    · exact ⟨rfl, Nat.le_refl _⟩
    · rename_i a' ha'
      obtain ⟨h1, h2⟩ := ih env (s.write a' y v) a ha hne.2
      refine ⟨?_, h2⟩
      rw [h1]
      simp only [Store.write]
      rw [if_neg]
      rintro ⟨rfl, rfl⟩
      exact hne.1 rfl
  | update bs rest ih =>
    intro env s a ha hne
    simp only [AssignsOutside, not_or] at hne
    simp only [eval]
    split
    · exact ⟨rfl, Nat.le_refl _⟩
    · rename_i s' hs'
      obtain ⟨h1, h2⟩ := writeAll_val hs' a x (.inr (by simpa using hne.1))
      obtain ⟨h3, h4⟩ := ih env s' a (by omega) hne.2
      exact ⟨by rw [h3, h1], by omega⟩
  | block bs body rest ihb ihr =>
    intro env s a ha hne
    simp only [AssignsOutside, not_or, not_and] at hne
    have key : (eval body (fun y => if (bound bs y).isSome then some s.next else env y)
      ⟨s.next + 1, fun a' x => if a' = s.next then bound bs x else s.val a' x⟩).2.2.val a x = s.val a x ∧
      s.next + 1 ≤ (eval body (fun y => if (bound bs y).isSome then some s.next else env y)
      ⟨s.next + 1, fun a' x => if a' = s.next then bound bs x else s.val a' x⟩).2.2.next := by
      cases hb : bound bs x with
      | none =>
        obtain ⟨h1, h2⟩ := ihb (fun y => if (bound bs y).isSome then some s.next else env y)
          ⟨s.next + 1, fun a' x => if a' = s.next then bound bs x else s.val a' x⟩ a
          (Nat.lt_succ_of_lt ha) (hne.1 hb)
        simp only [if_neg (show ¬ a = s.next by omega)] at h1
        exact ⟨h1, h2⟩
      | some w =>
        obtain ⟨h1, h2⟩ := eval_val_other body (fun y => if (bound bs y).isSome then some s.next else env y)
          ⟨s.next + 1, fun a' x => if a' = s.next then bound bs x else s.val a' x⟩ a x
          (Nat.lt_succ_of_lt ha) (by simp [hb]; omega)
        simp only [if_neg (show ¬ a = s.next by omega)] at h1
        exact ⟨h1, h2⟩
    obtain ⟨h1, h2⟩ := key
    simp only [eval]
    split
    · exact ⟨h1, Nat.le_of_succ_le h2⟩
    · obtain ⟨h3, h4⟩ := ihr env (eval body (fun y => if (bound bs y).isSome then some s.next else env y)
        ⟨s.next + 1, fun a' x => if a' = s.next then bound bs x else s.val a' x⟩).2.2 a
        (Nat.lt_of_lt_of_le (Nat.lt_succ_of_lt ha) h2) hne.2
      exact ⟨by rw [← h1]; exact h3, Nat.le_trans (Nat.le_of_succ_le h2) h4⟩
  | attempt body rest ihb ihr =>
    intro env s a ha hne
    simp only [AssignsOutside, not_or] at hne
    obtain ⟨h1, h2⟩ := ihb env s a ha hne.1
    obtain ⟨h3, h4⟩ := ihr env (eval body env s).2.2 a (Nat.lt_of_lt_of_le ha h2) hne.2
    exact ⟨by rw [← h1]; exact h3, Nat.le_trans h2 h4⟩

/-- every well-formed state corresponds to some textbook state -/
theorem rel_of_wf {th : Nat} {st : St V} (w : WF th st) :
    Rel th id st (fun x => match resolve st th x with | .ok r => some r | .error _ => none)
      ⟨st.heap.length, fun r x => (deref st r).get x⟩ :=
  ⟨w, fun _ _ _ _ e => e, fun _ h => h, fun _ _ _ => rfl, fun _ => rfl⟩

theorem Rel.getattr {th : Nat} {f : Nat → Nat} {st : St V} {env : Env} {s : Store V} (h : Rel th f st env s)
    (x : String) : getattr st th x = match (env x).bind (fun a => s.val a x) with
      | some v => .ok v
      | none => match resolve st th x with | .error e => .error e | .ok _ => .error .KeyError := by
  unfold Dyn.getattr
  rw [h.env x]
  cases hr : resolve st th x with
  | error e => rfl
  | ok r =>
    have := resolve_ok h.wf hr
    simp only [Option.bind_some, h.val r this.1 x]
    cases hg : (deref st r).get x with
    | none => rfl
    | some v => rfl

/-! make_dynvar -/

theorem makeDynvar_heap (bs : Dict V) (d : Dict V) (stk : Nat → Option (List Nat)) :
    ∃ d', makeDynvar ⟨[d], stk⟩ bs = ⟨[d'], stk⟩ ∧
      ∀ x, d'.get x = match bound bs.reverse x with | some v => some v | none => d.get x := by
  induction bs generalizing d with
  | nil => exact ⟨d, rfl, fun x => by simp [bound]⟩
  | cons b bs ih =>
    obtain ⟨y, v⟩ := b
    have e : makeDynvar ⟨[d], stk⟩ ((y, v) :: bs) = makeDynvar ⟨[Dict.set d y v], stk⟩ bs := by
      simp [makeDynvar, setScope]
    rw [e]
    obtain ⟨d', h1, h2⟩ := ih (Dict.set d y v)
    refine ⟨d', h1, fun x => ?_⟩
    rw [h2 x]
    have hba : ∀ (l : List (String × V)) , bound (l ++ [(y, v)]) x =
        match bound l x with | some w => some w | none => if y = x then some v else none := by
      intro l
      rw [← get_eq_bound, get_append, get_eq_bound]
      cases bound l x <;> simp
    rw [List.reverse_cons, hba]
    cases bound bs.reverse x with
    | some w => rfl
    | none =>
      simp only [get_set]
      by_cases e : x = y
      · subst e; simp
      · have : ¬ y = x := fun h => e h.symm
        simp [e, this]

theorem init_rel (defaults : Dict V) :
    Rel 0 id (init defaults) (start defaults).1 (start defaults).2 := by
  obtain ⟨d', h1, h2⟩ := makeDynvar_heap defaults [] (fun t => if t = 0 then some [] else none)
  unfold init
  rw [h1]
  have h2' : ∀ x, d'.get x = bound defaults.reverse x := by
    intro x; rw [h2 x]; cases bound defaults.reverse x <;> rfl
  refine ⟨⟨by simp, by simp [getstack]⟩, fun _ _ _ _ e => e, ?_, ?_, ?_⟩
  · intro r hr; simp [start] at hr ⊢; omega
  · intro r hr x
    simp at hr; subst hr
    simp [start, deref, h2']
  · intro x
    simp only [start, resolve, getstack, deref, Dict.has]
    simp [h2']
    split <;> simp

/-! Threads -/

/-- thread `th`'s scopes, by value -/
def scopesOf (st : St V) (th : Nat) : List (Dict V) := (getstack st th).map (deref st)

theorem getattr_eq_readScopes (st : St V) (th : Nat) (x : String) :
    getattr st th x = match readScopes x (deref st 0) (scopesOf st th) with
      | some v => .ok v
      | none => .error .AttributeError := by
  unfold getattr resolve scopesOf
  generalize getstack st th = stk
  induction stk with
  | nil =>
    simp only [List.find?_nil, List.map_nil, readScopes, Dict.has]
    rw [← get_eq_bound]
    by_cases h : ((deref st 0).get x).isSome
    · obtain ⟨v, hv⟩ := Option.isSome_iff_exists.mp h; simp [hv]
    · have hv : (deref st 0).get x = none := by simpa using h
      simp [hv]
  | cons r stk ih =>
    simp only [List.find?_cons, List.map_cons, readScopes, Dict.has]
    simp only [Dict.has] at ih
    rw [← get_eq_bound]
    cases h : (deref st r).get x with
    | some v => simp [h]
    | none => simpa using ih

structure WFAll (st : St V) : Prop where
  pos : 0 < st.heap.length
  main : ∃ s, st.stacks 0 = some s
  lt : ∀ t s, st.stacks t = some s → ∀ r ∈ s, 0 < r ∧ r < st.heap.length
  nodup : ∀ t s, st.stacks t = some s → s.Nodup

theorem getstack_spec {st : St V} (w : WFAll st) (th : Nat) :
    (∀ r ∈ getstack st th, 0 < r ∧ r < st.heap.length) ∧ (getstack st th).Nodup := by
  unfold getstack
  cases h : st.stacks th with
  | some s => exact ⟨w.lt th s h, w.nodup th s h⟩
  | none =>
    obtain ⟨s, h0⟩ := w.main
    simp only [h0, Option.getD_some]
    exact ⟨w.lt 0 s h0, w.nodup 0 s h0⟩

theorem getstack_touch (st : St V) (th : Nat) : getstack (touch st th) th = getstack st th := by
  simp [touch, getstack]

theorem touch_other (st : St V) (th t : Nat) (h : t ≠ th) : (touch st th).stacks t = st.stacks t := by
  simp [touch, h]

theorem touch_wf {st : St V} (w : WFAll st) (th : Nat) : WFAll (touch st th) := by
  have hg := getstack_spec w th
  refine ⟨w.pos, ?_, ?_, ?_⟩
  · by_cases h : (0 : Nat) = th
    · exact ⟨_, by simp [touch, ← h]; rfl⟩
    · obtain ⟨s, h0⟩ := w.main
      exact ⟨s, by simp [touch, h, h0]⟩
  · intro t s hs
    simp only [touch] at hs
    split at hs
    · simp at hs; subst hs; exact hg.1
    · exact w.lt t s hs
  · intro t s hs
    simp only [touch] at hs
    split at hs
    · simp at hs; subst hs; exact hg.2
    · exact w.nodup t s hs

theorem setScope_wf {st : St V} (w : WFAll st) (r : Nat) (x : String) (v : V) : WFAll (setScope st r x v) := by
  have hl : (setScope st r x v).heap.length = st.heap.length := by simp [setScope]
  exact ⟨by rw [hl]; exact w.pos, w.main, by rw [hl]; exact w.lt, w.nodup⟩

theorem step_wf {st : St V} (w : WFAll st) (e : Event V) : WFAll (step st e) := by
  cases e with
  | spawn th => exact w
  | read th x => exact touch_wf w th
  | assign th x v =>
    simp only [step, setattr]
    cases resolve (touch st th) th x with
    | error e => exact touch_wf w th
    | ok r => exact setScope_wf (touch_wf w th) r x v
  | enter th bs =>
    simp only [step]
    split
    · exact w
    · rename_i hb
      have w' := touch_wf w th
      have hg := getstack_spec w' th
      refine ⟨?_, ?_, ?_, ?_⟩
      · simp [enter, hb]
      · by_cases h : (0 : Nat) = th
        · exact ⟨_, by simp [enter, hb, ← h]; rfl⟩
        · obtain ⟨s, h0⟩ := w'.main
          exact ⟨s, by simp [enter, hb, h, h0]⟩
      · intro t s hs r hr
        have hlen : (enter (touch st th) th bs).heap.length = (touch st th).heap.length + 1 := by simp [enter, hb]
        rw [hlen]
        simp only [enter, hb] at hs
        simp at hs
        split at hs
        · simp at hs; subst hs
          rcases List.mem_cons.mp hr with rfl | hr
          · have := w'.pos; omega
          · have := hg.1 r hr; omega
        · have := w'.lt t s hs r hr; omega
      · intro t s hs
        simp only [enter, hb] at hs
        simp at hs
        split at hs
        · simp at hs; subst hs
          rw [List.nodup_cons]
          exact ⟨fun hm => by have := hg.1 _ hm; omega, hg.2⟩
        · exact w'.nodup t s hs
  | exit th bs =>
    simp only [step]
    split
    · exact w
    · rename_i hb
      have w' := touch_wf w th
      have hg := getstack_spec w' th
      refine ⟨?_, ?_, ?_, ?_⟩
      · simpa [exit, hb] using w'.pos
      · by_cases h : (0 : Nat) = th
        · exact ⟨_, by simp [exit, hb, ← h]; rfl⟩
        · obtain ⟨s, h0⟩ := w'.main
          exact ⟨s, by simp [exit, hb, h, h0]⟩
      · intro t s hs r hr
        simp only [exit, hb] at hs ⊢
        simp at hs
        split at hs
        · simp at hs; subst hs
          exact hg.1 r (List.mem_of_mem_tail hr)
        · exact w'.lt t s hs r hr
      · intro t s hs
        simp only [exit, hb] at hs
        simp at hs
        split at hs
        · simp at hs; subst hs
          exact hg.2.sublist (List.tail_sublist _)
        · exact w'.nodup t s hs

theorem init_wf (defaults : Dict V) : WFAll (init defaults) := by
  obtain ⟨d', h1, _⟩ := makeDynvar_heap defaults [] (fun t => if t = 0 then some [] else none)
  unfold init
  rw [h1]
  refine ⟨by simp, ⟨[], by simp⟩, ?_, ?_⟩
  · intro t s hs; simp at hs; simp [hs.2]
  · intro t s hs; simp at hs; simp [hs.2]

theorem run_wf {st : St V} (w : WFAll st) (evs : List (Event V)) : WFAll (run st evs) := by
  unfold run
  induction evs generalizing st with
  | nil => exact w
  | cons e evs ih => exact ih (step_wf w e)

/-! ## Programs with special names -/

theorem dict_has_false {bs : Dict V} {x : String} (h : ∀ b ∈ bs, b.1 ≠ x) : Dict.has bs x = false := by
  have : bs.find? (fun e => e.1 = x) = none := by
    rw [List.find?_eq_none]; intro b hb; simpa using h b hb
  simp [Dict.has, Dict.get, this]

/-- Without special names, the special cases do not matter. -/
theorem exec_ordinary (cls : String → Option V) (th : Nat) (p : Prog V)
    (h : Ordinary (fun x => cls x ≠ none) p) (st : St V) : exec cls th p st = execO th p st := by
  induction p generalizing st with
  | done => rfl
  | raise => rfl
  | read x k ih =>
    have hc : cls x = none := Classical.not_not.mp h.1
    simp only [exec, execO, readAttr, hc]
    cases getattr st th x with
    | error e => rfl
    | ok v => simp only; rw [ih v (h.2 v)]
  | assign x v rest ih =>
    simp only [exec, execO]
    cases setattr st th x v with
    | error e => rfl
    | ok st' => exact ih h st'
  | update bs rest ih =>
    simp only [exec, execO, updateCall, dict_has_false h.1, Bool.false_eq_true, if_false]
    rcases update st th bs with ⟨e | _, st'⟩
    · rfl
    · exact ih h.2 st'
  | block bs body rest ih1 ih2 =>
    simp only [exec, execO, letCall, dict_has_false h.1, Bool.false_eq_true, if_false]
    rw [ih1 h.2.1]
    simp only [ih2 h.2.2]
  | attempt body rest ih1 ih2 =>
    simp only [exec, execO]
    rw [ih1 h.1]
    simp only [ih2 h.2]

/-- The program with the special cases worked out: a class attribute is read without asking the scopes, and a
binding called `self` raises. -/
def expand (cls : String → Option V) : Prog V → Prog V
  | .done => .done
  | .raise => .raise
  | .read x k => match cls x with
    | some m => expand cls (k m)
    | none => .read x (fun v => expand cls (k v))
  | .assign x v rest => .assign x v (expand cls rest)
  | .update bs rest => if Dict.has bs "self" then .raise else .update bs (expand cls rest)
  | .block bs body rest => if Dict.has bs "self" then .raise else .block bs (expand cls body) (expand cls rest)
  | .attempt body rest => .attempt (expand cls body) (expand cls rest)

theorem exec_expand (cls : String → Option V) (th : Nat) (p : Prog V) (st : St V) :
    (exec cls th p st).2 = (execO th (expand cls p) st).2 := by
  induction p generalizing st with
  | done => rfl
  | raise => rfl
  | read x k ih =>
    simp only [exec, readAttr, expand]
    cases cls x with
    | some m => exact ih m st
    | none =>
      simp only [execO]
      cases getattr st th x with
      | error e => rfl
      | ok v => exact ih v st
  | assign x v rest ih =>
    simp only [exec, execO, expand]
    cases setattr st th x v with
    | error e => rfl
    | ok st' => exact ih st'
  | update bs rest ih =>
    simp only [exec, expand, updateCall]
    cases Dict.has bs "self" with
    | true => rfl
    | false =>
      simp only [Bool.false_eq_true, if_false, execO]
      rcases update st th bs with ⟨e | _, st'⟩
      · rfl
      · exact ih st'
  | block bs body rest ih1 ih2 =>
    simp only [exec, expand, letCall]
    cases Dict.has bs "self" with
    | true => rfl
    | false =>
      simp only [Bool.false_eq_true, if_false, execO]
      simp only [ih1, ih2]
      split <;> rfl
  | attempt body rest ih1 ih2 =>
    simp only [exec, execO, expand]
    simp only [ih1, ih2]

theorem assignsOutside_expand (cls : String → Option V) (x : String) (p : Prog V)
    (h : AssignsOutside x (expand cls p)) : AssignsOutside x p := by
  induction p with
  | done => exact h
  | raise => exact h
  | read y k ih =>
    simp only [expand] at h
    cases hc : cls y with
    | some m => rw [hc] at h; exact ⟨m, ih m h⟩
    | none =>
      rw [hc] at h
      obtain ⟨v, hv⟩ := h
      exact ⟨v, ih v hv⟩
  | assign y v rest ih => exact h.imp id ih
  | update bs rest ih =>
    simp only [expand] at h
    split at h
    · exact h.elim
    · exact h.imp id ih
  | block bs body rest ih1 ih2 =>
    simp only [expand] at h
    split at h
    · exact h.elim
    · exact h.imp (fun h => ⟨h.1, ih1 h.2⟩) ih2
  | attempt body rest ih1 ih2 => exact h.imp ih1 ih2

end Unpy.Dyn
