import Verif.Proof.ExpView
/-! # C113: views of expanded `let` and `do` forms -/
namespace Unpy.Props
open Unpy.ExpView Unpy.ExpView.Spec

/-- The macros `let` and `letrec` make forms of the documented format, with the names, values and body that they are given. -/
theorem C113_macro (letrec : Bool) (env : String) (names : List String) (values : List T) (body : T) (h : names.length = values.length) :
    ∃ x : Let, letExpr letrec names values body = x.form false ∧ letDecorator letrec env names values = x.deco false ∧
      x.letrec = letrec ∧ x.env = env ∧ x.body = body ∧ x.bindings.map (·.key) = names ∧ x.bindings.map (·.value) = values := by
  have key : ∀ (j : Nat) (names : List String) (values : List T), names.length = values.length →
      ∃ bs : List Binding, pairUp names (if letrec then nameValues names j values else values)
          = .tuple (bs.map fun b => bound b.key (if letrec then namedFn false b.label b.value else b.value)) ∧
        bs.map (·.key) = names ∧ bs.map (·.value) = values := by
    intro j names
    induction names generalizing j with
    | nil => intro values h; cases values with
      | nil => exact ⟨[], by cases letrec <;> rfl, rfl, rfl⟩
      | cons => simp at h
    | cons n ns ih => intro values h; cases values with
      | nil => simp at h
      | cons v vs =>
        obtain ⟨bs, h1, h2, h3⟩ := ih (j + 1) vs (by simpa using h)
        refine ⟨⟨n, "letrec_binding" ++ toString j ++ "_" ++ n, v⟩ :: bs, ?_, by simp [h2], by simp [h3]⟩
        cases letrec
        · simp only [Bool.false_eq_true, if_false, pairUp, T.tuple.injEq] at h1
          simp only [Bool.false_eq_true, if_false, pairUp, List.zipWith_cons_cons, h1, List.map_cons, bound]
        · simp only [if_true, pairUp, T.tuple.injEq] at h1
          simp only [if_true, pairUp, nameValues, List.zipWith_cons_cons, h1, List.map_cons, bound]
          rfl
  obtain ⟨bs, h1, h2, h3⟩ := key 1 names values h
  refine ⟨⟨letrec, env, bs, modeName letrec ++ "_body", body⟩, ?_, ?_, rfl, rfl, rfl, h2, h3⟩
  · simp only [letExpr, h1]; rfl
  · simp only [letDecorator, h1]; rfl

private def c113e : Option String := some "e1"
private def c113v (s : String) : T := .attr (.name "e1") s
/-- `letrec[[x := 1, y := x] in y]` -/
private def c113rec : Let := ⟨true, "e1", [⟨"x", "letrec_binding1_x", .lam [c113e] (.const (.other "1"))⟩, ⟨"y", "letrec_binding2_y", .lam [c113e] (c113v "x")⟩],
  "letrec_body", .lam [c113e] (c113v "y")⟩
private theorem c113rec_proper : c113rec.Proper :=
  ⟨⟨[], _, rfl⟩, fun _ b hb => by
    simp only [c113rec, List.mem_cons, List.not_mem_nil, or_false] at hb
    rcases hb with rfl | rfl <;> exact ⟨[], _, rfl⟩⟩
example : letExpr true ["x", "y"] [.lam [c113e] (.const (.other "1")), .lam [c113e] (c113v "x")] (.lam [c113e] (c113v "y")) = c113rec.form false := rfl

/-- **Reading a `let`.**  A view of an expanded `let` or `letrec`, with or without `autocurry`, tells the mode and the name of the environment, and has the bindings, with the
lambdas of a `letrec`, and the body. -/
theorem C113_read (c : Bool) (x : Let) (h : x.Proper) :
    ∃ v, letView (x.form c) = .ok v ∧ v.kind.curried = c ∧ v.kind.decorator = false ∧ v.kind.mode = .str x.mode ∧ v.envname = some x.env ∧
      v.bindings = .ok x.seen ∧ v.body = .ok x.body :=
  ⟨_, letView_form c x h.1, rfl, rfl, rfl, rfl, getBindings_of c false x _ (theBindings_form c x), getBody_form c x⟩

example : ∃ v, letView (c113rec.form true) = .ok v ∧ v.envname = some "e1" ∧
    v.bindings = .ok (.tuple [.tuple [.const (.str "x"), .lam [c113e] (.const (.other "1"))], .tuple [.const (.str "y"), .lam [c113e] (c113v "x")]]) := by
  obtain ⟨v, h, _, _, _, he, hb, _⟩ := C113_read true c113rec c113rec_proper
  exact ⟨v, h, he, hb⟩

/-- **Reading a `let` decorator.**  The bindings are there; the body is not, as documented; the name of the environment is there for a `letrec` with bindings only (see
`C113_decorator_envname_refuted`). -/
theorem C113_read_decorator_partial (c : Bool) (x : Let) (h : x.ProperValues) :
    ∃ v, letView (x.deco c) = .ok v ∧ v.kind.curried = c ∧ v.kind.decorator = true ∧ v.kind.mode = .str x.mode ∧ v.bindings = .ok x.seen ∧ v.body = .error .type ∧
      (∀ new, v.setBody new = (v, some .type)) ∧ (x.letrec = true → x.bindings ≠ [] → v.envname = some x.env) :=
  ⟨_, letView_deco c x h, rfl, rfl, rfl, getBindings_of c true x _ (theBindings_deco c x), getBody_deco c x, fun _ => rfl, fun h1 h2 => by simp [h1, h2]⟩

example : ∃ v, letView (c113rec.deco false) = .ok v ∧ v.envname = some "e1" := by
  obtain ⟨v, h, _, _, _, _, _, _, he⟩ := C113_read_decorator_partial false c113rec c113rec_proper.2
  exact ⟨v, h, he rfl (by simp [c113rec])⟩

/-- A view of an expanded `@dlet` or `@blet` does not have the name of the environment, although it is in the form. -/
theorem C113_decorator_envname_refuted (c : Bool) (x : Let) (h : x.letrec = false) : ∃ v, letView (x.deco c) = .ok v ∧ v.envname = none :=
  ⟨_, letView_deco c x (fun h' => by simp [h] at h'), by simp [h]⟩

/-- **Writing the bindings.**  Assign as many pairs of a string and a value (in a `letrec`, a lambda) as there were before: the form becomes the same form with these
bindings, where each lambda of a `letrec` takes the environment under its name; and the view is the view of the new form. -/
theorem C113_write_bindings (c : Bool) (x : Let) (h : x.Proper) (v : View) (hv : letView (x.form c) = .ok v) (ns : List (String × T))
    (hl : ns.length = x.bindings.length) (hn : x.letrec = true → ∀ n ∈ ns, IsLambda n.2) :
    ∃ (v' : View) (x' : Let), v.setBindings (.tuple (ns.map fun n => bound n.1 n.2)) = (v', none) ∧ v'.tree = x'.form c ∧ letView (x'.form c) = .ok v' ∧ x'.Proper ∧
      x'.letrec = x.letrec ∧ x'.env = x.env ∧ x'.label = x.label ∧ x'.body = x.body ∧ x'.bindings.map (·.key) = ns.map (·.1) ∧
      x'.bindings.map (·.value) = ns.map (fun n => if x.letrec then enter x.env n.2 else n.2) := by
  rw [letView_form c x h.1] at hv
  cases hv
  have hs := setBindings_of c false x (x.form c) (some x.env) ns (theBindings_form c x) hl hn (fun _ _ => rfl)
  rw [putBindings_form, rebound_form] at hs
  refine ⟨_, rebound x ns, hs, rfl, letView_form c (rebound x ns) h.1, ⟨h.1, rebound_proper x ns hn⟩, rfl, rfl, rfl, rfl, ?_, ?_⟩ <;> simp [rebound, Function.comp_def]

private def c113new : List (String × T) := [("a", .lam [some "z"] (c113v "b")), ("b", .lam [none] (.const (.other "2")))]
example : ∃ v v', letView (c113rec.form true) = .ok v ∧ v.setBindings (.tuple (c113new.map fun n => bound n.1 n.2)) = (v', none) ∧
    v'.bindings = .ok (.tuple [.tuple [.const (.str "a"), .lam [c113e] (c113v "b")], .tuple [.const (.str "b"), .lam [c113e] (.const (.other "2"))]]) :=
  ⟨_, _, letView_form true c113rec c113rec_proper.1, rfl, rfl⟩

/-- The same for a decorator. -/
theorem C113_write_decorator (c : Bool) (x : Let) (h : x.ProperValues) (v : View) (hv : letView (x.deco c) = .ok v) (ns : List (String × T))
    (hl : ns.length = x.bindings.length) (hn : x.letrec = true → ∀ n ∈ ns, IsLambda n.2) :
    ∃ (v' : View) (x' : Let), v.setBindings (.tuple (ns.map fun n => bound n.1 n.2)) = (v', none) ∧ v'.tree = x'.deco c ∧ letView (x'.deco c) = .ok v' ∧ x'.ProperValues ∧
      x'.letrec = x.letrec ∧ x'.env = x.env ∧ x'.bindings.map (·.key) = ns.map (·.1) ∧
      x'.bindings.map (·.value) = ns.map (fun n => if x.letrec then enter x.env n.2 else n.2) := by
  rw [letView_deco c x h] at hv
  cases hv
  have hs := setBindings_of c true x (x.deco c) (if x.letrec = true ∧ x.bindings ≠ [] then some x.env else none) ns (theBindings_deco c x) hl hn
    (fun hr h0 => by
      have : x.bindings ≠ [] := by intro h'; rw [h'] at hl; exact h0 (List.length_eq_zero_iff.1 hl)
      simp [hr, this])
  rw [putBindings_deco, rebound_deco] at hs
  refine ⟨_, rebound x ns, hs, rfl, ?_, rebound_proper x ns hn, rfl, rfl, ?_, ?_⟩
  · rw [letView_deco c (rebound x ns) (rebound_proper x ns hn)]
    have : ((rebound x ns).bindings ≠ []) ↔ x.bindings ≠ [] := by
      simp only [rebound, ne_eq, ← List.length_eq_zero_iff, List.length_map, hl]
    simp only [this]; rfl
  · simp [rebound, Function.comp_def]
  · simp [rebound, Function.comp_def]

example : ∃ v v', letView (c113rec.deco false) = .ok v ∧ v.setBindings (.tuple (c113new.map fun n => bound n.1 n.2)) = (v', none) ∧
    v'.bindings = .ok (.tuple [.tuple [.const (.str "a"), .lam [c113e] (c113v "b")], .tuple [.const (.str "b"), .lam [c113e] (.const (.other "2"))]]) :=
  ⟨_, _, letView_deco false c113rec c113rec_proper.2, rfl, rfl⟩

/-- **Writing the body.**  Assign a lambda: the form becomes the same form with this body, where the lambda takes the environment under its name. -/
theorem C113_write_body (c : Bool) (x : Let) (h : x.Proper) (v : View) (hv : letView (x.form c) = .ok v) (new : T) (hn : IsLambda new) :
    ∃ v', v.setBody new = (v', none) ∧ v'.tree = ({ x with body := enter x.env new } : Let).form c ∧ letView v'.tree = .ok v' ∧ v'.bindings = v.bindings ∧
      v'.body = .ok (enter x.env new) ∧ Takes x.env (enter x.env new) := by
  rw [letView_form c x h.1] at hv
  cases hv
  have hs : View.setBody ⟨x.form c, ⟨c, false, .str x.mode⟩, some x.env⟩ new = (⟨({ x with body := enter x.env new } : Let).form c, ⟨c, false, .str x.mode⟩, some x.env⟩, none) := by
    simp only [View.setBody, inject_lambda hn]; cases c <;> rfl
  refine ⟨_, hs, rfl, letView_form c ({ x with body := enter x.env new }) (enter_takes hn), ?_, ?_, enter_takes hn⟩
  · exact (getBindings_of c false ({ x with body := enter x.env new } : Let) _ (theBindings_form c _)).trans (getBindings_of c false x _ (theBindings_form c x)).symm
  · exact getBody_form c { x with body := enter x.env new }

example : ∃ v v', letView (c113rec.form false) = .ok v ∧ v.setBody (.lam [some "z", some "w"] (c113v "x")) = (v', none) ∧ v'.body = .ok (.lam [c113e, some "w"] (c113v "x")) :=
  ⟨_, _, letView_form false c113rec c113rec_proper.1, rfl, rfl⟩

/-- **What is refused.**  If what is assigned to the bindings is no tuple of pairs, or a key is no constant, it is a `TypeError`, and if there are more or fewer pairs than
before, it is a `NotImplementedError`; if what is assigned to the body is no lambda, it is a `TypeError`.  The form stays as it was. -/
theorem C113_refused (c : Bool) (x : Let) (h : x.Proper) (v : View) (hv : letView (x.form c) = .ok v) (new : T) :
    ((∀ ts, new = .tuple ts → ∃ t ∈ ts, ∀ a b, t ≠ .tuple [a, b]) → v.setBindings new = (v, some .type)) ∧
    (∀ ts, new = .tuple ts → (∀ t ∈ ts, ∃ a b, t = .tuple [a, b]) → ts.length ≠ x.bindings.length → v.setBindings new = (v, some .notImplemented)) ∧
    (∀ ts, new = .tuple ts → (∃ t ∈ ts, ∃ a b, t = .tuple [a, b] ∧ ∀ k, a ≠ .const k) → ts.length = x.bindings.length → v.setBindings new = (v, some .type)) ∧
    ((∀ ps b, new ≠ .lam ps b) → v.setBody new = (v, some .type)) := by
  rw [letView_form c x h.1] at hv
  cases hv
  have hb : View.bindings ⟨x.form c, ⟨c, false, .str x.mode⟩, some x.env⟩ = .ok x.seen := getBindings_of c false x _ (theBindings_form c x)
  have pr : ∀ t, isPair t = true ↔ ∃ a b, t = .tuple [a, b] := fun t => by
    constructor
    · intro h; unfold isPair at h; split at h
      · exact ⟨_, _, rfl⟩
      · simp at h
    · rintro ⟨a, b, rfl⟩; rfl
  refine ⟨fun hn => ?_, fun ts e hp hl => ?_, fun ts e hk hl => ?_, fun hn => ?_⟩
  · cases new with
    | tuple ts =>
      obtain ⟨t, ht, hne⟩ := hn ts rfl
      have : ¬ (ts.all isPair = true) := by
        intro ha
        obtain ⟨a, b, e⟩ := (pr t).1 (List.all_eq_true.1 ha t ht)
        exact hne a b e
      simp only [View.setBindings, checkBindings, this]; rfl
    | _ => rfl
  · subst e
    have ha : ts.all isPair = true := List.all_eq_true.2 fun t ht => (pr t).2 (hp t ht)
    have : ts.length ≠ (x.bindings.map fun b => bound b.key b.value).length := by simpa using hl
    simp only [View.setBindings, checkBindings, ha, if_true, hb, Let.seen, elts]
    simp [hl]
  · subst e
    obtain ⟨t, ht, a, b, rfl, hk⟩ := hk
    simp only [View.setBindings, checkBindings, hb, Let.seen, elts]
    by_cases ha : ts.all isPair = true
    · have hc : ¬ (ts.all constKey = true) := by
        intro hc
        have := List.all_eq_true.1 hc _ ht
        unfold constKey at this
        split at this
        · rename_i k _ e; cases e; exact hk _ rfl
        · simp at this
      simp [ha, hl, hc]
    · simp only [ha]; rfl
  · cases new with
    | lam ps b => exact absurd rfl (hn ps b)
    | _ => rfl

example : ∃ v, letView (c113rec.form false) = .ok v ∧ v.setBindings (.tuple []) = (v, some .notImplemented) ∧ v.setBody (.const (.other "1")) = (v, some .type) := by
  refine ⟨_, letView_form false c113rec c113rec_proper.1, ?_, ?_⟩
  · exact (C113_refused false c113rec c113rec_proper _ (letView_form false c113rec c113rec_proper.1) (.tuple [])).2.1 [] rfl (by simp) (by simp [c113rec])
  · exact (C113_refused false c113rec c113rec_proper _ (letView_form false c113rec c113rec_proper.1) (.const (.other "1"))).2.2.2 (by simp)

/-- An assignment that fails can leave the form half written: with a value that is no lambda after one that is, there is a `TypeError`, but the first variable of the `letrec`
has the new value already, under its old name. -/
theorem C113_half_written_refuted (c : Bool) (x : Let) (h : x.Proper) (v : View) (hv : letView (x.form c) = .ok v) (hr : x.letrec = true)
    (b b' : Binding) (hb : x.bindings = [b, b']) (n n' : String × T) (hn : IsLambda n.2) (hn' : ∀ ps t, n'.2 ≠ .lam ps t) :
    ∃ v', v.setBindings (.tuple [bound n.1 n.2, bound n'.1 n'.2]) = (v', some .type) ∧
      v'.bindings = .ok (.tuple [bound b.key (enter x.env n.2), bound b'.key b'.value]) := by
  rw [letView_form c x h.1] at hv
  cases hv
  have hc : checkBindings ⟨x.form c, ⟨c, false, .str x.mode⟩, some x.env⟩ (.tuple [bound n.1 n.2, bound n'.1 n'.2]) = .ok [bound n.1 n.2, bound n'.1 n'.2] :=
    checkBindings_ok _ x [n, n'] (getBindings_of c false x _ (theBindings_form c x)) (by simp [hb])
  have hi : inject (some x.env) n'.2 = .error .type := by
    cases e : n'.2 with
    | lam ps t => exact absurd e (hn' ps t)
    | _ => rfl
  have hs : setValues c (some x.env) (x.bindings.map fun b => bound b.key (namedFn c b.label b.value)) [bound n.1 n.2, bound n'.1 n'.2]
      = .error ([bound b.key (namedFn c ("letrec_binding_" ++ n.1) (enter x.env n.2)), bound b'.key (namedFn c b'.label b'.value)], .type) := by
    simp only [hb, List.map_cons, List.map_nil, setValues, pair_bound, setValue_named c _ _ _ _ _ hn]
    simp only [setValue, hi]; rfl
  let x' : Let := { x with bindings := [⟨b.key, "letrec_binding_" ++ n.1, enter x.env n.2⟩, b'] }
  refine ⟨⟨x'.form c, ⟨c, false, .str x.mode⟩, some x.env⟩, ?_, getBindings_of c false x' _ (theBindings_form c x')⟩
  simp only [View.setBindings, hc, mode_letrec, hr, if_true, theBindings_form]
  simp only [Let.coded, hr, if_true, elts, hs, putBindings_form]
  simp [x', Let.form, Let.coded, hr, Let.mode]

example : ∃ v v', letView (c113rec.form false) = .ok v ∧ v.setBindings (.tuple [bound "a" (.lam [none] (c113v "b")), bound "b" (.const (.other "2"))]) = (v', some .type) ∧
    v'.bindings = .ok (.tuple [bound "x" (.lam [c113e] (c113v "b")), bound "y" (.lam [c113e] (c113v "x"))]) :=
  ⟨_, _, letView_form false c113rec c113rec_proper.1, rfl, rfl⟩

/-- However a form refers to the functions `letter`, `dof` and `currycall`, it is recognized. -/
theorem C113_reference (args : List T) (kws : List (String × T)) (f g : T) :
    (Refers "letter" f → islet (.call f args kws) = islet (.call (.cap "letter") args kws)) ∧
    (Refers "dof" f → isdo (.call f args kws) = .ok (some false)) ∧
    (Refers "currycall" g → Refers "letter" f → islet (.call g (f :: args) kws) = islet (.call (.cap "currycall") (.cap "letter" :: args) kws)) ∧
    (Refers "currycall" g → Refers "dof" f → isdo (.call g (f :: args) kws) = .ok (some true)) := by
  have no : ∀ {t : T} {x y : String}, Refers x t → x ≠ y → isx t y = false := fun h hne => by
    rw [Bool.eq_false_iff]; intro h'; exact hne (refers_unique h ((isx_iff _ _).1 h'))
  refine ⟨fun h => ?_, fun h => ?_, fun hg h => ?_, fun hg h => ?_⟩
  · have h1 := no h (y := "currycall") (by decide)
    have h2 := (isx_iff _ _).2 h
    simp only [islet, form, h1, h2]; rfl
  · have h1 := no h (y := "currycall") (by decide)
    have h2 := (isx_iff _ _).2 h
    simp [isdo, form, h1, h2]
  · have h1 := (isx_iff _ _).2 hg
    have h2 := (isx_iff _ _).2 h
    simp only [islet, form, h1, h2]; rfl
  · have h1 := (isx_iff _ _).2 hg
    have h2 := (isx_iff _ _).2 h
    simp [isdo, form, h1, h2]

example : islet (.call (.done (.attr (.name "unpythonic") "letter")) [.tuple []] [("mode", .const (.str "let"))]) = .ok (some ⟨false, false, .str "let"⟩) :=
  ((C113_reference _ _ _ (.name "")).1 (.done (.member _))).trans rfl

/-- Only calls of functions named `letter` are taken for `let` forms, and only calls of functions named `dof` for `do` forms, besides those of `currycall`; all else is a
`TypeError`.
(Missing: functions of the user with these names are taken for such forms, see `C113_own_function_refuted`.) -/
theorem C113_only_partial (t : T) (h : ∀ f args kws, t = .call f args kws → ¬ Refers "currycall" f) :
    ((∀ f args kws, t = .call f args kws → ¬ Refers "letter" f) → letView t = .error .type) ∧
    ((∀ f args kws, t = .call f args kws → ¬ Refers "dof" f) → doView t = .error .type) := by
  have no : ∀ {t : T} {x : String}, ¬ Refers x t → isx t x = false := fun h => by
    rw [Bool.eq_false_iff]; intro h'; exact h ((isx_iff _ _).1 h')
  cases t with
  | call f args kws =>
    have hc := no (h f args kws rfl)
    refine ⟨fun h' => ?_, fun h' => ?_⟩
    · simp [letView, islet, form, hc, no (h' f args kws rfl)]
    · simp [doView, isdo, form, hc, no (h' f args kws rfl)]
  | _ => exact ⟨fun _ => rfl, fun _ => rfl⟩

example : letView (.call (.name "f") [.name "x"] []) = .error .type :=
  (C113_only_partial _ (by intro f args kws e h; cases e; exact absurd (refers_unique h .name) (by decide))).1
    (by intro f args kws e h; cases e; exact absurd (refers_unique h .name) (by decide))

/-- A call of the user's own function `letter`, also as a method, makes the detection fail with an `AssertionError` if it has no argument `mode`, and is taken for a `let`
if that is a constant; and a call of the user's function `dof` is taken for a `do`. -/
theorem C113_own_function_refuted (f : T) (args : List T) :
    (Refers "letter" f → (∀ kws, (∀ k ∈ kws, k.1 ≠ "mode") → islet (.call f args kws) = .error .assertion) ∧
      ∀ m, islet (.call f args [("mode", .const m)]) = .ok (some ⟨false, false, m⟩)) ∧
    (Refers "dof" f → ∀ kws, isdo (.call f args kws) = .ok (some false)) := by
  refine ⟨fun h => ⟨fun kws hk => ?_, fun m => ?_⟩, fun h kws => (C113_reference args kws f f).2.1 h⟩
  · rw [(C113_reference args kws f f).1 h]
    have h3 : kws.filter (fun k => k.1 == "mode") = [] := by simpa [List.filter_eq_nil_iff] using fun a b hm => hk (a, b) hm
    simp [islet, form, isx, getname, modeOf, h3, Except.map]
  · rw [(C113_reference args _ f f).1 h]; rfl

/-- `font.letter("a")`, and `dof(5)`, whose view has no body -/
example : islet (.call (.attr (.name "font") "letter") [.const (.str "a")] []) = .error .assertion ∧
    ∃ v, doView (.call (.name "dof") [.const (.other "5")] []) = .ok v ∧ v.body = .error .attribute := ⟨rfl, _, rfl, rfl⟩

/-! ## `do` -/

/-- The macro `do` makes a form of the documented format. -/
theorem C113_do_macro (env : String) (lines : List T) : ∃ x : Do, doExpr lines = x.form false ∧ x.env = env ∧ x.lines.map (·.2) = lines := by
  have key : ∀ (j : Nat) (lines : List T), ∃ ls : List (String × T), nameLines j lines = ls.map (fun l => namedFn false l.1 l.2) ∧ ls.map (·.2) = lines := by
    intro j lines
    induction lines generalizing j with
    | nil => exact ⟨[], rfl, rfl⟩
    | cons l ls ih =>
      obtain ⟨xs, h1, h2⟩ := ih (j + 1)
      exact ⟨("do_line" ++ toString j, l) :: xs, by simp only [nameLines, h1, List.map_cons]; rfl, by simp [h2]⟩
  obtain ⟨ls, h1, h2⟩ := key 1 lines
  exact ⟨⟨env, ls⟩, by simp only [doExpr, h1]; rfl, rfl, h2⟩

private def c113do : Do := ⟨"e1", [("do_line1", .lam [c113e] (.const (.other "1"))), ("do_line2", .lam [c113e] (c113v "x"))]⟩
private theorem c113do_proper : c113do.Proper :=
  ⟨by simp [c113do], fun b hb => by
    simp only [c113do, List.mem_cons, List.not_mem_nil, or_false] at hb
    rcases hb with rfl | rfl <;> exact ⟨[], _, rfl⟩⟩
example : doExpr [.lam [c113e] (.const (.other "1")), .lam [c113e] (c113v "x")] = c113do.form false := rfl

/-- **Reading a `do`.** -/
theorem C113_do_read (c : Bool) (x : Do) (h : x.Proper) :
    ∃ v, doView (x.form c) = .ok v ∧ v.curried = c ∧ v.envname = some x.env ∧ v.body = .ok (x.lines.map (·.2)) :=
  ⟨_, doView_form c x h, rfl, rfl, getItems_form c x⟩

example : ∃ v, doView (c113do.form true) = .ok v ∧ v.body = .ok [.lam [c113e] (.const (.other "1")), .lam [c113e] (c113v "x")] := by
  obtain ⟨v, h, _, _, hb⟩ := C113_do_read true c113do c113do_proper
  exact ⟨v, h, hb⟩

/-- **Writing a `do`.**  Assign as many lambdas as there are lines: the form becomes the same form with these lines, which take the environment under its name.  With
another number of lines, it is a `NotImplementedError`, and nothing is changed. -/
theorem C113_do_write (c : Bool) (x : Do) (h : x.Proper) (v : DoView) (hv : doView (x.form c) = .ok v) (ns : List T) :
    (ns.length = x.lines.length → (∀ n ∈ ns, IsLambda n) → ∃ (v' : DoView) (x' : Do), v.setBody ns = (v', none) ∧ v'.tree = x'.form c ∧ doView (x'.form c) = .ok v' ∧ x'.Proper ∧
      x'.env = x.env ∧ x'.lines.map (·.1) = x.lines.map (·.1) ∧ x'.lines.map (·.2) = ns.map (enter x.env)) ∧
    (ns.length ≠ x.lines.length → v.setBody ns = (v, some .notImplemented)) := by
  rw [doView_form c x h] at hv
  cases hv
  have hb : DoView.body ⟨x.form c, c, some x.env⟩ = .ok (x.lines.map (·.2)) := getItems_form c x
  refine ⟨fun hl hn => ?_, fun hl => by simp [DoView.setBody, hb, hl]⟩
  have z : ∀ (ls : List (String × T)) (ns : List T), ns.length = ls.length →
      (List.zipWith (fun l n => (l.1, enter x.env n)) ls ns).map (·.1) = ls.map (·.1) ∧
      (List.zipWith (fun l n => (l.1, enter x.env n)) ls ns).map (·.2) = ns.map (enter x.env) := by
    intro ls
    induction ls with
    | nil => intro ns h; cases ns <;> simp_all
    | cons l ls ih => intro ns h; cases ns with
      | nil => simp at h
      | cons n ns => have := ih ns (by simpa using h); simp [this]
  have hp : (relined x ns).Proper := by
    refine ⟨?_, fun l hl' => ?_⟩
    · intro e
      have := congrArg List.length e
      simp only [relined, List.length_zipWith, hl, Nat.min_self, List.length_nil] at this
      exact h.1 (List.length_eq_zero_iff.1 this)
    · have : l.2 ∈ ns.map (enter x.env) := by
        rw [← (z x.lines ns hl).2]; exact List.mem_map_of_mem hl'
      obtain ⟨n, hn', e⟩ := List.mem_map.1 this
      rw [← e]; exact enter_takes (hn n hn')
  exact ⟨_, relined x ns, doSetBody_form c x ns hl hn, rfl, doView_form c (relined x ns) hp, hp, rfl, (z x.lines ns hl).1, (z x.lines ns hl).2⟩

example : ∃ v v', doView (c113do.form true) = .ok v ∧ v.setBody [.lam [none] (.name "a"), .lam [some "z", some "w"] (.name "b")] = (v', none) ∧
    v'.body = .ok [.lam [c113e] (.name "a"), .lam [c113e, some "w"] (.name "b")] := ⟨_, _, doView_form true c113do c113do_proper, rfl, rfl⟩

/-- Here, too, an assignment that fails can leave the form half written. -/
theorem C113_do_half_written_refuted (c : Bool) (env l l' : String) (f f' g g' : T) (h : (⟨env, [(l, f), (l', f')]⟩ : Do).Proper) (hg : IsLambda g) (hg' : ∀ ps t, g' ≠ .lam ps t) :
    ∃ v v', doView ((⟨env, [(l, f), (l', f')]⟩ : Do).form c) = .ok v ∧ v.setBody [g, g'] = (v', some .type) ∧ v'.body = .ok [enter env g, f'] := by
  have hi : inject (some env) g' = .error .type := by
    cases e : g' with
    | lam ps t => exact absurd e (hg' ps t)
    | _ => rfl
  refine ⟨_, ⟨(⟨env, [(l, enter env g), (l', f')]⟩ : Do).form c, c, some env⟩, doView_form c _ h, ?_, getItems_form c ⟨env, [(l, enter env g), (l', f')]⟩⟩
  have hb : DoView.body ⟨(⟨env, [(l, f), (l', f')]⟩ : Do).form c, c, some env⟩ = .ok [f, f'] := getItems_form c _
  simp only [DoView.setBody, hb]
  cases c
  · simp [Do.form, calls, setItems, inject_lambda hg, rewrap_named, hi]
  · simp [Do.form, calls, setItems, inject_lambda hg, rewrap_named, hi]

/-! ## `autocurry` -/

private theorem c113_named_curry (l : String) (f : T) (h : ∃ ps b, f = .lam ps b) :
    autocurry false (namedFn false l f) = namedFn true l (inside (autocurry false) f) := by
  obtain ⟨ps, b, rfl⟩ := h
  simp [namedFn, autocurry, autocurries, autocurryKws, uncurried, isCurryName, hasCurry, isx, getname, inside]

private theorem c113_curries_map {α : Type} (h : Bool) (f : α → T) (xs : List α) : autocurries h (xs.map f) = xs.map fun x => autocurry h (f x) := by
  induction xs with
  | nil => rfl
  | cons x xs ih => simp [autocurries, ih]

/-- **With `autocurry`.**  What `autocurry` makes of an expanded `let` or `do` is the curried format of the same form, with the same names, where the values and the bodies are
curried.  So the views read what they would read without `autocurry`, up to currying.
(Missing: forms curried by hand and decorators, see `C113_manual_curry_refuted` and `C113_decorator_refuted`.) -/
theorem C113_autocurry_partial :
    (∀ x : Let, x.Proper → autocurry false (x.form false) = (x.change (autocurry false) (autocurry false)).form true) ∧
    (∀ x : Let, x.ProperValues → autocurry false (x.deco false) = (x.change (autocurry false) (autocurry false)).deco true) ∧
    (∀ x : Do, x.Proper → autocurry false (x.form false) = ({ x with lines := x.lines.map fun l => (l.1, inside (autocurry false) l.2) } : Do).form true) := by
  have hb : ∀ x : Let, x.ProperValues → autocurry false (x.coded false) = (x.change (autocurry false) (autocurry false)).coded true := by
    intro x hp
    simp only [Let.coded, autocurry, c113_curries_map, Let.change, List.map_map, T.tuple.injEq]
    refine List.map_congr_left fun b hb => ?_
    by_cases hr : x.letrec = true
    · obtain ⟨ps, t, e⟩ := hp hr b hb
      have := c113_named_curry b.label b.value ⟨_, _, e⟩
      simp [bound, autocurry, autocurries, this, hr]
    · simp [bound, autocurry, autocurries, hr]
  refine ⟨fun x h => ?_, fun x h => ?_, fun x h => ?_⟩
  · obtain ⟨ps, t, e⟩ := h.1
    have h2 := c113_named_curry x.label x.body ⟨_, _, e⟩
    have hh : hasCurry (.call (.cap "letter") [x.coded false, namedFn false x.label x.body] [("mode", .const (.str x.mode))]) = (false, false) := rfl
    simp only [Let.form, calls, Bool.false_eq_true, if_false, if_true, autocurry, uncurried, isCurryName, hh, autocurries]
    simp [isx, getname, autocurryKws, autocurry, hb x h.2, h2]
    simp [Let.change, Let.mode]
    rfl
  · have hh : hasCurry (.call (.cap "letter") [x.coded false] [("mode", .const (.str x.mode)), ("_envname", .const (.str x.env))]) = (false, false) := by
      simp [hasCurry, Let.coded, isx, getname]
    simp only [Let.deco, calls, Bool.false_eq_true, if_false, if_true, autocurry, uncurried, isCurryName, hh, autocurries]
    simp [isx, getname, autocurryKws, autocurry, hb x h]
    simp [Let.change, Let.mode]
    rfl
  · have hh : (hasCurry (.call (.cap "dof") (x.lines.map fun l => namedFn false l.1 l.2) [])).2 = false := by
      cases hl : x.lines with
      | nil => rfl
      | cons l ls => cases ls with
        | cons => rfl
        | nil =>
          obtain ⟨ps, t, e⟩ := h.2 l (by simp [hl])
          simp [hasCurry, namedFn, e, isx, getname]
    simp only [Do.form, calls, Bool.false_eq_true, if_false, if_true, autocurry, uncurried, isCurryName, hh, c113_curries_map, List.map_map]
    simp only [isx, getname, autocurryKws, autocurry]
    simp
    intro a b hm
    obtain ⟨ps, t, e⟩ := h.2 (a, b) hm
    exact c113_named_curry a b ⟨_, _, e⟩

example : ∃ v, letView (autocurry false (c113rec.form false)) = .ok v ∧ v.kind.curried = true ∧ v.envname = some "e1" ∧ v.body = .ok (.lam [c113e] (c113v "y")) := by
  rw [C113_autocurry_partial.1 c113rec c113rec_proper]
  exact ⟨_, rfl, rfl, rfl, rfl⟩

private def c113third (bs : T) (l e : String) (ps : List (Option String)) (b : T) (m : String) : T := .call (.cap "currycall") [.cap "letter", bs,
  .call (.cap "currycall") [.call (.cap "currycall") [.cap "namelambda", .const (.str l)] [], .lam (some e :: ps) b] []] [("mode", .const (.str m))]

/-- In a lambda that is curried by hand, `autocurry` leaves the lambdas of a `let` alone, and makes a form of a third format: the view has neither the body nor the name of the
environment. -/
theorem C113_manual_curry_refuted (p : String) (x : Let) (h : x.Proper) : ∃ t, autocurry false (.call (.name "curry") [.lam [some p] (x.form false)] [])
      = .call (.name "curry") [.lam [some p] t] [] ∧ ∃ v, letView t = .ok v ∧ v.kind.curried = true ∧ v.envname = none ∧ v.body = .error .type := by
  obtain ⟨ps, b, e⟩ := h.1
  refine ⟨autocurry true (x.form false), ?_, ?_⟩
  · simp [autocurry, autocurries, autocurryKws, uncurried, isCurryName, hasCurry, isx, getname]
  · have ht : autocurry true (x.form false) = c113third (autocurry true (x.coded false)) x.label x.env ps (autocurry true b) x.mode := by
      simp [c113third, Let.form, calls, e, namedFn, autocurry, autocurries, autocurryKws, uncurried, isCurryName, hasCurry, isx, getname]
    rw [ht]
    refine ⟨⟨c113third (autocurry true (x.coded false)) x.label x.env ps (autocurry true b) x.mode, ⟨true, false, .str x.mode⟩, none⟩, ?_, rfl, rfl, rfl⟩
    have hi : ∀ bs b, islet (c113third bs x.label x.env ps b x.mode) = .ok (some ⟨true, false, .str x.mode⟩) := fun _ _ => rfl
    have hb : ∀ bs b, envOfBody ⟨true, false, .str x.mode⟩ (c113third bs x.label x.env ps b x.mode) = .error .type := fun _ _ => rfl
    have ha : ∀ bs b, theBindings true (c113third bs x.label x.env ps b x.mode) = .ok bs := fun _ _ => rfl
    simp only [letView, hi, envname, hb, envOfBindings, mode_letrec]
    cases hr : x.letrec
    · rfl
    · simp only [if_true, getBindings, ha, mode_letrec, hr]
      cases hbs : x.bindings with
      | nil => simp [Let.coded, hbs, autocurry, autocurries, elts, unwrapAll, Except.map]
      | cons y ys =>
        obtain ⟨qs, d, e'⟩ := h.2 hr y (by simp [hbs])
        simp [Let.coded, hbs, hr, e', bound, namedFn, autocurry, autocurries, autocurryKws, uncurried, isCurryName, hasCurry, isx, getname, elts, unwrapAll, pair, unwrap, arg, Except.map]

/-! ## Macros that use the views -/

/-- **`with autoref`** finds the name of the environment of each `let` and `do`, so that it does not look up attributes of it. -/
theorem C113_autoref (c : Bool) : (∀ x : Let, x.Proper → autorefEnv (x.form c) = .ok (some (some x.env))) ∧ (∀ x : Do, x.Proper → autorefEnv (x.form c) = .ok (some (some x.env))) := by
  refine ⟨fun x h => ?_, fun x h => ?_⟩
  · have hb : View.body ⟨x.form c, ⟨c, false, .str x.mode⟩, some x.env⟩ = .ok x.body := getBody_form c x
    simp only [autorefEnv, islet_form, letView_form c x h.1, hb]
    obtain ⟨ps, b, e⟩ := h.1
    rw [e]; rfl
  · have hb : DoView.body ⟨x.form c, c, some x.env⟩ = .ok (x.lines.map (·.2)) := getItems_form c x
    simp only [autorefEnv, islet_do, isdo_form, doView_form c x h, hb]
    cases hl : x.lines with
    | nil => exact absurd hl h.1
    | cons l ls =>
      obtain ⟨ps, b, e⟩ := h.2 l (by simp [hl])
      simp only [List.map_cons, e]; rfl

example : autorefEnv (c113rec.form true) = .ok (some (some "e1")) := (C113_autoref true).1 c113rec c113rec_proper

private def c113bound (f : T → T) (x : Let) : Let := { x with bindings := x.bindings.map fun b => { b with value := if x.letrec then inside f b.value else f b.value } }

private theorem c113_modBindings (c : Bool) (f : T → T) (x : Let) (h : x.ProperValues) : modBindings (.str x.mode) c f (x.coded c) = .ok ((c113bound f x).coded c) := by
  have hm : ∀ bs : List Binding, (x.letrec = true → ∀ b ∈ bs, Takes x.env b.value) →
      modValues (.str x.mode) c f (bs.map fun b => bound b.key (if x.letrec then namedFn c b.label b.value else b.value))
      = .ok (bs.map fun b => bound b.key (if x.letrec then namedFn c b.label (inside f b.value) else f b.value)) := by
    intro bs
    induction bs with
    | nil => intro; rfl
    | cons b bs ih =>
      intro hp
      have ih := ih fun hr b hb => hp hr b (by simp [hb])
      have hv : modValue (.str x.mode) c f (if x.letrec then namedFn c b.label b.value else b.value) = .ok (if x.letrec then namedFn c b.label (inside f b.value) else f b.value) := by
        cases hr : x.letrec
        · simp only [modValue, mode_let, hr]; rfl
        · obtain ⟨ps, t, e⟩ := hp hr b (by simp)
          simp only [modValue, mode_let, mode_letrec, hr, if_true, modUnwrap_named, e, modLambda]
          rfl
      simp only [List.map_cons, modValues, pair_bound, hv, ih]; rfl
  simp only [modBindings, Let.coded, elts, hm x.bindings h, setElts, c113bound, List.map_map, Except.ok.injEq, T.tuple.injEq]
  refine List.map_congr_left fun b _ => ?_
  by_cases hr : x.letrec = true <;> simp [hr]

private theorem c113_modForm (c : Bool) (x y : Let) (g : T → Except Err T) (h : g (x.coded c) = .ok (y.coded c)) (h1 : y.letrec = x.letrec) (h2 : y.label = x.label) (h3 : y.body = x.body) :
    modArg (if c then 1 else 0) g (x.form c) = .ok (y.form c) := by
  cases c <;> simp [Let.form, calls, modArg, h, Except.map, Let.mode, h1, h2, h3]

private theorem c113_modDeco (c : Bool) (x y : Let) (g : T → Except Err T) (h : g (x.coded c) = .ok (y.coded c)) (h1 : y.letrec = x.letrec) (h2 : y.env = x.env) :
    modArg (if c then 1 else 0) g (x.deco c) = .ok (y.deco c) := by
  cases c <;> simp [Let.deco, calls, modArg, h, Except.map, Let.mode, h1, h2]

/-- **`with lazify`** changes the values and the body of a `let` or `letrec`, inside of the lambdas, and nothing else. -/
theorem C113_lazify (c : Bool) (f g : T → T) (x : Let) (h : x.Proper) : lazifyLet f g (x.form c) = .ok (some ((x.change f g).form c)) := by
  have h1 := c113_modForm c x (c113bound f x) _ (c113_modBindings c f x h.2) rfl rfl rfl
  have h2 : getBody ⟨c, false, .str x.mode⟩ ((c113bound f x).form c) = .ok x.body := getBody_form c (c113bound f x)
  simp only [lazifyLet, islet_form, letView_form c x h.1, h1, h2]
  obtain ⟨ps, t, e⟩ := h.1
  cases c
  · simp [Let.form, calls, modArg, modUnwrap, namedFn, e, modLambda, inside, Except.map, Let.coded, Let.mode, Let.change, c113bound]
  · simp [Let.form, calls, modArg, modUnwrap, namedFn, e, modLambda, inside, Except.map, Let.coded, Let.mode, Let.change, c113bound]

example : lazifyLet (fun t => .other "lazy" [t]) (fun t => .other "force" [t]) (c113rec.form true) = .ok (some ((c113rec.change (fun t => .other "lazy" [t]) (fun t => .other "force" [t])).form true)) :=
  C113_lazify true _ _ c113rec c113rec_proper

/-- But `with autoref` and `with lazify` fail at a function with one of the decorators `@dlet`, `@dletrec`, `@blet` and `@bletrec`: they ask the view for the body, and get
a `TypeError`. -/
theorem C113_decorator_refuted (c : Bool) (f g : T → T) (x : Let) (h : x.ProperValues) :
    autorefEnv (x.deco c) = .error .type ∧ lazifyLet f g (x.deco c) = .error .type := by
  have hb : View.body ⟨x.deco c, ⟨c, true, .str x.mode⟩, if x.letrec = true ∧ x.bindings ≠ [] then some x.env else none⟩ = .error .type := getBody_deco c x
  refine ⟨by simp only [autorefEnv, islet_deco, letView_deco c x h, hb], ?_⟩
  have h1 := c113_modDeco c x (c113bound f x) _ (c113_modBindings c f x h) rfl rfl
  have h2 : getBody ⟨c, true, .str x.mode⟩ ((c113bound f x).deco c) = .error .type := getBody_deco c (c113bound f x)
  simp only [lazifyLet, islet_deco, letView_deco c x h, h1, h2]

end Unpy.Props
