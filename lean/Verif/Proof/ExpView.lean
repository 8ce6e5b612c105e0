import Verif.Spec.ExpView
/-! Lemmas for `Props/ExpView.lean`. -/
namespace Unpy.ExpView
open Spec

theorem getname_iff (x : String) (t : T) : getname t = some x ↔ Refers x t := by
  constructor
  · intro h
    induction t using getname.induct with
    | case1 t ih => exact .done (ih (by simpa [getname] using h))
    | case2 y => simp only [getname, Option.some.injEq] at h; subst h; exact .name
    | case3 y => simp only [getname, Option.some.injEq] at h; subst h; exact .captured
    | case4 t y => simp only [getname, Option.some.injEq] at h; subst h; exact .member t
    | case5 t h1 h2 h3 h4 => unfold getname at h; split at h <;> simp_all
  · intro h
    induction h with
    | name => rfl
    | captured => rfl
    | member => rfl
    | done _ ih => simpa [getname] using ih

theorem isx_iff (t : T) (x : String) : isx t x = true ↔ Refers x t := by simp [isx, getname_iff]

theorem refers_unique {x y : String} {t : T} (h : Refers x t) (h' : Refers y t) : x = y := by
  have := (getname_iff x t).2 h
  have := (getname_iff y t).2 h'
  simp_all

theorem islet_form (c : Bool) (x : Let) : islet (x.form c) = .ok (some ⟨c, false, .str x.mode⟩) := by cases c <;> rfl
theorem islet_deco (c : Bool) (x : Let) : islet (x.deco c) = .ok (some ⟨c, true, .str x.mode⟩) := by cases c <;> rfl
theorem isdo_let (c : Bool) (x : Let) : isdo (x.form c) = .ok none := by cases c <;> rfl
theorem isdo_form (c : Bool) (x : Do) : isdo (x.form c) = .ok (some c) := by cases c <;> rfl
theorem islet_do (c : Bool) (x : Do) : islet (x.form c) = .ok none := by cases c <;> rfl

theorem unwrap_named (c : Bool) (l : String) (f : T) : unwrap c (namedFn c l f) = .ok f := by cases c <;> rfl

theorem rewrap_named (c : Bool) (l : String) (f new : T) : rewrap c new (namedFn c l f) = .ok (namedFn c l new) := by cases c <;> rfl

theorem relabel_named (c : Bool) (l m : String) (f : T) : relabel c (.const (.str m)) (namedFn c l f) = .ok (namedFn c m f) := by cases c <;> rfl

theorem modUnwrap_named (c : Bool) (l : String) (f : T) (g : T → Except Err T) : modUnwrap c g (namedFn c l f) = (g f).map (namedFn c l) := by
  cases c <;> cases h : g f <;> simp [modUnwrap, namedFn, modArg, h, Except.map]

theorem theBindings_form (c : Bool) (x : Let) : theBindings c (x.form c) = .ok (x.coded c) := by cases c <;> rfl
theorem theBindings_deco (c : Bool) (x : Let) : theBindings c (x.deco c) = .ok (x.coded c) := by cases c <;> rfl

theorem pair_bound (k : String) (v : T) : pair (bound k v) = .ok (.const (.str k), v) := rfl

theorem unwrapAll_coded (c : Bool) (bs : List Binding) :
    unwrapAll c (bs.map fun b => bound b.key (namedFn c b.label b.value)) = .ok (bs.map fun b => bound b.key b.value) := by
  induction bs with
  | nil => rfl
  | cons b bs ih => simp only [List.map_cons, unwrapAll, pair_bound, unwrap_named, ih]; rfl

theorem mode_letrec (x : Let) : (Const.str x.mode = .str "letrec") ↔ x.letrec = true := by
  cases h : x.letrec <;> simp [Let.mode, h]
theorem mode_let (x : Let) : (Const.str x.mode = .str "let") ↔ x.letrec = false := by
  cases h : x.letrec <;> simp [Let.mode, h]

theorem getBindings_of (c d : Bool) (x : Let) (t : T) (h : theBindings c t = .ok (x.coded c)) : getBindings ⟨c, d, .str x.mode⟩ t = .ok x.seen := by
  cases hr : x.letrec
  · have : ¬ (Const.str x.mode = .str "letrec") := by rw [mode_letrec, hr]; simp
    simp only [getBindings, h, this, if_false]; simp [Let.coded, Let.seen, hr]
  · have : (Const.str x.mode = .str "letrec") := by rw [mode_letrec, hr]
    simp only [getBindings, h, this, if_true]
    simp [Let.coded, Let.seen, hr, elts, unwrapAll_coded, Except.map]

theorem getBody_form (c : Bool) (x : Let) : getBody ⟨c, false, .str x.mode⟩ (x.form c) = .ok x.body := by cases c <;> rfl
theorem getBody_deco (c : Bool) (x : Let) : getBody ⟨c, true, .str x.mode⟩ (x.deco c) = .error .type := by cases c <;> rfl

theorem lambdaParam_takes {e : String} {t : T} (h : Takes e t) : lambdaParam t = .ok (some e) := by
  obtain ⟨ps, b, rfl⟩ := h; rfl

theorem envname_form (c : Bool) (x : Let) (h : Takes x.env x.body) : envname ⟨c, false, .str x.mode⟩ (x.form c) = .ok (some x.env) := by
  simp [envname, envOfBody, getBody_form, lambdaParam_takes h]

theorem envname_deco (c : Bool) (x : Let) (h : x.ProperValues) :
    envname ⟨c, true, .str x.mode⟩ (x.deco c) = .ok (if x.letrec = true ∧ x.bindings ≠ [] then some x.env else none) := by
  simp only [envname, envOfBody, getBody_deco, envOfBindings, mode_letrec]
  cases hr : x.letrec
  · simp
  · simp only [if_true, getBindings_of c true x _ (theBindings_deco c x)]
    cases hb : x.bindings with
    | nil => simp [Let.seen, hb, elts]
    | cons b bs =>
      have := h hr b (by simp [hb])
      simp [Let.seen, hb, elts, bound, pair, lambdaParam_takes this]

/-- The view of a form. -/
theorem letView_form (c : Bool) (x : Let) (h : Takes x.env x.body) : letView (x.form c) = .ok ⟨x.form c, ⟨c, false, .str x.mode⟩, some x.env⟩ := by
  simp [letView, islet_form, envname_form c x h, Except.map]

theorem letView_deco (c : Bool) (x : Let) (h : x.ProperValues) :
    letView (x.deco c) = .ok ⟨x.deco c, ⟨c, true, .str x.mode⟩, if x.letrec = true ∧ x.bindings ≠ [] then some x.env else none⟩ := by
  simp only [letView, islet_deco, envname_deco c x h]; rfl

/-! ## Writing -/

theorem inject_lambda {e : String} {t : T} (h : IsLambda t) : inject (some e) t = .ok (enter e t) := by
  obtain ⟨p, ps, b, rfl⟩ := h; rfl

theorem enter_takes {e : String} {t : T} (h : IsLambda t) : Takes e (enter e t) := by
  obtain ⟨p, ps, b, rfl⟩ := h; exact ⟨ps, b, rfl⟩

/-- A binding that has been written. -/
def wr (e : String) (k : String) (v : T) : Binding := ⟨k, "letrec_binding_" ++ k, enter e v⟩

theorem setValue_named (c : Bool) (e l f k v) (h : IsLambda v) :
    setValue c (some e) (namedFn c l f) (.const (.str k)) v = (namedFn c ("letrec_binding_" ++ k) (enter e v), none) := by
  simp [setValue, inject_lambda h, rewrap_named, relabel_named, label]

theorem setValues_coded (c : Bool) (e : String) : ∀ (bs : List Binding) (ns : List (String × T)), bs.length = ns.length → (∀ n ∈ ns, IsLambda n.2) →
    setValues c (some e) (bs.map fun b => bound b.key (namedFn c b.label b.value)) (ns.map fun n => bound n.1 n.2)
      = .ok (ns.map fun n => bound n.1 (namedFn c ("letrec_binding_" ++ n.1) (enter e n.2)))
  | [], [], _, _ => rfl
  | b :: bs, n :: ns, hl, hv => by
    have ih := setValues_coded c e bs ns (by simpa using hl) (fun n hn => hv n (by simp [hn]))
    simp only [List.map_cons, setValues, pair_bound, setValue_named c e _ _ _ _ (hv n (by simp)), ih]
    rfl

theorem all_isPair (ns : List (String × T)) : (ns.map fun n => bound n.1 n.2).all isPair = true := by
  simp [List.all_eq_true, bound, isPair]
theorem all_constKey (ns : List (String × T)) : (ns.map fun n => bound n.1 n.2).all constKey = true := by
  simp [List.all_eq_true, bound, constKey]

theorem setElts_coded (bs : List T) (c : Bool) (x : Let) : setElts bs (x.coded c) = .ok (.tuple bs) := rfl

theorem putBindings_form (c : Bool) (x : Let) (e : Option String) (bs : List T) :
    putBindings ⟨x.form c, ⟨c, false, .str x.mode⟩, e⟩ bs =
      ⟨calls c (.cap "letter") [.tuple bs, namedFn c x.label x.body] [("mode", .const (.str x.mode))], ⟨c, false, .str x.mode⟩, e⟩ := by cases c <;> rfl
theorem putBindings_deco (c : Bool) (x : Let) (e : Option String) (bs : List T) :
    putBindings ⟨x.deco c, ⟨c, true, .str x.mode⟩, e⟩ bs =
      ⟨calls c (.cap "letter") [.tuple bs] [("mode", .const (.str x.mode)), ("_envname", .const (.str x.env))], ⟨c, true, .str x.mode⟩, e⟩ := by cases c <;> rfl

/-- A `let` with new bindings. -/
def rebound (x : Let) (ns : List (String × T)) : Let :=
  { x with bindings := ns.map fun n => ⟨n.1, "letrec_binding_" ++ n.1, if x.letrec then enter x.env n.2 else n.2⟩ }

theorem checkBindings_ok (v : View) (x : Let) (ns : List (String × T)) (hb : v.bindings = .ok x.seen) (hl : ns.length = x.bindings.length) :
    checkBindings v (.tuple (ns.map fun n => bound n.1 n.2)) = .ok (ns.map fun n => bound n.1 n.2) := by
  simp only [checkBindings, all_isPair, all_constKey, hb, Let.seen, elts, if_true]
  simp [hl]

/-- What `setBindings` does, for both kinds of forms. -/
theorem setBindings_of (c d : Bool) (x : Let) (t : T) (e : Option String) (ns : List (String × T)) (ht : theBindings c t = .ok (x.coded c)) (hl : ns.length = x.bindings.length)
    (hv : x.letrec = true → ∀ n ∈ ns, IsLambda n.2) (he : x.letrec = true → ns ≠ [] → e = some x.env) :
    View.setBindings ⟨t, ⟨c, d, .str x.mode⟩, e⟩ (.tuple (ns.map fun n => bound n.1 n.2))
      = (putBindings ⟨t, ⟨c, d, .str x.mode⟩, e⟩ ((rebound x ns).bindings.map fun b => bound b.key (if x.letrec then namedFn c b.label b.value else b.value)), none) := by
  have hc := checkBindings_ok ⟨t, ⟨c, d, .str x.mode⟩, e⟩ x ns (getBindings_of c d x t ht) hl
  simp only [View.setBindings, hc, mode_letrec]
  cases hr : x.letrec
  · simp [rebound, hr, Function.comp_def]
  · simp only [if_true, ht]
    by_cases hn : ns = []
    · subst hn
      have : x.bindings = [] := by simpa using hl.symm
      simp [Let.coded, this, elts, setValues, rebound]
    · have he := he hr hn
      subst he
      have := setValues_coded c x.env x.bindings ns hl.symm (hv hr)
      simp only [Let.coded, hr, if_true, elts, this, rebound, List.map_map]
      rfl

theorem rebound_proper (x : Let) (ns : List (String × T)) (hv : x.letrec = true → ∀ n ∈ ns, IsLambda n.2) : (rebound x ns).ProperValues := by
  intro hr b hb
  have hr' : x.letrec = true := hr
  simp only [rebound, List.mem_map] at hb
  obtain ⟨n, hn, rfl⟩ := hb
  simp [hr']
  exact enter_takes (hv hr' n hn)

theorem rebound_form (c : Bool) (x : Let) (ns : List (String × T)) :
    calls c (.cap "letter") [.tuple ((rebound x ns).bindings.map fun b => bound b.key (if x.letrec then namedFn c b.label b.value else b.value)), namedFn c x.label x.body]
      [("mode", .const (.str x.mode))] = (rebound x ns).form c := rfl
theorem rebound_deco (c : Bool) (x : Let) (ns : List (String × T)) :
    calls c (.cap "letter") [.tuple ((rebound x ns).bindings.map fun b => bound b.key (if x.letrec then namedFn c b.label b.value else b.value))]
      [("mode", .const (.str x.mode)), ("_envname", .const (.str x.env))] = (rebound x ns).deco c := rfl

/-! ## `do` -/

theorem items_form (c : Bool) (x : Do) : items c (x.form c) = .ok (x.lines.map fun l => namedFn c l.1 l.2) := by cases c <;> rfl

theorem unwrapItems_named (c : Bool) (ls : List (String × T)) : unwrapItems c (ls.map fun l => namedFn c l.1 l.2) = .ok (ls.map (·.2)) := by
  induction ls with
  | nil => rfl
  | cons l ls ih => simp [unwrapItems, unwrap_named, ih, Except.map]

theorem getItems_form (c : Bool) (x : Do) : getItems c (x.form c) = .ok (x.lines.map (·.2)) := by
  simp [getItems, items_form, unwrapItems_named]

theorem doView_form (c : Bool) (x : Do) (h : x.Proper) : doView (x.form c) = .ok ⟨x.form c, c, some x.env⟩ := by
  obtain ⟨h1, h2⟩ := h
  simp only [doView, isdo_form, doEnvname, getItems_form]
  cases hl : x.lines with
  | nil => exact absurd hl h1
  | cons l ls => simp [lambdaParam_takes (h2 l (by simp [hl])), Except.map]

theorem setItems_named (c : Bool) (e : String) : ∀ (ls : List (String × T)) (ns : List T), ls.length = ns.length → (∀ n ∈ ns, IsLambda n) →
    setItems c (some e) (ls.map fun l => namedFn c l.1 l.2) ns = (List.zipWith (fun l n => namedFn c l.1 (enter e n)) ls ns, none)
  | [], [], _, _ => rfl
  | l :: ls, n :: ns, hl, hv => by
    have ih := setItems_named c e ls ns (by simpa using hl) (fun n hn => hv n (by simp [hn]))
    simp only [List.map_cons, setItems, inject_lambda (hv n (by simp)), rewrap_named, ih]
    rfl

/-- A `do` with new lines. -/
def relined (x : Do) (ns : List T) : Do := { x with lines := List.zipWith (fun l n => (l.1, enter x.env n)) x.lines ns }

theorem relined_form (c : Bool) (x : Do) (ns : List T) :
    (relined x ns).form c = calls c (.cap "dof") (List.zipWith (fun l n => namedFn c l.1 (enter x.env n)) x.lines ns) [] := by
  simp [relined, Do.form, List.map_zipWith]

theorem doSetBody_form (c : Bool) (x : Do) (ns : List T) (hl : ns.length = x.lines.length) (hv : ∀ n ∈ ns, IsLambda n) :
    DoView.setBody ⟨x.form c, c, some x.env⟩ ns = (⟨(relined x ns).form c, c, some x.env⟩, none) := by
  have hb : DoView.body ⟨x.form c, c, some x.env⟩ = .ok (x.lines.map (·.2)) := getItems_form c x
  have hs := setItems_named c x.env x.lines ns hl.symm hv
  rw [relined_form]
  simp only [DoView.setBody, hb]
  have : ¬ ns.length ≠ (x.lines.map (·.2)).length := by simp [hl]
  simp only [this, if_false]
  cases c
  · simp only [Do.form, calls, if_false, Bool.false_eq_true, hs]
  · simp only [Do.form, calls, if_true, List.drop_succ_cons, List.drop_zero, hs]; rfl

end Unpy.ExpView
