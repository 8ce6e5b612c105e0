import Verif.Proof.LetView
/-!
# C108: the ways to write a `let`, and views of it
-/
namespace Unpy.Props
open Unpy.LetView Unpy.Spec.LetView Unpy.Proof.LetView

/-! ## Bindings -/

/-- Bindings are accepted if and only if they are written in one of the documented ways, with names (or, in `let_syntax`, templates) on the left; then the
result is these bindings, in order.  Otherwise, there is a SyntaxError. -/
theorem C108_bindings (template : Bool) (ts : List T) :
    (∀ ps, Bindings template ps ts → canonize template ts = .ok (pairs ps)) ∧
    (∀ bs, canonize template ts = .ok bs → ∃ ps, Bindings template ps ts ∧ bs = pairs ps) ∧
    ((∀ ps, ¬ Bindings template ps ts) → canonize template ts = .error .syntaxError) := by
  refine ⟨fun ps h => canonize_of h, fun bs h => canonize_ok h, fun h => ?_⟩
  cases hc : canonize template ts with
  | ok bs => obtain ⟨ps, hp, _⟩ := canonize_ok hc; exact absurd hp (h ps)
  | error e => rw [canonize_err hc]

private def x : T := .name "x"
private def y : T := .name "y"
private def c (n : String) : T := .valued n []
private def two : List (T × T) := [(x, c "1"), (y, c "2")]

example : Bindings false two [.walrus x (c "1"), .shift y (c "2")] :=
  ⟨.assigns (.cons (.walrus _ _) (.cons (.shift _ _) .nil)), by simp [two]; exact ⟨.plain (.name _), .plain (.name _)⟩⟩
example : canonize false [.walrus x (c "1"), .shift y (c "2")] = canonize false [.list [x, c "1"], .list [y, c "2"]] := rfl
example : canonize false [x, c "1"] = .ok (pairs [(x, c "1")]) := rfl
example : canonize false [.walrus x (c "1"), .list [y, c "2"]] = .error .syntaxError := rfl

/-- The way bindings are written has one meaning only. -/
theorem C108_unambiguous (template : Bool) (ps qs : List (T × T)) (ts : List T) (hp : Bindings template ps ts) (hq : Bindings template qs ts) : ps = qs := by
  have h : pairs ps = pairs qs := by
    have h := (canonize_of hp).symm.trans (canonize_of hq)
    injection h
  clear hp hq
  unfold pairs at h
  induction ps generalizing qs with
  | nil => cases qs with
    | nil => rfl
    | cons q qs => cases h
  | cons p ps ih => cases qs with
    | nil => cases h
    | cons q qs =>
      simp only [List.map_cons, List.cons.injEq, T.tuple.injEq] at h
      rw [ih qs h.2]
      congr 1
      exact Prod.ext h.1.1 h.1.2.1

example : Bindings false [(x, y)] [x, y] ∧ ¬ Bindings false [] [x, y] :=
  ⟨⟨.single x y, by simp; exact .plain (.name _)⟩, fun h => by cases C108_unambiguous false _ _ _ h ⟨.single x y, by simp; exact .plain (.name _)⟩⟩

/-! ## Reading -/

/-- The macro interface: with the bindings in the macro arguments, or inside of the brackets (there, names only), in any of the ways to write it, `let` gets the bindings, in
order, and the body.
(Missing: templates inside of the brackets, see `C108_template_refuted`.) -/
theorem C108_macro_partial (template : Bool) (ps : List (T × T)) (body : T) :
    (∀ ts, ts ≠ [] → Bindings template ps ts → destructure template ts body = .ok (pairs ps, body)) ∧
    (∀ e, Inside false ps body e → destructure template [] e = .ok (pairs ps, body)) := by
  refine ⟨fun ts hne h => ?_, fun e h => ?_⟩
  · simp [destructure, hne, canonize_of h, Except.map]
  · obtain ⟨k, h1, h2, h3⟩ := view_inside h
    simp only [destructure, ne_eq, not_true_eq_false, if_false, h1, h2, h3]

example : destructure false [x, c "1"] y = destructure false [] (.tuple [y, .sub (.name "where") (.walrus x (c "1"))]) := rfl
example : Inside false [(x, c "1")] y (.tuple [y, .sub (.name "where") (.walrus x (c "1"))]) :=
  .whereBrackets y ⟨.assigns (.cons (.walrus _ _) .nil), by simp; exact .plain (.name _)⟩ (.one _ (by simp) (by simp))

/-- A view of a `let` form, however it is written, has the bindings, in order, and the body, and the mode. -/
theorem C108_read (mode : String) (hm : mode ∈ modes) (ps : List (T × T)) (body t : T) (h : Let false mode ps body t) :
    ∃ v, view t = .ok v ∧ v.mode = some mode ∧ v.bindings = .ok (pairs ps) ∧ v.body = .ok body := by
  obtain ⟨k, h1, h2, h3⟩ := view_let hm h
  exact ⟨_, h1, rfl, h2, h3⟩

/-- The same for what is inside of the brackets of `let[[...] in body]` and `let[body, where[...]]`; there the mode is not known. -/
theorem C108_read_inside (ps : List (T × T)) (body t : T) (h : Inside false ps body t) :
    ∃ v, view t = .ok v ∧ v.mode = none ∧ v.bindings = .ok (pairs ps) ∧ v.body = .ok body := by
  obtain ⟨k, h1, h2, h3⟩ := view_inside h
  exact ⟨_, h1, rfl, h2, h3⟩

/-- `let[[x := 1, y << 2] in x]` -/
private def ex : T := .sub (.name "let") (.compare (.list [.walrus x (c "1"), .shift y (c "2")]) ["in"] [x])

private theorem ex_let : Let false "let" two x ex :=
  .inside (.inList x ⟨.assigns (.cons (.walrus _ _) (.cons (.shift _ _) .nil)), by simp [two]; exact ⟨.plain (.name _), .plain (.name _)⟩⟩)

example : Let false "let" two x ex := ex_let
/-- `let[[x, 1], [y, 2]][x]` -/
example : Let false "let" two x (.sub (.sub (.name "let") (.tuple [.list [x, c "1"], .list [y, c "2"]])) x) :=
  .brackets x ⟨.lists two, by simp [two]; exact ⟨.plain (.name _), .plain (.name _)⟩⟩ (.tuple _)

/-- A view of a decorator has the bindings and the mode. -/
theorem C108_read_decorator (mode : String) (hm : mode ∈ decoModes) (ps : List (T × T)) (t : T) (h : Deco mode ps t) :
    ∃ v, view t = .ok v ∧ v.mode = some mode ∧ v.bindings = .ok (pairs ps) := by
  have hm' : mode ∈ decoNames := hm
  cases h with
  | brackets hb hn =>
    exact ⟨⟨_, .decorator, some mode, true⟩, by simp [view, islet, hm'] <;> rfl, rfl, by simp [View.bindings, bindingsIn, macroargs_of hn, canonize_of hb]⟩
  | parens hb =>
    exact ⟨⟨_, .decorator, some mode, true⟩, by simp [view, islet, hm'] <;> rfl, rfl, by simp [View.bindings, bindingsIn, canonize_of hb]⟩

example : Deco "dlet" [(x, c "1")] (.sub (.name "dlet") (.walrus x (c "1"))) :=
  .brackets ⟨.assigns (.cons (.walrus _ _) .nil), by simp; exact .plain (.name _)⟩ (.one _ (by simp) (by simp))

/-- If a view can be made, and the bindings can be read, then the tree is in the grammar, with these bindings, and with this body.  Otherwise, there is a TypeError if
it is no `let` form, or a SyntaxError if the bindings are not correct. -/
theorem C108_only (t : T) (hp : Parsed t) :
    (∀ v bs, view t = .ok v → v.bindings = .ok bs → ∃ ps, bs = pairs ps ∧
      ((∃ mode body, mode ∈ modes ∧ v.mode = some mode ∧ v.body = .ok body ∧ Let false mode ps body t) ∨
       (∃ body, v.mode = none ∧ v.body = .ok body ∧ Inside false ps body t) ∨
       (∃ mode, mode ∈ decoModes ∧ v.mode = some mode ∧ Deco mode ps t))) ∧
    (∀ e, view t = .error e → e = .typeError) ∧
    (∀ v e, view t = .ok v → v.bindings = .error e → e = .syntaxError) := by
  have hpc : ∀ l ops cs, t = .compare l ops cs → ops.length = cs.length := by
    rintro l ops cs rfl
    cases hp with
    | compare _ _ _ h => exact h
    | other _ h => exact absurd rfl (h _ _ _)
  have hps : ∀ {v e}, t = .sub v e → ∀ l ops cs, e = .compare l ops cs → ops.length = cs.length := by
    rintro v e rfl l ops cs rfl
    cases hp with
    | sub _ _ _ _ h => exact h
    | other _ _ h => exact absurd rfl (h _ _ _ _)
  refine ⟨fun v bs hv hb => ?_, fun e he => ?_, fun v e hv he => ?_⟩
  · unfold view at hv
    split at hv
    · rename_i k m hi
      cases hv
      rcases islet_cases hi with ⟨rfl, hm, ⟨b, rfl⟩ | ⟨args, rfl⟩⟩ | ⟨hm, ⟨rfl, ⟨b, body, rfl⟩ | ⟨args, body, rfl⟩⟩ | ⟨e, rfl, hk⟩⟩
      · obtain ⟨ps, h, rfl⟩ := canonize_ok (show canonize false (macroargs b) = .ok bs from hb)
        exact ⟨ps, rfl, .inr (.inr ⟨m, hm, rfl, .brackets h (bracketed_macroargs b)⟩)⟩
      · obtain ⟨ps, h, rfl⟩ := canonize_ok (show canonize false args = .ok bs from hb)
        exact ⟨ps, rfl, .inr (.inr ⟨m, hm, rfl, .parens h⟩)⟩
      · obtain ⟨ps, h, rfl⟩ := canonize_ok (show canonize false (macroargs b) = .ok bs from hb)
        exact ⟨ps, rfl, .inl ⟨m, body, hm, rfl, rfl, .brackets body h (bracketed_macroargs b)⟩⟩
      · obtain ⟨ps, h, rfl⟩ := canonize_ok (show canonize false args = .ok bs from hb)
        exact ⟨ps, rfl, .inl ⟨m, body, hm, rfl, rfl, .parens body h⟩⟩
      · obtain ⟨ps, body, rfl, h1, h2⟩ := inside_of hk (hps rfl) (by rfl) hb
        exact ⟨ps, rfl, .inl ⟨m, body, hm, rfl, h1, .inside h2⟩⟩
    · split at hv
      · rename_i h hk
        cases hv
        obtain ⟨ps, body, rfl, h1, h2⟩ := inside_of hk hpc (by rfl) hb
        exact ⟨ps, rfl, .inr (.inl ⟨body, rfl, h1, h2⟩)⟩
      · cases hv
  · unfold view at he
    split at he
    · cases he
    · split at he
      · cases he
      · cases he; rfl
  · have hh : ∀ {x k m c tt}, haskelly x = some k → (View.mk tt k m c).expr = .ok x → (View.mk tt k m c).bindings = .error e → e = .syntaxError := by
      intro x k m c tt hk hx hb
      unfold haskelly at hk
      split at hk
      · split at hk
        · split at hk
          · cases hk; simp only [View.bindings, hx] at hb; exact canonize_err hb
          · cases hk
        · split at hk
          · cases hk; simp only [View.bindings, hx] at hb; exact canonize_err hb
          · cases hk
        · cases hk
      · split at hk
        · cases hk; simp only [View.bindings, hx, bindingsIn] at hb; exact canonize_err hb
        · cases hk
      · split at hk
        · cases hk; simp only [View.bindings, hx, bindingsIn] at hb; exact canonize_err hb
        · cases hk
      · cases hk
    unfold view at hv
    split at hv
    · rename_i k m hi
      cases hv
      rcases islet_cases hi with ⟨rfl, hm, ⟨b, rfl⟩ | ⟨args, rfl⟩⟩ | ⟨hm, ⟨rfl, ⟨b, body, rfl⟩ | ⟨args, body, rfl⟩⟩ | ⟨e', rfl, hk⟩⟩
      · exact canonize_err (show canonize false (macroargs b) = .error e from he)
      · exact canonize_err (show canonize false args = .error e from he)
      · exact canonize_err (show canonize false (macroargs b) = .error e from he)
      · exact canonize_err (show canonize false args = .error e from he)
      · exact hh hk (by rfl) he
    · split at hv
      · rename_i h hk
        cases hv
        exact hh hk (by rfl) he
      · cases hv

example : Parsed ex := .sub _ _ _ _ rfl
example : view (.sub (.name "f") x) = .error .typeError := rfl
example : ((view (.sub (.sub (.name "let") (c "1")) x)).bind View.bindings) = .error .syntaxError := rfl

/-! ## Writing -/

/-- Writing the bindings by a view changes the tree to a `let` form of the same mode, with the new bindings, and with the same body; and the view is a view of this tree. -/
theorem C108_write_bindings (py39 : Bool) (mode : String) (hm : mode ∈ modes) (ps qs : List (T × T)) (body t : T) (h : Let false mode ps body t)
    (hq : ∀ q ∈ qs, Target false q.1) :
    ∃ v v', view t = .ok v ∧ v.setBindings py39 (pairs qs) = .ok v' ∧ Let false mode qs body v'.tree ∧ view v'.tree = .ok v' := by
  obtain ⟨h1, h2⟩ := notDeco hm
  have hb' := pairs_bindings hq
  cases h with
  | brackets body hb hn =>
    refine ⟨⟨_, .lispy, some mode, true⟩, ⟨.sub (.sub (.name mode) (.tuple (pairs qs))) body, .lispy, some mode, true⟩, by simp [view, islet, isletExpr, h2] <;> rfl, ?_,
      .brackets body hb' (.tuple _), by simp [view, islet, isletExpr, h2]⟩
    simp [View.setBindings, setBindingsIn, setSlice, selfValue, Except.map]
  | parens body hb =>
    refine ⟨⟨_, .lispy, some mode, true⟩, ⟨.sub (.call (.name mode) (pairs qs)) body, .lispy, some mode, true⟩, by simp [view, islet, isletExpr, h2] <;> rfl, ?_,
      .parens body hb', by simp [view, islet, isletExpr, h2]⟩
    simp [View.setBindings, setBindingsIn, Except.map]
  | inside hi => cases hi with
    | inList body hb =>
      refine ⟨⟨_, .letIn, some mode, true⟩, ⟨.sub (.name mode) (.compare (.tuple (pairs qs)) ["in"] [body]), .letIn, some mode, true⟩,
        by simp [view, islet_sub hm, haskelly, canonize_of (bindings_mono hb)] <;> rfl, ?_, .inside (.inTuple body hb'),
        by simp [view, islet_sub hm, haskelly, canonize_of (bindings_mono hb')]⟩
      simp [View.setBindings, View.expr, getSlice, View.setExpr]
    | inTuple body hb =>
      refine ⟨⟨_, .letIn, some mode, true⟩, ⟨.sub (.name mode) (.compare (.tuple (pairs qs)) ["in"] [body]), .letIn, some mode, true⟩,
        by simp [view, islet_sub hm, haskelly, canonize_of (bindings_mono hb)] <;> rfl, ?_, .inside (.inTuple body hb'),
        by simp [view, islet_sub hm, haskelly, canonize_of (bindings_mono hb')]⟩
      simp [View.setBindings, View.expr, getSlice, View.setExpr]
    | whereBrackets body hb hn =>
      refine ⟨⟨_, .letWhere, some mode, true⟩, ⟨.sub (.name mode) (.tuple [body, .sub (.name "where") (.tuple (pairs qs))]), .letWhere, some mode, true⟩,
        by simp [view, islet_sub hm, haskelly] <;> rfl, ?_, .inside (.whereBrackets body hb' (.tuple _)), by simp [view, islet_sub hm, haskelly]⟩
      simp [View.setBindings, View.expr, getSlice, View.setExpr, setBindingsIn, setSlice, selfValue, Except.map]
    | whereParens body hb =>
      refine ⟨⟨_, .letWhere, some mode, true⟩, ⟨.sub (.name mode) (.tuple [body, .call (.name "where") (pairs qs)]), .letWhere, some mode, true⟩,
        by simp [view, islet_sub hm, haskelly] <;> rfl, ?_, .inside (.whereParens body hb'), by simp [view, islet_sub hm, haskelly]⟩
      simp [View.setBindings, View.expr, getSlice, View.setExpr, setBindingsIn, Except.map]

example : ∃ v v', view ex = .ok v ∧ v.setBindings true (pairs [(y, x)]) = .ok v' ∧ Let false "let" [(y, x)] x v'.tree ∧ view v'.tree = .ok v' :=
  C108_write_bindings true "let" (by decide) two [(y, x)] x ex ex_let (by simp; exact .plain (.name _))

/-- The same for decorators. -/
theorem C108_write_decorator (py39 : Bool) (mode : String) (hm : mode ∈ decoModes) (ps qs : List (T × T)) (t : T) (h : Deco mode ps t)
    (hq : ∀ q ∈ qs, Target false q.1) :
    ∃ v v', view t = .ok v ∧ v.setBindings py39 (pairs qs) = .ok v' ∧ Deco mode qs v'.tree ∧ view v'.tree = .ok v' := by
  have hm' : mode ∈ decoNames := hm
  have hb' := pairs_bindings hq
  cases h with
  | brackets hb hn =>
    refine ⟨⟨_, .decorator, some mode, true⟩, ⟨.sub (.name mode) (.tuple (pairs qs)), .decorator, some mode, true⟩, by simp [view, islet, hm'] <;> rfl, ?_,
      .brackets hb' (.tuple _), by simp [view, islet, hm']⟩
    simp [View.setBindings, setBindingsIn, setSlice, selfValue, Except.map]
  | parens hb =>
    refine ⟨⟨_, .decorator, some mode, true⟩, ⟨.call (.name mode) (pairs qs), .decorator, some mode, true⟩, by simp [view, islet, hm'] <;> rfl, ?_,
      .parens hb', by simp [view, islet, hm']⟩
    simp [View.setBindings, setBindingsIn, Except.map]

example : Deco "blet" two (.call (.name "blet") (pairs two)) :=
  .parens ⟨.tuples two, by simp [two]; exact ⟨.plain (.name _), .plain (.name _)⟩⟩

/-- Writing the body: the same.  (With Python 3.9 or later, for `let[...][body]`, only if the new body has no attribute `value`.)
(Missing: bodies with an attribute `value`, see `C108_write_body_refuted`, and decorators, see `C108_decorator_body_refuted`.) -/
theorem C108_write_body_partial (py39 : Bool) (mode : String) (hm : mode ∈ modes) (ps : List (T × T)) (body new t : T) (h : Let false mode ps body t)
    (hn : py39 = true → HasValue new → ∃ e, t = .sub (.name mode) e) :
    ∃ v v', view t = .ok v ∧ v.setBody py39 new = .ok v' ∧ Let false mode ps new v'.tree ∧ view v'.tree = .ok v' := by
  obtain ⟨h1, h2⟩ := notDeco hm
  have hself : (¬ ∃ e, t = .sub (.name mode) e) → (if py39 then selfValue new else new) = new := by
    intro he
    cases py39 with
    | false => rfl
    | true =>
      have hv : ¬ HasValue new := fun hv => he (hn rfl hv)
      cases new <;> first | rfl | exact absurd (by constructor) hv
  cases h with
  | brackets body hb hn' =>
    refine ⟨⟨_, .lispy, some mode, true⟩, ⟨.sub _ new, .lispy, some mode, true⟩, by simp [view, islet, isletExpr, h2] <;> rfl, ?_,
      .brackets new hb hn', by simp [view, islet, isletExpr, h2]⟩
    simp only [View.setBody, setSlice, hself (by simp), Except.map]
  | parens body hb =>
    refine ⟨⟨_, .lispy, some mode, true⟩, ⟨.sub _ new, .lispy, some mode, true⟩, by simp [view, islet, isletExpr, h2] <;> rfl, ?_,
      .parens new hb, by simp [view, islet, isletExpr, h2]⟩
    simp only [View.setBody, setSlice, hself (by simp), Except.map]
  | inside hi => cases hi with
    | inList body hb =>
      refine ⟨⟨_, .letIn, some mode, true⟩, ⟨.sub (.name mode) (.compare _ ["in"] [new]), .letIn, some mode, true⟩,
        by simp [view, islet_sub hm, haskelly, canonize_of (bindings_mono hb)] <;> rfl, ?_, .inside (.inList new hb),
        by simp [view, islet_sub hm, haskelly, canonize_of (bindings_mono hb)]⟩
      simp [View.setBody, View.expr, getSlice, View.setExpr]
    | inTuple body hb =>
      refine ⟨⟨_, .letIn, some mode, true⟩, ⟨.sub (.name mode) (.compare _ ["in"] [new]), .letIn, some mode, true⟩,
        by simp [view, islet_sub hm, haskelly, canonize_of (bindings_mono hb)] <;> rfl, ?_, .inside (.inTuple new hb),
        by simp [view, islet_sub hm, haskelly, canonize_of (bindings_mono hb)]⟩
      simp [View.setBody, View.expr, getSlice, View.setExpr]
    | whereBrackets body hb hn' =>
      refine ⟨⟨_, .letWhere, some mode, true⟩, ⟨.sub (.name mode) (.tuple [new, _]), .letWhere, some mode, true⟩,
        by simp [view, islet_sub hm, haskelly] <;> rfl, ?_, .inside (.whereBrackets new hb hn'), by simp [view, islet_sub hm, haskelly]⟩
      simp [View.setBody, View.expr, getSlice, View.setExpr]
    | whereParens body hb =>
      refine ⟨⟨_, .letWhere, some mode, true⟩, ⟨.sub (.name mode) (.tuple [new, _]), .letWhere, some mode, true⟩,
        by simp [view, islet_sub hm, haskelly] <;> rfl, ?_, .inside (.whereParens new hb), by simp [view, islet_sub hm, haskelly]⟩
      simp [View.setBody, View.expr, getSlice, View.setExpr]

example : ∃ v v', view ex = .ok v ∧ v.setBody true (c "3") = .ok v' ∧ Let false "let" two (c "3") v'.tree ∧ view v'.tree = .ok v' :=
  C108_write_body_partial true "let" (by decide) two x (c "3") ex ex_let fun _ _ => ⟨_, rfl⟩

/-- Writing to a view of what is inside of the brackets of `let[[...] in body]` and `let[body, where[...]]`: bindings, and body -/
theorem C108_write_inside (py39 : Bool) (ps qs : List (T × T)) (body new t : T) (h : Inside false ps body t) (hq : ∀ q ∈ qs, Target false q.1) :
    ∃ v v₁ v₂, view t = .ok v ∧ v.setBindings py39 (pairs qs) = .ok v₁ ∧ Inside false qs body v₁.tree ∧ view v₁.tree = .ok v₁ ∧
      v.setBody py39 new = .ok v₂ ∧ Inside false ps new v₂.tree ∧ view v₂.tree = .ok v₂ := by
  have hb' := pairs_bindings hq
  cases h with
  | inList body hb =>
    refine ⟨⟨_, .letIn, none, false⟩, ⟨.compare (.tuple (pairs qs)) ["in"] [body], .letIn, none, false⟩, ⟨.compare _ ["in"] [new], .letIn, none, false⟩,
      by simp [view, islet, isletExpr, haskelly, canonize_of (bindings_mono hb)] <;> rfl, ?_, .inTuple body hb',
      by simp [view, islet, isletExpr, haskelly, canonize_of (bindings_mono hb')], ?_, .inList new hb, by simp [view, islet, isletExpr, haskelly, canonize_of (bindings_mono hb)]⟩
    · simp [View.setBindings, View.expr, View.setExpr]
    · simp [View.setBody, View.expr, View.setExpr]
  | inTuple body hb =>
    refine ⟨⟨_, .letIn, none, false⟩, ⟨.compare (.tuple (pairs qs)) ["in"] [body], .letIn, none, false⟩, ⟨.compare _ ["in"] [new], .letIn, none, false⟩,
      by simp [view, islet, isletExpr, haskelly, canonize_of (bindings_mono hb)] <;> rfl, ?_, .inTuple body hb',
      by simp [view, islet, isletExpr, haskelly, canonize_of (bindings_mono hb')], ?_, .inTuple new hb, by simp [view, islet, isletExpr, haskelly, canonize_of (bindings_mono hb)]⟩
    · simp [View.setBindings, View.expr, View.setExpr]
    · simp [View.setBody, View.expr, View.setExpr]
  | whereBrackets body hb hn =>
    refine ⟨⟨_, .letWhere, none, false⟩, ⟨.tuple [body, .sub (.name "where") (.tuple (pairs qs))], .letWhere, none, false⟩, ⟨.tuple [new, _], .letWhere, none, false⟩,
      by simp [view, islet, isletExpr, haskelly] <;> rfl, ?_, .whereBrackets body hb' (.tuple _), by simp [view, islet, isletExpr, haskelly], ?_,
      .whereBrackets new hb hn, by simp [view, islet, isletExpr, haskelly]⟩
    · simp [View.setBindings, View.expr, View.setExpr, setBindingsIn, setSlice, selfValue, Except.map]
    · simp [View.setBody, View.expr, View.setExpr]
  | whereParens body hb =>
    refine ⟨⟨_, .letWhere, none, false⟩, ⟨.tuple [body, .call (.name "where") (pairs qs)], .letWhere, none, false⟩, ⟨.tuple [new, _], .letWhere, none, false⟩,
      by simp [view, islet, isletExpr, haskelly] <;> rfl, ?_, .whereParens body hb', by simp [view, islet, isletExpr, haskelly], ?_,
      .whereParens new hb, by simp [view, islet, isletExpr, haskelly]⟩
    · simp [View.setBindings, View.expr, View.setExpr, setBindingsIn, Except.map]
    · simp [View.setBody, View.expr, View.setExpr]

example : Inside false two x (.compare (.tuple (pairs two)) ["in"] [x]) :=
  .inTuple x ⟨.tuples two, by simp [two]; exact ⟨.plain (.name _), .plain (.name _)⟩⟩

/-! ## Assignments, and `do` -/

/-- A view of `x := v` or `x << v` has the name and the value; writing one of them changes this one only, and how it is written stays.  (For the name: if there
is at most one marker around it.)
(Missing: markers in markers, see `C108_nested_marker_refuted`.) -/
theorem C108_assign_partial (k v t new : T) (m : String) (h : Assigned (k, v) t) (hk : Named k m) (n : String) :
    assignName t = .ok (some m) ∧ assignValue t = .ok v ∧
    Assigned (k, new) (assignSetValue new t) ∧ assignName (assignSetValue new t) = .ok (some m) ∧ assignValue (assignSetValue new t) = .ok new ∧
    assignValue (assignSetName n t) = .ok v ∧
    ((∀ s, k ≠ .done (.done s)) → assignName (assignSetName n t) = .ok (some n) ∧ ∃ k', Named k' n ∧ Assigned (k', v) (assignSetName n t)) ∧
    (k = .done (.name m) → Assigned (.done (.name n), v) (assignSetName n t)) := by
  have hi := (isName_iff k).2 (named_plain hk)
  have hex := (named_iff k m).2 hk
  have hren : isName (renameNode n k) = true ∧ ((∀ s, k ≠ .done (.done s)) → getName (renameNode n k) = some n) := by
    cases hk with
    | name x => exact ⟨rfl, fun _ => rfl⟩
    | done hk => cases hk with
      | name x => exact ⟨rfl, fun _ => rfl⟩
      | done hk => exact ⟨hi, fun h => absurd rfl (h _)⟩
  cases h with
  | walrus k v =>
    simp only [assignName, assignValue, assignView, envAssign, isTarget, hi, Bool.true_or, if_true, Except.map, assignSetValue, assignSetName, hren.1, hex, true_and]
    exact ⟨.walrus _ _, fun h => ⟨by rw [hren.2 h], _, (named_iff _ _).1 (hren.2 h), .walrus _ _⟩, fun h => by subst h; exact .walrus _ _⟩
  | shift k v =>
    simp only [assignName, assignValue, assignView, envAssign, isTarget, hi, Bool.true_or, if_true, Except.map, assignSetValue, assignSetName, hren.1, hex, true_and]
    exact ⟨.shift _ _, fun h => ⟨by rw [hren.2 h], _, (named_iff _ _).1 (hren.2 h), .shift _ _⟩, fun h => by subst h; exact .shift _ _⟩

/-- Nothing else is an assignment: there is a TypeError. -/
theorem C108_assign_only (t : T) (h : ∀ k v, Plain k → ¬ Assigned (k, v) t) :
    assignName t = .error .typeError ∧ assignValue t = .error .typeError := by
  have : envAssign false t = none := by
    cases he : envAssign false t with
    | none => rfl
    | some p =>
      obtain ⟨b, k, v⟩ := p
      obtain ⟨h1, h2⟩ := of_envAssign he
      cases h2 with
      | plain hp => exact absurd h1 (h k v hp)
      | call _ h => cases h
      | sub _ h => cases h
  simp [assignName, assignValue, assignView, this, Except.map]

example : assignName (.walrus (.call x []) y) = .error .typeError := rfl

example : assignName (assignSetName "z" (.walrus (.done x) y)) = .ok (some "z") := rfl

/-- A view of `do[...]` or `do0[...]` (with at least one comma), or of a list that stands for one, has the expressions, in order; writing them changes only these. -/
theorem C108_do (py39 : Bool) (ts new : List T) (s : String) (hs : s = "do" ∨ s = "do0") :
    (∃ v v', doView (.sub (.name s) (.tuple ts)) = .ok v ∧ v.body = .ok ts ∧ v.setBody py39 new = .ok v' ∧
      v'.tree = .sub (.name s) (.tuple new) ∧ doView v'.tree = .ok v' ∧ v'.body = .ok new) ∧
    (∃ v v', doView (.list ts) = .ok v ∧ v.body = .ok ts ∧ v.setBody py39 new = .ok v' ∧ v'.tree = .list new ∧ doView v'.tree = .ok v' ∧ v'.body = .ok new) := by
  refine ⟨⟨⟨.sub (.name s) (.tuple ts), false⟩, ⟨.sub (.name s) (.tuple new), false⟩, by simp [doView, isdo, hs], rfl, ?_, rfl, by simp [doView, isdo, hs], rfl⟩,
    ⟨⟨_, true⟩, ⟨.list new, true⟩, rfl, rfl, rfl, rfl, rfl, rfl⟩⟩
  simp [DoView.setBody, setSlice, selfValue, Except.map]

/-- Nothing else is a `do`: there is a TypeError. -/
theorem C108_do_only (t : T) (h1 : ∀ ts, t ≠ .list ts) (h2 : ∀ s ts, s = "do" ∨ s = "do0" → t ≠ .sub (.name s) (.tuple ts)) : doView t = .error .typeError := by
  have : isdo t = none := by
    unfold isdo
    split
    · rw [if_neg]
      intro h
      exact h2 _ _ h rfl
    · rfl
  unfold doView
  rw [this]
  dsimp only
  split
  · exact absurd rfl (h1 _)
  · rfl

example : doView (.sub (.name "do") x) = .error .typeError := rfl
example : (doView (.sub (.name "do") (.tuple [x, y]))).map (·.implicit) = .ok false := rfl

/-! ## Refutations -/

/-- With Python 3.9 or later, if the body of `let[...][body]` is written, and the new body has an attribute `value` (for instance, it is a constant, an attribute, or a
subscript), then this attribute of the new body is overwritten by the body itself. -/
theorem C108_write_body_refuted (mode : String) (hm : mode ∈ modes) (b body new : T) (hn : HasValue new) :
    ∃ v v', view (.sub (.sub (.name mode) b) body) = .ok v ∧ v.setBody true new = .ok v' ∧ v'.body = .ok (.loop new) ∧ T.loop new ≠ new := by
  obtain ⟨h1, h2⟩ := notDeco hm
  refine ⟨⟨_, .lispy, some mode, true⟩, ⟨.sub (.sub (.name mode) b) (.loop new), .lispy, some mode, true⟩, by simp [view, islet, isletExpr, h2] <;> rfl, ?_, rfl, ?_⟩
  · cases hn <;> rfl
  · intro h
    have := congrArg sizeOf h
    simp at this

/-- `let[x := 1][x]`, and the new body 3: a constant whose value is this constant itself -/
example : ∃ v v', view (.sub (.sub (.name "let") (.walrus x (c "1"))) x) = .ok v ∧ v.setBody true (c "3") = .ok v' ∧ v'.body = .ok (.loop (c "3")) ∧
    T.loop (c "3") ≠ c "3" := C108_write_body_refuted "let" (by decide) _ _ _ (.valued _ _)

/-- The body of a view of a decorator is not None; reading it raises a TypeError.  (`prefix` and `namedlambda` read it for each `let` form, so that they fail if there is a
`@dlet` in the block.) -/
theorem C108_decorator_body_refuted (mode : String) (hm : mode ∈ decoModes) (b : T) :
    ∃ v, view (.sub (.name mode) b) = .ok v ∧ v.body = .error .typeError := by
  have hm' : mode ∈ decoNames := hm
  exact ⟨⟨_, .decorator, some mode, true⟩, by simp [view, islet, hm'] <;> rfl, rfl⟩

example : "dlet" ∈ decoModes := by decide

/-- Templates are not accepted by `let_syntax[[f(a) << v] in body]` and `let_syntax[body, where[f(a) << v]]`, but only by `let_syntax[f(a) << v][body]`. -/
theorem C108_template_refuted (f : String) (args : List T) (v body : T) :
    let b : T := .shift (.call (.name f) args) v
    let ps := [(T.call (.name f) args, v)]
    Inside true ps body (.compare (.list [b]) ["in"] [body]) ∧ destructure true [] (.compare (.list [b]) ["in"] [body]) = .error .syntaxError ∧
    Inside true ps body (.tuple [body, .sub (.name "where") b]) ∧ destructure true [] (.tuple [body, .sub (.name "where") b]) = .error .syntaxError ∧
    destructure true [b] body = .ok (pairs ps, body) := by
  intro b ps
  have hb : Bindings true ps [b] := ⟨.assigns (.cons (.shift _ _) .nil), by simp [ps]; exact .call _ rfl (.name f)⟩
  exact ⟨.inList body hb, rfl, .whereBrackets body hb (.one _ (by simp [b]) (by simp [b])), rfl, (C108_macro_partial true ps body).1 [b] (by simp) hb⟩

/-- If a name has two markers around it, writing the name of an assignment does not change it. -/
theorem C108_nested_marker_refuted (x n : String) (v : T) : assignName (assignSetName n (.walrus (.done (.done (.name x))) v)) = .ok (some x) := rfl

end Unpy.Props
