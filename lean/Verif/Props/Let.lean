import Verif.Proof.Let
import Verif.Props.Env
/-!
# C61: `let`, `letrec`;  C81: `do`, `do0`
-/
namespace Unpy.Props
open Unpy Unpy.EnvM Unpy.Let Unpy.Let.Spec
open Unpy.Fold (Err)

variable {V ε : Type}

private theorem has_false {α : Type} {bs : List (String × α)} (h : ∀ b ∈ bs, b.1 ≠ "body" ∧ b.1 ≠ "mode") :
    (PyDict.has bs "body" || PyDict.has bs "mode") = false := by
  have key : ∀ x, (∀ b ∈ bs, b.1 ≠ x) → PyDict.has bs x = false := by
    intro x hx
    rw [← Bool.not_eq_true, ← PyDict.mem_keys]
    intro hm
    obtain ⟨p, hp, rfl⟩ := List.mem_map.mp hm
    exact hx p hp rfl
  rw [key _ (fun b hb => (h b hb).1), key _ (fun b hb => (h b hb).2)]; rfl

private theorem code_has {bs : List (String × SRhs V ε)} (h : ∀ b ∈ bs, b.1 ≠ "body" ∧ b.1 ≠ "mode") :
    (PyDict.has (code bs) "body" || PyDict.has (code bs) "mode") = false := by
  refine has_false fun b hb => ?_
  obtain ⟨c, hc, rfl⟩ := List.mem_map.mp hb
  exact h c hc

/-- C61, `letrec`.  Each right-hand side is evaluated once, in order, against exactly the bindings before it.  If one
raises, that is what `letrec` raises (and the body does not run); otherwise the body runs in a finalized environment that has
exactly these bindings.
(Missing: bindings called `body` or `mode`, see `C61_parameter_names_refuted`.) -/
theorem C61_letrec_partial (w : World V) (bs : List (String × SRhs V ε)) (h : Wf w bs) (body : Code V ε) :
    match letrecValues [] bs with
    | .error x => (letPy w true (code bs) (.func (some true) body)).1 = .error x
    | .ok vals => letPy w true (code bs) (.func (some true) body) = body.run w ⟨vals, true⟩ := by
  obtain ⟨h1, h2⟩ := bindAll_letrec (w := w) bs [] h.2.1 (by simpa using h.1)
  cases hv : letrecValues [] bs with
  | error x =>
    obtain ⟨e, he⟩ := h2 x hv
    simp only [letPy, code_has h.2.2, Bool.false_eq_true, if_false]
    rw [show ({} : Env V) = ⟨[], false⟩ from rfl, he]
  | ok vals =>
    simp only [letPy, code_has h.2.2, Bool.false_eq_true, if_false]
    rw [show ({} : Env V) = ⟨[], false⟩ from rfl, h1 vals hv]
    rfl

/-- C61, `let`.  No right-hand side is called; the body runs in a finalized environment that has exactly the given values.
(Missing: bindings called `body` or `mode`, see `C61_parameter_names_refuted`.) -/
theorem C61_let_partial (w : World V) (bs : List (String × SRhs V ε)) (h : Wf w bs) (body : Code V ε) :
    letPy w false (code bs) (.func (some true) body) = body.run w ⟨bs.map (fun b => (b.1, b.2.val)), true⟩ := by
  have := bindAll_let (w := w) bs [] (fun b hb => (h.2.1 b hb).1) (by simpa using h.1)
  simp only [letPy, code_has h.2.2, Bool.false_eq_true, if_false]
  rw [show ({} : Env V) = ⟨[], false⟩ from rfl, this]
  rfl

/-- In `letrec`, a right-hand side that refers to itself or to a later name raises AttributeError.
(Missing: bindings called `body` or `mode`, see `C61_parameter_names_refuted`.) -/
theorem C61_later_reference_partial (w : World V) (bs1 bs2 : List (String × SRhs V ε)) (n m : String) (fv : V)
    (h : Wf w (bs1 ++ (n, .func fv (ref m)) :: bs2)) (vals : List (String × V)) (hv : letrecValues [] bs1 = .ok vals)
    (hm : m = n ∨ m ∈ bs2.map Prod.fst) (body : Code V ε) :
    (letPy w true (code (bs1 ++ (n, .func fv (ref m)) :: bs2)) (.func (some true) body)).1 =
      .error (.py .AttributeError) := by
  have key := C61_letrec_partial w _ h body
  have hnames : ∀ (bs : List (String × SRhs V ε)) (d vs : List (String × V)), letrecValues d bs = .ok vs →
      vs.map Prod.fst = d.map Prod.fst ++ bs.map Prod.fst := by
    intro bs
    induction bs with
    | nil => intro d vs hh; cases hh; simp
    | cons b bs ih =>
      obtain ⟨k, r⟩ := b
      intro d vs hh
      rw [letrecValues] at hh
      cases hr : r.eval d with
      | error x => rw [hr] at hh; cases hh
      | ok v => rw [hr] at hh; rw [ih _ _ hh]; simp
  have happ : ∀ (bs : List (String × SRhs V ε)) (d vs : List (String × V)), letrecValues d bs = .ok vs →
      ∀ bs', letrecValues d (bs ++ bs') = letrecValues vs bs' := by
    intro bs
    induction bs with
    | nil => intro d vs hh bs'; cases hh; rfl
    | cons b bs ih =>
      obtain ⟨k, r⟩ := b
      intro d vs hh bs'
      rw [letrecValues] at hh
      rw [List.cons_append, letrecValues]
      cases hr : r.eval d with
      | error x => rw [hr] at hh; cases hh
      | ok v => rw [hr] at hh; exact ih _ _ hh bs'
  have hmem : m ∉ vals.map Prod.fst := by
    have hn := h.1
    rw [List.map_append, List.map_cons, List.nodup_append] at hn
    rw [hnames bs1 [] vals hv]
    intro hh
    simp only [List.map_nil, List.nil_append] at hh
    refine hn.2.2 m hh m ?_ rfl
    rcases hm with rfl | hm
    · simp
    · exact List.mem_cons_of_mem _ hm
  have hnone : valueOf m vals = none := by
    have : ∀ (l : List (String × V)), m ∉ l.map Prod.fst → valueOf m l = none := by
      intro l
      induction l with
      | nil => intro _; rfl
      | cons p l ih =>
        obtain ⟨k, v⟩ := p
        intro hh
        rw [valueOf, if_neg (fun e => hh (by simp [e])), ih (fun h2 => hh (by simp only [List.map_cons, List.mem_cons]; exact .inr h2))]
    exact this vals hmem
  rw [happ bs1 [] vals hv, letrecValues] at key
  simp only [SRhs.eval, ref, Expr.eval, hnone] at key
  exact key

/-- A reference to an earlier name gives its value. -/
theorem C61_earlier_reference (w : World V) (e : Env V) (n : String) (v : V) (hn : Ordinary w n)
    (h : e.env.get? n = some v) : (ref n : Expr V ε).code.run w e = (.ok v, e) := by
  simp only [ref, Expr.code, Code.run, step, getattr_ordinary hn, h]

/-- The environment can get no new names afterwards, and loses none, whatever the body does with it (short of writing to
the internal variables or leaving it as a context manager). -/
theorem C61_names_fixed (w : World V) (code : Code V ε) (hp : Public code) (e : Env V) (hf : e.finalized = true) :
    (code.run w e).2.env.keys = e.env.keys ∧ (code.run w e).2.finalized = true := by
  induction hp generalizing e with
  | ret v => exact ⟨rfl, hf⟩
  | raise x => exact ⟨rfl, hf⟩
  | @op o k ho _ ih =>
    rw [Code.run]
    have h1 := env_step_keys w false e o hf ho
    obtain ⟨i1, i2⟩ := ih (step w false e o).1 (step w false e o).2 h1.2
    exact ⟨i1.trans h1.1, i2⟩

/-- `lispylet` does what `let` does, for all bindings and bodies, with any side effects on the environment.
(Missing: bindings called `body` or `mode`, see `C61_parameter_names_refuted`.) -/
theorem C61_lispy_agrees_partial (w : World V) (letrec : Bool) (bs : List (String × Rhs V ε)) (b : Body V ε)
    (h : ∀ p ∈ bs, p.1 ∉ directWrite) (hm : ∀ p ∈ bs, p.1 ≠ "body" ∧ p.1 ≠ "mode") :
    letLispy w letrec bs b {} = letPy w letrec bs b := by
  rw [lispy_agrees letrec b bs {} h (fun _ => rfl), letPy, has_false hm, if_neg (by simp)]
  rcases bindAll w letrec bs {} with ⟨r, e⟩
  cases r <;> rfl

/-- With a name of an internal variable among the bindings, they do not: in `lispylet` the binding is forgotten together with
the environment.  Neither rejects it, although both names are listed as reserved. -/
theorem C61_internal_names_refuted :
    (letPy (ε := Empty) demoWorld false [("_finalized", .value 1), ("x", .value 2)] (.func (some true) (ref "x").code)).1 =
      .error (.py .AttributeError) ∧
    (letLispy (ε := Empty) demoWorld false [("_finalized", .value 1), ("x", .value 2)] (.func (some true) (ref "x").code) {}).1 =
      .ok 2 ∧
    (letPy (ε := Empty) demoWorld false [("_finalized", .value 0), ("x", .value 2)] (.func (some true) (ref "x").code)).1 =
      .ok 2 := by
  refine ⟨by decide +kernel, by decide +kernel, by decide +kernel⟩

/-- A name that is a method of `env` can be bound, but the body does not see the binding. -/
theorem C61_method_names_refuted :
    (letPy (ε := Empty) demoWorld false [("get", .value 5)]
      (.func (some true) (.op (.getattr "get") (fun r => match r with
        | .ok (.val v) => .ret v
        | .ok (.classAttr _) => .ret 1000
        | _ => .ret 0)))).1 = .ok 1000 := rfl

/-- C61 is violated for the names of parameters of the code: a binding called `body` or `mode` is TypeError for `let`,
`letrec` and the decorators (though not for `lispylet`), and the decorators do not bind a name `_envname`. -/
theorem C61_parameter_names_refuted (w : World V) (letrec : Bool) (bs : List (String × Rhs V ε)) (b : Body V ε)
    (n : String) (hn : n = "body" ∨ n = "mode") (r : Rhs V ε) (hb : ∃ r, (n, r) ∈ bs) :
    (letPy w letrec bs b).1 = .error (.py .TypeError) ∧ (letEnv w letrec bs).1 = .error (.py .TypeError) ∧
    letEnv (ε := ε) w letrec [("_envname", r)] = (.ok (), ⟨[], true⟩) := by
  have h : (PyDict.has bs "body" || PyDict.has bs "mode") = true := by
    obtain ⟨r, hr⟩ := hb
    have : PyDict.has bs n = true := (PyDict.mem_keys bs n).mp (List.mem_map_of_mem (f := Prod.fst) hr)
    rcases hn with rfl | rfl <;> simp [this]
  refine ⟨by rw [letPy, if_pos h], by rw [letEnv, if_pos h], ?_⟩
  simp [letEnv, PyDict.has, PyDict.get?, bindAll, step]

/-- A binding called `mode` in `let` and in `lispylet`. -/
example : (letPy (ε := Empty) demoWorld false [("mode", .value 1)] (.func (some true) (ref "mode").code)).1 = .error (.py .TypeError) ∧
    (letLispy (ε := Empty) demoWorld false [("mode", .value 1)] (.func (some true) (ref "mode").code) {}).1 = .ok 1 :=
  ⟨rfl, by decide +kernel⟩

/-- The same name twice (possible in `lispylet` only) is AttributeError. -/
theorem C61_duplicate (w : World V) (letrec : Bool) (bs1 bs2 : List (String × Rhs V ε)) (n : String) (r : Rhs V ε) (b : Body V ε)
    (h : ∀ p ∈ bs1 ++ (n, r) :: bs2, p.1 ∉ directWrite) (e : Env V) (h1 : bindAll w letrec bs1 {} = (.ok (), e))
    (hn : e.env.has n = true) :
    letLispy w letrec (bs1 ++ (n, r) :: bs2) b {} = (.error (.py .AttributeError), e) := by
  rw [lispy_agrees letrec b _ {} h (fun _ => rfl)]
  have : ∀ (bs1 : List (String × Rhs V ε)) (e0 : Env V), bindAll w letrec bs1 e0 = (.ok (), e) →
      bindAll w letrec (bs1 ++ (n, r) :: bs2) e0 = (.error (.py .AttributeError), e) := by
    intro bs1
    induction bs1 with
    | nil =>
      intro e0 h0
      cases h0
      rw [List.nil_append, bindAll, bindOne, if_pos hn]
    | cons p bs1 ih =>
      obtain ⟨k, r'⟩ := p
      intro e0 h0
      rw [bindAll] at h0
      rw [List.cons_append, bindAll]
      cases hb : bindOne w letrec k r' e0 with
      | mk res e1 =>
        rw [hb] at h0
        cases res with
        | error x => cases h0
        | ok u => exact ih e1 h0
  rw [this bs1 {} h1]

/-- A callable that cannot take one argument is TypeError: as a right-hand side in `letrec`, or as the body. -/
theorem C61_arity (w : World V) (v : V) (c : Code V ε) (e : Env V) (n : String) (he : e.env.has n = false)
    (bs : List (String × Rhs V ε)) :
    bindAll w true ((n, .func v (some false) c) :: bs) e = (.error (.py .TypeError), e) ∧
    (runBody w (.func (some false) c) e).1 = .error (.py .TypeError) ∧
    (runBody (ε := ε) w .notCallable e).1 = .error (.py .TypeError) := by
  refine ⟨?_, rfl, rfl⟩
  rw [bindAll, bindOne]
  simp only [he, Bool.false_eq_true, if_false]
  rfl

/-- `@dlet`, `@dletrec`: the environment is made once; it keeps its names over any sequence of calls. -/
theorem C61_dlet (w : World V) (letrec : Bool) (bs : List (String × Rhs V ε)) (e : Env V)
    (h : letEnv w letrec bs = (.ok (), e)) (calls : List (Code V ε)) (hp : ∀ c ∈ calls, Public c) :
    (dletCalls w e calls).2.env.keys = e.env.keys ∧ e.finalized = true := by
  have hf : e.finalized = true := by
    unfold letEnv at h
    split at h
    · cases h
    split at h
    · cases h
    · cases h; rfl
  refine ⟨?_, hf⟩
  clear h
  induction calls generalizing e with
  | nil => rfl
  | cons c cs ih =>
    rw [dletCalls]
    obtain ⟨h1, h2⟩ := C61_names_fixed w c (hp c (by simp)) e hf
    exact (ih _ (fun c hc => hp c (by simp [hc])) h2).trans h1

/-- The documented counter: `count` is 0, and each call increments it and returns it.  The calls return 1, 2, 3, ... -/
theorem C61_dlet_counter (n : Nat) :
    let c : Code Nat Empty := .op (.getattr "count") (fun r => match r with
      | .ok (.val v) => .op (.setattr "count" (v + 1)) (fun _ => .op (.getattr "count") (fun r => match r with
        | .ok (.val v) => .ret v
        | _ => .ret 1000))
      | _ => .ret 1000)
    let e := (letEnv (ε := Empty) demoWorld false [("count", .value 0)]).2
    (dletCalls demoWorld e (List.replicate n c)).1 = (List.range n).map (fun i => .ok (i + 1)) := by
  intro c e
  have step : ∀ k, c.run demoWorld ⟨[("count", k)], true⟩ = (.ok (k + 1), ⟨[("count", k + 1)], true⟩) := fun k => rfl
  have : ∀ n k, (dletCalls demoWorld ⟨[("count", k)], true⟩ (List.replicate n c)).1 =
      (List.range n).map (fun i => .ok (k + i + 1)) := by
    intro n
    induction n with
    | zero => intro k; rfl
    | succ n ih =>
      intro k
      rw [List.replicate_succ, dletCalls, step]
      simp only [ih (k + 1), List.range_succ_eq_map, List.map_cons, List.map_map, Nat.add_zero]
      congr 1
      apply List.map_congr_left
      intro i _
      simp only [Function.comp]
      congr 1
      omega
  have h0 : e = ⟨[("count", 0)], true⟩ := rfl
  have := this n 0
  rw [h0]
  simpa using this

/-- `letrec(a=1, b=lambda e: e.a + 1, body=lambda e: e.b)`, and the hypotheses of the theorems above. -/
example : Wf demoWorld ([("a", .value 1), ("b", .func 0 (.read "a" (fun r => match r with
      | some v => .ret (v + 1) | none => .raise (.py .AttributeError))))] : List (String × SRhs Nat Empty)) := by
  refine ⟨by decide, ?_, by simp⟩
  have ha : Ordinary demoWorld "a" := by unfold Ordinary; decide
  have hb : Ordinary demoWorld "b" := by unfold Ordinary; decide
  intro b hb'
  simp only [List.mem_cons, List.not_mem_nil, or_false] at hb'
  rcases hb' with rfl | rfl
  · exact ⟨ha, trivial⟩
  · refine ⟨hb, Expr.Ok.read ha ?_⟩
    intro r
    cases r
    · exact Expr.Ok.raise _
    · exact Expr.Ok.ret _
example : letrecValues [] ([("a", .value 1), ("b", .func 0 (.read "a" (fun r => match r with
      | some v => .ret (v + 1) | none => .raise (.py .AttributeError))))] : List (String × SRhs Nat Empty)) =
    .ok [("a", 1), ("b", 2)] := rfl
/-- `letrec(a=lambda e: e.b, b=1, ...)` -/
example : letrecValues [] ([("a", .func 0 (ref "b")), ("b", .value 1)] : List (String × SRhs Nat Empty)) =
    .error (.py .AttributeError) := rfl
/-- `let` does not call the function (whose value is 7). -/
example : (letPy (ε := Empty) demoWorld false (code [("a", .func 7 (ref "b")), ("b", .value 1)]) (.func (some true) (ref "a").code)).1 =
    .ok 7 := by decide +kernel
example : (letLispy (ε := Empty) demoWorld false [("a", .value 1), ("a", .value 2)] (.func (some true) (ref "a").code) {}).1 =
    .error (.py .AttributeError) := rfl

/-! ## C81 -/

/-- C81, `do`.  The items are evaluated once, in order, each against the assignments before it (the last one of each name
counts), up to the first that raises; the result is the value of the last item. -/
theorem C81_do (w : World V) (items : List (SItem V ε)) (hok : ∀ i ∈ items, i.Ok w) :
    (doM w (items.map SItem.item)).1 = match doValues [] items with
      | .error x => .error x
      | .ok vs => match vs.getLast? with | some v => .ok v | none => .error (.py .UnboundLocalError) := by
  obtain ⟨h1, h2⟩ := doLoop_values (w := w) items none {} [] hok (fun _ => rfl) rfl
  cases hv : doValues [] items with
  | error x => obtain ⟨e, he⟩ := h2 x hv; rw [doM, he]
  | ok vs =>
    obtain ⟨e, he⟩ := h1 vs hv
    rw [doM, he]
    simp only
    cases vs.getLast? <;> rfl

/-- C81: an item (or the value in an assignment) that is a callable of the wrong arity is a `ValueError`; nothing is assigned,
and the items after it do not run. -/
theorem C81_arity (w : World V) (items rest : List (Item V ε)) (k : String) (fv : V) (c : Code V ε) (v : V) (e : Env V)
    (h : doM w items = (.ok v, e)) :
    doM w (items ++ .plain (.func fv (some false) c) :: rest) = (.error (.py .ValueError), e) ∧
      doM w (items ++ .assign k (.func fv (some false) c) :: rest) = (.error (.py .ValueError), e) := by
  have key : ∀ (i : Item V ε), (∀ e, doItem w i e = (.error (.py .ValueError), e)) → ∀ (items : List (Item V ε)) last e0,
      doLoop w items last e0 = (.ok v, e) → doLoop w (items ++ i :: rest) last e0 = (.error (.py .ValueError), e) := by
    intro i hi items
    induction items with
    | nil =>
      intro last e0 h0
      cases last with
      | none => cases h0
      | some u => cases h0; rw [List.nil_append, doLoop, hi]
    | cons a items ih =>
      intro last e0 h0
      rw [doLoop] at h0
      rw [List.cons_append, doLoop]
      cases ha : doItem w a e0 with
      | mk r e1 =>
        rw [ha] at h0
        cases r with
        | error x => cases h0
        | ok u => exact ih _ _ h0
  exact ⟨key _ (fun e => rfl) items none {} h, key _ (fun e => rfl) items none {} h⟩

example : doM (ε := Empty) demoWorld [.assign "x" (.value 17), .plain (.func 0 (some false) (.ret 1)), .assign "x" (.value 18)] =
    (.error (.py .ValueError), ⟨[("x", 17)], false⟩) :=
  (C81_arity demoWorld [.assign "x" (.value 17)] [.assign "x" (.value 18)] "y" 0 (.ret 1) 17 ⟨[("x", 17)], false⟩ rfl).1

/-- `do()` has no value to return: it raises UnboundLocalError, an internal error. -/
theorem C81_do_empty_refuted (w : World V) : (doM (ε := ε) w []).1 = .error (.py .UnboundLocalError) := rfl

private theorem doLoop_congr (w : World V) (i i' : Item V ε) (h : ∀ e, doItem w i e = doItem w i' e) (as bs : List (Item V ε)) :
    ∀ (last : Option V) (e : Env V), doLoop w (as ++ i :: bs) last e = doLoop w (as ++ i' :: bs) last e := by
  induction as with
  | nil => intro last e; rw [List.nil_append, List.nil_append, doLoop, doLoop, h e]
  | cons a as ih =>
    intro last e
    rw [List.cons_append, List.cons_append, doLoop, doLoop]
    cases doItem w a e with
    | mk r e1 =>
      cases r with
      | error x => rfl
      | ok v => exact ih (some v) e1

private theorem readCode_ref (w : World V) (cls : String → V) (n : String) (hn : Ordinary w n) (fv : V) (e : Env V) :
    maybeCall (ε := ε) w (.func fv (some true) (readCode cls n)) e = maybeCall w (SRhs.func fv (ref n)).rhs e := by
  simp only [maybeCall, SRhs.rhs, readCode, ref, Expr.code, Code.run, step, getattr_ordinary hn]
  cases e.env.get? n <;> rfl

/-- C81, `do0`.  The same, but the result is the value of the first item; provided the items do not use the name in which
`do0` keeps it.
(Missing: items that use this name, see `C81_do0_name_clash_refuted`.) -/
theorem C81_do0_partial (w : World V) (fv : V) (cls : String → V) (i : SItem V ε) (items : List (SItem V ε))
    (hok : ∀ j ∈ i :: items, j.Ok w) (hres : Ordinary w "_do0_result") (hav : ∀ j ∈ i :: items, j.Avoids "_do0_result") :
    (do0M w fv cls ((i :: items).map SItem.item)).1 = match doValues [] (i :: items) with
      | .error x => .error x
      | .ok vs => match vs.head? with | some v => .ok v | none => .error (.py .ValueError) := by
  have havr : ∀ j ∈ items, j.Avoids "_do0_result" := fun j hj => hav j (by simp [hj])
  have hokr : ∀ j ∈ items, j.Ok w := fun j hj => hok j (by simp [hj])
  have hlast : ∀ (as : List (Item V ε)), doM w (as ++ [.plain (.func fv (some true) (readCode cls "_do0_result"))]) =
      doM w (as ++ [(SItem.plain (.func fv (ref "_do0_result"))).item]) := fun as =>
    doLoop_congr w _ _ (fun e => by simp only [SItem.item, doItem]; exact readCode_ref w cls _ hres fv e) as [] none {}
  have refOk : (ref "_do0_result" : Expr V ε).Ok w := Expr.Ok.read hres (fun r => by
    cases r
    · exact Expr.Ok.raise _
    · exact Expr.Ok.ret _)
  cases i with
  | plain r =>
    have e1 : do0M w fv cls ((SItem.plain r :: items).map SItem.item) =
        doM w ((SItem.assign "_do0_result" r :: items).map SItem.item ++
          [.plain (.func fv (some true) (readCode cls "_do0_result"))]) := rfl
    rw [e1, hlast]
    have e2 : (SItem.assign "_do0_result" r :: items).map SItem.item ++ [(SItem.plain (.func fv (ref "_do0_result"))).item] =
        (SItem.assign "_do0_result" r :: (items ++ [.plain (.func fv (ref "_do0_result"))])).map SItem.item := by simp
    rw [e2, C81_do w _ (by
      intro j hj
      simp only [List.mem_cons, List.mem_append, List.not_mem_nil, or_false] at hj
      rcases hj with rfl | hj | rfl
      · exact ⟨hres, hok (.plain r) (by simp)⟩
      · exact hokr j hj
      · exact refOk)]
    rw [doValues, doValues]
    cases hr : r.eval [] with
    | error x => rfl
    | ok v =>
      simp only
      rw [doValues_append_ref items fv _ v (by simp [assignTo, valueOf]) havr]
      rw [doValues_but (n := "_do0_result") items (bs := assignTo "_do0_result" v []) (bs' := []) (by
        intro m hm; simp [assignTo, valueOf, Ne.symm hm]) havr]
      cases doValues [] items with
      | error x => rfl
      | ok vs =>
        simp only [Except.map]
        simp [List.getLast?_cons, List.getLast?_append]
  | assign k r =>
    have hk := hok (.assign k r) (by simp)
    have hka := hav (.assign k r) (by simp)
    have e1 : do0M w fv cls ((SItem.assign k r :: items).map SItem.item) =
        doM w (((SItem.assign k r).item :: .assign "_do0_result" (.func fv (some true) (readCode cls k)) :: items.map SItem.item) ++
          [.plain (.func fv (some true) (readCode cls "_do0_result"))]) := rfl
    have e3 : doM w (((SItem.assign k r).item :: .assign "_do0_result" (.func fv (some true) (readCode cls k)) :: items.map SItem.item) ++
          [(SItem.plain (.func fv (ref "_do0_result"))).item]) =
        doM w (([(SItem.assign k r).item] ++ (SItem.assign "_do0_result" (.func fv (ref k))).item :: (items.map SItem.item ++
          [(SItem.plain (.func fv (ref "_do0_result"))).item]))) :=
      doLoop_congr w (.assign "_do0_result" (.func fv (some true) (readCode cls k)))
        (SItem.assign "_do0_result" (.func fv (ref k))).item (fun e => by
          simp only [SItem.item, doItem, readCode_ref w cls k hk.1 fv e]) [(SItem.assign k r).item] _ none {}
    rw [e1, hlast, e3]
    have e2 : [(SItem.assign k r).item] ++ (SItem.assign "_do0_result" (.func fv (ref k))).item :: (items.map SItem.item ++
          [(SItem.plain (.func fv (ref "_do0_result"))).item]) =
        (SItem.assign k r :: .assign "_do0_result" (.func fv (ref k)) :: (items ++ [.plain (.func fv (ref "_do0_result"))])).map
          SItem.item := by simp
    rw [e2, C81_do w _ (by
      intro j hj
      simp only [List.mem_cons, List.mem_append, List.not_mem_nil, or_false] at hj
      rcases hj with rfl | rfl | hj | rfl
      · exact hk
      · exact ⟨hres, Expr.Ok.read hk.1 (fun r => by
          cases r
          · exact Expr.Ok.raise _
          · exact Expr.Ok.ret _)⟩
      · exact hokr j hj
      · exact refOk)]
    rw [doValues, doValues]
    cases hr : r.eval [] with
    | error x => rfl
    | ok v =>
      simp only
      rw [doValues]
      have : (SRhs.func fv (ref k) : SRhs V ε).eval (assignTo k v []) = .ok v := by
        simp [SRhs.eval, ref, Expr.eval, assignTo, valueOf]
      rw [this]
      simp only
      rw [doValues_append_ref items fv _ v (by simp [assignTo, valueOf]) havr]
      rw [doValues_but (n := "_do0_result") items (bs := assignTo "_do0_result" v (assignTo k v [])) (bs' := assignTo k v []) (by
        intro m hm; simp [assignTo, valueOf, Ne.symm hm]) havr]
      cases doValues (assignTo k v []) items with
      | error x => rfl
      | ok vs =>
        simp only [Except.map]
        simp [List.getLast?_cons, List.getLast?_append]

/-- An item that assigns to `_do0_result` changes the result. -/
theorem C81_do0_name_clash_refuted :
    (do0M (ε := Empty) demoWorld 0 (fun _ => 0) [.plain (.value 17), .assign "_do0_result" (.value 42)]).1 = .ok 42 := rfl

/-- `do0()` raises ValueError. -/
theorem C81_do0_empty (w : World V) (fv : V) (cls : String → V) :
    (do0M (ε := ε) w fv cls []).1 = .error (.py .ValueError) := rfl

/-- `do(assign(x=17), assign(z=lambda e: 2*e.x), lambda e: e.z)`; `x` assigned again -/
example : (doM (ε := Empty) demoWorld ([.assign "x" (.value 17), .assign "x" (.value 18), .assign "z" (.func 0 (.read "x" (fun r => match r with
      | some v => .ret (2 * v) | none => .raise (.py .AttributeError)))), .plain (.func 0 (ref "z"))].map SItem.item)).1 = .ok 36 := by decide +kernel
example : (do0M (ε := Empty) demoWorld 0 (fun _ => 0) ([.assign "x" (.value 17), .assign "x" (.value 42), .plain (.func 0 (ref "x"))].map
    SItem.item)).1 = .ok 17 := by decide +kernel
example : Ordinary demoWorld "_do0_result" := by unfold Ordinary; decide

end Unpy.Props
