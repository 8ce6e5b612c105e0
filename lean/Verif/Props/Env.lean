import Verif.Spec.Env
import Verif.Proof.PyDict
/-!
# C08, C09, C70, C71: environments
-/
namespace Unpy.Props
open Unpy Unpy.EnvM
universe u
variable {V : Type u}

private theorem envSetattr_err (w : World V) (e : Env V) (n : String) (v : V) {x : PyErr} {e' : Env V}
    (h : envSetattr w e n v = (.error x, e')) : e' = e := by
  unfold envSetattr at h
  split at h
  · simp at h
  split at h
  · simp at h; exact h.2.symm
  split at h
  · simp at h; exact h.2.symm
  split at h
  · simp at h; exact h.2.symm
  · simp at h

private theorem setattr_err (w : World V) (once : Bool) (e : Env V) (n : String) (v : V) {x : PyErr} {e' : Env V}
    (h : setattr w once e n v = (.error x, e')) : e' = e := by
  unfold setattr at h
  split at h
  · split at h
    · exact envSetattr_err w e n v h
    · simp at h; exact h.2.symm
  · exact envSetattr_err w e n v h

private theorem set_err (w : World V) (once : Bool) (e : Env V) (n : String) (v : V) {x : PyErr} {e' : Env V}
    (h : EnvM.set w once e n v = (.error x, e')) : e' = e := by
  unfold EnvM.set at h
  split at h
  · simp at h; exact h.2.symm
  split at h
  · split at h
    · simp at h
    · rename_i hh; simp at h; exact h.2 ▸ envSetattr_err w e n v hh
  · split at h
    · simp at h
    · rename_i hh; simp at h; exact h.2 ▸ setattr_err w once e n v hh

/-- C08: every operation that raises, on any environment, leaves it as it was. -/
theorem C08_raising_changes_nothing (w : World V) (once : Bool) (e : Env V) (op : Op V) (x : PyErr) (e' : Env V)
    (h : step w once e op = (.error x, e')) : e' = e := by
  cases op <;> simp only [step] at h
  case setattr => exact setattr_err w once e _ _ h
  case setitem => exact setattr_err w once e _ _ h
  case set => exact set_err w once e _ _ h
  case lshift n v =>
    unfold lshift at h
    split at h
    · simp at h
    · rename_i hh; simp at h; exact h.2 ▸ set_err w once e n v hh
  case delattr n =>
    unfold delattr at h; repeat' split at h
    all_goals simp at h
    all_goals exact h.2.symm
  case delitem n =>
    unfold delattr at h; repeat' split at h
    all_goals simp at h
    all_goals exact h.2.symm
  case pop k d =>
    unfold pop at h; repeat' split at h
    all_goals simp at h
    all_goals exact h.2.symm
  case popitem =>
    unfold popitem at h; repeat' split at h
    all_goals simp at h
    all_goals exact h.2.symm
  case clear =>
    unfold clear at h; repeat' split at h
    all_goals simp at h
    all_goals exact h.2.symm
  case update =>
    unfold update at h; repeat' split at h
    all_goals simp at h
    all_goals exact h.2.symm
  case setdefault =>
    unfold setdefault at h; repeat' split at h
    all_goals simp at h
    all_goals exact h.2.symm
  all_goals (simp at h)
  all_goals first | exact h.2.symm | exact h.elim | skip

private theorem not_dw {n : String} (h : n ≠ "_env" ∧ n ≠ "_finalized") : directWrite.contains n = false := by
  simp [directWrite, h.1, h.2]

private theorem envSetattr_keys (w : World V) (e : Env V) (n : String) (v : V) (hf : e.finalized = true)
    (hn : n ≠ "_env" ∧ n ≠ "_finalized") :
    (envSetattr w e n v).2.env.keys = e.env.keys ∧ (envSetattr w e n v).2.finalized = true := by
  unfold envSetattr
  rw [not_dw hn]
  simp only [Bool.false_eq_true, if_false, hf, Bool.true_and]
  split
  · exact ⟨rfl, hf⟩
  split
  · exact ⟨rfl, hf⟩
  split
  · exact ⟨rfl, hf⟩
  · rename_i h _
    refine ⟨?_, rfl⟩
    simp only [PyDict.keys_set]
    rw [if_pos (by simpa using h)]

private theorem setattr_keys (w : World V) (once : Bool) (e : Env V) (n : String) (v : V) (hf : e.finalized = true)
    (hn : n ≠ "_env" ∧ n ≠ "_finalized") :
    (setattr w once e n v).2.env.keys = e.env.keys ∧ (setattr w once e n v).2.finalized = true := by
  unfold setattr
  split
  · split
    · exact envSetattr_keys w e n v hf hn
    · exact ⟨rfl, hf⟩
  · exact envSetattr_keys w e n v hf hn

private theorem set_keys (w : World V) (once : Bool) (e : Env V) (n : String) (v : V) (hf : e.finalized = true)
    (hn : n ≠ "_env" ∧ n ≠ "_finalized") :
    (EnvM.set w once e n v).2.env.keys = e.env.keys ∧ (EnvM.set w once e n v).2.finalized = true := by
  have h1 := envSetattr_keys w e n v hf hn
  have h2 := setattr_keys w once e n v hf hn
  unfold EnvM.set
  split
  · exact ⟨rfl, hf⟩
  split
  · split <;> rename_i hh <;> rw [hh] at h1 <;> exact h1
  · split <;> rename_i hh <;> rw [hh] at h2 <;> exact h2

theorem env_step_keys (w : World V) (once : Bool) (e : Env V) (op : Op V) (hf : e.finalized = true)
    (hp : PublicOp op) :
    (step w once e op).2.env.keys = e.env.keys ∧ (step w once e op).2.finalized = true := by
  cases op <;> simp only [step]
  case setattr n v => exact setattr_keys w once e n v hf hp
  case setitem n v => exact setattr_keys w once e n v hf hp
  case set n v => exact set_keys w once e n v hf hp
  case lshift n v =>
    have h := set_keys w once e n v hf hp
    unfold lshift
    split <;> rename_i hh <;> rw [hh] at h <;> exact h
  case delattr n => unfold delattr; split; exact ⟨rfl, hf⟩; simp [hf]
  case delitem n => unfold delattr; split; exact ⟨rfl, hf⟩; simp [hf]
  case pop => simp [pop, hf]
  case popitem => simp [popitem, hf]
  case clear => simp [clear, hf]
  case update ms bs =>
    unfold update
    split
    · exact ⟨rfl, hf⟩
    split
    · exact ⟨rfl, hf⟩
    split
    · exact ⟨rfl, hf⟩
    split
    · exact ⟨rfl, hf⟩
    · rename_i h1 h2 h3
      refine ⟨?_, hf⟩
      simp only [hf, Bool.true_and, Bool.not_eq_true, List.any_eq_false] at h2 h3
      have hms : ∀ p ∈ ms.flatten, e.env.has p.1 = true := by
        intro p hp'
        obtain ⟨m, hm, hpm⟩ := List.mem_flatten.mp hp'
        have := h2 m hm
        simpa using this p hpm
      have h3' : ∀ p ∈ bs, e.env.has p.1 = true := by
        intro p hp'; simpa using h3 p hp'
      simp only
      rw [PyDict.keys_update_of_mem, PyDict.keys_update_of_mem _ _ hms]
      intro p hp'
      rw [PyDict.has_update, h3' p hp']; simp
  case setdefault k d =>
    unfold setdefault
    split
    · exact ⟨rfl, hf⟩
    · rename_i h
      simp only [hf, Bool.true_and, PyDict.has] at h
      split
      · exact ⟨rfl, hf⟩
      · rename_i h2; simp [h2] at h
  case exit => exact hp.elim
  all_goals first | exact ⟨rfl, hf⟩ | exact ⟨rfl, rfl⟩ | trivial

/-- C08: after `finalize()`, no history of operations changes the set (or order) of bound names. -/
theorem C08_finalized_names (w : World V) (once : Bool) (e : Env V) (ops : List (Op V))
    (hp : ∀ op ∈ ops, PublicOp op) :
    (run w once (step w once e .finalize).2 ops).env.keys = e.env.keys := by
  have key : ∀ (ops : List (Op V)) (e : Env V), e.finalized = true → (∀ op ∈ ops, PublicOp op) →
      (run w once e ops).env.keys = e.env.keys := by
    intro ops
    induction ops with
    | nil => intro e _ _; rfl
    | cons op ops ih =>
      intro e hf hp
      obtain ⟨h1, h2⟩ := env_step_keys w once e op hf (hp op (by simp))
      rw [run, ih _ h2 (fun o ho => hp o (by simp [ho])), h1]
  exact key ops _ rfl hp

private theorem has_self (bs : List (String × V)) : PyDict.has bs "self" = true ↔ ∃ p ∈ bs, p.1 = "self" := by
  rw [← PyDict.mem_keys]; simp [PyDict.keys]

/-- C08: in a finalized env each operation that would change the set of names raises: new names are
AttributeError, deletions TypeError (deleting a non-identifier is ValueError, `update(self=...)` TypeError). -/
theorem C08_finalized_rejects (w : World V) (e : Env V) (hf : e.finalized = true) (n : String) (v : V) (d : Option V)
    (ms : List (List (String × V))) (bs : List (String × V)) :
    (e.env.has n = false → n ≠ "_env" → n ≠ "_finalized" →
      step w false e (.setattr n v) = (.error .AttributeError, e) ∧
      step w false e (.setitem n v) = (.error .AttributeError, e)) ∧
    (e.env.has n = false →
      step w false e (.set n v) = (.error .AttributeError, e) ∧
      step w false e (.lshift n v) = (.error .AttributeError, e) ∧
      step w false e (.setdefault n d) = (.error .AttributeError, e)) ∧
    (step w false e (.delattr n) = (.error (if w.isIdent n then .TypeError else .ValueError), e)) ∧
    (step w false e (.delitem n) = (.error (if w.isIdent n then .TypeError else .ValueError), e)) ∧
    step w false e (.pop n d) = (.error .TypeError, e) ∧
    step w false e .popitem = (.error .TypeError, e) ∧
    step w false e .clear = (.error .TypeError, e) ∧
    (ms.length ≤ 1 → (∃ p ∈ ms.flatten ++ bs, e.env.has p.1 = false) →
      step w false e (.update ms bs) =
        (.error (if ∃ p ∈ bs, p.1 = "self" then .TypeError else .AttributeError), e)) := by
  refine ⟨?_, ?_, ?_, ?_, ?_, ?_, ?_, ?_⟩
  · intro h h1 h2
    have : setattr w false e n v = (.error .AttributeError, e) := by
      simp only [setattr, Bool.false_eq_true, if_false, envSetattr, not_dw ⟨h1, h2⟩, hf, h]
      split <;> simp
    exact ⟨this, this⟩
  · intro h
    refine ⟨by simp [step, EnvM.set, h], by simp [step, lshift, EnvM.set, h], by simp [step, setdefault, h, hf]⟩
  · simp only [step, delattr, hf]; cases w.isIdent n <;> simp
  · simp only [step, delattr, hf]; cases w.isIdent n <;> simp
  · simp [step, pop, hf]
  · simp [step, popitem, hf]
  · simp [step, clear, hf]
  · rintro hl ⟨p, hp, hh⟩
    simp only [step, update, hf, Bool.true_and]
    by_cases hs : ∃ p ∈ bs, p.1 = "self"
    · rw [if_pos ((has_self bs).mpr hs), if_pos hs]
    rw [if_neg (mt (has_self bs).mp hs), if_neg hs, if_neg (by omega)]
    split
    · rfl
    · rename_i h1
      rw [if_pos]
      rcases List.mem_append.mp hp with hp | hp
      · exfalso
        obtain ⟨m, hm, hpm⟩ := List.mem_flatten.mp hp
        exact h1 (List.any_eq_true.mpr ⟨m, hm, List.any_eq_true.mpr ⟨p, hpm, by simp [hh]⟩⟩)
      · exact List.any_eq_true.mpr ⟨p, hp, by simp [hh]⟩

/-- C08: existing names (which are not the reserved ones) may still be rebound, by all four syntaxes. -/
theorem C08_finalized_rebinds (w : World V) (e : Env V) (n : String) (v : V) (h : e.env.has n = true)
    (hid : w.isIdent n = true) (hr : n ∉ reservedNames) :
    let e' := { e with env := e.env.set n v }
    step w false e (.setattr n v) = (.ok .unit, e') ∧ step w false e (.setitem n v) = (.ok .unit, e') ∧
    step w false e (.set n v) = (.ok (.val v), e') ∧ step w false e (.lshift n v) = (.ok .self, e') := by
  have hr1 : reservedNames.contains n = false := by simpa using hr
  have hd : directWrite.contains n = false := by
    apply not_dw; constructor <;> (rintro rfl; exact hr (by decide))
  have hs : envSetattr w e n v = (.ok .unit, { e with env := e.env.set n v }) := by
    simp only [envSetattr, hd, hr1, h, hid]; simp
  simp [step, setattr, EnvM.set, lshift, hs, h]

/-- The class `env` of the examples: three strings are not identifiers; some methods. -/
def demoWorld : World Nat where
  isIdent n := !["", "1x", "a b"].contains n
  classAttr n := ["set", "clear", "finalize", "items", "keys", "values", "get", "pop", "update"].contains n
  truthy v := v ≠ 0
  asDict _ := []
  none := 0

/-- a finalized env under a mixed history -/
example : (run demoWorld false (step demoWorld false { env := [("a", 1), ("b", 2)] } .finalize).2
    [.setattr "a" 5, .setattr "c" 7, .delattr "a", .pop "b" none, .popitem, .clear, .update [[("a", 9), ("z", 1)]] [],
     .update [[("a", 10)]] [("b", 20)], .setdefault "q" (some 3), .set "b" 21, .lshift "nope" 1]).env =
    [("a", 10), ("b", 21)] := by decide
/-- leaving the `with` block clears even a finalized env (as documented in the code) -/
example : (run demoWorld false { env := [("a", 1)], finalized := true } [.exit]).env = [] := by decide

/-- assigning to `_env` replaces all bindings -/
example : (run { demoWorld with asDict := fun v => [("c", v)] } false { env := [("a", 1), ("b", 2)] } [.setattr "_env" 5]).env = [("c", 5)] := by decide

/-- C08 cannot cover the internal variables: client code can un-finalize an env by assigning to `_finalized`
(a known TODO in the code). -/
theorem C08_direct_write_unfinalizes_refuted :
    (run demoWorld false (step demoWorld false { env := [("a", 1)] } .finalize).2
      [.setattr "_finalized" 0, .setattr "b" 2]).env.keys = ["a", "b"] := by decide

/-! ## C09 -/

/-- C09: in an `assignonce`, attribute and subscript writes to a bound name raise AttributeError and change nothing;
`set` and `<<` never create a name. -/
theorem C09_assignonce_step (w : World V) (e : Env V) (n : String) (v : V) :
    (e.env.has n = true → n ≠ "_env" → n ≠ "_finalized" →
      step w true e (.setattr n v) = (.error .AttributeError, e) ∧
      step w true e (.setitem n v) = (.error .AttributeError, e)) ∧
    (e.env.has n = false →
      step w true e (.set n v) = (.error .AttributeError, e) ∧
      step w true e (.lshift n v) = (.error .AttributeError, e)) ∧
    (e.env.has n = true → w.isIdent n = true → n ∉ reservedNames →
      step w true e (.set n v) = (.ok (.val v), { e with env := e.env.set n v })) := by
  refine ⟨?_, ?_, ?_⟩
  · intro h h1 h2
    have : setattr w true e n v = (.error .AttributeError, e) := by
      simp only [setattr, if_true, envSetattr, not_dw ⟨h1, h2⟩, h]
      cases reservedNames.contains n <;> simp
    exact ⟨this, this⟩
  · intro h; exact ⟨by simp [step, EnvM.set, h], by simp [step, lshift, EnvM.set, h]⟩
  · intro h hid hr
    have hr1 : reservedNames.contains n = false := by simpa using hr
    have hd : directWrite.contains n = false := by
      apply not_dw; constructor <;> (rintro rfl; exact hr (by decide))
    simp only [step, EnvM.set, h, envSetattr, hd, hr1, hid]; simp

/-- operations that (successfully) rebind or remove the name `x` in an assignonce: `set`, `<<`, deletions, and -- this is
the gap -- `update` -/
def Touches (x : String) : Op V → Prop
  | .set n _ | .lshift n _ => n = x ∨ n = "_env"
  | .setattr n _ | .setitem n _ => n = "_env"
  | .delattr n | .delitem n => n = x
  | .pop k _ => k = x
  | .popitem | .clear | .exit => True
  | .update ms bs => ∃ p ∈ ms.flatten ++ bs, p.1 = x
  | _ => False

private theorem envSetattr_get (w : World V) (e : Env V) (n x : String) (v : V) (h1 : n ≠ "_env")
    (h2 : n ≠ x) : (envSetattr w e n v).2.env.get? x = e.env.get? x := by
  unfold envSetattr
  repeat' split
  all_goals first | rfl | (rename_i h _; exact absurd h h1) | skip
  all_goals first | contradiction | (simp only [PyDict.get?_set, h2, if_false])

/-- C09 (what holds): for every history in which `x` is not the target of `set`/`<<`, of a deletion, or of `update`, a bound
name `x` keeps its value.  Missing: `update`, refuted below. -/
theorem C09_assignonce_keeps_partial (w : World V) (e : Env V) (ops : List (Op V)) (x : String) (v : V)
    (hx : e.env.get? x = some v) (h : ∀ op ∈ ops, ¬ Touches x op) : (run w true e ops).env.get? x = some v := by
  induction ops generalizing e with
  | nil => exact hx
  | cons op ops ih =>
    refine ih _ ?_ (fun o ho => h o (by simp [ho]))
    have ht := h op (by simp)
    have hset : ∀ n v', n ≠ "_env" → (setattr w true e n v').2.env.get? x = some v := by
      intro n v' hn
      by_cases hnx : n = x
      · subst hnx
        unfold setattr
        simp only [if_true]
        split
        · rename_i hc
          have hhas : e.env.has n = true := by simp [PyDict.has, hx]
          simp only [hhas, Bool.not_true, Bool.or_false] at hc
          simp only [envSetattr, hc, hn, if_false, if_true]
          split <;> exact hx
        · exact hx
      · unfold setattr
        simp only [if_true]
        split
        · rw [envSetattr_get w e n x v' hn hnx]; exact hx
        · exact hx
    have hset' : ∀ n v', n ≠ "_env" → n ≠ x → (EnvM.set w true e n v').2.env.get? x = some v := by
      intro n v' hn hnx
      have h1 := envSetattr_get w e n x v' hn hnx
      unfold EnvM.set
      split
      · exact hx
      simp only [if_true]
      split <;> rename_i hh <;> rw [hh] at h1 <;> exact h1.trans hx
    cases op <;> simp only [step]
    case setattr n v' => exact hset n v' (fun e => ht e)
    case setitem n v' => exact hset n v' (fun e => ht e)
    case set n v' => exact hset' n v' (fun e => ht (.inr e)) (fun e => ht (.inl e))
    case lshift n v' =>
      have := hset' n v' (fun e => ht (.inr e)) (fun e => ht (.inl e))
      unfold lshift; split <;> rename_i hh <;> rw [hh] at this <;> exact this
    case delattr n =>
      have hn : n ≠ x := ht
      unfold delattr; repeat' split
      all_goals first | exact hx | (simp only [PyDict.get?_erase, Ne.symm hn, if_false]; exact hx)
    case delitem n =>
      have hn : n ≠ x := ht
      unfold delattr; repeat' split
      all_goals first | exact hx | (simp only [PyDict.get?_erase, Ne.symm hn, if_false]; exact hx)
    case pop k d =>
      have hn : k ≠ x := ht
      unfold pop; repeat' split
      all_goals first | exact hx | (simp only [PyDict.get?_erase, Ne.symm hn, if_false]; exact hx)
    case popitem => exact absurd trivial ht
    case clear => exact absurd trivial ht
    case exit => exact absurd trivial ht
    case update ms bs =>
      have hn : ∀ p ∈ ms.flatten ++ bs, p.1 ≠ x := fun p hp e => ht ⟨p, hp, e⟩
      have hnone : ∀ (l : List (String × V)), (∀ p ∈ l, p.1 ≠ x) → PyDict.get? (V := V) l.reverse x = none := by
        intro l hl
        have : PyDict.has (V := V) l.reverse x = false := by
          rw [← Bool.not_eq_true]; intro hc
          have := (PyDict.mem_keys (V := V) l.reverse x).mpr hc
          simp only [PyDict.keys, List.mem_map, List.mem_reverse] at this
          obtain ⟨p, hp, e⟩ := this; exact hl p hp e
        simpa [PyDict.has] using this
      unfold update; repeat' split
      all_goals first | exact hx | skip
      simp only [PyDict.get?_update]
      rw [hnone bs (fun p hp => hn p (by simp [hp])), hnone ms.flatten (fun p hp => hn p (List.mem_append_left _ hp))]
      exact hx
    case setdefault k d =>
      unfold setdefault; repeat' split
      · exact hx
      · exact hx
      · rename_i hk
        have hn : k ≠ x := by rintro rfl; rw [hx] at hk; simp at hk
        simp only [PyDict.get?_set, hn, if_false]; exact hx
    all_goals exact hx

/-- C09 is violated by `update`, which overwrites a bound name without complaint. -/
theorem C09_assignonce_update_refuted :
    step demoWorld true { env := [("foo", 1)] } (.update [] [("foo", 2)]) =
      (.ok .unit, { env := [("foo", 2)] }) := by decide

example : (run demoWorld true {} [.setattr "foo" 1, .setattr "foo" 2, .setattr "bar" 3, .setdefault "foo" (some 9),
    .set "bar" 4, .delattr "bar", .setitem "foo" 7]).env = [("foo", 1)] := by decide
example : ∀ op ∈ ([.setattr "foo" 2, .setattr "bar" 3, .setdefault "foo" (some 9), .set "bar" 4] : List (Op Nat)),
    ¬ Touches "foo" op := by simp [Touches]

/-! ## C70 -/

/-- C70 (what holds): after a successful write by any syntax, every way of reading the name gives the value written, for
names that are not attributes of the class.  Missing: names of methods, refuted below. -/
theorem C70_env_read_back_partial (w : World V) (once : Bool) (e e' : Env V) (n : String) (v : V) (op : Op V) (out : Out V)
    (hop : op = .setattr n v ∨ op = .setitem n v ∨ op = .set n v ∨ op = .lshift n v)
    (hdw : n ≠ "_env" ∧ n ≠ "_finalized") (h : step w once e op = (.ok out, e')) (hc : w.classAttr n = false) :
    getattr w e' n = .ok (.val v) ∧ (∀ d, EnvM.get w e' n d = .ok (.val v)) ∧ e'.env.has n = true := by
  have hkey : ∀ out, envSetattr w e n v = (.ok out, e') → e'.env = e.env.set n v ∧ w.isIdent n = true := by
    intro out h
    unfold envSetattr at h
    rw [not_dw hdw] at h
    simp only [Bool.false_eq_true, if_false] at h
    repeat' split at h
    all_goals simp at h
    · rename_i h1 h2 h3
      refine ⟨by rw [← h.2], by simpa using h3⟩
  have hsa : ∀ out, setattr w once e n v = (.ok out, e') → e'.env = e.env.set n v ∧ w.isIdent n = true := by
    intro out h
    unfold setattr at h
    repeat' split at h
    all_goals first | exact hkey _ h | simp at h
  have hs : ∀ out, EnvM.set w once e n v = (.ok out, e') → e'.env = e.env.set n v ∧ w.isIdent n = true := by
    intro out h
    unfold EnvM.set at h
    repeat' split at h
    all_goals simp at h
    · rename_i hh; rw [h.2] at hh; exact hkey _ hh
    · rename_i hh; rw [h.2] at hh; exact hsa _ hh
  have hall : e'.env = e.env.set n v ∧ w.isIdent n = true := by
    rcases hop with rfl | rfl | rfl | rfl
    · exact hsa _ h
    · exact hsa _ h
    · exact hs _ h
    · simp only [step, lshift] at h
      split at h
      · rename_i hh; simp at h; rw [h.2] at hh; exact hs _ hh
      · simp at h
  obtain ⟨he, hid⟩ := hall
  have hg : getattr w e' n = .ok (.val v) := by
    unfold getattr
    rw [not_dw hdw, hc, hid, he, PyDict.get?_set]; simp
  have hh : e'.env.has n = true := by simp [PyDict.has, he, PyDict.get?_set]
  exact ⟨hg, fun d => by simp [EnvM.get, hh, hg], hh⟩

private theorem lastGiven_eq (bs : List (String × V)) (x : String) :
    lastGiven bs x = PyDict.get? (V := V) bs.reverse x := by
  unfold lastGiven
  generalize bs.reverse = l
  induction l with
  | nil => rfl
  | cons p l ih =>
    obtain ⟨a, b⟩ := p
    simp only [List.find?_cons, PyDict.get?]
    by_cases h : a = x
    · simp [h]
    · simp [h, ih]

private theorem envSetattr_ok {w : World V} {e e' : Env V} {n : String} {v : V} {out : Out V}
    (hd : ¬ (n = "_env" ∨ n = "_finalized")) (h : envSetattr w e n v = (.ok out, e')) :
    out = .unit ∧ e' = { e with env := e.env.set n v } := by
  unfold envSetattr at h
  rw [not_dw (by simpa using hd)] at h
  simp only [Bool.false_eq_true, if_false] at h
  split at h
  · simp at h
  split at h
  · simp at h
  split at h
  · simp at h
  · simp at h; exact ⟨h.1.symm, h.2.symm⟩

private theorem setattr_ok {w : World V} {once : Bool} {e e' : Env V} {n : String} {v : V} {out : Out V}
    (hd : ¬ (n = "_env" ∨ n = "_finalized")) (h : setattr w once e n v = (.ok out, e')) :
    out = .unit ∧ e' = { e with env := e.env.set n v } := by
  unfold setattr at h
  split at h
  · split at h
    · exact envSetattr_ok hd h
    · simp at h
  · exact envSetattr_ok hd h

private theorem set_ok {w : World V} {once : Bool} {e e' : Env V} {n : String} {v : V} {out : Out V}
    (hd : ¬ (n = "_env" ∨ n = "_finalized")) (h : EnvM.set w once e n v = (.ok out, e')) :
    out = .val v ∧ e' = { e with env := e.env.set n v } := by
  unfold EnvM.set at h
  split at h
  · simp at h
  split at h
  · split at h
    · rename_i hh; simp at h; exact ⟨h.1.symm, h.2 ▸ (envSetattr_ok hd hh).2⟩
    · simp at h
  · split at h
    · rename_i hh; simp at h; exact ⟨h.1.symm, h.2 ▸ (setattr_ok hd hh).2⟩
    · simp at h

private theorem get?_append (a b : List (String × V)) (k : String) : PyDict.get? (V := V) (a ++ b) k =
    (PyDict.get? (V := V) a k).or (PyDict.get? (V := V) b k) := by
  induction a with
  | nil => simp [PyDict.get?]
  | cons p a ih => simp only [List.cons_append, PyDict.get?]; split <;> simp [ih]

/-- C70: an env is a finite map from names to values.  For every operation that succeeds (and does not write to the
internal variables), the bindings afterwards, and the value returned, are those of the operation on that map (and no
name is ever bound twice).  Missing: reads of names that are attributes of the class. -/
theorem C70_env_is_map_partial (w : World V) (once : Bool) (e e' : Env V) (op : Op V) (out : Out V)
    (hn : e.env.keys.Nodup) (hd : ¬ Direct op) (hr : ¬ ReadsAttribute w op) (h : step w once e op = (.ok out, e')) :
    (fun x => e'.env.get? x) = effect w op out (fun x => e.env.get? x) ∧
    Answers w (fun x => e.env.get? x) op out ∧ e'.env.keys.Nodup := by
  have hset : ∀ n (v : V), (fun x => (e.env.set n v).get? x) = fun x => if x = n then some v else e.env.get? x := by
    intro n v; funext x; rw [PyDict.get?_set]
    by_cases hx : n = x
    · simp [hx]
    · simp [hx, Ne.symm hx]
  have herase : ∀ n, (fun x => (e.env.erase n).get? x) = fun x => if x = n then none else e.env.get? x := by
    intro n; funext x; rw [PyDict.get?_erase]
  have hdel : ∀ n, delattr w e n = (.ok out, e') → (fun x => e'.env.get? x) =
      (fun x => if x = n then none else e.env.get? x) ∧ ((e.env.get? n).isSome ∧ out = .unit) ∧ e'.env.keys.Nodup := by
    intro n h
    unfold delattr at h
    split at h
    · simp at h
    split at h
    · simp at h
    split at h
    · simp at h
    · rename_i hh
      simp at h
      obtain ⟨rfl, rfl⟩ := h
      exact ⟨herase n, ⟨by simpa [PyDict.has, Option.isSome_iff_ne_none] using hh, rfl⟩, PyDict.nodup_erase hn n⟩
  have hget : ∀ n, ¬ (w.classAttr n = true ∨ n = "_env" ∨ n = "_finalized") → getattr w e n = .ok out →
      ∃ v, e.env.get? n = some v ∧ out = .val v := by
    intro n hr h
    unfold getattr at h
    have hr' : w.classAttr n = false ∧ n ≠ "_env" ∧ n ≠ "_finalized" := by simpa using hr
    rw [not_dw hr'.2, hr'.1] at h
    simp only [Bool.or_self, Bool.false_eq_true, if_false] at h
    split at h
    · simp at h
    · split at h
      · simp at h
      · rename_i v hv; simp at h; exact ⟨v, hv, h.symm⟩
  cases op <;> simp only [step] at h
  case setattr n v => obtain ⟨rfl, rfl⟩ := setattr_ok hd h; exact ⟨hset n v, rfl, PyDict.nodup_set hn n v⟩
  case setitem n v => obtain ⟨rfl, rfl⟩ := setattr_ok hd h; exact ⟨hset n v, rfl, PyDict.nodup_set hn n v⟩
  case set n v => obtain ⟨rfl, rfl⟩ := set_ok hd h; exact ⟨hset n v, rfl, PyDict.nodup_set hn n v⟩
  case lshift n v =>
    unfold lshift at h
    split at h
    · rename_i hh
      simp at h
      obtain ⟨rfl, rfl⟩ := h
      obtain ⟨_, rfl⟩ := set_ok hd hh
      exact ⟨hset n v, rfl, PyDict.nodup_set hn n v⟩
    · simp at h
  case delattr n => exact hdel n h
  case delitem n => exact hdel n h
  case getattr n => simp at h; obtain ⟨h, rfl⟩ := h; exact ⟨rfl, hget n hr h, hn⟩
  case getitem n => simp at h; obtain ⟨h, rfl⟩ := h; exact ⟨rfl, hget n hr h, hn⟩
  case get n d =>
    simp at h
    obtain ⟨h, rfl⟩ := h
    refine ⟨rfl, ?_, hn⟩
    unfold EnvM.get at h
    split at h
    · obtain ⟨v, h1, h2⟩ := hget n hr h
      simp [Answers, h1, h2]
    · rename_i hh
      simp [PyDict.has] at hh
      simp at h
      simp [Answers, hh, h]
  case contains n => simp at h; obtain ⟨rfl, rfl⟩ := h; exact ⟨rfl, rfl, hn⟩
  case len =>
    simp at h
    obtain ⟨rfl, rfl⟩ := h
    refine ⟨rfl, ⟨e.env.keys, hn, ?_, by simp [PyDict.keys]⟩, hn⟩
    intro x; rw [PyDict.mem_keys]; rfl
  case pop k d =>
    unfold EnvM.pop at h
    split at h
    · simp at h
    · split at h
      · rename_i v hv
        simp at h
        obtain ⟨rfl, rfl⟩ := h
        exact ⟨herase k, ⟨v, by simp [hv], rfl⟩, PyDict.nodup_erase hn k⟩
      · rename_i dv hv
        simp at h
        obtain ⟨rfl, rfl⟩ := h
        refine ⟨?_, ⟨dv, by simp [hv], rfl⟩, hn⟩
        funext x
        simp only [effect]
        split
        · rename_i hx; rw [hx, hv]
        · rfl
      · simp at h
  case popitem =>
    unfold EnvM.popitem at h
    split at h
    · simp at h
    · split at h
      · rename_i k v hl
        simp at h
        obtain ⟨rfl, rfl⟩ := h
        obtain ⟨ys, hys⟩ := List.getLast?_eq_some_iff.mp hl
        have hk : PyDict.get? (V := V) ys k = none := by
          rw [hys] at hn
          simp only [PyDict.keys, List.map_append, List.nodup_append] at hn
          have h2 := hn.2.2
          have : k ∉ PyDict.keys ys := fun hm => h2 k hm k (by simp) rfl
          rw [PyDict.mem_keys] at this
          simpa [PyDict.has] using this
        refine ⟨?_, ⟨k, v, ?_, rfl⟩, ?_⟩
        · funext x
          simp only [effect]
          rw [hys, List.dropLast_concat, get?_append]
          by_cases hx : x = k
          · subst hx; simp [hk]
          · simp [hx, PyDict.get?, Ne.symm hx]
        · show PyDict.get? (V := V) e.env k = some v
          rw [hys, get?_append, hk]; simp [PyDict.get?]
        · rw [hys] at hn ⊢
          rw [List.dropLast_concat]
          simp only [PyDict.keys, List.map_append, List.nodup_append] at hn
          exact hn.1
      · simp at h
  case clear =>
    unfold EnvM.clear at h
    split at h
    · simp at h
    · simp at h; obtain ⟨rfl, rfl⟩ := h; exact ⟨rfl, rfl, by simp [PyDict.keys]⟩
  case update ms bs =>
    unfold EnvM.update at h
    split at h
    · simp at h
    split at h
    · simp at h
    split at h
    · simp at h
    split at h
    · simp at h
    · simp at h
      obtain ⟨rfl, rfl⟩ := h
      refine ⟨?_, rfl, PyDict.nodup_update (PyDict.nodup_update hn _) _⟩
      funext x
      simp only [effect]
      rw [lastGiven_eq, List.reverse_append, get?_append, PyDict.get?_update, PyDict.get?_update]
      cases PyDict.get? (V := V) bs.reverse x <;> simp
      cases PyDict.get? (V := V) ms.flatten.reverse x <;> simp
  case setdefault k d =>
    unfold EnvM.setdefault at h
    split at h
    · simp at h
    · split at h
      · rename_i v hv
        simp at h
        obtain ⟨rfl, rfl⟩ := h
        refine ⟨?_, by simp [Answers, hv], hn⟩
        funext x
        simp only [effect]
        split
        · rename_i hx; rw [hx, hv]; rfl
        · rfl
      · rename_i hv
        simp at h
        obtain ⟨rfl, rfl⟩ := h
        refine ⟨?_, by simp [Answers, hv], PyDict.nodup_set hn _ _⟩
        rw [hset]
        funext x
        simp only [effect, hv, Option.none_or]
  case finalize => simp at h; obtain ⟨rfl, rfl⟩ := h; exact ⟨rfl, rfl, hn⟩
  case exit => simp at h; obtain ⟨rfl, rfl⟩ := h; exact ⟨rfl, rfl, by simp [PyDict.keys]⟩

example : step demoWorld false { env := [("a", 1), ("b", 2), ("c", 3)] } .popitem =
    (.ok (.item "c" 3), { env := [("a", 1), ("b", 2)] }) ∧
    step demoWorld false { env := [("a", 1), ("b", 2)] } (.update [[("b", 5), ("d", 6)]] [("b", 7)]) =
    (.ok .unit, { env := [("a", 1), ("b", 7), ("d", 6)] }) := by decide

private theorem reserved_iff {n : String} (h : n ≠ "_env" ∧ n ≠ "_finalized") :
    reservedNames.contains n = true ↔ Protected n := by
  simp [reservedNames, Protected, h.1, h.2]

private theorem flat_any (ms : List (List (String × V))) (f : String × V → Bool) :
    ms.any (fun m => m.any f) = ms.flatten.any f := by
  induction ms with
  | nil => rfl
  | cons a ms ih => rw [List.any_cons, ih, List.flatten_cons, List.any_append]

/-- C70: which operations raise, which exception, and that an operation that raises changes nothing; all others
succeed (and then `C70_env_is_map_partial` says what they do).  For every env, finalized or not, `assignonce` or not. -/
theorem C70_env_raises (w : World V) (once : Bool) (e e' : Env V) (op : Op V) (x : PyErr)
    (hd : ¬ Direct op) (hr : ¬ ReadsAttribute w op) :
    step w once e op = (.error x, e') ↔ Refuses w once e.finalized (fun n => e.env.get? n) op x ∧ e' = e := by
  have hx : ∀ y : PyErr, (y = x) = (x = y) := fun y => propext eq_comm
  have he : (e = e') = (e' = e) := propext eq_comm
  have hget : ∀ n, ¬ (w.classAttr n = true ∨ n = "_env" ∨ n = "_finalized") → (getattr w e n = .error x ↔
      (x = .ValueError ∧ w.isIdent n = false) ∨ (x = .AttributeError ∧ w.isIdent n = true ∧ e.env.get? n = none)) := by
    intro n hr
    have hr' : w.classAttr n = false ∧ n ≠ "_env" ∧ n ≠ "_finalized" := by simpa using hr
    unfold getattr
    rw [not_dw hr'.2, hr'.1]
    cases w.isIdent n <;> cases e.env.get? n <;> simp [hx, he]
  have hdel : ∀ n, (delattr w e n = (.error x, e') ↔
      ((x = .ValueError ∧ w.isIdent n = false) ∨ (x = .TypeError ∧ w.isIdent n = true ∧ e.finalized = true) ∨
        (x = .AttributeError ∧ w.isIdent n = true ∧ e.finalized = false ∧ e.env.get? n = none)) ∧ e' = e) := by
    intro n
    unfold delattr
    cases w.isIdent n <;> cases e.finalized <;> cases h : e.env.get? n <;> simp [PyDict.has, h, hx, he]
  have hset0 : ∀ n v, n ≠ "_env" ∧ n ≠ "_finalized" → (envSetattr w e n v = (.error x, e') ↔
      ((x = .AttributeError ∧ (Protected n ∨ (e.finalized = true ∧ e.env.get? n = none))) ∨
       (x = .ValueError ∧ w.isIdent n = false ∧ ¬ Protected n ∧ (e.env.get? n = none → e.finalized = false))) ∧ e' = e) := by
    intro n v hn
    unfold envSetattr
    rw [not_dw hn]
    by_cases hp : Protected n
    · rw [(reserved_iff hn).mpr hp]; simp [hp, hx, he]
    · have : reservedNames.contains n = false := by
        rw [← Bool.not_eq_true]; exact fun h => hp ((reserved_iff hn).mp h)
      rw [this]
      cases w.isIdent n <;> cases e.finalized <;> cases h : e.env.get? n <;> simp [PyDict.has, h, hp, hx, he]
  have hset1 : ∀ n v, n ≠ "_env" ∧ n ≠ "_finalized" → (setattr w once e n v = (.error x, e') ↔
      ((x = .AttributeError ∧ (Protected n ∨ (once = true ∧ e.env.get? n ≠ none) ∨ (e.finalized = true ∧ e.env.get? n = none))) ∨
       (x = .ValueError ∧ w.isIdent n = false ∧ ¬ Protected n ∧ (e.env.get? n ≠ none → once = false) ∧
        (e.env.get? n = none → e.finalized = false))) ∧ e' = e) := by
    intro n v hn
    unfold setattr
    cases once
    · simp [hset0 n v hn]
    · by_cases hp : Protected n
      · rw [(reserved_iff hn).mpr hp]; simp [hset0 n v hn, hp]
      · have : reservedNames.contains n = false := by
          rw [← Bool.not_eq_true]; exact fun h => hp ((reserved_iff hn).mp h)
        rw [this]
        cases h : e.env.get? n
        · simp [PyDict.has, h, hset0 n v hn]
        · simp [PyDict.has, h, hp, hx, he]
  have hset : ∀ n v, n ≠ "_env" ∧ n ≠ "_finalized" → (EnvM.set w once e n v = (.error x, e') ↔
      ((x = .AttributeError ∧ (e.env.get? n = none ∨ Protected n)) ∨
       (x = .ValueError ∧ w.isIdent n = false ∧ e.env.get? n ≠ none ∧ ¬ Protected n)) ∧ e' = e) := by
    intro n v hn
    unfold EnvM.set
    cases h : e.env.get? n with
    | none => simp [PyDict.has, h, hx, he]
    | some u =>
      have h0 := hset0 n v hn
      simp only [h] at h0
      simp only [PyDict.has, h]
      obtain ⟨p, hp⟩ : ∃ p, envSetattr w e n v = p := ⟨_, rfl⟩
      rw [hp] at h0
      cases once <;> simp only [setattr, Bool.false_eq_true, if_false, if_true, hp] <;>
        rcases p with ⟨_ | _, _⟩ <;> simpa using h0
  have hnd : ∀ n, ¬ (n = "_env" ∨ n = "_finalized") → n ≠ "_env" ∧ n ≠ "_finalized" := by
    intro n h; exact ⟨fun h' => h (.inl h'), fun h' => h (.inr h')⟩
  cases op <;> simp only [step, Refuses]
  case setattr n v => exact hset1 n v (hnd n hd)
  case setitem n v => exact hset1 n v (hnd n hd)
  case set n v => exact hset n v (hnd n hd)
  case lshift n v =>
    have h0 := hset n v (hnd n hd)
    unfold lshift
    obtain ⟨p, hp⟩ : ∃ p, EnvM.set w once e n v = p := ⟨_, rfl⟩
    rw [hp] at h0 ⊢
    rcases p with ⟨_ | _, _⟩ <;> simpa using h0
  case delattr n => exact hdel n
  case delitem n => exact hdel n
  case getattr n => simp only [Prod.mk.injEq]; rw [hget n hr, eq_comm (a := e)]
  case getitem n => simp only [Prod.mk.injEq]; rw [hget n hr, eq_comm (a := e)]
  case get n d =>
    simp only [Prod.mk.injEq, EnvM.get]
    have h0 := hget n hr
    cases h : e.env.get? n with
    | none => simp [PyDict.has, h]
    | some u => simp only [h] at h0; simp [PyDict.has, h, h0, hx, he]
  case contains => simp
  case len => simp
  case finalize => simp
  case exit => simp
  case pop k d =>
    unfold EnvM.pop
    cases e.finalized <;> cases h : e.env.get? k <;> cases d <;> simp [hx, he]
  case popitem =>
    unfold EnvM.popitem
    cases hf : e.finalized
    · cases hl : e.env.getLast? with
      | none =>
        rw [List.getLast?_eq_none_iff] at hl
        simp [hl, PyDict.get?, hx, he]
      | some q =>
        obtain ⟨k, v⟩ := q
        obtain ⟨ys, hys⟩ := List.getLast?_eq_some_iff.mp hl
        simp only [Bool.false_eq_true, if_false, Prod.mk.injEq, reduceCtorEq, false_and, false_iff, not_and, and_false,
          true_and, false_or]
        intro ⟨_, hk⟩
        have := hk k
        rw [hys, get?_append] at this
        simp [PyDict.get?] at this
    · simp [hx, he]
  case clear => unfold EnvM.clear; cases e.finalized <;> simp [hx, he]
  case update ms bs =>
    unfold EnvM.update
    rw [flat_any]
    by_cases hs : ∃ p ∈ bs, p.1 = "self"
    · rw [if_pos ((has_self bs).mpr hs)]
      simp [hs, hx, he]
    rw [if_neg (mt (has_self bs).mp hs)]
    simp only [hs, not_false_eq_true, and_false, true_and, false_or]
    by_cases h2 : 2 ≤ ms.length
    · have : ¬ ms.length ≤ 1 := by omega
      simp [h2, this, show ms.length > 1 from h2, hx, he]
    · have h3 : ms.length ≤ 1 := by omega
      have h4 : ¬ ms.length > 1 := by omega
      cases e.finalized
      · simp [h2, h4]
      · simp only [h2, h3, h4, if_false, Bool.true_and, and_false, true_and, false_or]
        have ha : ∀ l : List (String × V), l.any (fun p => !e.env.has p.1) = true ↔ ∃ p ∈ l, e.env.get? p.1 = none := by
          intro l; simp [PyDict.has]
        by_cases hm : ms.flatten.any (fun p => !e.env.has p.1) = true
        · obtain ⟨p, hp, hq⟩ := (ha _).mp hm
          rw [if_pos hm]
          have : ∃ p ∈ ms.flatten ++ bs, e.env.get? p.1 = none := ⟨p, by simp [hp], hq⟩
          simp only [this, and_true, Prod.mk.injEq, Except.error.injEq]
          rw [eq_comm, eq_comm (a := e)]
        · rw [if_neg hm]
          by_cases hb : bs.any (fun p => !e.env.has p.1) = true
          · obtain ⟨p, hp, hq⟩ := (ha _).mp hb
            rw [if_pos hb]
            have : ∃ p ∈ ms.flatten ++ bs, e.env.get? p.1 = none := ⟨p, by simp [hp], hq⟩
            simp only [this, and_true, Prod.mk.injEq, Except.error.injEq]
            rw [eq_comm, eq_comm (a := e)]
          · rw [if_neg hb]
            simp only [Prod.mk.injEq, reduceCtorEq, false_and, false_iff, not_and]
            rintro ⟨_, p, hp, hq⟩
            rcases List.mem_append.mp hp with h | h
            · exact absurd ((ha _).mpr ⟨p, h, hq⟩) hm
            · exact absurd ((ha _).mpr ⟨p, h, hq⟩) hb
  case setdefault k d =>
    unfold EnvM.setdefault
    cases e.finalized <;> cases h : e.env.get? k <;> simp [PyDict.has, h, hx, he]

example : step demoWorld false { env := [("a", 1)], finalized := true } (.setdefault "a" none) =
    (.ok (.val 1), { env := [("a", 1)], finalized := true }) := by decide
example : step demoWorld false { env := [("a", 1)] } (.setdefault "b" (some 2)) =
    (.ok (.val 2), { env := [("a", 1), ("b", 2)] }) := by decide
example : step demoWorld false { env := [("a", 1)], finalized := true } (.update [[("a", 3)]] [("b", 2)]) =
    (.error .AttributeError, { env := [("a", 1)], finalized := true }) := by decide

/-- C70: which operations that remove bindings succeed: in an env that is not finalized, deleting, popping and
clearing; leaving a `with` block in any env. -/
theorem C70_env_removes (w : World V) (once : Bool) (e : Env V) (n : String) :
    (∃ e', step w once e .exit = (.ok .unit, e') ∧ e'.env = []) ∧
    (e.finalized = false → w.isIdent n = true → e.env.has n = true →
      (∃ e', step w once e (.delattr n) = (.ok .unit, e')) ∧ (∃ e', step w once e (.delitem n) = (.ok .unit, e')) ∧
      (∃ v e', step w once e (.pop n none) = (.ok (.val v), e')) ∧
      (∃ k v e', step w once e .popitem = (.ok (.item k v), e'))) ∧
    (e.finalized = false → ∃ e', step w once e .clear = (.ok .unit, e')) := by
  refine ⟨⟨_, rfl, rfl⟩, ?_, ?_⟩
  · intro hf hi hh
    have hd : ∃ e', delattr w e n = (.ok .unit, e') := by simp [delattr, hf, hi, hh]
    refine ⟨hd, hd, ?_, ?_⟩
    · obtain ⟨v, hv⟩ := Option.isSome_iff_exists.mp hh
      exact ⟨v, _, by simp only [step, EnvM.pop, hf, hv]; rfl⟩
    · cases hl : e.env.getLast? with
      | none => rw [List.getLast?_eq_none_iff] at hl; rw [hl] at hh; simp [PyDict.has, PyDict.get?] at hh
      | some p => exact ⟨p.1, p.2, _, by simp only [step, EnvM.popitem, hf, hl]; rfl⟩
  · intro hf; exact ⟨_, by simp only [step, EnvM.clear, hf]; rfl⟩

example : demoWorld.isIdent "a" = true ∧ ({ env := [("a", 1)] } : Env Nat).env.has "a" = true := by decide

/-- C70 is violated for names of methods of `env` which are not reserved: the write is accepted, the name is then bound, and
reading it gives the method. -/
theorem C70_env_shadowed_by_method_refuted :
    (step demoWorld false {} (.setattr "items" 3)).1 = .ok .unit ∧
    (let e := (step demoWorld false {} (.setattr "items" 3)).2
     e.env.has "items" = true ∧ getattr demoWorld e "items" = .ok (.classAttr "items")) := by decide

example : step demoWorld false { env := [("a", 1)], finalized := true } (.lshift "a" 2) =
    (.ok .self, { env := [("a", 2)], finalized := true }) := by decide

/-- C70 is violated by `update` with a named argument `self`: a dict (and `e["self"] = 1`) accepts the name, `update`
raises TypeError. -/
theorem C70_update_self_refuted (w : World V) (once : Bool) (e : Env V) (v : V) (hid : w.isIdent "self" = true)
    (hf : e.finalized = false) (hn : e.env.has "self" = false) :
    step w once e (.update [] [("self", v)]) = (.error .TypeError, e) ∧
    (step w once e (.setitem "self" v)).1 = .ok .unit := by
  refine ⟨by simp [step, EnvM.update, PyDict.has, PyDict.get?], ?_⟩
  cases once <;> simp [step, EnvM.setattr, envSetattr, directWrite, reservedNames, hf, hn, hid]

/-! ## C71 -/

/-- C71 for `env`: a successful construction binds exactly the given names, to the given values, in order; it succeeds iff
every name is an identifier and neither reserved nor `self` or `cls`.
(Missing: `assignonce`, see `C71_assignonce_constructor_refuted`, and the names `_env` and `_finalized`, see `C08_direct_write_unfinalizes_refuted`.) -/
theorem C71_env_constructor_partial (w : World V) (bs : List (String × V)) (hnd : (bs.map Prod.fst).Nodup)
    (hdw : ∀ p ∈ bs, p.1 ≠ "_env" ∧ p.1 ≠ "_finalized") :
    ((∀ p ∈ bs, p.1 ∉ "self" :: "cls" :: reservedNames ∧ w.isIdent p.1 = true) → new w false bs = .ok { env := bs, finalized := false }) ∧
    ((∃ p ∈ bs, p.1 ∈ "self" :: "cls" :: reservedNames ∨ w.isIdent p.1 = false) → ∃ x, new w false bs = .error x) := by
  have hone : ∀ (e : Env V), e.finalized = false → ∀ n v, n ≠ "_env" ∧ n ≠ "_finalized" → n ∉ reservedNames →
      w.isIdent n = true → setattr w false e n v = (.ok .unit, { e with env := e.env.set n v }) := by
    intro e hf n v h1 h2 h3
    have hr1 : reservedNames.contains n = false := by simpa using h2
    simp only [setattr, envSetattr, not_dw h1, hr1, hf, h3]; simp
  have hbad : ∀ (e : Env V) n v, n ≠ "_env" ∧ n ≠ "_finalized" → (n ∈ reservedNames ∨ w.isIdent n = false) →
      ∃ x, setattr w false e n v = (.error x, e) := by
    intro e n v h1 h2
    simp only [setattr, envSetattr, not_dw h1, Bool.false_eq_true, if_false]
    rcases h2 with h2 | h2
    · rw [if_pos (by simpa using h2)]; exact ⟨_, rfl⟩
    · split
      · exact ⟨_, rfl⟩
      split
      · exact ⟨_, rfl⟩
      · rw [if_pos (by simp [h2])]; exact ⟨_, rfl⟩
  have hinit : ∀ (bs : List (String × V)) (e : Env V), e.finalized = false →
      (∀ p ∈ bs, p.1 ≠ "_env" ∧ p.1 ≠ "_finalized") → (∀ p ∈ bs, p.1 ∉ reservedNames ∧ w.isIdent p.1 = true) →
      initBindings w false e bs = (.ok (), { e with env := e.env.update bs }) := by
    intro bs
    induction bs with
    | nil => intro e _ _ _; rfl
    | cons p bs ih =>
      intro e hf h1 h2
      obtain ⟨n, v⟩ := p
      have := h2 (n, v) (by simp)
      simp only [initBindings]
      rw [hone e hf n v (h1 (n, v) (by simp)) this.1 this.2]
      simp only
      have := ih { e with env := e.env.set n v } hf (fun p hp => h1 p (by simp [hp])) (fun p hp => h2 p (by simp [hp]))
      rw [this]; rfl
  constructor
  · intro h
    have hns : PyDict.has bs "cls" = false ∧ PyDict.has bs "self" = false := by
      have key : ∀ x, x = "cls" ∨ x = "self" → PyDict.has bs x = false := by
        intro x hx
        rw [← Bool.not_eq_true, ← PyDict.mem_keys]
        intro hm
        obtain ⟨p, hp, rfl⟩ := List.mem_map.mp hm
        have := (h p hp).1
        rcases hx with hx | hx <;> simp [hx] at this
      exact ⟨key _ (.inl rfl), key _ (.inr rfl)⟩
    have h : ∀ p ∈ bs, p.1 ∉ reservedNames ∧ w.isIdent p.1 = true := fun p hp =>
      ⟨fun hm => (h p hp).1 (by simp [hm]), (h p hp).2⟩
    have hup0 : ∀ (bs d : List (String × V)), ((d ++ bs).map Prod.fst).Nodup → PyDict.update (V := V) d bs = d ++ bs := by
      intro bs
      induction bs with
      | nil => intro d _; simp [PyDict.update]
      | cons p bs ih =>
        intro d hd
        have hset : PyDict.set (V := V) d p.1 p.2 = d ++ [p] := by
          have hnot : p.1 ∉ d.map Prod.fst := by
            rw [List.map_append, List.nodup_append] at hd
            intro hm; exact hd.2.2 _ hm p.1 (by simp) rfl
          clear hd ih
          induction d with
          | nil => rfl
          | cons q d ih =>
            simp only [List.map_cons, List.mem_cons, not_or] at hnot
            simp only [PyDict.set, List.cons_append]
            rw [if_neg (Ne.symm hnot.1), ih hnot.2]
        rw [PyDict.update_cons, hset, ih]
        · simp
        · simpa using hd
    have hset2 : ∀ (d : List (String × V)), (d.map Prod.fst).Nodup → ∀ p ∈ d, PyDict.set (V := V) d p.1 p.2 = d := by
      intro d
      induction d with
      | nil => simp
      | cons q d ih =>
        intro hd p hp
        simp only [List.map_cons, List.nodup_cons] at hd
        simp only [PyDict.set]
        rcases List.mem_cons.mp hp with rfl | hp'
        · simp
        · rw [if_neg, ih hd.2 p hp']
          intro e; exact hd.1 (by rw [e]; exact List.mem_map_of_mem hp')
    have hup1 : ∀ (l d : List (String × V)), (d.map Prod.fst).Nodup → (∀ p ∈ l, p ∈ d) → PyDict.update (V := V) d l = d := by
      intro l
      induction l with
      | nil => intro d _ _; rfl
      | cons p l ih =>
        intro d hd hl
        rw [PyDict.update_cons, hset2 d hd p (hl p (by simp)), ih d hd (fun p hp => hl p (by simp [hp]))]
    unfold new
    rw [hns.1, hns.2, if_neg (by simp), hinit bs {} rfl hdw h]
    simp only
    rw [hup0 bs [] (by simpa using hnd), hinit bs _ rfl hdw h]
    simp only [List.nil_append]
    rw [hup1 bs bs hnd (fun p hp => hp)]
  · intro h
    by_cases hs : PyDict.has bs "cls" || PyDict.has bs "self"
    · exact ⟨.TypeError, by simp only [new, hs]; rfl⟩
    have h : ∃ p ∈ bs, p.1 ∈ reservedNames ∨ w.isIdent p.1 = false := by
      obtain ⟨p, hp, hq | hq⟩ := h
      · have hk : PyDict.has bs p.1 = true := (PyDict.mem_keys bs p.1).mp (List.mem_map_of_mem hp)
        rcases List.mem_cons.mp hq with hq | hq
        · exact absurd (by rw [← hq, hk]; simp) hs
        rcases List.mem_cons.mp hq with hq | hq
        · exact absurd (by rw [← hq, hk]; simp) hs
        exact ⟨p, hp, .inl hq⟩
      · exact ⟨p, hp, .inr hq⟩
    have : ∀ (bs : List (String × V)) (e : Env V), (∀ p ∈ bs, p.1 ≠ "_env" ∧ p.1 ≠ "_finalized") →
        (∃ p ∈ bs, p.1 ∈ reservedNames ∨ w.isIdent p.1 = false) → ∃ x e', initBindings w false e bs = (.error x, e') := by
      intro bs
      induction bs with
      | nil => rintro e _ ⟨p, hp, _⟩; simp at hp
      | cons q bs ih =>
        rintro e h1 ⟨p, hp, hb⟩
        obtain ⟨n, v⟩ := q
        simp only [initBindings]
        rcases List.mem_cons.mp hp with rfl | hp'
        · obtain ⟨x, hx⟩ := hbad e n v (h1 (n, v) (by simp)) hb
          rw [hx]; exact ⟨x, e, rfl⟩
        · split
          · exact ih _ (fun p hp => h1 p (by simp [hp])) ⟨p, hp', hb⟩
          · exact ⟨_, _, rfl⟩
    obtain ⟨x, e', hx⟩ := this bs {} hdw h
    exact ⟨x, by simp only [new, hs, hx]; rfl⟩

/-- C71 is violated by `assignonce`: `assignonce(foo=1)` always raises, because `__init__` runs twice. -/
theorem C71_assignonce_constructor_refuted (w : World V) (n : String) (v : V) (bs : List (String × V))
    (hid : w.isIdent n = true) (hr : n ∉ reservedNames) (hbs : ∀ p ∈ bs, p.1 ≠ "_env") :
    ∃ x, new w true ((n, v) :: bs) = .error x := by
  have hr1 : reservedNames.contains n = false := by simpa using hr
  have hdw : n ≠ "_env" ∧ n ≠ "_finalized" := by constructor <;> (rintro rfl; exact hr (by decide))
  have h1 : setattr w true {} n v = (.ok .unit, { env := [(n, v)] }) := by
    simp only [setattr, envSetattr, not_dw hdw, hr1, hid]; simp [PyDict.has, PyDict.get?, PyDict.set]
  -- afterwards `n` stays bound through the rest of the first `__init__`
  have hkeep : ∀ (bs : List (String × V)) (e e' : Env V), (∃ v, e.env.get? n = some v) →
      initBindings w true e bs = (.ok (), e') → (∃ v, e'.env.get? n = some v) ∨ ∃ p ∈ bs, p.1 = "_env" := by
    intro bs
    induction bs with
    | nil => intro e e' h hi; simp [initBindings] at hi; exact .inl (hi ▸ h)
    | cons p bs ih =>
      intro e e' ⟨v0, h⟩ hi
      obtain ⟨m, v'⟩ := p
      by_cases hm : m = "_env"
      · exact .inr ⟨(m, v'), by simp, hm⟩
      simp only [initBindings] at hi
      split at hi
      · rename_i e1 hs
        have hg : ∃ v, e1.env.get? n = some v := by
          by_cases hmn : m = n
          · subst hmn
            exfalso
            simp only [setattr, hr1, PyDict.has, h] at hs
            simp at hs
          · have hk := envSetattr_get w e m n v' hm hmn
            unfold setattr at hs
            simp only [if_true] at hs
            split at hs
            · rw [hs] at hk; exact ⟨v0, by rw [← h]; exact hk⟩
            · simp at hs
        rcases ih e1 e' hg hi with h' | ⟨p, hp, he⟩
        · exact .inl h'
        · exact .inr ⟨p, by simp [hp], he⟩
      · simp at hi
  unfold new
  split
  · exact ⟨_, rfl⟩
  cases hi : initBindings w true {} ((n, v) :: bs) with
  | mk r e =>
  cases r with
  | error x => exact ⟨x, rfl⟩
  | ok _ =>
    simp only
    simp only [initBindings, h1] at hi
    rcases hkeep bs _ e ⟨v, by simp [PyDict.get?]⟩ hi with ⟨v', hv⟩ | ⟨p, hp, he⟩
    · have h2 : setattr w true e n v = (.error .AttributeError, e) := by
        simp only [setattr, hr1, PyDict.has, hv]; simp
      simp only [initBindings, h2]
      exact ⟨_, rfl⟩
    · exact absurd he (hbs p hp)

example : new demoWorld false [("foo", 1), ("bar", 2)] = .ok { env := [("foo", 1), ("bar", 2)] } := by decide
example : new demoWorld false [("foo", 1), ("self", 2)] = .error .TypeError := by decide
example : new demoWorld true [("foo", 1)] = .error .AttributeError := by decide

end Unpy.Props
