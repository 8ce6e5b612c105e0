import Verif.Spec.EnvMap
import Verif.Model.EnvMap
import Verif.Props.Env
import Verif.Props.Containers
/-!
# C136: the names in an environment
-/
namespace Unpy.Props
open Unpy Unpy.EnvM
universe u
variable {V : Type u}

private theorem envSetattr_acc (w : World V) (e : Env V) (n : String) (v : V) (hd : ¬ (n = "_env" ∨ n = "_finalized"))
    (h : ∀ x ∈ PyDict.keys e.env, Acceptable w x) : ∀ x ∈ PyDict.keys (envSetattr w e n v).2.env, Acceptable w x := by
  intro x hx
  unfold envSetattr at hx
  split at hx
  · rename_i hc; exact absurd (by simpa [directWrite] using hc) hd
  split at hx
  · exact h x hx
  split at hx
  · exact h x hx
  split at hx
  · exact h x hx
  · rename_i h1 _ h3
    simp only [PyDict.keys_set] at hx
    split at hx
    · exact h x hx
    · rcases List.mem_append.mp hx with hx | hx
      · exact h x hx
      · rw [List.mem_singleton.mp hx]
        exact ⟨by simpa using h3, by simpa [reservedNames] using h1⟩

private theorem update_acc (w : World V) (d : PyDict String V) (m : List (String × V)) (h : ∀ x ∈ PyDict.keys d, Acceptable w x)
    (hm : ∀ p ∈ m, Acceptable w p.1) : ∀ x ∈ PyDict.keys (PyDict.update d m), Acceptable w x := by
  induction m generalizing d with
  | nil => exact h
  | cons p m ih =>
    rw [PyDict.update_cons]
    refine ih _ ?_ (fun q hq => hm q (by simp [hq]))
    intro x hx
    rw [PyDict.keys_set] at hx
    split at hx
    · exact h x hx
    · rcases List.mem_append.mp hx with hx | hx
      · exact h x hx
      · rw [List.mem_singleton.mp hx]; exact hm p (by simp)

private theorem erase_acc {w : World V} {d : PyDict String V} (n : String) (h : ∀ x ∈ PyDict.keys d, Acceptable w x) :
    ∀ x ∈ PyDict.keys (PyDict.erase d n), Acceptable w x := by
  intro x hx
  obtain ⟨p, hp, rfl⟩ := List.mem_map.mp hx
  exact h _ (List.mem_map_of_mem (List.mem_filter.mp hp).1)

private theorem step_acc (w : World V) (once : Bool) (e : Env V) (op : Op V) (hd : ¬ Direct op) (hc : ChecksNames w op)
    (h : ∀ x ∈ PyDict.keys e.env, Acceptable w x) : ∀ x ∈ PyDict.keys (step w once e op).2.env, Acceptable w x := by
  have hsa : ∀ n v, ¬ (n = "_env" ∨ n = "_finalized") → ∀ x ∈ PyDict.keys (setattr w once e n v).2.env, Acceptable w x := by
    intro n v hn
    unfold setattr
    split
    · split
      · exact envSetattr_acc w e n v hn h
      · exact h
    · exact envSetattr_acc w e n v hn h
  have hset : ∀ n v, ¬ (n = "_env" ∨ n = "_finalized") → ∀ x ∈ PyDict.keys (EnvM.set w once e n v).2.env, Acceptable w x := by
    intro n v hn
    have h1 := envSetattr_acc w e n v hn h
    have h2 := hsa n v hn
    unfold EnvM.set
    split
    · exact h
    split
    · split <;> rename_i hh <;> rw [hh] at h1 <;> exact h1
    · split <;> rename_i hh <;> rw [hh] at h2 <;> exact h2
  have hdel : ∀ n, ∀ x ∈ PyDict.keys (delattr w e n).2.env, Acceptable w x := by
    intro n
    unfold delattr
    repeat' split
    all_goals first | exact h | exact erase_acc n h
  cases op <;> simp only [step]
  case setattr n v => exact hsa n v hd
  case setitem n v => exact hsa n v hd
  case set n v => exact hset n v hd
  case lshift n v =>
    have := hset n v hd
    unfold lshift; split <;> rename_i hh <;> rw [hh] at this <;> exact this
  case delattr n => exact hdel n
  case delitem n => exact hdel n
  case pop k d =>
    unfold EnvM.pop; repeat' split
    all_goals first | exact h | exact erase_acc k h
  case popitem =>
    unfold EnvM.popitem; repeat' split
    all_goals first | exact h | skip
    intro x hx
    obtain ⟨p, hp, rfl⟩ := List.mem_map.mp hx
    exact h _ (List.mem_map_of_mem (List.dropLast_subset _ hp))
  case clear =>
    unfold EnvM.clear; split
    · exact h
    · simp [PyDict.keys]
  case exit => simp [PyDict.keys]
  case update ms bs =>
    unfold EnvM.update; repeat' split
    all_goals first | exact h | skip
    refine update_acc w _ _ (update_acc w _ _ h ?_) hc.2
    intro p hp
    obtain ⟨m, hm, hpm⟩ := List.mem_flatten.mp hp
    exact hc.1 m hm p hpm
  case setdefault k d =>
    unfold EnvM.setdefault; repeat' split
    all_goals first | exact h | skip
    exact update_acc w e.env [(k, d.getD w.none)] h (by intro p hp; rw [List.mem_singleton.mp hp]; exact hc)
  all_goals exact h

/-- C136, names: whatever is done with an env, starting with an empty one, only acceptable names are ever bound, if `update` and `setdefault` are used with
acceptable names.  So each binding can be deleted (unless the env is finalized), rebound, and read by its name (unless it is the name of a
method, see C70).
(Missing: `update` and `setdefault`, which do not check names, see `C136_names_refuted`; assignment to `_env` and `_finalized`, see C08.) -/
theorem C136_names_partial (w : World V) (once : Bool) (ops : List (Op V)) (hd : ∀ op ∈ ops, ¬ Direct op) (hc : ∀ op ∈ ops, ChecksNames w op)
    (n : String) (v v' : V) (hn : (run w once {} ops).env.get? n = some v) :
    Acceptable w n ∧
    (w.classAttr n = false → getattr w (run w once {} ops) n = .ok (.val v)) ∧
    (step w once (run w once {} ops) (.set n v')).1 = .ok (.val v') ∧
    ((run w once {} ops).finalized = false → (step w once (run w once {} ops) (.delattr n)).1 = .ok .unit) := by
  have key : ∀ (ops : List (Op V)) (e : Env V), (∀ op ∈ ops, ¬ Direct op) → (∀ op ∈ ops, ChecksNames w op) →
      (∀ x ∈ PyDict.keys e.env, Acceptable w x) → ∀ x ∈ PyDict.keys (run w once e ops).env, Acceptable w x := by
    intro ops
    induction ops with
    | nil => intro e _ _ h; exact h
    | cons op ops ih =>
      intro e h1 h2 h
      exact ih _ (fun o ho => h1 o (by simp [ho])) (fun o ho => h2 o (by simp [ho]))
        (step_acc w once e op (h1 op (by simp)) (h2 op (by simp)) h)
  generalize he : run w once {} ops = e at hn ⊢
  have hh : e.env.has n = true := by simp [PyDict.has, hn]
  have hacc : Acceptable w n := by
    have := key ops {} hd hc (by simp [PyDict.keys]) n
    rw [he] at this
    exact this ((PyDict.mem_keys _ _).mpr hh)
  obtain ⟨hid, hr⟩ := hacc
  have hdw : directWrite.contains n = false := by
    simp only [List.mem_cons, not_or] at hr; simp [directWrite, hr]
  have hres : reservedNames.contains n = false := by
    rw [← Bool.not_eq_true]; intro h; exact hr (by simpa [reservedNames] using h)
  have hset : envSetattr w e n v' = (.ok .unit, { e with env := e.env.set n v' }) := by
    simp only [envSetattr, hdw, hres, hh, hid]; simp
  refine ⟨⟨hid, hr⟩, ?_, ?_, ?_⟩
  · intro hca; simp only [getattr, hdw, hca, hid, hn]; rfl
  · cases once <;> simp [step, EnvM.set, hh, setattr, hset]
  · intro hf; simp [step, delattr, hid, hf, hh]

example : (run demoWorld false {} [.setattr "a" 1, .setattr "a b" 2, .setitem "1x" 3, .update [[("b", 4)]] [], .setdefault "c" none, .setattr "set" 5]).env =
    [("a", 1), ("b", 4), ("c", 0)] ∧
    (∀ op ∈ ([.setattr "a" 1, .setattr "a b" 2, .update [[("b", 4)]] [], .setdefault "c" none] : List (Op Nat)), ChecksNames demoWorld op) := by
  refine ⟨by decide, ?_⟩
  simp [ChecksNames, Acceptable, demoWorld]

/-- C136: refuted for `update` and `setdefault`: they bind names that are not identifiers, and such a binding can be neither read, nor rebound, nor
deleted by its name: each raises ValueError.  They also bind reserved names. -/
theorem C136_names_refuted (w : World V) (e : Env V) (n : String) (v v' : V) (hf : e.finalized = false) (hn : e.env.has n = false)
    (hid : w.isIdent n = false) (hc : w.classAttr n = false) (hdw : n ≠ "_env" ∧ n ≠ "_finalized" ∧ n ∉ reservedNames) :
    (∀ op, op = .update [[(n, v)]] [] ∨ op = .setdefault n (some v) →
      ∃ out e', step w false e op = (.ok out, e') ∧ e'.env.has n = true ∧
        step w false e' (.getitem n) = (.error .ValueError, e') ∧ step w false e' (.delitem n) = (.error .ValueError, e') ∧
        step w false e' (.setitem n v') = (.error .ValueError, e')) ∧
    (e.env.has "set" = false → ∃ e', step w false e (.update [[("set", v)]] []) = (.ok .unit, e') ∧ e'.env.has "set" = true) := by
  have hdw' : directWrite.contains n = false := by simp [directWrite, hdw.1, hdw.2.1]
  have hres : reservedNames.contains n = false := by simpa using hdw.2.2
  have hno : e.env.get? n = none := by simpa [PyDict.has] using hn
  have hhas : (e.env.set n v).has n = true := by simp [PyDict.has_set]
  constructor
  · intro op hop
    have : ∃ out, step w false e op = (.ok out, { e with env := e.env.set n v }) := by
      rcases hop with rfl | rfl
      · exact ⟨.unit, by simp [step, EnvM.update, hf, PyDict.has, PyDict.get?, PyDict.update]⟩
      · exact ⟨.val v, by simp [step, EnvM.setdefault, hf, hno]⟩
    obtain ⟨out, ho⟩ := this
    refine ⟨out, _, ho, hhas, ?_, ?_, ?_⟩
    · simp only [step, getattr, hdw', hc, hid]; rfl
    · simp [step, delattr, hid]
    · simp only [step, setattr, envSetattr, hdw', hres, hf, hid]; simp
  · intro _
    refine ⟨{ e with env := e.env.set "set" v }, by simp [step, EnvM.update, hf, PyDict.has, PyDict.get?, PyDict.update], ?_⟩
    simp [PyDict.has_set]

example : ({} : Env Nat).finalized = false ∧ demoWorld.isIdent "a b" = false ∧ demoWorld.classAttr "a b" = false ∧ "a b" ∉ reservedNames := by decide

/-- C136, `update` with pairs instead of a mapping: in an env that is not finalized it does the same; and so in a finalized one, if there are no pairs.
(Missing: pairs in finalized environments, see `C136_pairs_refuted`.) -/
theorem C136_pairs_partial (w : World V) (once : Bool) (hashable : V → Bool) (e : Env V) (ps bs : List (String × V)) (hf : e.finalized = false ∨ ps = []) :
    updatePairs hashable e ps bs = step w once e (.update [ps] bs) := by
  rcases hf with hf | rfl
  · simp only [updatePairs, step, EnvM.update, hf, List.flatten_cons, List.flatten_nil, List.append_nil]
    simp
  · cases hf : e.finalized
    · simp [updatePairs, step, EnvM.update, hf]
    · simp [updatePairs, step, EnvM.update, hf]
      rw [hf]

example : updatePairs (fun _ => true) { env := [("a", 1)] } [("a", 2), ("b", 3)] [("c", 4)] = (.ok .unit, { env := [("a", 2), ("b", 3), ("c", 4)] }) := by decide

example : updatePairs (fun _ => true) { env := [("a", 1)], finalized := true } [] [("c", 4)] = (.error .AttributeError, { env := [("a", 1)], finalized := true }) := by decide

/-- C136: refuted for `update` with pairs in a finalized env: it always raises, although the same update with a mapping rebinds the names, and no name would be
added. -/
theorem C136_pairs_refuted (w : World V) (once : Bool) (hashable : V → Bool) (e : Env V) (ps : List (String × V)) (hps : ps ≠ []) (hf : e.finalized = true)
    (hb : ∀ p ∈ ps, e.env.has p.1 = true) :
    (∃ x, updatePairs hashable e ps [] = (.error x, e)) ∧
    step w once e (.update [ps] []) = (.ok .unit, { e with env := e.env.update ps }) := by
  constructor
  · cases ps with
    | nil => exact absurd rfl hps
    | cons p ps => exact ⟨_, by simp only [updatePairs, PyDict.has, PyDict.get?, hf]; rfl⟩
  · have h1 : ps.any (fun p => !e.env.has p.1) = false := by
      rw [List.any_eq_false]; intro p hp; simp [hb p hp]
    simp only [step, EnvM.update, hf, Bool.true_and, List.any_cons, List.any_nil, Bool.or_false, h1, List.flatten_cons, List.flatten_nil,
      List.append_nil]
    simp [PyDict.has, PyDict.get?, PyDict.update]

example : updatePairs (fun _ => true) { env := [("a", 1)], finalized := true } [("a", 2)] [] = (.error .AttributeError, { env := [("a", 1)], finalized := true }) := by
  decide

private theorem keys_erase (d : PyDict String V) (n : String) : PyDict.keys (PyDict.erase d n) = (PyDict.keys d).filter (· ≠ n) := by
  simp only [PyDict.keys, PyDict.erase, List.filter_map]; rfl

private theorem keys_update (d : PyDict String V) (m : List (String × V)) :
    PyDict.keys (PyDict.update d m) = (m.map Prod.fst).foldl listed (PyDict.keys d) := by
  induction m generalizing d with
  | nil => rfl
  | cons p m ih =>
    rw [PyDict.update_cons, ih, List.map_cons, List.foldl_cons, PyDict.keys_set]
    simp only [listed, PyDict.mem_keys]

private theorem keys_listed (d : PyDict String V) (n : String) (v : V) : PyDict.keys (PyDict.set d n v) = listed (PyDict.keys d) n := by
  rw [PyDict.keys_set]; simp only [listed, PyDict.mem_keys]

/-- C136, order: iterating over an env lists the names in the order in which they were bound (first, or again after a deletion); rebinding does not move a
name, and `popitem` removes the last one.  `items` and `values` are in the same order. -/
theorem C136_order (w : World V) (once : Bool) (e e' : Env V) (op : Op V) (out : Out V) (hd : ¬ Direct op) (h : step w once e op = (.ok out, e')) :
    iter e' = order (iter e) op out ∧ (∀ k v, out = .item k v → (iter e).getLast? = some k) ∧
    (items e').map Prod.fst = iter e' ∧ (items e').map Prod.snd = values e' := by
  refine ⟨?_, ?_, rfl, rfl⟩
  · have hsetE : ∀ n v out, ¬ (n = "_env" ∨ n = "_finalized") → envSetattr w e n v = (.ok out, e') → iter e' = listed (iter e) n := by
      intro n v out hn h
      unfold envSetattr at h
      rw [show directWrite.contains n = false by simp only [not_or] at hn; simp [directWrite, hn]] at h
      simp only [Bool.false_eq_true, if_false] at h
      repeat' split at h
      all_goals simp at h
      rw [← h.2]; exact keys_listed _ _ _
    have hset1 : ∀ n v out, ¬ (n = "_env" ∨ n = "_finalized") → setattr w once e n v = (.ok out, e') → iter e' = listed (iter e) n := by
      intro n v out hn h
      unfold setattr at h
      repeat' split at h
      all_goals first | exact hsetE _ _ _ hn h | simp at h
    have hset : ∀ n v out, ¬ (n = "_env" ∨ n = "_finalized") → EnvM.set w once e n v = (.ok out, e') → iter e' = listed (iter e) n := by
      intro n v out hn h
      unfold EnvM.set at h
      repeat' split at h
      all_goals simp at h
      · rename_i hh; rw [h.2] at hh; exact hsetE _ _ _ hn hh
      · rename_i hh; rw [h.2] at hh; exact hset1 _ _ _ hn hh
    have hdel : ∀ n, delattr w e n = (.ok out, e') → iter e' = (iter e).filter (· ≠ n) := by
      intro n h
      unfold delattr at h
      repeat' split at h
      all_goals simp at h
      rw [← h.2]; exact keys_erase _ _
    cases op <;> simp only [step] at h
    case setattr n v => exact hset1 _ _ _ hd h
    case setitem n v => exact hset1 _ _ _ hd h
    case set n v => exact hset _ _ _ hd h
    case lshift n v =>
      unfold lshift at h
      split at h
      · rename_i hh; simp at h; rw [h.2] at hh; exact hset _ _ _ hd hh
      · simp at h
    case delattr n => exact hdel n h
    case delitem n => exact hdel n h
    case pop k d =>
      unfold EnvM.pop at h
      repeat' split at h
      all_goals simp at h
      · rw [← h.2]; exact keys_erase _ _
      · rename_i hk
        rw [← h.2]
        simp only [iter, order]
        rw [List.filter_eq_self.mpr]
        intro x hx
        have : e.env.has x = true := (PyDict.mem_keys _ _).mp hx
        simp only [ne_eq, decide_not, Bool.not_eq_eq_eq_not, Bool.not_true, decide_eq_false_iff_not]
        rintro rfl
        rw [PyDict.has] at this; rw [hk] at this; simp at this
    case popitem =>
      unfold EnvM.popitem at h
      repeat' split at h
      all_goals simp at h
      rw [← h.2]
      simp [iter, order, PyDict.keys, List.map_dropLast]
    case clear =>
      unfold EnvM.clear at h
      split at h
      · simp at h
      · simp at h; rw [← h.2]; rfl
    case update ms bs =>
      unfold EnvM.update at h
      repeat' split at h
      all_goals simp at h
      rw [← h.2]
      simp only [iter, order, keys_update, List.map_append, List.foldl_append]
    case setdefault k d =>
      unfold EnvM.setdefault at h
      repeat' split at h
      all_goals simp at h
      · rename_i v hk
        rw [← h.2]
        have hm : k ∈ iter e := (PyDict.mem_keys _ _).mpr (by simp [PyDict.has, hk])
        simp only [order, listed, hm, if_true]
      · rw [← h.2]; exact keys_listed _ _ _
    case exit => simp at h; rw [← h.2]; rfl
    all_goals (simp at h; rw [← h.2]; try rfl)
    all_goals (rw [h.2]; rfl)
  · intro k v hk
    subst hk
    cases op <;> simp only [step] at h
    case popitem =>
      unfold EnvM.popitem at h
      repeat' split at h
      all_goals simp at h
      rename_i hl
      simp only [iter, PyDict.keys, List.getLast?_map, hl, Option.map_some]
      rw [h.1.1]
    all_goals exfalso
    all_goals first
      | (simp at h; done)
      | (simp [lshift, EnvM.set, setattr, envSetattr, delattr, EnvM.pop, EnvM.clear, EnvM.update, EnvM.setdefault, getattr, EnvM.get] at h
         repeat' split at h
         all_goals simp at h
         done)
      | skip

example : (run demoWorld false {} [.setattr "b" 1, .setattr "a" 2, .setattr "b" 3, .delattr "b", .setattr "c" 4, .setattr "b" 5]).env =
    [("a", 2), ("c", 4), ("b", 5)] := by decide

/-- C136, comparison: two environments are equal exactly if they have the same bindings, in whatever order they were made; and so are an env and a dict.
(That one of them is finalized does not matter.) -/
theorem C136_eq [DecidableEq V] (e f : Env V) (d : PyDict String V) (he : (iter e).Nodup) (hf : (iter f).Nodup) (hd : (PyDict.keys d).Nodup) :
    (eqEnv e f = true ↔ ∀ x, e.env.get? x = f.env.get? x) ∧ (eqDict e d = true ↔ ∀ x, e.env.get? x = d.get? x) := by
  constructor
  · exact (C13_eq_hash e.env f.env he hf).1
  · refine ((C13_eq_hash d e.env hd he).1).trans ⟨fun h x => (h x).symm, fun h x => (h x).symm⟩

example : eqEnv ({ env := [("a", 1), ("b", 2)] } : Env Nat) { env := [("b", 2), ("a", 1)], finalized := true } = true := by decide

end Unpy.Props
