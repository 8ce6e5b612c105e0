import Verif.Proof.PyDict
import Verif.Spec.FupCall
import Verif.Props.Slices
/-!
# C10, C72: calls of `fupdate` with their arguments
-/
namespace Unpy.Props
open Unpy Unpy.Slices Unpy.FupCall Unpy.Spec.FupCall

private theorem layer_isUpd {ix v : Obj} {u : Upd Obj} (h : IsUpd ix v u) : layer true ix v = .ok (some u) := by
  cases h <;> rfl

private theorem layers_isUpd (ps : List (Obj × Obj)) (us : List (Upd Obj)) (hl : ps.length = us.length)
    (h : ∀ i : Nat, ∀ p u, ps[i]? = some p → us[i]? = some u → IsUpd p.1 p.2 u) : layers true ps = .ok us := by
  induction ps generalizing us with
  | nil => cases us with
    | nil => rfl
    | cons u us => simp at hl
  | cons p ps ih => cases us with
    | nil => simp at hl
    | cons u us =>
      have h0 := layer_isUpd (h 0 p u rfl rfl)
      have h1 := ih us (by simpa using hl) (fun i p' u' hp hu => h (i + 1) p' u' (by simpa using hp) (by simpa using hu))
      simp only [layers, h0, h1, Option.toList]
      rfl

private theorem build_seq (t : Target) (l : List Obj) (ht : contents t = some l) (us : List (Upd Obj)) (r : List Obj)
    (h : Slices.fupdate l us = .ok r) : build t us = .ok (withContents t r) := by
  cases t <;> simp only [contents, Option.some.injEq, reduceCtorEq] at ht <;> subst ht <;> simp only [build, h, withContents]

private theorem isSeq_contents {t : Target} {l : List Obj} (ht : contents t = some l) : t.isSeq = true := by
  cases t <;> simp_all [contents, Target.isSeq]

private theorem isUpd_many {ix v : Obj} {u : Upd Obj} (h : IsUpd ix v u) : ix.many = Option.none ∧ ix ≠ .none := by
  cases h <;> simp [Obj.many]

private theorem body_one (t : Target) (l : List Obj) (ht : contents t = some l) (ix v : Obj) (u : Upd Obj) (hu : IsUpd ix v u)
    (hf : Spec.Slices.Fits l.length u) : body t ix v [] = .ok (withContents t (Spec.Slices.apply l u)) := by
  have h1 := layer_isUpd hu
  have hb := build_seq t l ht [u] _ (C10_fupdate_partial l [u] (by simpa using hf))
  have hm := (isUpd_many hu).1
  have hs := isSeq_contents ht
  cases hu <;> simp only [body, hm, layers, hs, h1, List.isEmpty_nil, Bool.not_true, Bool.false_eq_true, if_false, Option.toList,
    List.append_nil] <;> simpa using hb

/-- C10, calls: on a list, tuple or named tuple, `fupdate(seq, ix, v)` does the one update if it fits, with the index and the value given
by position or by name, and so does `fup(seq)[ix] << v`; the result has the type of `seq`.  (Missing: indices and slices that do not
fit, see `C10_fupdate_partial`; memoized iterators as values are there.) -/
theorem C10_call_one_partial (t : Target) (l : List Obj) (ht : contents t = some l) (ix v : Obj) (u : Upd Obj) (hu : IsUpd ix v u)
    (hf : Spec.Slices.Fits l.length u) :
    call t [ix, v] [] = .ok (withContents t (Spec.Slices.apply l u)) ∧
    call t [ix] [("values", v)] = .ok (withContents t (Spec.Slices.apply l u)) ∧
    call t [] [("indices", ix), ("values", v)] = .ok (withContents t (Spec.Slices.apply l u)) ∧
    call t [] [("values", v), ("indices", ix)] = .ok (withContents t (Spec.Slices.apply l u)) ∧
    fup t ix v = .ok (withContents t (Spec.Slices.apply l u)) := by
  have h := body_one t l ht ix v u hu hf
  have hc : call t [ix, v] [] = .ok (withContents t (Spec.Slices.apply l u)) := by simp [call, param, h]
  refine ⟨hc, by simp [call, param, h], by simp [call, param, h], by simp [call, param, h], ?_⟩
  cases hu <;> simpa only [fup] using hc

/-- C10, calls: with a list or tuple of indices and as many values (in any iterable), all updates are done, left to right.
(Missing: as above, and fewer values than indices, see `C10_values_refuted`.) -/
theorem C10_call_many_partial (t : Target) (l : List Obj) (ht : contents t = some l) (ps : List (Obj × Obj)) (us : List (Upd Obj))
    (hl : ps.length = us.length) (h : ∀ i : Nat, ∀ p u, ps[i]? = some p → us[i]? = some u → IsUpd p.1 p.2 u)
    (hf : ∀ u ∈ us, Spec.Slices.Fits l.length u) (ixs vs : Obj) (hixs : ixs = .list (ps.map Prod.fst) ∨ ixs = .tuple (ps.map Prod.fst))
    (hvs : vs = .list (ps.map Prod.snd) ∨ vs = .tuple (ps.map Prod.snd) ∨ vs = .iter (ps.map Prod.snd)) :
    call t [ixs, vs] [] = .ok (withContents t (us.foldl Spec.Slices.apply l)) ∧
    call t [] [("indices", ixs), ("values", vs)] = .ok (withContents t (us.foldl Spec.Slices.apply l)) := by
  have hz : (ps.map Prod.fst).zip (ps.map Prod.snd) = ps := by
    induction ps with
    | nil => rfl
    | cons p ps ih => simp [List.zip_map']
  have hb := build_seq t l ht us _ (C10_fupdate_partial l us hf)
  have hly := layers_isUpd ps us hl h
  have hs := isSeq_contents ht
  have hbody : body t ixs vs [] = .ok (withContents t (us.foldl Spec.Slices.apply l)) := by
    rcases hixs with rfl | rfl <;> rcases hvs with rfl | rfl | rfl <;>
      simp only [body, Obj.many, Obj.items, hz, hs, hly, List.isEmpty_nil, Bool.not_true, Bool.false_eq_true, if_false] <;> exact hb
  exact ⟨by simp [call, param, hbody], by simp [call, param, hbody]⟩

/-- the doc's examples: a slice with a tuple, several indices and slices; a named tuple -/
example : call (.tuple [.int 1, .int 2, .int 3, .int 4, .int 5]) [.slice ⟨some 1, some 5, some 2⟩, .tuple [.int 10, .int 10]] []
    = .ok (.tuple [.int 1, .int 10, .int 3, .int 10, .int 5]) := rfl
example : call (.list [.int 0, .int 1, .int 2, .int 3]) [.tuple [.slice ⟨some 0, some 4, some 2⟩, .int 2], .tuple [.str "ab", .int 42]] []
    = .ok (.list [.str "a", .int 1, .int 42, .int 3]) := rfl
example : call (.named 7 [.int 17, .int 23]) [.int 0] [("values", .int 42)] = .ok (.named 7 [.int 42, .int 23]) := rfl
example : IsUpd (.slice ⟨some 0, some 4, some 2⟩) (.str "ab") (.slice ⟨some 0, some 4, some 2⟩ (.seq [.str "a", .str "b"])) ∧
    Spec.Slices.Fits 4 (.slice ⟨some 0, some 4, some 2⟩ (.seq [Obj.str "a", .str "b"])) :=
  ⟨.str _ _, by simp only [Spec.Slices.Fits, Spec.Slices.Enough]; decide⟩

private theorem filter_notParam (kw : List (String × Obj)) (hr : ∀ p ∈ kw, p.1 ∉ paramNames) :
    kw.filter (fun p => decide (p.1 ≠ "indices" ∧ p.1 ≠ "values")) = kw ∧ kw.any (fun p => decide (p.1 = "target")) = false ∧
    kw.find? (fun p => decide (p.1 = "indices")) = Option.none ∧ kw.find? (fun p => decide (p.1 = "values")) = Option.none := by
  refine ⟨List.filter_eq_self.mpr ?_, ?_, ?_, ?_⟩
  · intro p hp; have := hr p hp; simp [paramNames] at this; simp [this]
  · rw [List.any_eq_false]; intro p hp; have := hr p hp; simp [paramNames] at this; simp [this]
  · rw [List.find?_eq_none]; intro p hp; have := hr p hp; simp [paramNames] at this; simp [this]
  · rw [List.find?_eq_none]; intro p hp; have := hr p hp; simp [paramNames] at this; simp [this]

/-- C10, C72, misuse: without indices and bindings the result is a copy.  Indices together with bindings are a ValueError, whatever the
target.  An index given twice, more than three arguments, an index that is neither an int nor a slice (nor a list or tuple), a slice with
a value that is not iterable, several indices with values that are not iterable, bindings for a sequence, an index for a mapping, and
several indices for `fup` written with commas, are errors. -/
theorem C10_call_errors (t : Target) (ix v w : Obj) (hix : ix ≠ .none) (kw : List (String × Obj)) (hkw : kw ≠ [])
    (hr : ∀ p ∈ kw, p.1 ∉ paramNames) :
    call t [] [] = .ok t ∧
    call t [ix, v] kw = .error .ValueError ∧ call t [] (("indices", ix) :: kw) = .error .ValueError ∧
    call t [ix] (("indices", v) :: kw) = .error .TypeError ∧ call t [ix, v, w] kw = .error .TypeError ∧
    (∀ n x, call t [.other n, v] [] = .error .TypeError ∧ call t [.str x, v] [] = .error .TypeError) ∧
    (∀ s n, call t [.slice s, .other n] [] = .error .TypeError) ∧
    (∀ ixs n, call t [.tuple ixs, .other n] [] = .error .TypeError) ∧
    (t.isSeq = true → call t [] kw = .error .AttributeError) ∧
    (t.isSeq = false → ix.many = Option.none → call t [ix, v] [] = .error .TypeError) ∧
    (∀ ixs, fup t (.tuple ixs) v = .error .TypeError) := by
  obtain ⟨h1, h2, h3, h4⟩ := filter_notParam kw hr
  have he : kw.isEmpty = false := by cases kw <;> simp_all
  have hb : ∀ w, body t ix w kw = .error .ValueError := by
    intro w
    cases ix <;> first | exact absurd rfl hix | simp [body, he]
  refine ⟨rfl, ?_, ?_, ?_, ?_, ?_, ?_, ?_, ?_, ?_, fun _ => rfl⟩
  · simp only [call, param, h1, h2, h3, h4]
    simp [hb]
  · simp only [call, param, List.filter_cons, List.any_cons, List.find?_cons, h1, h2, h3, h4]
    simp [hb]
  · simp only [call, param, List.any_cons, List.find?_cons, h2]
    simp
  · simp [call]
  · intro n x; cases h : t.isSeq <;> simp [call, param, body, Obj.many, layers, layer, h]
  · intro s n; cases h : t.isSeq <;> simp [call, param, body, Obj.many, layers, layer, h, Obj.repl]
  · intro ixs n; simp [call, param, body, Obj.many, Obj.items]
  · intro hs
    simp only [call, param, h1, h2, h3, h4]
    cases t <;> simp [Target.isSeq] at hs <;> simp [body, he]
  · intro hs hm
    simp only [call, param]
    cases ix <;> first | exact absurd rfl hix | simp [body, hm, layers, layer, hs]

private theorem set_absent (d : PyDict String Obj) (k : String) (v : Obj) (h : PyDict.has d k = false) :
    PyDict.set d k v = d ++ [(k, v)] := by
  induction d with
  | nil => rfl
  | cons p d ih =>
    obtain ⟨a, b⟩ := p
    by_cases hk : a = k
    · simp [PyDict.has, PyDict.get?, hk] at h
    · simp only [PyDict.has, PyDict.get?, hk, if_false] at h
      simp only [PyDict.set, hk, if_false, List.cons_append]
      rw [ih h]

private theorem update_fresh (m e : PyDict String Obj) (hm : (m.map Prod.fst).Nodup) (hd : ∀ p ∈ m, PyDict.has e p.1 = false) :
    PyDict.update e m = e ++ m := by
  induction m generalizing e with
  | nil => simp [PyDict.update]
  | cons p m ih =>
    have hn := List.nodup_cons.mp (by simpa using hm : (p.1 :: m.map Prod.fst).Nodup)
    rw [PyDict.update_cons, ih _ hn.2, set_absent _ _ _ (hd p (by simp))]
    · simp
    · intro q hq
      rw [PyDict.has_set, hd q (by simp [hq])]
      have : p.1 ≠ q.1 := fun e => hn.1 (e ▸ List.mem_map_of_mem hq)
      simp [this]

private theorem keys_update (m d : PyDict String Obj) (hm : (m.map Prod.fst).Nodup) :
    PyDict.keys (PyDict.update d m) = PyDict.keys d ++ (m.map Prod.fst).filter (fun k => !PyDict.has d k) := by
  induction m generalizing d with
  | nil => simp [PyDict.update]
  | cons p m ih =>
    have hn := List.nodup_cons.mp (by simpa using hm : (p.1 :: m.map Prod.fst).Nodup)
    rw [PyDict.update_cons, ih _ hn.2, PyDict.keys_set]
    have hf : (m.map Prod.fst).filter (fun k => !PyDict.has (PyDict.set d p.1 p.2) k)
        = (m.map Prod.fst).filter (fun k => !PyDict.has d k) := by
      apply List.filter_congr
      intro k hk
      have : p.1 ≠ k := fun e => hn.1 (e ▸ hk)
      rw [PyDict.has_set]; simp [this]
    rw [hf]
    cases h : PyDict.has d p.1 <;> simp [h]

private theorem get_update (m d : PyDict String Obj) (hm : (m.map Prod.fst).Nodup) (k : String) :
    PyDict.get? (PyDict.update d m) k = match PyDict.get? m k with
      | some v => some v
      | none => PyDict.get? d k := by
  induction m generalizing d with
  | nil => rfl
  | cons p m ih =>
    have hn := List.nodup_cons.mp (by simpa using hm : (p.1 :: m.map Prod.fst).Nodup)
    rw [PyDict.update_cons, ih _ hn.2, PyDict.get?_set]
    by_cases hk : p.1 = k
    · have : PyDict.get? m k = none := by
        cases hg : PyDict.get? m k with
        | none => rfl
        | some v =>
          have : PyDict.has m k = true := by simp [PyDict.has, hg]
          exact absurd ((PyDict.mem_keys m k).mpr this) (hk ▸ hn.1)
      simp [PyDict.get?, hk, this]
    · simp [PyDict.get?, hk]

private theorem frozen_plain (ms : List (PyDict String Obj)) (kw : List (String × Obj)) (hs : ∀ p ∈ kw, p.1 ∉ selfNames) :
    frozen ms kw = .ok (PyDict.update (ms.foldl PyDict.update []) kw) := by
  have : kw.any (fun p => decide (p.1 = "cls" ∨ p.1 = "self")) = false := by
    rw [List.any_eq_false]; intro p hp; have := hs p hp; simp [selfNames] at this; simp [this]
  simp only [frozen, this]; rfl

private theorem call_kw (t : Target) (kw : List (String × Obj)) (hr : ∀ p ∈ kw, p.1 ∉ paramNames) :
    call t [] kw = body t .none .none kw := by
  obtain ⟨h1, h2, h3, h4⟩ := filter_notParam kw hr
  simp only [call, param, h1, h2, h3, h4]
  simp

/-- C72, calls: `fupdate(d, **bindings)` of a dict or frozendict `d`, where no key is named like a parameter of `fupdate`, returns a mapping of
the same kind with the new values at these keys and the old ones elsewhere; keys keep their places, new ones come last.  (Missing: keys
named `target`, `indices` or `values`, and for a frozendict also `self` and `cls`, see `C72_names_refuted`; the identity of the objects is in `C72_fupdate_mapping_partial`.) -/
theorem C72_call_partial (d : PyDict String Obj) (hd : (PyDict.keys d).Nodup) (kw : List (String × Obj)) (hkw : (kw.map Prod.fst).Nodup)
    (hr : ∀ p ∈ kw, p.1 ∉ paramNames) :
    ∃ d', call (.dict d) [] kw = .ok (.dict d') ∧ ((∀ p ∈ kw, p.1 ∉ selfNames) → call (.fd d) [] kw = .ok (.fd d')) ∧
      PyDict.keys d' = PyDict.keys d ++ (kw.map Prod.fst).filter (fun k => !PyDict.has d k) ∧
      ∀ k, PyDict.get? d' k = match PyDict.get? kw k with
        | some v => some v
        | none => PyDict.get? d k := by
  refine ⟨PyDict.update d kw, ?_, ?_, keys_update kw d hkw, get_update kw d hkw⟩
  · rw [call_kw _ _ hr]
    cases kw with
    | nil => rfl
    | cons p kw => rfl
  · intro hs
    rw [call_kw _ _ hr]
    have hu : PyDict.update [] d = d := by
      rw [update_fresh d [] hd (fun _ _ => rfl)]; rfl
    cases kw with
    | nil => rfl
    | cons p kw =>
      simp only [body, List.isEmpty_cons, Bool.false_eq_true, if_false]
      rw [frozen_plain _ _ hs]
      simp only [List.foldl_cons, List.foldl_nil, hu]

example : call (.fd [("foo", .str "bar"), ("fruit", .str "apple")]) [] [("n", .int 1), ("foo", .str "tavern")]
    = .ok (.fd [("foo", .str "tavern"), ("fruit", .str "apple"), ("n", .int 1)]) := rfl

/-- C72 is violated: keys named like the parameters of `fupdate`.  A new value for the key `values` is lost without notice, for every mapping
and whatever the other bindings are.  The key `indices` is lost if the new value is None, and is otherwise an error; the key `target` is
always an error.  For a frozendict, `self` and `cls` are errors too; as keys of a dict they are not. -/
theorem C72_names_refuted (d : PyDict String Obj) (kw : List (String × Obj)) (hr : ∀ p ∈ kw, p.1 ∉ paramNames) (v : Obj) :
    call (.dict d) [] (("values", v) :: kw) = call (.dict d) [] kw ∧ call (.fd d) [] (("values", v) :: kw) = call (.fd d) [] kw ∧
    call (.dict d) [] (("indices", .none) :: kw) = call (.dict d) [] kw ∧
    (v ≠ .none → ∃ e, call (.dict d) [] (("indices", v) :: kw) = .error e) ∧
    call (.dict d) [] (("target", v) :: kw) = .error .TypeError ∧
    call (.fd d) [] (("self", v) :: kw) = .error .TypeError ∧ call (.fd d) [] (("cls", v) :: kw) = .error .TypeError ∧
    call (.dict d) [] [("self", v)] = .ok (.dict (PyDict.set d "self" v)) ∧
    call (.dict [("values", .int 1), ("a", .int 2)]) [] [("values", .int 3), ("a", .int 4)]
      = .ok (.dict [("values", .int 1), ("a", .int 4)]) := by
  obtain ⟨h1, h2, h3, h4⟩ := filter_notParam kw hr
  refine ⟨?_, ?_, ?_, ?_, ?_, ?_, ?_, rfl, rfl⟩
  · simp only [call, param, List.filter_cons, List.any_cons, List.find?_cons, h1, h2, h3, h4]
    simp [body]
  · simp only [call, param, List.filter_cons, List.any_cons, List.find?_cons, h1, h2, h3, h4]
    simp [body]
  · simp only [call, param, List.filter_cons, List.any_cons, List.find?_cons, h1, h2, h3, h4]
    simp
  · intro hv
    simp only [call, param, List.filter_cons, List.any_cons, List.find?_cons, h1, h2, h3, h4]
    cases kw with
    | cons p kw => cases v <;> first | exact absurd rfl hv | simp [body]
    | nil => cases v <;> first | exact absurd rfl hv | simp [body, Obj.many, Obj.items, layers, layer, Target.isSeq]
  · simp only [call, List.any_cons]
    simp
  · simp only [call, param, List.filter_cons, List.any_cons, List.find?_cons, h1, h2, h3, h4]
    simp [body, frozen]
  · simp only [call, param, List.filter_cons, List.any_cons, List.find?_cons, h1, h2, h3, h4]
    simp [body, frozen]

/-- C13 is violated: `self` and `cls` as names of bindings raise TypeError, whatever the mappings and the other bindings; in a mapping they
are keys like others. -/
theorem C13_names_refuted (ms : List (PyDict String Obj)) (kw kw' : List (String × Obj)) (v : Obj) :
    frozen ms (kw ++ ("self", v) :: kw') = .error .TypeError ∧ frozen ms (kw ++ ("cls", v) :: kw') = .error .TypeError ∧
    frozen [[("self", v)], [("cls", v)]] [] = .ok [("self", v), ("cls", v)] := by
  refine ⟨by simp [frozen], by simp [frozen], rfl⟩

/-- C10 is violated (4): too few values for several indices do not raise; the updates left over are not done, for every target and
all indices.  For a mapping without indices, its keys are taken for pairs. -/
theorem C10_values_refuted (t : Target) (l : List Obj) (ht : contents t = some l) (ixs : List Obj) :
    call t [.tuple ixs, .tuple []] [] = .ok t ∧
    call (.list [.int 1, .int 2, .int 3]) [.tuple [.int 0, .int 1], .tuple [.int 9]] [] = .ok (.list [.int 9, .int 2, .int 3]) ∧
    call (.dict [("ab", .int 1)]) [.tuple [], .tuple []] [] = .ok (.dict [("a", .str "b")]) ∧
    call (.fd [("ab", .int 1)]) [.tuple [], .tuple []] [] = .ok (.fd [("a", .str "b")]) := by
  refine ⟨?_, rfl, by simp [call, param, body, Obj.many, Obj.items, layers, build, PyDict.keys, dictOf, PyDict.set],
    by simp [call, param, body, Obj.many, Obj.items, layers, build, PyDict.keys, dictOf, PyDict.set]⟩
  have hb := build_seq t l ht [] _ (C10_fupdate_partial l [] (by simp))
  have hw : withContents t l = t := by
    cases t <;> simp only [contents, Option.some.injEq, reduceCtorEq] at ht <;> subst ht <;> rfl
  simp only [List.foldl_nil, hw] at hb
  simp [call, param, body, Obj.many, Obj.items, layers, hb]

end Unpy.Props
