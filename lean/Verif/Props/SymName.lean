import Verif.Proof.SymName
/-!
# C134: names, labels, attributes, texts and pickles of symbols
-/
namespace Unpy.Props
open Unpy Unpy.SymName Unpy.Spec.SymName
section SymName
universe u v
variable {K : Type u} {N : Type v} [DecidableEq K]

private theorem okOps (key : N → K) (ops : List (Op K N)) (h : Plain key ops) : ∀ op ∈ ops, OpOk op := by
  intro op hop
  cases op with
  | loads p => exact h.2 p hop
  | _ => trivial

/-- C134: the symbol that `sym(n)` returns has the name `n`, and keeps it whatever else is done with symbols: calls, pickles,
attributes.  The same for UUID and label of a gensym.  (Missing: different names that are equal, see `C134_name_refuted`.) -/
theorem C134_name_partial (key : N → K) (ops later : List (Op K N)) (n : N) (h : Plain key (ops ++ .call n :: later)) :
    ∃ o, (run key (call key (run key {} ops) n).2 later).objs[(call key (run key {} ops) n).1]? = some o ∧ o.name = n := by
  have hok := okOps key _ h
  have h0 := inv_run (key := key) ops (inv_init key) (fun op hm => hok op (by simp [hm]))
  have h1 := inv_call h0 n
  have hP := run_names (key := key) (P := fun m => ∃ op ∈ ops ++ .call n :: later, Mentions m op) (ops ++ .call n :: later)
    (st := {}) (by intro i o hi; simp at hi) (inv_init key) hok (fun op hm m hmm => ⟨op, hm, hmm⟩)
  obtain ⟨-, -, ⟨o1, ho1, hk1⟩, -⟩ := new_spec h0 n
  have hobj : (call key (run key {} ops) n).2.objs[(call key (run key {} ops) n).1]? = some { o1 with name := n } := by
    simp only [call, getElem?_modify', if_true, ho1, Option.map_some]
  obtain ⟨o, ho, hk⟩ := run_key later h1 (fun op hm => hok op (by simp [hm])) _ _ hobj
  refine ⟨o, ho, ?_⟩
  have hrun : run key {} (ops ++ .call n :: later) = run key (call key (run key {} ops) n).2 later := by
    simp only [run, List.foldl_append, List.foldl_cons]; rfl
  rw [hrun] at hP
  obtain ⟨op, hop, hm⟩ := hP _ o ho
  exact h.1 op hop (.call n) (by simp) o.name n hm rfl hk

/-- C134: symbols with different names, and gensyms with different UUIDs, are different objects, also after one of them has been
dropped; nothing changes an existing symbol into one with an unequal name. -/
theorem C134_distinct (key : N → K) (ops later : List (Op K N)) (hok : ∀ p, .loads p ∈ ops ++ later → p.state.name = p.arg) (n n' : N)
    (hne : key n ≠ key n') :
    (call key (run key {} ops) n).1 ≠ (call key (run key (call key (run key {} ops) n).2 later) n').1 := by
  have hok' : ∀ op ∈ ops ++ later, OpOk op := by
    intro op hop
    cases op with
    | loads p => exact hok p hop
    | _ => trivial
  have h0 := inv_run (key := key) ops (inv_init key) (fun op hm => hok' op (by simp [hm]))
  have h1 := inv_call h0 n
  obtain ⟨-, -, ⟨o1, ho1, hk1⟩, -⟩ := new_spec h0 n
  have hobj : (call key (run key {} ops) n).2.objs[(call key (run key {} ops) n).1]? = some { o1 with name := n } := by
    simp only [call, getElem?_modify', if_true, ho1, Option.map_some]
  obtain ⟨o, ho, hk⟩ := run_key later h1 (fun op hm => hok' op (by simp [hm])) _ _ hobj
  have h2 := inv_run later h1 (fun op hm => hok' op (by simp [hm]))
  obtain ⟨-, -, ⟨o2, ho2, hk2⟩, -, hs, -⟩ := new_spec h2 n'
  intro e
  have e' : (new key (run key (call key (run key {} ops) n).2 later) n').1 = (call key (run key {} ops) n).1 := e.symm
  rw [e', hs _ (List.getElem?_eq_some_iff.mp ho).1, ho] at ho2
  cases ho2
  exact hne (hk.symm.trans hk2)

/-- C134: a symbol that is pickled at some time and unpickled while it is still alive, with any history between, gives the same object; it
has the same name, its attributes are those it had when it was pickled, together with new ones, and no other object changes.
(Partial: attributes changed since are changed back, see `C134_attributes_refuted`.) -/
theorem C134_pickle_partial (key : N → K) (ops later : List (Op K N)) (h : Plain key (ops ++ later)) (i : Nat) (o : Obj N) (p : Pickle N)
    (ho : (run key {} ops).objs[i]? = some o) (hi : (run key {} ops).table (key o.name) = some i)
    (hp : dumps (run key {} ops) i = some p) (hd : ∀ op ∈ later, op ≠ .drop (key o.name)) :
    let st := run key (run key {} ops) later
    (loads key st p).1 = i ∧ (loads key st p).2.table = st.table ∧
    ∃ o₁ o₂, st.objs[i]? = some o₁ ∧ (loads key st p).2.objs = st.objs.set i o₂ ∧ o₁.name = o.name ∧ o₂.name = o.name ∧
      ∀ a, PyDict.get? o₂.attrs a = match PyDict.get? o.attrs a with
        | some v => some v
        | none => PyDict.get? o₁.attrs a := by
  intro st
  have hok := okOps key _ h
  have h0 := inv_run (key := key) ops (inv_init key) (fun op hm => hok op (by simp [hm]))
  have hP := run_names (key := key) (P := fun m => ∃ op ∈ ops ++ later, Mentions m op) ops
    (st := {}) (by intro i o hi; simp at hi) (inv_init key) (fun op hm => hok op (by simp [hm]))
    (fun op hm m hmm => ⟨op, by simp [hm], hmm⟩)
  have hP2 := run_names (key := key) (P := fun m => ∃ op ∈ ops ++ later, Mentions m op) later hP h0
    (fun op hm => hok op (by simp [hm])) (fun op hm m hmm => ⟨op, by simp [hm], hmm⟩)
  have hpe : p = ⟨o.name, o⟩ := by simp only [dumps, ho, Option.map_some, Option.some.injEq] at hp; exact hp.symm
  subst hpe
  have ht : st.table (key o.name) = some i := run_table later _ _ hi hd
  have hnew : new key st o.name = (i, st) := by simp only [new, ht]
  obtain ⟨o₁, ho₁, hk₁⟩ := run_key later h0 (fun op hm => hok op (by simp [hm])) i o ho
  have hname : o₁.name = o.name := by
    obtain ⟨op, hop, hm⟩ := hP2 i o₁ ho₁
    obtain ⟨op', hop', hm'⟩ := hP i o ho
    exact h.1 op hop op' hop' _ _ hm hm' hk₁
  refine ⟨by simp [loads, hnew], by simp [loads, hnew], o₁, ⟨o.name, PyDict.update o₁.attrs o.attrs⟩, ho₁, ?_, hname, rfl, ?_⟩
  · simp only [loads, hnew]
    apply List.ext_getElem?
    intro j
    rw [getElem?_modify', List.getElem?_set]
    by_cases e : i = j
    · subst e; rw [if_pos rfl, if_pos rfl, if_pos (List.getElem?_eq_some_iff.mp ho₁).1]; rw [show st.objs[i]? = some o₁ from ho₁]; rfl
    · rw [if_neg e, if_neg e]
  · intro a; exact get_update_nodup _ _ (h0.attrs i o ho) a

/-- C134: a pickle of a symbol, or of a gensym, loaded where there is no such symbol (another process, or after it was dropped), gives a
new object with the same name and exactly the same attributes; loading it again gives the same object, and changes nothing. -/
theorem C134_pickle_fresh (key : N → K) (ops ops' : List (Op K N)) (h : ∀ q, .loads q ∈ ops ++ ops' → q.state.name = q.arg) (i : Nat)
    (o : Obj N) (p : Pickle N) (ho : (run key {} ops).objs[i]? = some o) (hp : dumps (run key {} ops) i = some p)
    (hf : (run key {} ops').table (key o.name) = none) :
    let r := loads key (run key {} ops') p
    r.1 = (run key {} ops').objs.length ∧
    (∃ o', r.2.objs = (run key {} ops').objs ++ [o'] ∧ o'.name = o.name ∧ ∀ a, PyDict.get? o'.attrs a = PyDict.get? o.attrs a) ∧
    (loads key r.2 p).1 = r.1 := by
  intro r
  have hok : ∀ op ∈ ops ++ ops', OpOk op := by
    intro op hop
    cases op with
    | loads p => exact h p hop
    | _ => trivial
  have h0 := inv_run (key := key) ops (inv_init key) (fun op hm => hok op (by simp [hm]))
  have hpe : p = ⟨o.name, o⟩ := by simp only [dumps, ho, Option.map_some, Option.some.injEq] at hp; exact hp.symm
  subst hpe
  have hr1 : r.1 = (run key {} ops').objs.length := by simp only [r, loads, new, hf]
  refine ⟨hr1, ⟨⟨o.name, PyDict.update [] o.attrs⟩, ?_, rfl, ?_⟩, ?_⟩
  · simp only [r, loads, new, hf]
    apply List.ext_getElem?
    intro j
    rw [getElem?_modify']
    by_cases hj : (run key {} ops').objs.length = j
    · subst hj; simp
    · rw [if_neg hj]
      by_cases hlt : j < (run key {} ops').objs.length
      · rw [List.getElem?_append_left hlt, List.getElem?_append_left hlt]
      · rw [List.getElem?_append_right (by omega), List.getElem?_append_right (by omega)]
        obtain ⟨m, hm⟩ : ∃ m, j - (run key {} ops').objs.length = m + 1 := ⟨j - (run key {} ops').objs.length - 1, by omega⟩
        simp [hm]
  · intro a
    have := get_update_nodup o.attrs [] (h0.attrs i o ho) a
    simp only [this]
    cases PyDict.get? o.attrs a <;> rfl
  · have ht : r.2.table (key o.name) = some r.1 := by simp [r, loads, new, hf]
    simp only [loads, new, ht]

/-- a name used twice, an attribute, a pickle; `1` and `True` are one name to the table -/
private def ex : List (Op (String ⊕ Nat) Name) := [.call (.str "cat"), .call (.str "dog"), .setattr 0 "legs" 4, .call (.str "cat")]
example : (run Name.key {} ex).objs.length = 2 ∧ (call Name.key (run Name.key {} ex) (.str "cat")).1 = 0 ∧
    ((run Name.key {} ex).objs[0]?.map fun o => (o.name, o.attrs)) = some (.str "cat", [("legs", 4)]) := by decide
example : Plain Name.key (ex ++ .call (.str "bird") :: ex) := by
  constructor
  · intro o ho o' ho' n n' hn hn' hk
    have aux : ∀ o ∈ ex ++ .call (.str "bird") :: ex, ∀ n, Mentions n o → ∃ s, n = .str s := by
      intro o ho n hn
      simp only [ex, List.cons_append, List.nil_append, List.mem_cons, List.not_mem_nil, or_false] at ho
      rcases ho with rfl | rfl | rfl | rfl | rfl | rfl | rfl | rfl | rfl <;> simp only [Mentions] at hn <;>
        first | exact ⟨_, hn⟩ | exact hn.elim
    obtain ⟨s, rfl⟩ := aux o ho n hn
    obtain ⟨s', rfl⟩ := aux o' ho' n' hn'
    simp only [Name.key, Sum.inl.injEq] at hk
    rw [hk]
  · intro p hp
    simp [ex] at hp

/-- C134: with strings for names (and pickles of such symbols), `str` of the symbol that `sym(s)` returned is `s`, at any later time. -/
theorem C134_text (ops later : List (Op (String ⊕ Nat) Name)) (s : String)
    (hs : ∀ op ∈ ops ++ later, ∀ n, Mentions n op → ∃ x, n = .str x) (hp : ∀ p, .loads p ∈ ops ++ later → p.state.name = p.arg) :
    ∃ o, (run Name.key (call Name.key (run Name.key {} ops) (.str s)).2 later).objs[(call Name.key (run Name.key {} ops) (.str s)).1]? = some o ∧
      symStr o.name = .ok s ∧ symRepr o.name = "sym(\"" ++ s ++ "\")" := by
  have hs' : ∀ op ∈ ops ++ .call (.str s) :: later, ∀ n, Mentions n op → ∃ x, n = .str x := by
    intro op hop n hn
    simp only [List.mem_append, List.mem_cons] at hop
    rcases hop with hop | rfl | hop
    · exact hs op (by simp [hop]) n hn
    · exact ⟨s, hn⟩
    · exact hs op (by simp [hop]) n hn
  have hpl : Plain Name.key (ops ++ .call (.str s) :: later) := by
    refine ⟨?_, ?_⟩
    · intro a ha b hb n n' hn hn' hk
      obtain ⟨x, rfl⟩ := hs' a ha n hn
      obtain ⟨y, rfl⟩ := hs' b hb n' hn'
      simp only [Name.key, Sum.inl.injEq] at hk
      rw [hk]
    · intro p hpm
      simp only [List.mem_append, List.mem_cons, reduceCtorEq, false_or] at hpm
      exact hp p (by simpa using hpm)
  obtain ⟨o, ho, hn⟩ := C134_name_partial Name.key ops later (.str s) hpl
  exact ⟨o, ho, by rw [hn]; rfl, by rw [hn]; rfl⟩

example : ∀ op ∈ ex ++ ex, ∀ n, Mentions n op → ∃ x, n = .str x := by
  intro o ho n hn
  simp only [ex, List.cons_append, List.nil_append, List.mem_cons, List.not_mem_nil, or_false] at ho
  rcases ho with rfl | rfl | rfl | rfl | rfl | rfl | rfl | rfl <;> simp only [Mentions] at hn <;>
    first | exact ⟨_, hn⟩ | exact hn.elim

/-- C134: texts tell symbols apart: different names have different `repr`; gensyms with different UUIDs (of which the text has a fixed
length) have different `str` and `repr`, whatever their labels; and the `repr` of a gensym is not that of any named symbol. -/
theorem C134_text_distinct (s s' l l' u u' : String) (hu : u.length = u'.length) :
    (symRepr (.str s) = symRepr (.str s') → s = s') ∧
    (gsymStr l u = gsymStr l' u' → u = u' ∧ l = l') ∧ (gsymRepr l u = gsymRepr l' u' → u = u' ∧ l = l') ∧
    (∀ n, symRepr n ≠ gsymRepr l u) := by
  have hlen : u.toList.length = u'.toList.length := by simpa [String.length_toList] using hu
  refine ⟨fun h => ?_, fun h => ?_, fun h => ?_, fun n h => ?_⟩
  · have h := congrArg String.toList h
    simp only [symRepr, String.toList_append] at h
    exact String.toList_injective (List.append_cancel_left (List.append_cancel_right h))
  · have h := congrArg String.toList h
    simp only [gsymStr, String.toList_append] at h
    obtain ⟨h1, h2⟩ := List.append_inj' h hlen
    exact ⟨String.toList_injective h2, String.toList_injective (List.append_cancel_left (List.append_cancel_right h1))⟩
  · have h := congrArg String.toList h
    simp only [gsymRepr, String.toList_append] at h
    obtain ⟨h1, h2⟩ := List.append_inj' (List.append_cancel_right h) hlen
    exact ⟨String.toList_injective h2, String.toList_injective (List.append_cancel_left (List.append_cancel_right h1))⟩
  · have h := congrArg (fun x => x.toList.head?) h
    cases n <;> simp [symRepr, gsymRepr, String.toList_append] at h

/-- C134 is violated (1): names that are different but equal.  After `s = sym(1)`, `sym(True)` is the same symbol, and `s` has the name
`True` from then on. -/
theorem C134_name_refuted : ∃ (one true' : Name), one ≠ true' ∧
    let r := call Name.key {} one
    let r' := call Name.key r.2 true'
    r'.1 = r.1 ∧ (r.2.objs[r.1]?.map fun o => symRepr o.name) = some "sym(\"1\")" ∧
    (r'.2.objs[r.1]?.map fun o => symRepr o.name) = some "sym(\"True\")" :=
  ⟨.other 0 1 "1", .other 1 1 "True", by decide, by decide⟩

/-- C134 is violated (2): "name: any hashable", but `str` of a symbol whose name is not a string raises TypeError. -/
theorem C134_str_refuted (id k : Nat) (t : String) : symStr (.other id k t) = .error .TypeError := rfl

/-- C134 is violated (3): unpickling changes the living symbol: an attribute set anew since the pickle was made gets its old value
back, for every symbol, attribute and value. -/
theorem C134_attributes_refuted (s a : String) (v w : Nat) (hv : v ≠ w) :
    let st := run Name.key {} [.call (.str s), .setattr 0 a v]
    ∃ p, dumps st 0 = some p ∧
      let st' := step Name.key st (.setattr 0 a w)
      (st'.objs[0]?.bind fun o => PyDict.get? o.attrs a) = some w ∧
      ((loads Name.key st' p).2.objs[0]?.bind fun o => PyDict.get? o.attrs a) = some v := by
  refine ⟨⟨.str s, ⟨.str s, [(a, v)]⟩⟩, rfl, ?_, ?_⟩
  · simp [run, step, call, new, Name.key, PyDict.set, PyDict.get?]
  · simp [run, step, call, new, loads, Name.key, PyDict.set, PyDict.update, PyDict.get?]

end SymName
end Unpy.Props
