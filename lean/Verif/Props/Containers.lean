import Verif.Model.Containers
import Verif.Proof.PyDict
/-!
# C13, C14, C72: frozendict, ThreadLocalBox, functional update of mappings
-/
namespace Unpy.Props
open Unpy
universe u v
section FD
open Unpy.FD
variable {K : Type u} {V : Type v} [DecidableEq K]

/-- The value of the last item with key `k` (specification; does not use the dict operations of the model). -/
def lastValue (items : List (K × V)) (k : K) : Option V := (items.reverse.find? (fun p => p.1 = k)).map Prod.snd

private theorem get?_eq_find (l : List (K × V)) (k : K) : PyDict.get? (V := V) l k = (l.find? (fun p => p.1 = k)).map Prod.snd := by
  induction l with
  | nil => rfl
  | cons p l ih =>
    simp only [PyDict.get?, List.find?_cons]
    by_cases h : p.1 = k
    · simp [h]
    · simp [h, ih]

private theorem update_append (d : PyDict K V) (a b : List (K × V)) : PyDict.update d (a ++ b) = PyDict.update (PyDict.update d a) b := by
  simp [PyDict.update, List.foldl_append]

private theorem initData_eq (ms : List (PyDict K V)) (kw : List (K × V)) : initData ms kw = PyDict.update [] (ms.flatten ++ kw) := by
  unfold initData
  rw [update_append]
  congr 1
  suffices h : ∀ d : PyDict K V, ms.foldl PyDict.update d = PyDict.update d ms.flatten from h []
  induction ms with
  | nil => intro d; rfl
  | cons m ms ih => intro d; rw [List.foldl_cons, ih, List.flatten_cons, update_append]

private theorem update_last (items : List (K × V)) (k : K) : PyDict.get? (PyDict.update [] items) k = lastValue items k := by
  rw [PyDict.get?_update, get?_eq_find]
  unfold lastValue
  cases (items.reverse.find? (fun p => p.1 = k)).map Prod.snd <;> simp [PyDict.get?]

/-- The shared empty instance, once made, has no items. -/
def GoodEmpty (st : St K V) : Prop := ∀ i, st.empty = some i → st.frozen[i]? = some []

private theorem initData_nil : initData ([] : List (PyDict K V)) [] = [] := rfl

private theorem readAll_nil (st : St K V) : st.readAll [] = some [] := rfl

/-- all frozendicts keep their contents in a step -/
private theorem make_spec (st : St K V) (hg : GoodEmpty st) (args : List Ref) (kw : List (K × V)) (i : Nat) (st' : St K V)
    (h : make st args kw = some (i, st')) :
    GoodEmpty st' ∧ st'.dicts = st.dicts ∧ (∀ (j : Nat) d, st.frozen[j]? = some d → st'.frozen[j]? = some d) ∧
    (∃ ms, st.readAll args = some ms ∧ st'.frozen[i]? = some (initData ms kw)) := by
  unfold make at h
  cases hm : st.readAll args with
  | none => rw [hm] at h; simp at h
  | some ms =>
    rw [hm] at h
    simp only at h
    split at h
    · rename_i he
      rw [Bool.and_eq_true, List.isEmpty_iff, List.isEmpty_iff] at he
      obtain ⟨rfl, rfl⟩ := he
      rw [readAll_nil] at hm; cases hm
      cases hemp : st.empty with
      | none =>
        rw [hemp] at h
        simp only [Option.some.injEq, Prod.mk.injEq] at h
        obtain ⟨rfl, rfl⟩ := h
        refine ⟨?_, rfl, ?_, [], rfl, by simp⟩
        · intro j hj; simp only [Option.some.injEq] at hj; subst hj; simp [initData_nil]
        · intro j d hj
          simp only
          rw [List.getElem?_append_left (List.getElem?_eq_some_iff.mp hj).1]; exact hj
      | some e =>
        rw [hemp] at h
        simp only [Option.some.injEq, Prod.mk.injEq] at h
        obtain ⟨rfl, rfl⟩ := h
        have hge := hg e hemp
        have hlt := (List.getElem?_eq_some_iff.mp hge).1
        refine ⟨?_, rfl, ?_, [], rfl, by simp [hlt]⟩
        · intro j hj
          simp only [Option.some.injEq] at hj; subst hj
          simp only [initData_nil]
          rw [List.getElem?_set_self hlt]
        · intro j d hj
          simp only [initData_nil]
          by_cases hje : j = e
          · subst hje; rw [hge] at hj; rw [List.getElem?_set_self hlt]; exact hj
          · rw [List.getElem?_set_ne (by omega)]; exact hj
    · simp only [Option.some.injEq, Prod.mk.injEq] at h
      obtain ⟨rfl, rfl⟩ := h
      have hmono : ∀ (j : Nat) d, st.frozen[j]? = some d → (st.frozen ++ [initData ms kw])[j]? = some d := by
        intro j d hj
        rw [List.getElem?_append_left (List.getElem?_eq_some_iff.mp hj).1]; exact hj
      exact ⟨fun j hj => hmono j _ (hg j hj), rfl, hmono, ms, rfl, by simp⟩

private theorem fupdate_spec (st : St K V) (hg : GoodEmpty st) (t : Ref) (kw : List (K × V)) (r : Ref) (st' : St K V)
    (h : fupdate st t kw = some (r, st')) :
    GoodEmpty st' ∧ (∀ (j : Nat) d, st.dicts[j]? = some d → st'.dicts[j]? = some d) ∧
    (∀ (j : Nat) d, st.frozen[j]? = some d → st'.frozen[j]? = some d) ∧
    (∃ d d', st.read t = some d ∧ st'.read r = some d' ∧ (d' = PyDict.update d kw ∨ (d' = initData [d] kw))) ∧
    ((∃ i j, t = .dict i ∧ r = .dict j) ∨ (∃ i j, t = .fd i ∧ r = .fd j)) := by
  have happ : ∀ (l : List (PyDict K V)) (x : PyDict K V) (j : Nat) d, l[j]? = some d → (l ++ [x])[j]? = some d := by
    intro l x j d hj
    rw [List.getElem?_append_left (List.getElem?_eq_some_iff.mp hj).1]; exact hj
  unfold fupdate at h
  split at h
  · rename_i he
    rw [List.isEmpty_iff] at he
    subst he
    cases t with
    | fd i =>
      simp only at h
      split at h
      · rename_i hemp
        simp only [Option.some.injEq, Prod.mk.injEq] at h
        obtain ⟨rfl, rfl⟩ := h
        exact ⟨hg, fun _ _ h => h, fun _ _ h => h, ⟨[], [], hg i hemp, hg i hemp, .inl rfl⟩, .inr ⟨i, i, rfl, rfl⟩⟩
      · cases hd : st.frozen[i]? with
        | none => rw [hd] at h; simp at h
        | some d =>
          rw [hd] at h
          simp only [Option.some.injEq, Prod.mk.injEq] at h
          obtain ⟨rfl, rfl⟩ := h
          exact ⟨fun j hj => happ _ _ j _ (hg j hj), fun _ _ h => h, happ _ _, ⟨d, d, hd, by simp [St.read], .inl rfl⟩,
            .inr ⟨_, _, rfl, rfl⟩⟩
    | dict i =>
      simp only at h
      cases hd : st.dicts[i]? with
      | none => rw [hd] at h; simp at h
      | some d =>
        rw [hd] at h
        simp only [Option.some.injEq, Prod.mk.injEq] at h
        obtain ⟨rfl, rfl⟩ := h
        exact ⟨hg, happ _ _, fun _ _ h => h, ⟨d, d, hd, by simp [St.read], .inl rfl⟩, .inl ⟨_, _, rfl, rfl⟩⟩
  · cases t with
    | fd i =>
      simp only at h
      cases hm : make st [.fd i] kw with
      | none => rw [hm] at h; simp at h
      | some p =>
        obtain ⟨j, st1⟩ := p
        rw [hm] at h
        simp only [Option.some.injEq, Prod.mk.injEq] at h
        obtain ⟨rfl, rfl⟩ := h
        obtain ⟨h1, h2, h3, ms, h4, h5⟩ := make_spec st hg _ _ _ _ hm
        refine ⟨h1, by rw [h2]; exact fun _ _ h => h, h3, ?_, .inr ⟨_, _, rfl, rfl⟩⟩
        simp only [St.readAll] at h4
        cases hr : st.read (.fd i) with
        | none => rw [hr] at h4; simp at h4
        | some d =>
          rw [hr] at h4
          simp only [Option.some.injEq] at h4
          subst h4
          exact ⟨d, _, rfl, h5, .inr rfl⟩
    | dict i =>
      simp only at h
      cases hd : st.dicts[i]? with
      | none => rw [hd] at h; simp at h
      | some d =>
        rw [hd] at h
        simp only [Option.some.injEq, Prod.mk.injEq] at h
        obtain ⟨rfl, rfl⟩ := h
        exact ⟨hg, happ _ _, fun _ _ h => h, ⟨d, PyDict.update d kw, hd, by simp [St.read], .inl rfl⟩, .inl ⟨_, _, rfl, rfl⟩⟩

private theorem step_spec (st : St K V) (hg : GoodEmpty st) (op : FD.Op K V) :
    GoodEmpty (FD.step st op) ∧ (∀ (j : Nat) d, st.frozen[j]? = some d → (FD.step st op).frozen[j]? = some d) ∧
    (∀ e, st.empty = some e → (FD.step st op).empty = some e) := by
  cases op with
  | newDict m => exact ⟨hg, fun _ _ h => h, fun _ h => h⟩
  | mutate i m => exact ⟨hg, fun _ _ h => h, fun _ h => h⟩
  | make args kw =>
    simp only [FD.step]
    cases hm : make st args kw with
    | none => exact ⟨hg, fun _ _ h => h, fun _ h => h⟩
    | some p =>
      obtain ⟨i, st'⟩ := p
      obtain ⟨h1, -, h3, -⟩ := make_spec st hg _ _ _ _ hm
      refine ⟨h1, h3, ?_⟩
      intro e he
      unfold make at hm
      split at hm
      · simp at hm
      · split at hm
        · rw [he] at hm
          simp only [Option.some.injEq, Prod.mk.injEq] at hm
          rw [← hm.2]
        · simp only [Option.some.injEq, Prod.mk.injEq] at hm
          rw [← hm.2]; exact he
  | fupdate t kw =>
    simp only [FD.step]
    cases hm : fupdate st t kw with
    | none => exact ⟨hg, fun _ _ h => h, fun _ h => h⟩
    | some p =>
      obtain ⟨r, st'⟩ := p
      obtain ⟨h1, -, h3, -⟩ := fupdate_spec st hg _ _ _ _ hm
      refine ⟨h1, h3, ?_⟩
      intro e he
      unfold fupdate at hm
      split at hm
      · cases t with
        | fd i =>
          simp only at hm
          split at hm
          · simp only [Option.some.injEq, Prod.mk.injEq] at hm; rw [← hm.2]; exact he
          · split at hm
            · simp only [Option.some.injEq, Prod.mk.injEq] at hm; rw [← hm.2]; exact he
            · simp at hm
        | dict i =>
          simp only at hm
          split at hm
          · simp only [Option.some.injEq, Prod.mk.injEq] at hm; rw [← hm.2]; exact he
          · simp at hm
      · rename_i hne
        cases t with
        | fd i =>
          simp only at hm
          unfold make at hm
          split at hm
          · rename_i j st1 hj
            split at hj
            · simp at hj
            · simp only [List.isEmpty_cons, Bool.false_and, Bool.false_eq_true, if_false, Option.some.injEq, Prod.mk.injEq] at hj
              simp only [Option.some.injEq, Prod.mk.injEq] at hm
              rw [← hm.2, ← hj.2]; exact he
          · simp at hm
        | dict i =>
          simp only at hm
          split at hm
          · simp only [Option.some.injEq, Prod.mk.injEq] at hm; rw [← hm.2]; exact he
          · simp at hm

private theorem run_spec (ops : List (FD.Op K V)) (st : St K V) (hg : GoodEmpty st) :
    GoodEmpty (FD.run st ops) ∧ (∀ (j : Nat) d, st.frozen[j]? = some d → (FD.run st ops).frozen[j]? = some d) ∧
    (∀ e, st.empty = some e → (FD.run st ops).empty = some e) := by
  induction ops generalizing st with
  | nil => exact ⟨hg, fun _ _ h => h, fun _ h => h⟩
  | cons op ops ih =>
    obtain ⟨h1, h2, h3⟩ := step_spec st hg op
    obtain ⟨k1, k2, k3⟩ := ih _ h1
    exact ⟨k1, fun j d hj => k2 j d (h2 j d hj), fun e he => k3 e (h3 e he)⟩

/-- a program starts without frozendicts -/
def fdInit : St K V := {}

/-- C13: after any history, `frozendict(*args, **kw)` has for each key the value of its last occurrence in the items of the arguments
followed by the keyword bindings (and each key once); all mappings, mutable and frozen, are unchanged; and after any further
history (with any changes to the arguments) it still has exactly the same contents. -/
theorem C13_frozendict (ops : List (FD.Op K V)) (args : List Ref) (kw : List (K × V)) (i : Nat) (st' : St K V)
    (h : make (FD.run fdInit ops) args kw = some (i, st')) :
    ∃ ms d, (FD.run fdInit ops).readAll args = some ms ∧ st'.frozen[i]? = some d ∧
      (∀ k, PyDict.get? d k = lastValue (ms.flatten ++ kw) k) ∧ (PyDict.keys d).Nodup ∧
      st'.dicts = (FD.run fdInit ops).dicts ∧
      (∀ (j : Nat) m, (FD.run fdInit ops).frozen[j]? = some m → st'.frozen[j]? = some m) ∧
      (∀ later, (FD.run st' later).frozen[i]? = some d) := by
  have hg := (run_spec ops fdInit (by intro i h; simp [fdInit] at h)).1
  obtain ⟨h1, h2, h3, ms, h4, h5⟩ := make_spec _ hg _ _ _ _ h
  refine ⟨ms, initData ms kw, h4, h5, ?_, ?_, h2, h3, ?_⟩
  · intro k; rw [initData_eq, update_last]
  · rw [initData_eq]; exact PyDict.nodup_update (by simp [PyDict.keys]) _
  · intro later; exact (run_spec later st' h1).2.1 i _ h5

/-- C13: an argument that exists never makes the constructor fail.  (Missing: bindings named `self` or `cls`, see `C13_names_refuted`.) -/
theorem C13_frozendict_total_partial (st : St K V) (args : List Ref) (kw : List (K × V)) (ms) (h : st.readAll args = some ms) :
    ∃ i st', make st args kw = some (i, st') := by
  unfold make
  rw [h]
  simp only
  split
  · cases st.empty <;> exact ⟨_, _, rfl⟩
  · exact ⟨_, _, rfl⟩

/-- C13: there is one empty frozendict: two calls without arguments, with any history before and between, return the same object, and
it has no items. -/
theorem C13_one_empty (ops ops' : List (FD.Op K V)) :
    ∃ i st' st'', make (FD.run fdInit ops) [] [] = some (i, st') ∧ make (FD.run st' ops') [] [] = some (i, st'') ∧
      st'.frozen[i]? = some [] ∧ st''.frozen[i]? = some [] := by
  have hg := (run_spec ops fdInit (by intro i h; simp [fdInit] at h)).1
  obtain ⟨i, st', h⟩ := C13_frozendict_total_partial (FD.run fdInit ops) [] [] [] rfl
  obtain ⟨h1, -, -, ms, h4, h5⟩ := make_spec _ hg _ _ _ _ h
  rw [readAll_nil] at h4; cases h4
  have hemp : st'.empty = some i := by
    unfold make at h
    simp only [readAll_nil, List.isEmpty_nil, Bool.and_self, if_true] at h
    cases he : (FD.run fdInit ops).empty with
    | none => rw [he] at h; simp only [Option.some.injEq, Prod.mk.injEq] at h; rw [← h.2, ← h.1]
    | some e => rw [he] at h; simp only [Option.some.injEq, Prod.mk.injEq] at h; rw [← h.2, ← h.1]
  obtain ⟨k1, -, k3⟩ := run_spec ops' st' h1
  have hemp2 := k3 i hemp
  have hlt := (List.getElem?_eq_some_iff.mp (k1 i hemp2)).1
  refine ⟨i, st', { (FD.run st' ops') with frozen := (FD.run st' ops').frozen.set i [] }, h, ?_, h5, by simp [hlt]⟩
  unfold make
  simp only [readAll_nil, List.isEmpty_nil, Bool.and_self, if_true, hemp2]
  rfl

private theorem dictEq_iff [DecidableEq V] (a b : PyDict K V) (ha : (PyDict.keys a).Nodup) (hb : (PyDict.keys b).Nodup) :
    dictEq a b = true ↔ ∀ k, PyDict.get? a k = PyDict.get? b k := by
  have hmem : ∀ (l : PyDict K V), (PyDict.keys l).Nodup → ∀ k v, PyDict.get? l k = some v ↔ (k, v) ∈ l := by
    intro l
    induction l with
    | nil => simp [PyDict.get?]
    | cons p l ih =>
      intro hn k v
      have hn' := List.nodup_cons.mp (by simpa [PyDict.keys] using hn : (p.1 :: l.map Prod.fst).Nodup)
      simp only [PyDict.get?]
      by_cases h : p.1 = k
      · rw [if_pos h]
        constructor
        · intro e; simp only [Option.some.injEq] at e; rw [← h, ← e]; simp
        · intro e
          rcases List.mem_cons.mp e with e | e
          · rw [← e]
          · exact absurd (List.mem_map_of_mem (f := Prod.fst) e) (by simp only; rw [← h]; exact hn'.1)
      · rw [if_neg h, ih hn'.2]
        constructor
        · intro e; simp [e]
        · intro e
          rcases List.mem_cons.mp e with e | e
          · rw [← e] at h; simp at h
          · exact e
  unfold dictEq
  rw [Bool.and_eq_true, List.all_eq_true, beq_iff_eq]
  constructor
  · rintro ⟨hl, hall⟩ k
    have hsub : ∀ p ∈ a, p ∈ b := by
      intro p hp; have := hall p hp; rw [beq_iff_eq, hmem b hb] at this; exact this
    cases hk : PyDict.get? a k with
    | some v => exact ((hmem b hb k v).mpr (hsub _ ((hmem a ha k v).mp hk))).symm
    | none =>
      cases hk' : PyDict.get? b k with
      | none => rfl
      | some w =>
        exfalso
        -- the keys of `a` are among those of `b` without `k`, but there are as many
        have hkb : k ∈ PyDict.keys b := List.mem_map_of_mem (f := Prod.fst) ((hmem b hb k w).mp hk')
        have hka : k ∉ PyDict.keys a := by
          rw [PyDict.mem_keys]; unfold PyDict.has; rw [hk]; simp
        have hsubk : (k :: PyDict.keys a) ⊆ PyDict.keys b := by
          intro x hx
          rcases List.mem_cons.mp hx with rfl | hx
          · exact hkb
          · obtain ⟨p, hp, rfl⟩ := List.mem_map.mp hx
            exact List.mem_map_of_mem (f := Prod.fst) (hsub p hp)
        have hcount := List.Nodup.length_le_of_subset (List.nodup_cons.mpr ⟨hka, ha⟩) hsubk
        simp [PyDict.keys] at hcount
        omega
  · intro h
    have hsub : ∀ (x y : PyDict K V), (PyDict.keys x).Nodup → (∀ k, PyDict.get? x k = PyDict.get? y k) → PyDict.keys x ⊆ PyDict.keys y := by
      intro x y hx hxy k hk
      rw [PyDict.mem_keys] at hk ⊢
      unfold PyDict.has at hk ⊢
      rw [← hxy]; exact hk
    have l1 := List.Nodup.length_le_of_subset ha (hsub a b ha h)
    have l2 := List.Nodup.length_le_of_subset hb (hsub b a hb (fun k => (h k).symm))
    refine ⟨by simp [PyDict.keys] at l1 l2; omega, ?_⟩
    intro p hp
    rw [beq_iff_eq, ← h]
    exact (hmem a ha p.1 p.2).mpr hp

/-- C13: two frozendicts are equal exactly when they map every key alike, whatever the order in which they were built; and then
their hashes are equal (for any hash of a set of items, i.e. any function of the items that does not depend on their order). -/
theorem C13_eq_hash [DecidableEq V] (a b : PyDict K V) (ha : (PyDict.keys a).Nodup) (hb : (PyDict.keys b).Nodup) :
    (fdEq a b = true ↔ ∀ k, PyDict.get? a k = PyDict.get? b k) ∧
    (fdEq a b = true → ∀ {β : Type} (h : List (K × V) → β), (∀ x y, x.Perm y → h x = h y) → fdHash h a = fdHash h b) := by
  refine ⟨dictEq_iff a b ha hb, ?_⟩
  intro e β h hperm
  apply hperm
  have hn : ∀ l : PyDict K V, (PyDict.keys l).Nodup → List.Nodup l := by
    intro l hl
    unfold PyDict.keys List.Nodup at hl
    rw [List.pairwise_map] at hl
    exact hl.imp (fun h e => h (by rw [e]))
  have hext := (dictEq_iff a b ha hb).mp e
  have hsymm := (dictEq_iff b a hb ha).mpr (fun k => (hext k).symm)
  have hmem : ∀ (x y : PyDict K V), (PyDict.keys y).Nodup → dictEq x y = true → x ⊆ y := by
    intro x y hy hxy p hp
    unfold dictEq at hxy
    rw [Bool.and_eq_true, List.all_eq_true] at hxy
    have := hxy.2 p hp
    rw [beq_iff_eq, get?_eq_find] at this
    cases hf : y.find? (fun q => q.1 = p.1) with
    | none => rw [hf] at this; simp at this
    | some q =>
      rw [hf] at this
      simp only [Option.map_some, Option.some.injEq] at this
      have h1 : q.1 = p.1 := by simpa using List.find?_some hf
      have h2 := List.mem_of_find?_eq_some hf
      have : q = p := Prod.ext h1 this
      rw [← this]; exact h2
  exact (List.perm_ext_iff_of_nodup (hn a ha) (hn b hb)).mpr (fun p => ⟨fun hp => hmem a b hb e hp, fun hp => hmem b a ha hsymm hp⟩)

/-- two dicts merged and overridden; the source is changed later -/
example : let st := FD.run (fdInit : St String Nat) [.newDict [("a", 1), ("b", 2)], .make [.dict 0] [("b", 3), ("c", 4)], .mutate 0 [],
      .make [.fd 0, .dict 0] [("a", 7)], .make [] []]
    st.frozen = [[("a", 1), ("b", 3), ("c", 4)], [("a", 7), ("b", 3), ("c", 4)], []] := by decide
example : fdEq [("a", 1), ("b", 2)] [("b", 2), ("a", 1)] = true ∧ fdEq [("a", 1)] [("a", 1), ("b", 2)] = false := by decide

/-- C72: `fupdate(mapping, **bindings)` returns an object of the same kind in which the bindings override the items of the mapping and
everything else is as in the mapping; no existing mapping changes.  (Missing: keys named like the parameters of `fupdate` are not
among the bindings it gets, see `C72_names_refuted`.) -/
theorem C72_fupdate_mapping_partial (ops : List (FD.Op K V)) (t : Ref) (kw : List (K × V)) (r : Ref) (st' : St K V)
    (h : fupdate (FD.run fdInit ops) t kw = some (r, st')) (hd : ∀ d, (FD.run fdInit ops).read t = some d → (PyDict.keys d).Nodup) :
    (∃ d d', (FD.run fdInit ops).read t = some d ∧ st'.read r = some d' ∧
      ∀ k, PyDict.get? d' k = match lastValue kw k with
        | some v => some v
        | none => PyDict.get? d k) ∧
    ((∃ i j, t = .dict i ∧ r = .dict j) ∨ (∃ i j, t = .fd i ∧ r = .fd j)) ∧
    (∀ x d, (FD.run fdInit ops).read x = some d → st'.read x = some d) := by
  have hg := (run_spec ops fdInit (by intro i h; simp [fdInit] at h)).1
  obtain ⟨h1, h2, h3, ⟨d, d', e1, e2, e3⟩, h5⟩ := fupdate_spec _ hg _ _ _ _ h
  refine ⟨⟨d, d', e1, e2, fun k => ?_⟩, h5, ?_⟩
  · have hlast : ∀ m : List (K × V), PyDict.get? (V := V) m.reverse k = lastValue m k := fun m => get?_eq_find _ _
    rcases e3 with rfl | rfl
    · rw [PyDict.get?_update, hlast]
      cases lastValue kw k <;> rfl
    · rw [initData, PyDict.get?_update, hlast]
      have : PyDict.get? (List.foldl PyDict.update [] [d]) k = PyDict.get? d k := by
        simp only [List.foldl_cons, List.foldl_nil]
        rw [PyDict.get?_update]
        -- in a dict every key occurs once, so the last occurrence is the first
        have hnd := hd d e1
        have : PyDict.get? (V := V) d.reverse k = PyDict.get? d k := by
          have hrev : ∀ l : List (K × V), (PyDict.keys l).Nodup → PyDict.get? (V := V) l.reverse k = PyDict.get? (V := V) l k := by
            intro l
            induction l with
            | nil => simp
            | cons p l ih =>
              intro hn
              have hn' := List.nodup_cons.mp (by simpa [PyDict.keys] using hn : (p.1 :: l.map Prod.fst).Nodup)
              rw [List.reverse_cons]
              have happ : PyDict.get? (V := V) (l.reverse ++ [p]) k =
                  match PyDict.get? (V := V) l.reverse k with | some v => some v | none => PyDict.get? (V := V) [p] k := by
                rw [get?_eq_find, get?_eq_find, get?_eq_find, List.find?_append]
                cases List.find? (fun p => decide (p.1 = k)) l.reverse <;> simp
              rw [happ, ih hn'.2]
              simp only [PyDict.get?]
              by_cases hp : p.1 = k
              · have : PyDict.get? (V := V) l k = none := by
                  cases hg : PyDict.get? (V := V) l k with
                  | none => rfl
                  | some v =>
                    exfalso
                    have : PyDict.has (V := V) l k = true := by unfold PyDict.has; rw [hg]; rfl
                    rw [← PyDict.mem_keys] at this
                    exact hn'.1 (by rw [hp]; exact this)
                rw [this]
              · rw [if_neg hp]
                cases PyDict.get? (V := V) l k with
                | some v => simp [hp]
                | none => simp [hp]
          exact hrev d hnd
        rw [this]
        cases PyDict.get? d k <;> simp [PyDict.get?]
      rw [this]
      cases lastValue kw k <;> rfl
  · intro x dx hx
    cases x with
    | dict i => exact h2 i dx hx
    | fd i => exact h3 i dx hx

example : let st := FD.run (fdInit : St String Nat) [.newDict [("a", 1), ("b", 2)], .fupdate (.dict 0) [("b", 3)], .make [.dict 0] [],
      .fupdate (.fd 0) [("c", 5)]]
    st.dicts = [[("a", 1), ("b", 2)], [("a", 1), ("b", 3)]] ∧ st.frozen = [[("a", 1), ("b", 2)], [("a", 1), ("b", 2), ("c", 5)]] := by
  decide

end FD

section TL
open Unpy.TLBox
variable {V : Type u}

/-- What thread `t` did last, of setting and clearing: `some (some v)` if it set `v`, `some none` if it cleared, `none` if neither. -/
def lastOwn (t : Nat) : List (TLBox.Op V) → Option (Option V)
  | [] => none
  | op :: ops => match lastOwn t ops with
    | some r => some r
    | none => match op with
      | .set t' v => if t' = t then some (some v) else none
      | .clear t' => if t' = t then some none else none
      | _ => none

/-- The last default set by any thread. -/
def lastDefault (v₀ : V) (ops : List (TLBox.Op V)) : V :=
  ops.foldl (fun d op => match op with
    | .setdefault _ v => v
    | _ => d) v₀

/-- C14: after any history of operations by any threads, a thread reads the value it set last, unless it has cleared it since or never set
one: then it reads the current default, which is the last one set by any thread (or the initial one). -/
theorem C14_threadlocalbox (v₀ : V) (ops : List (TLBox.Op V)) (t : Nat) :
    TLBox.get (TLBox.run (TLBox.new v₀) ops) t = match lastOwn t ops with
      | some (some v) => v
      | _ => lastDefault v₀ ops := by
  have key : ∀ (ops : List (TLBox.Op V)) (b : Box V), (TLBox.run b ops).default = lastDefault b.default ops ∧
      (TLBox.run b ops).x t = match lastOwn t ops with
        | some r => r
        | none => b.x t := by
    intro ops
    induction ops with
    | nil => intro b; exact ⟨rfl, rfl⟩
    | cons op ops ih =>
      intro b
      have h1 := ih (TLBox.step b op)
      have hrun : TLBox.run b (op :: ops) = TLBox.run (TLBox.step b op) ops := rfl
      rw [hrun, h1.1, h1.2]
      constructor
      · cases op with
        | clear t' => simp only [TLBox.step]; cases b.x t' <;> rfl
        | _ => rfl
      · simp only [lastOwn]
        cases lastOwn t ops with
        | some r => rfl
        | none =>
          simp only
          cases op with
          | set t' v =>
            simp only [TLBox.step]
            by_cases h : t = t'
            · subst h; simp
            · rw [if_neg h, if_neg (fun e => h e.symm)]
          | clear t' =>
            simp only [TLBox.step]
            by_cases h : t' = t
            · subst h
              rw [if_pos rfl]
              cases hx : b.x t' with
              | none => simp [hx]
              | some w => simp
            · rw [if_neg h]
              cases b.x t' with
              | none => rfl
              | some w => simp only; rw [if_neg (fun e => h e.symm)]
          | setdefault _ v => rfl
          | get _ => rfl
  obtain ⟨h1, h2⟩ := key ops (TLBox.new v₀)
  unfold TLBox.get
  rw [h1, h2]
  cases lastOwn t ops with
  | none => rfl
  | some r => cases r <;> rfl

/-- C14: an operation of one thread on its own value is invisible to the others. -/
theorem C14_isolation (b : Box V) (t t' : Nat) (h : t ≠ t') (v : V) :
    TLBox.get (TLBox.step b (.set t v)) t' = TLBox.get b t' ∧ TLBox.get (TLBox.step b (.clear t)) t' = TLBox.get b t' := by
  constructor
  · simp only [TLBox.step, TLBox.get, if_neg (Ne.symm h)]
  · simp only [TLBox.step]
    cases b.x t with
    | none => rfl
    | some w => simp only [TLBox.get, if_neg (Ne.symm h)]

example : let ops : List (TLBox.Op Nat) := [.set 1 10, .setdefault 2 5, .set 2 20, .clear 1, .get 3, .set 3 30, .setdefault 3 6]
    (TLBox.get (TLBox.run (TLBox.new 0) ops) 1, TLBox.get (TLBox.run (TLBox.new 0) ops) 2, TLBox.get (TLBox.run (TLBox.new 0) ops) 3,
      TLBox.get (TLBox.run (TLBox.new 0) ops) 4) = (6, 20, 30, 6) := by decide

end TL
end Unpy.Props
