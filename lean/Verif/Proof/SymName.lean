import Verif.Proof.PyDict
import Verif.Spec.SymName
/-! Helper lemmas for names of symbols -/
namespace Unpy.SymName
open Unpy Unpy.Spec.SymName
universe u v
variable {K : Type u} {N : Type v} [DecidableEq K]

/-- pickles are as `dumps` makes them -/
def OpOk : Op K N → Prop
  | .loads p => p.state.name = p.arg
  | _ => True

/-- the table is right, and no attribute occurs twice -/
structure Inv (key : N → K) (st : St K N) : Prop where
  table : ∀ k i, st.table k = some i → ∃ o, st.objs[i]? = some o ∧ key o.name = k
  attrs : ∀ (i : Nat) o, st.objs[i]? = some o → (PyDict.keys o.attrs).Nodup

theorem inv_init (key : N → K) : Inv key {} := ⟨by simp, by simp⟩

theorem getElem?_modify' {α} (l : List α) (i : Nat) (f : α → α) (j : Nat) :
    (l.modify i f)[j]? = if i = j then l[j]?.map f else l[j]? := by
  rw [List.getElem?_modify]; split <;> simp

/-- what `__new__` does -/
theorem new_spec {key : N → K} {st : St K N} (h : Inv key st) (n : N) :
    Inv key (new key st n).2 ∧ (new key st n).2.table (key n) = some (new key st n).1 ∧
    (∃ o, (new key st n).2.objs[(new key st n).1]? = some o ∧ key o.name = key n) ∧
    (∀ k, k ≠ key n → (new key st n).2.table k = st.table k) ∧
    (∀ j : Nat, j < st.objs.length → (new key st n).2.objs[j]? = st.objs[j]?) ∧ st.objs.length ≤ (new key st n).2.objs.length := by
  unfold new
  cases ht : st.table (key n) with
  | some i =>
    obtain ⟨o, ho, hk⟩ := h.table _ _ ht
    exact ⟨h, ht, ⟨o, ho, hk⟩, fun _ _ => rfl, fun _ _ => rfl, Nat.le_refl _⟩
  | none =>
    refine ⟨⟨?_, ?_⟩, by simp, ⟨{ name := n }, by simp, rfl⟩, fun k hk => by simp [hk], fun j hj => ?_, by simp⟩
    · intro k i hi
      by_cases hk : k = key n
      · simp only [hk, if_true, Option.some.injEq] at hi
        subst hi
        exact ⟨{ name := n }, by simp, hk.symm⟩
      · simp only [hk, if_false] at hi
        obtain ⟨o, ho, hko⟩ := h.table k i hi
        refine ⟨o, ?_, hko⟩
        rw [List.getElem?_append_left (List.getElem?_eq_some_iff.mp ho).1]; exact ho
    · intro i o ho
      by_cases hi : i < st.objs.length
      · simp only at ho; rw [List.getElem?_append_left hi] at ho; exact h.attrs i o ho
      · simp only at ho
        rw [List.getElem?_append_right (by omega)] at ho
        cases hd : i - st.objs.length with
        | zero => simp only [hd, List.getElem?_cons_zero, Option.some.injEq] at ho; subst ho; simp [PyDict.keys]
        | succ m => simp [hd] at ho
    · simp only; rw [List.getElem?_append_left hj]

/-- changing one object -/
theorem inv_modify {key : N → K} {st : St K N} (h : Inv key st) (i : Nat) (f : Obj N → Obj N)
    (hk : ∀ o, st.objs[i]? = some o → key (f o).name = key o.name)
    (ha : ∀ o, (PyDict.keys o.attrs).Nodup → (PyDict.keys (f o).attrs).Nodup) :
    Inv key { st with objs := st.objs.modify i f } := by
  constructor
  · intro k j hj
    obtain ⟨o, ho, hko⟩ := h.table k j hj
    simp only [getElem?_modify']
    by_cases e : i = j
    · subst e; exact ⟨f o, by simp [ho], by rw [hk o ho]; exact hko⟩
    · exact ⟨o, by simp [e, ho], hko⟩
  · intro j o ho
    simp only [getElem?_modify'] at ho
    by_cases e : i = j
    · subst e
      simp only [if_true, Option.map_eq_some_iff] at ho
      obtain ⟨o', ho', rfl⟩ := ho
      exact ha _ (h.attrs i o' ho')
    · simp only [e, if_false] at ho; exact h.attrs j o ho

theorem inv_call {key : N → K} {st : St K N} (h : Inv key st) (n : N) : Inv key (call key st n).2 := by
  obtain ⟨h1, -, ⟨o, ho, hk⟩, -⟩ := new_spec h n
  refine inv_modify h1 _ _ ?_ (fun o h => h)
  intro o' ho'; rw [ho] at ho'; cases ho'; exact hk.symm

theorem inv_loads {key : N → K} {st : St K N} (h : Inv key st) (p : Pickle N) (hp : p.state.name = p.arg) :
    Inv key (loads key st p).2 := by
  obtain ⟨h1, -, ⟨o, ho, hk⟩, -⟩ := new_spec h p.arg
  refine inv_modify h1 _ _ ?_ (fun o h => PyDict.nodup_update h _)
  intro o' ho'; rw [ho] at ho'; cases ho'; simp only [hp]; exact hk.symm

theorem inv_step {key : N → K} {st : St K N} (h : Inv key st) (op : Op K N) (ho : OpOk op) : Inv key (step key st op) := by
  cases op with
  | call n => exact inv_call h n
  | setattr i a v => exact inv_modify h _ _ (fun _ _ => rfl) (fun o h => PyDict.nodup_set h _ _)
  | loads p => exact inv_loads h p ho
  | drop k =>
    refine ⟨?_, h.attrs⟩
    intro k' i hi
    by_cases e : k' = k
    · simp [step, e] at hi
    · simp only [step, e, if_false] at hi; exact h.table k' i hi

theorem inv_run {key : N → K} (ops : List (Op K N)) {st : St K N} (h : Inv key st) (ho : ∀ op ∈ ops, OpOk op) :
    Inv key (run key st ops) := by
  induction ops generalizing st with
  | nil => exact h
  | cons op ops ih => exact ih (inv_step h op (ho op (by simp))) (fun o hm => ho o (by simp [hm]))

/-- keys of objects stay -/
theorem step_key {key : N → K} {st : St K N} (h : Inv key st) (op : Op K N) (ho : OpOk op) (i : Nat) (o : Obj N)
    (hi : st.objs[i]? = some o) : ∃ o', (step key st op).objs[i]? = some o' ∧ key o'.name = key o.name := by
  have hlt := (List.getElem?_eq_some_iff.mp hi).1
  cases op with
  | call n =>
    obtain ⟨-, -, ⟨o1, ho1, hk1⟩, -, hsame, -⟩ := new_spec h n
    simp only [step, call, getElem?_modify']
    by_cases e : (new key st n).1 = i
    · rw [if_pos e, ← e, ho1]
      rw [e] at ho1; rw [hsame i hlt, hi] at ho1; cases ho1
      exact ⟨_, rfl, hk1.symm⟩
    · rw [if_neg e, hsame i hlt, hi]; exact ⟨o, rfl, rfl⟩
  | setattr j a v =>
    simp only [step, getElem?_modify']
    by_cases e : j = i
    · rw [if_pos e, hi]; exact ⟨_, rfl, rfl⟩
    · rw [if_neg e, hi]; exact ⟨_, rfl, rfl⟩
  | loads p =>
    obtain ⟨-, -, ⟨o1, ho1, hk1⟩, -, hsame, -⟩ := new_spec h p.arg
    simp only [step, loads, getElem?_modify']
    by_cases e : (new key st p.arg).1 = i
    · rw [if_pos e, ← e, ho1]
      rw [e] at ho1; rw [hsame i hlt, hi] at ho1; cases ho1
      exact ⟨_, rfl, by simp only [show p.state.name = p.arg from ho]; exact hk1.symm⟩
    · rw [if_neg e, hsame i hlt, hi]; exact ⟨o, rfl, rfl⟩
  | drop k => exact ⟨o, hi, rfl⟩

theorem run_key {key : N → K} (ops : List (Op K N)) {st : St K N} (h : Inv key st) (ho : ∀ op ∈ ops, OpOk op) (i : Nat) (o : Obj N)
    (hi : st.objs[i]? = some o) : ∃ o', (run key st ops).objs[i]? = some o' ∧ key o'.name = key o.name := by
  induction ops generalizing st o with
  | nil => exact ⟨o, hi, rfl⟩
  | cons op ops ih =>
    obtain ⟨o1, h1, k1⟩ := step_key h op (ho op (by simp)) i o hi
    obtain ⟨o2, h2, k2⟩ := ih (inv_step h op (ho op (by simp))) (fun o hm => ho o (by simp [hm])) o1 h1
    exact ⟨o2, h2, k2.trans k1⟩

/-- names of objects, if no two names with the same key are used -/
def Names (P : N → Prop) (st : St K N) : Prop := ∀ (i : Nat) o, st.objs[i]? = some o → P o.name

theorem step_names {key : N → K} {P : N → Prop} {st : St K N} (h : Names P st) (op : Op K N)
    (hinv : Inv key st) (ho : OpOk op) (hm : ∀ n, Mentions n op → P n) : Names P (step key st op) := by
  have hnew : ∀ n, P n → Names P (new key st n).2 := by
    intro n hn
    unfold new
    cases st.table (key n) with
    | some i => exact h
    | none =>
      intro j o hj
      simp only at hj
      by_cases hlt : j < st.objs.length
      · rw [List.getElem?_append_left hlt] at hj; exact h j o hj
      · rw [List.getElem?_append_right (by omega)] at hj
        cases hd : j - st.objs.length with
        | zero => simp only [hd, List.getElem?_cons_zero, Option.some.injEq] at hj; subst hj; exact hn
        | succ m => simp [hd] at hj
  have hmod : ∀ (s : St K N), Names P s → ∀ i f, (∀ o, P o.name → P (f o).name) → Names P { s with objs := s.objs.modify i f } := by
    intro s hs i f hf j o hj
    simp only [getElem?_modify'] at hj
    by_cases e : i = j
    · simp only [e, if_true, Option.map_eq_some_iff] at hj
      obtain ⟨o', ho', rfl⟩ := hj
      exact hf _ (hs j o' ho')
    · simp only [e, if_false] at hj; exact hs j o hj
  cases op with
  | call n => exact hmod _ (hnew n (hm n rfl)) _ _ (fun _ _ => hm n rfl)
  | setattr i a v => exact hmod _ h _ _ (fun _ h => h)
  | loads p => exact hmod _ (hnew p.arg (hm _ rfl)) _ _ (fun _ _ => by simp only [show p.state.name = p.arg from ho]; exact hm _ rfl)
  | drop k => exact h

theorem run_names {key : N → K} {P : N → Prop} (ops : List (Op K N)) {st : St K N} (h : Names P st) (hinv : Inv key st)
    (ho : ∀ op ∈ ops, OpOk op) (hm : ∀ op ∈ ops, ∀ n, Mentions n op → P n) : Names P (run key st ops) := by
  induction ops generalizing st with
  | nil => exact h
  | cons op ops ih =>
    exact ih (step_names h op hinv (ho op (by simp)) (hm op (by simp))) (inv_step hinv op (ho op (by simp)))
      (fun o hmem => ho o (by simp [hmem])) (fun o hmem => hm o (by simp [hmem]))

/-- an object stays in the table until it is dropped -/
theorem run_table {key : N → K} (ops : List (Op K N)) {st : St K N} (k : K) (i : Nat) (hi : st.table k = some i)
    (hd : ∀ op ∈ ops, op ≠ .drop k) : (run key st ops).table k = some i := by
  induction ops generalizing st with
  | nil => exact hi
  | cons op ops ih =>
    refine ih ?_ (fun o hm => hd o (by simp [hm]))
    have hnew : ∀ n, (new key st n).2.table k = some i := by
      intro n
      unfold new
      cases ht : st.table (key n) with
      | some j => exact hi
      | none =>
        simp only
        by_cases e : k = key n
        · rw [← e, hi] at ht; cases ht
        · rw [if_neg e]; exact hi
    cases op with
    | call n => exact hnew n
    | setattr j a v => exact hi
    | loads p => exact hnew p.arg
    | drop k' =>
      have : k ≠ k' := fun e => hd (.drop k') (by simp) (by rw [e])
      simp only [step, this, if_false]; exact hi

theorem get_update_nodup (m d : PyDict String Nat) (hm : (PyDict.keys m).Nodup) (k : String) :
    PyDict.get? (PyDict.update d m) k = match PyDict.get? m k with
      | some v => some v
      | none => PyDict.get? d k := by
  induction m generalizing d with
  | nil => rfl
  | cons p m ih =>
    have hn := List.nodup_cons.mp (by simpa [PyDict.keys] using hm : (p.1 :: m.map Prod.fst).Nodup)
    rw [PyDict.update_cons, ih _ hn.2, PyDict.get?_set]
    by_cases hk : p.1 = k
    · have : PyDict.get? m k = none := by
        cases hg : PyDict.get? m k with
        | none => rfl
        | some v =>
          have : PyDict.has m k = true := by simp [PyDict.has, hg]
          exact absurd ((PyDict.mem_keys m k).mpr this) (hk ▸ hn.1)
      simp [PyDict.get?, hk, this]
    · simp [PyDict.get?, hk]

end Unpy.SymName
