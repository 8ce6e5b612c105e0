import Verif.Proof.BindPartial
import Verif.Proof.Arity
import Verif.Proof.PyDict
import Verif.Spec.Curry
/-! # Lemmas about currying -/
namespace Unpy.Curry
open Unpy Unpy.Arity Unpy.Eff Unpy.Spec.Arity Unpy.Spec.Curry
open Unpy.Fold (Err Vals)
variable {σ ε A V : Type}

theorem posArg_isSome {sig : Sig V} (h : WF sig) (args : List V) {p : Param V} (hp : p ∈ sig) :
    (posArg sig args p.name).isSome ↔ p ∈ (positional sig).take args.length := by
  obtain ⟨pos, rest, e, hpos, hpk, hrk, hva, hvk⟩ := WF.split h
  obtain ⟨hta, htd⟩ := posArg_take e hpos h.names args
  rw [hpos]
  constructor
  · intro hs
    have hp' : p ∈ pos.take args.length ++ (pos.drop args.length ++ rest) := by
      rw [← List.append_assoc, List.take_append_drop, ← e]; exact hp
    rcases List.mem_append.mp hp' with h | h
    · exact h
    · rw [htd p h] at hs; simp at hs
  · exact hta p

theorem take_mono {l : List V} {m n : Nat} (h : m ≤ n) {x : V} (hx : x ∈ l.take m) : x ∈ l.take n := by
  have : l.take m = (l.take n).take m := by rw [List.take_take, Nat.min_eq_left h]
  rw [this] at hx
  exact List.mem_of_mem_take hx

theorem conflict_mono {sig : Sig V} (h : WF sig) {a b : List V} {k k' : PyDict String V}
    (hk : ∀ n, PyDict.has k n = true → PyDict.has k' n = true) (hc : Conflict sig a k) :
    Conflict sig (a ++ b) k' := by
  obtain ⟨p, hp, hb, hs, hh⟩ := hc
  refine ⟨p, hp, hb, ?_, hk _ hh⟩
  rw [posArg_isSome h _ hp] at hs ⊢
  exact take_mono (by simp) hs

theorem extraArgs_mono {sig : Sig V} {a b : List V} (h : extraArgs sig (a ++ b) = []) : extraArgs sig a = [] := by
  unfold extraArgs at *
  split
  · rfl
  · next hv =>
    rw [if_neg hv] at h
    simp only [overflow, List.drop_eq_nil_iff, List.length_append] at h ⊢
    omega

theorem decide_keep {sig : Sig V} (h : WF sig) {a : List V} {k : PyDict String V} (hx : extraArgs sig a = [])
    (hc : ¬ Conflict sig a k) (hp : ¬ PosOnlyClash sig a k) (hm : missing sig a k ≠ []) :
    decideAction sig a k = .ok .keepCurrying := by
  obtain ⟨r, e0, e1, e2, e3, e4⟩ := bind_main h a k (.inl hx) hc hp
  rw [← e1] at hm
  simp [decideAction, e0, hm]

theorem extraKwargs_mono {sig : Sig V} {k k' : PyDict String V} (hk : ∀ n, PyDict.has k n = true → PyDict.has k' n = true)
    (h : extraKwargs sig k' = []) : extraKwargs sig k = [] := by
  unfold extraKwargs at *
  split
  · rfl
  · next hv =>
    rw [if_neg hv] at h
    unfold unknown at *
    rw [List.filter_eq_nil_iff] at *
    intro kv hkv
    have h1 : PyDict.has k' kv.1 = true := hk _ ((PyDict.mem_keys _ _).mp (List.mem_map.mpr ⟨kv, hkv, rfl⟩))
    obtain ⟨kv', hkv', he⟩ := List.mem_map.mp ((PyDict.mem_keys _ _).mpr h1)
    have := h kv' hkv'
    rw [he] at this
    exact this

theorem partialOk_of {sig : Sig V} (h : WF sig) {a : List V} {k : PyDict String V} (hx : extraArgs sig a = [])
    (hxk : extraKwargs sig k = []) (hc : ¬ Conflict sig a k) (hp : ¬ PosOnlyClash sig a k) : partialOk sig a k = true := by
  obtain ⟨r, e0, e1, e2, e3, e4⟩ := bind_main h a k (.inl hx) hc hp
  simp [partialOk, bind_part h.names, e0, Except.map, forget, e2, e3, hx, hxk]

theorem decide_call {sig : Sig V} (h : WF sig) {a : List V} {k : PyDict String V}
    (hp : ¬ PosOnlyClash sig a k) (ha : Accepts sig a k) :
    decideAction sig a k = .ok .call := by
  obtain ⟨hc, h1, h2, h3⟩ := ha
  obtain ⟨r, e0, e1, e2, e3, e4⟩ := bind_main h a k (.inl h2) hc hp
  simp [decideAction, e0, e1, e2, e3, h1, h2, h3]

theorem has_update_mono (d : PyDict String V) (m : List (String × V)) {k : String} (h : PyDict.has d k = true) :
    PyDict.has (PyDict.update d m) k = true := by
  rw [PyDict.has_update]; simp [h]

theorem update_append (d : PyDict String V) (m m' : List (String × V)) :
    PyDict.update d (m ++ m') = PyDict.update (PyDict.update d m) m' := by
  simp [PyDict.update, List.foldl_append]

theorem allKwargs_append (a b : List (List (Obj A) × PyDict String (Obj A))) :
    allKwargs (a ++ b) = PyDict.update (allKwargs a) (b.map (·.2)).flatten := by
  simp [allKwargs, update_append]

theorem allArgs_append (a b : List (List (Obj A) × PyDict String (Obj A))) :
    allArgs (a ++ b) = allArgs a ++ allArgs b := by
  simp [allArgs]

theorem filter_set (P : String → Bool) (d : PyDict String V) (k : String) (v : V) :
    (PyDict.set d k v).filter (fun kv => P kv.1) =
      if P k then PyDict.set (d.filter (fun kv => P kv.1)) k v else d.filter (fun kv => P kv.1) := by
  induction d with
  | nil => simp [PyDict.set, List.filter_cons]
  | cons x d ih =>
    obtain ⟨k', v'⟩ := x
    simp only [PyDict.set]
    by_cases hk : k' = k
    · subst hk
      simp only [if_true, List.filter_cons]
      by_cases hP : P k'
      · simp [hP, PyDict.set]
      · simp [hP]
    · simp only [hk, if_false, List.filter_cons]
      by_cases hP : P k' <;> by_cases hP2 : P k
      · simp only [hP, if_true, ih, hP2, PyDict.set, hk, if_false]
      · simp [hP, ih, hP2]
      · simp [hP, ih, hP2]
      · simp [hP, ih, hP2]

theorem filter_update (P : String → Bool) (d m : PyDict String V) :
    (PyDict.update d m).filter (fun kv => P kv.1) =
      PyDict.update (d.filter (fun kv => P kv.1)) (m.filter (fun kv => P kv.1)) := by
  induction m generalizing d with
  | nil => simp [PyDict.update]
  | cons x m ih =>
    rw [PyDict.update_cons, ih, filter_set, List.filter_cons]
    by_cases hP : P x.1
    · simp [hP, PyDict.update_cons]
    · simp [hP]

theorem get?_filter (P : String → Bool) (d : PyDict String V) (k : String) :
    PyDict.get? (d.filter (fun kv => P kv.1)) k = if P k then PyDict.get? d k else none := by
  induction d with
  | nil => simp [PyDict.get?]
  | cons x d ih =>
    obtain ⟨k', v'⟩ := x
    rw [List.filter_cons]
    by_cases hk : k' = k
    · subst hk
      by_cases hP : P k'
      · simp [hP, PyDict.get?]
      · simp [hP, ih, PyDict.get?]
    · by_cases hP : P k'
      · simp [hP, PyDict.get?, hk, ih]
      · simp [hP, PyDict.get?, hk, ih]

theorem zip_take {W : Type} (l : List W) (args : List V) (n : Nat) (h : l.length ≤ n) :
    l.zip (args.take n) = l.zip args := by
  induction l generalizing args n with
  | nil => simp
  | cons x l ih =>
    cases args with
    | nil => simp
    | cons a args =>
      cases n with
      | zero => simp at h
      | succ n => simp only [List.take_succ_cons, List.zip_cons_cons]; rw [ih]; simpa using h

/-- a positional argument beyond the positional parameters fills no parameter -/
theorem posArg_take_overflow (sig : Sig V) (args : List V) (n : Nat) (h : (positional sig).length ≤ n) (name : String) :
    posArg sig (args.take n) name = posArg sig args name := by
  unfold posArg
  rw [zip_take]
  simpa using h

theorem trim_args (sig : Sig V) (A : List V) : ∃ n, A.take (A.length - (extraArgs sig A).length) = A.take n ∧
    (positional sig).length ≤ n ∧ extraArgs sig (A.take n) = [] := by
  by_cases hv : hasKind .varPos sig
  · refine ⟨A.length + (positional sig).length, ?_, by omega, by simp [extraArgs, hv]⟩
    simp only [extraArgs, hv, if_true, List.length_nil, Nat.sub_zero, List.take_length]
    rw [List.take_of_length_le (by omega)]
  · refine ⟨(positional sig).length, ?_, Nat.le_refl _, ?_⟩
    · simp only [extraArgs, hv, if_false, overflow, List.length_drop]
      by_cases hle : A.length ≤ (positional sig).length
      · rw [List.take_of_length_le hle, List.take_of_length_le (by omega)]
      · congr 1; omega
    · simp only [extraArgs, hv, if_false, overflow, List.drop_eq_nil_iff, List.length_take]; omega

/-- dropping the rejected arguments makes a call acceptable -/
theorem accepts_trim {sig : Sig V} {A : List V} {K : PyDict String V} (hc : ¬ Conflict sig A K)
    (hm : missing sig A K = []) :
    Accepts sig (A.take (A.length - (extraArgs sig A).length))
      (K.filter (fun kv => !PyDict.has (extraKwargs sig K) kv.1)) := by
  obtain ⟨n, hn, hle, hx⟩ := trim_args sig A
  rw [hn]
  have hby : ∀ p ∈ sig, ByName p → PyDict.has (extraKwargs sig K) p.name = false := by
    intro p hp hb
    cases hh : PyDict.has (extraKwargs sig K) p.name with
    | false => rfl
    | true =>
      exfalso
      rw [← PyDict.mem_keys] at hh
      unfold extraKwargs at hh
      split at hh
      · simp [PyDict.keys] at hh
      · obtain ⟨kv, hkv, e⟩ := List.mem_map.mp hh
        simp only [unknown, List.mem_filter, decide_eq_true_eq] at hkv
        exact hkv.2 ⟨p, hp, hb, e.symm⟩
  have hget : ∀ p ∈ sig, ByName p →
      PyDict.get? (K.filter (fun kv => !PyDict.has (extraKwargs sig K) kv.1)) p.name = PyDict.get? K p.name := by
    intro p hp hb
    rw [get?_filter (fun k => !PyDict.has (extraKwargs sig K) k), hby p hp hb]; simp
  refine ⟨?_, ?_, hx, ?_⟩
  · rintro ⟨p, hp, hb, hs, hh⟩
    rw [posArg_take_overflow sig A n hle] at hs
    exact hc ⟨p, hp, hb, hs, by rw [PyDict.has, hget p hp hb] at hh; exact hh⟩
  · rw [← hm]
    unfold missing
    apply List.filter_congr
    intro p hp
    have : given sig (A.take n) (K.filter (fun kv => !PyDict.has (extraKwargs sig K) kv.1)) p = given sig A K p := by
      unfold given
      rw [posArg_take_overflow sig A n hle]
      cases posArg sig A p.name with
      | some v => rfl
      | none =>
        by_cases hb : ByName p
        · simp only [hb, if_true, hget p hp hb]
        · simp only [hb, if_false]
    rw [this]
  · unfold extraKwargs
    by_cases hv : hasKind .varKw sig
    · simp [hv]
    · simp only [hv, if_false]
      rw [unknown, List.filter_eq_nil_iff]
      intro kv hkv
      rw [List.mem_filter] at hkv
      obtain ⟨hkv, hnot⟩ := hkv
      simp only [decide_eq_true_eq]
      intro hno
      have : kv ∈ unknown sig K := by rw [unknown, List.mem_filter]; exact ⟨hkv, by simpa using hno⟩
      have : PyDict.has (unknown sig K) kv.1 = true := by
        rw [← PyDict.mem_keys]; exact List.mem_map.mpr ⟨kv, this, rfl⟩
      rw [this] at hnot
      simp at hnot

end Unpy.Curry
