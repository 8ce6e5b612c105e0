import Verif.Model.PyDict
namespace Unpy.PyDict
universe u v
variable {K : Type u} {V : Type v} [DecidableEq K]

theorem get?_set (d : PyDict K V) (k : K) (v : V) (k' : K) :
    get? (set d k v) k' = if k = k' then some v else get? d k' := by
  induction d with
  | nil => simp [set, get?]
  | cons p d ih =>
    obtain ⟨a, b⟩ := p
    simp only [set]
    split
    · rename_i h; subst h; simp only [get?]; split <;> rfl
    · rename_i h; simp only [get?, ih]; split
      · rename_i h2; subst h2; simp [Ne.symm h]
      · rfl

theorem has_set (d : PyDict K V) (k : K) (v : V) (k' : K) :
    has (set d k v) k' = (decide (k = k') || has d k') := by
  simp only [has, get?_set]; split <;> simp [*]

theorem keys_set (d : PyDict K V) (k : K) (v : V) :
    keys (set d k v) = if has d k then keys d else keys d ++ [k] := by
  induction d with
  | nil => simp [set, keys, has, get?]
  | cons p d ih =>
    obtain ⟨a, b⟩ := p
    simp only [set, has, get?]
    split
    · rename_i h; simp [keys, h]
    · rename_i h; simp only [keys, List.map_cons, has] at *; rw [ih]; split <;> simp [*]

theorem mem_keys (d : PyDict K V) (k : K) : k ∈ keys d ↔ has d k = true := by
  induction d with
  | nil => simp [keys, has, get?]
  | cons p d ih =>
    obtain ⟨a, b⟩ := p
    simp only [keys, List.map_cons, List.mem_cons, has, get?] at *
    split
    · rename_i h; simp [h]
    · rename_i h; rw [ih]; simp [Ne.symm h]

theorem nodup_set {d : PyDict K V} (h : (keys d).Nodup) (k : K) (v : V) : (keys (set d k v)).Nodup := by
  rw [keys_set]; split
  · exact h
  · rename_i hk
    rw [List.nodup_append]
    refine ⟨h, by simp, ?_⟩
    intro a ha b hb
    simp at hb; subst hb
    rintro rfl
    exact hk ((mem_keys d a).mp ha)

theorem get?_erase (d : PyDict K V) (k k' : K) :
    get? (erase d k) k' = if k' = k then none else get? d k' := by
  induction d with
  | nil => simp [erase, get?]
  | cons p d ih =>
    obtain ⟨a, b⟩ := p
    simp only [erase, List.filter_cons] at *
    by_cases h : a = k
    · subst h; simp only [ne_eq, not_true, decide_false, Bool.false_eq_true, if_false, ih, get?]
      by_cases h2 : k' = a
      · simp [h2]
      · simp [h2, Ne.symm h2]
    · simp only [ne_eq, h, not_false_eq_true, decide_true, if_true, get?, ih]
      by_cases h2 : a = k'
      · subst h2; simp [h]
      · simp [h2]

theorem nodup_erase {d : PyDict K V} (h : (keys d).Nodup) (k : K) : (keys (erase d k)).Nodup := by
  unfold keys erase
  exact List.Sublist.nodup (List.Sublist.map _ List.filter_sublist) h

theorem update_cons (d : PyDict K V) (p : K × V) (m : List (K × V)) :
    update d (p :: m) = update (set d p.1 p.2) m := rfl

/-- after an update, each key has its last value in `m`, else its old one -/
theorem get?_update (d : PyDict K V) (m : List (K × V)) (k : K) :
    get? (update d m) k = match get? (V := V) m.reverse k with | some v => some v | none => get? d k := by
  have happ : ∀ (a b : List (K × V)), get? (V := V) (a ++ b) k =
      match get? (V := V) a k with | some v => some v | none => get? (V := V) b k := by
    intro a b
    induction a with
    | nil => simp [get?]
    | cons p a ih => simp only [List.cons_append, get?]; split <;> simp [ih]
  induction m generalizing d with
  | nil => simp [update, get?]
  | cons p m ih =>
    rw [update_cons, ih, List.reverse_cons, happ, get?_set]
    cases get? (V := V) m.reverse k with
    | some v => simp
    | none => simp only [get?]; split <;> simp

theorem has_update (d : PyDict K V) (m : List (K × V)) (k : K) :
    has (update d m) k = (has d k || m.any (fun p => p.1 = k)) := by
  induction m generalizing d with
  | nil => simp [update]
  | cons p m ih => rw [update_cons, ih, has_set]; simp [Bool.or_comm, Bool.or_left_comm, Bool.or_assoc]

theorem keys_update_of_mem (d : PyDict K V) (m : List (K × V)) (h : ∀ p ∈ m, has d p.1 = true) :
    keys (update d m) = keys d := by
  induction m generalizing d with
  | nil => rfl
  | cons p m ih =>
    have h1 := h p (by simp)
    rw [update_cons, ih, keys_set, if_pos h1]
    intro q hq; rw [has_set, h q (by simp [hq])]; simp

theorem nodup_update {d : PyDict K V} (h : (keys d).Nodup) (m : List (K × V)) : (keys (update d m)).Nodup := by
  induction m generalizing d with
  | nil => exact h
  | cons p m ih => exact ih (nodup_set h _ _)

end Unpy.PyDict
