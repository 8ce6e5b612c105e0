import Verif.Model.It
import Verif.Spec.It
/-! Helper lemmas for `flatten` and `flatten_in`. -/
namespace Unpy.It
open Unpy.Spec.It
universe u
variable {α : Type u}

mutual
/-- flattened items with their addresses: loop starting at position `i` -/
def addrL (pred : Bool → List (Val α) → Bool) : Nat → List (Val α) → List (List Nat × Val α)
  | _, [] => []
  | i, e :: es => (addrE pred e).map (fun q => (i :: q.1, q.2)) ++ addrL pred (i+1) es
def addrE (pred : Bool → List (Val α) → Bool) : Val α → List (List Nat × Val α)
  | .atom a => [([], .atom a)]
  | .seq t es => if pred t es then addrL pred 0 es else [([], .seq t es)]
end

mutual
theorem addrL_snd (pred : Bool → List (Val α) → Bool) (i : Nat) (xs : List (Val α)) :
    (addrL pred i xs).map Prod.snd = flattenL pred xs := by
  match xs with
  | [] => simp [addrL, flattenL]
  | e :: es =>
    simp only [addrL, flattenL, List.map_append, List.map_map]
    rw [addrL_snd pred (i+1) es, ← addrE_snd pred e]
    rfl
theorem addrE_snd (pred : Bool → List (Val α) → Bool) (v : Val α) :
    (addrE pred v).map Prod.snd = flattenE pred v := by
  match v with
  | .atom a => simp [addrE, flattenE]
  | .seq t es =>
    simp only [addrE, flattenE]
    split
    · exact addrL_snd pred 0 es
    · simp
end

/-- reach inside one value (empty path = the value itself) -/
def ReachE (pred : Bool → List (Val α) → Bool) (e : Val α) (p : List Nat) (v : Val α) : Prop :=
  (p = [] ∧ e = v) ∨ ∃ t es, e = .seq t es ∧ pred t es = true ∧ Reach pred es p v

theorem reach_cons (pred : Bool → List (Val α) → Bool) (xs : List (Val α)) (p : List Nat) (v : Val α) :
    Reach pred xs p v ↔ ∃ i q e, p = i :: q ∧ xs[i]? = some e ∧ ReachE pred e q v := by
  constructor
  · intro h
    cases h with
    | here h => exact ⟨_, [], _, rfl, h, .inl ⟨rfl, rfl⟩⟩
    | into h1 h2 h3 => exact ⟨_, _, _, rfl, h1, .inr ⟨_, _, rfl, h2, h3⟩⟩
  · rintro ⟨i, q, e, rfl, h, ⟨rfl, rfl⟩ | ⟨t, es, rfl, h2, h3⟩⟩
    · exact .here h
    · exact .into h h2 h3

theorem reach_ne_nil {pred : Bool → List (Val α) → Bool} {xs p v} (h : Reach pred xs p v) : p ≠ [] := by
  cases h <;> simp

mutual
theorem mem_addrL (pred : Bool → List (Val α) → Bool) (i : Nat) (xs : List (Val α)) (p : List Nat) (v : Val α) :
    (p, v) ∈ addrL pred i xs ↔
      ∃ j q e, p = (i + j) :: q ∧ xs[j]? = some e ∧ ReachE pred e q v ∧ Final pred v := by
  match xs with
  | [] => simp [addrL]
  | e :: es =>
    simp only [addrL, List.mem_append, List.mem_map, mem_addrL pred (i+1) es, Prod.mk.injEq, Prod.exists]
    constructor
    · rintro (⟨q, w, h, rfl, rfl⟩ | ⟨j, q, e', rfl, h, hr⟩)
      · exact ⟨0, q, e, by simp, by simp, (mem_addrE pred e q w).mp h⟩
      · exact ⟨j+1, q, e', by rw [show i + 1 + j = i + (j+1) by omega], by simpa using h, hr⟩
    · rintro ⟨j, q, e', rfl, h, hr⟩
      cases j with
      | zero =>
        simp at h; subst h
        exact .inl ⟨q, v, (mem_addrE pred e q v).mpr hr, by simp⟩
      | succ j => exact .inr ⟨j, q, e', by rw [show i + (j+1) = i + 1 + j by omega], by simpa using h, hr⟩
theorem mem_addrE (pred : Bool → List (Val α) → Bool) (e : Val α) (p : List Nat) (v : Val α) :
    (p, v) ∈ addrE pred e ↔ ReachE pred e p v ∧ Final pred v := by
  match e with
  | .atom a =>
    simp only [addrE, List.mem_singleton, Prod.mk.injEq, ReachE]
    constructor
    · rintro ⟨rfl, rfl⟩; exact ⟨.inl ⟨rfl, rfl⟩, by intro t es h; simp at h⟩
    · rintro ⟨⟨rfl, rfl⟩ | ⟨t, es, h, _⟩, _⟩
      · exact ⟨rfl, rfl⟩
      · simp at h
  | .seq t es =>
    simp only [addrE]
    split
    · rename_i hp
      rw [mem_addrL pred 0 es]
      constructor
      · rintro ⟨j, q, e', rfl, h1, h2, h3⟩
        exact ⟨.inr ⟨t, es, rfl, hp, (reach_cons _ _ _ _).mpr ⟨_, q, e', rfl, by simpa using h1, h2⟩⟩, h3⟩
      · rintro ⟨⟨rfl, rfl⟩ | ⟨t', es', h, _, h3⟩, hf⟩
        · have := hf t es rfl; simp [hp] at this
        · simp at h; obtain ⟨rfl, rfl⟩ := h
          obtain ⟨i, q, e', rfl, h1, h2⟩ := (reach_cons _ _ _ _).mp h3
          exact ⟨i, q, e', by simp, h1, h2, hf⟩
    · rename_i hp
      simp only [List.mem_singleton, Prod.mk.injEq, ReachE]
      constructor
      · rintro ⟨rfl, rfl⟩
        exact ⟨.inl ⟨rfl, rfl⟩, by intro t' es' h; simp at h; obtain ⟨rfl, rfl⟩ := h; simpa using hp⟩
      · rintro ⟨⟨rfl, rfl⟩ | ⟨t', es', h, h', _⟩, _⟩
        · exact ⟨rfl, rfl⟩
        · simp at h; obtain ⟨rfl, rfl⟩ := h; exact absurd h' hp
end

mutual
theorem addrL_sorted (pred : Bool → List (Val α) → Bool) (i : Nat) (xs : List (Val α)) :
    (addrL pred i xs).Pairwise (fun a b => a.1 < b.1) := by
  match xs with
  | [] => simp [addrL]
  | e :: es =>
    simp only [addrL]
    rw [List.pairwise_append]
    refine ⟨?_, addrL_sorted pred (i+1) es, ?_⟩
    · rw [List.pairwise_map]
      exact List.Pairwise.imp (fun h => List.Lex.cons h) (addrE_sorted pred e)
    · rintro ⟨p, v⟩ h1 ⟨p', v'⟩ h2
      simp only [List.mem_map, Prod.mk.injEq, Prod.exists] at h1
      obtain ⟨q, w, _, rfl, rfl⟩ := h1
      obtain ⟨j, q', e', rfl, _⟩ := (mem_addrL pred (i+1) es p' v').mp h2
      exact List.Lex.rel (by omega)
theorem addrE_sorted (pred : Bool → List (Val α) → Bool) (e : Val α) :
    (addrE pred e).Pairwise (fun a b => a.1 < b.1) := by
  match e with
  | .atom a => simp [addrE]
  | .seq t es =>
    simp only [addrE]
    split
    · exact addrL_sorted pred 0 es
    · simp
end

theorem atomsL_append (xs ys : List (Val α)) : atomsL (xs ++ ys) = atomsL xs ++ atomsL ys := by
  induction xs with
  | nil => simp [atomsL]
  | cons x xs ih => simp [atomsL, ih]

mutual
theorem atomsL_flattenL (pred : Bool → List (Val α) → Bool) (xs : List (Val α)) :
    atomsL (flattenL pred xs) = atomsL xs := by
  match xs with
  | [] => simp [flattenL]
  | e :: es => simp only [flattenL, atomsL, atomsL_append, atomsL_flattenL pred es, atomsL_flattenE pred e]
theorem atomsL_flattenE (pred : Bool → List (Val α) → Bool) (v : Val α) :
    atomsL (flattenE pred v) = atoms v := by
  match v with
  | .atom a => simp [flattenE, atomsL]
  | .seq t es =>
    simp only [flattenE, atoms]
    split
    · exact atomsL_flattenL pred es
    · simp [atomsL, atoms]
end

mutual
theorem atomsL_flattenInL (pred : Bool → List (Val α) → Bool) (xs : List (Val α)) :
    atomsL (flattenInL pred xs) = atomsL xs := by
  match xs with
  | [] => simp [flattenInL]
  | e :: es => simp only [flattenInL, atomsL, atomsL_append, atomsL_flattenInL pred es, atomsL_flattenInE pred e]
theorem atomsL_flattenInE (pred : Bool → List (Val α) → Bool) (v : Val α) :
    atomsL (flattenInE pred v) = atoms v := by
  match v with
  | .atom a => simp [flattenInE, atomsL]
  | .seq t es =>
    simp only [flattenInE, atoms]
    split
    · exact atomsL_flattenInL pred es
    · simp [atomsL, atoms, atomsL_flattenInL pred es]
end

mutual
theorem flattenInL_eq (pred : Bool → List (Val α) → Bool) (xs : List (Val α)) :
    flattenInL pred xs = (flattenL pred xs).map (fun v => match v with
      | .atom a => .atom a
      | .seq t es => .seq t (flattenInL pred es)) := by
  match xs with
  | [] => simp [flattenInL, flattenL]
  | e :: es => simp only [flattenInL, flattenL, List.map_append, flattenInL_eq pred es, flattenInE_eq pred e]
theorem flattenInE_eq (pred : Bool → List (Val α) → Bool) (v : Val α) :
    flattenInE pred v = (flattenE pred v).map (fun v => match v with
      | .atom a => .atom a
      | .seq t es => .seq t (flattenInL pred es)) := by
  match v with
  | .atom a => simp [flattenInE, flattenE]
  | .seq t es =>
    simp only [flattenInE, flattenE]
    split
    · exact flattenInL_eq pred es
    · simp
end

end Unpy.It
