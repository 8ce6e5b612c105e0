import Verif.Model.AmbEq
import Verif.Spec.AmbEq
/-! C48, comparing monadic lists -/
namespace Unpy.Props
open Unpy Unpy.Amb Unpy.AmbEq Unpy.Spec.AmbEq
variable {α : Type} [DecidableEq α]

omit [DecidableEq α] in
private theorem astuple_ml (xs : List (Obj α)) : astuple (.ml xs) = .iter (xs.map astuple) := by
  rw [astuple]; simp

omit [DecidableEq α] in
private theorem astuple_iter (xs : List (Obj α)) : astuple (.iter xs) = .iter (xs.map astuple) := by
  rw [astuple]; simp

mutual
private theorem eq_sound : (a b : Obj α) → (r : Bool) → eq a b = .ok r → (r = true ↔ astuple a = astuple b)
  | .ml xs, .ml ys, r, h => by
    rw [eq] at h
    rw [astuple_ml, astuple_ml]
    by_cases hl : xs.length = ys.length
    · rw [if_neg (not_not_intro hl)] at h
      rw [eqs_sound xs ys r h]; simp
    · rw [if_pos hl] at h; cases h
      simp only [Bool.false_eq_true, false_iff]
      intro hc; injection hc with hc; exact hl (by simpa using congrArg List.length hc)
  | .ml xs, .iter ys, r, h => by
    rw [eq] at h
    rw [astuple_ml, astuple_iter]
    by_cases hl : xs.length = ys.length
    · rw [if_neg (not_not_intro hl)] at h
      rw [eqs_sound ys xs r h]
      exact ⟨fun h => by rw [h], fun h => by injection h with h; exact h.symm⟩
    · rw [if_pos hl] at h; cases h
      simp only [Bool.false_eq_true, false_iff]
      intro hc; injection hc with hc; exact hl (by simpa using congrArg List.length hc)
  | .iter xs, .ml ys, r, h => by
    rw [eq] at h
    rw [astuple_ml, astuple_iter]
    by_cases hl : ys.length = xs.length
    · rw [if_neg (not_not_intro hl)] at h
      rw [eqs_sound xs ys r h]; simp
    · rw [if_pos hl] at h; cases h
      simp only [Bool.false_eq_true, false_iff]
      intro hc; injection hc with hc; exact hl (by simpa using (congrArg List.length hc).symm)
  | .iter xs, .iter ys, r, h => by
    rw [eq] at h
    rw [astuple_iter, astuple_iter, eqs_sound xs ys r h]; simp
  | .atom a, .atom b, r, h => by
    rw [eq] at h; cases h; simp [astuple]
  | .nil, .nil, r, h => by rw [eq] at h; cases h; simp [astuple]
  | .iter _, .nil, r, h | .iter _, .atom _, r, h | .nil, .iter _, r, h | .atom _, .iter _, r, h | .nil, .atom _, r, h | .atom _, .nil, r, h => by
    rw [eq] at h; cases h; simp [astuple]
  | .ml _, .nil, r, h | .ml _, .atom _, r, h | .nil, .ml _, r, h | .atom _, .ml _, r, h => by rw [eq] at h; cases h
termination_by a b => sizeOf a + sizeOf b

private theorem eqs_sound : (xs ys : List (Obj α)) → (r : Bool) → eqs xs ys = .ok r → (r = true ↔ xs.map astuple = ys.map astuple)
  | [], [], r, h => by rw [eqs] at h; cases h; simp
  | x :: xs, y :: ys, r, h => by
    rw [eqs] at h
    rw [List.map_cons, List.map_cons, List.cons.injEq]
    cases hx : eq x y with
    | error e => rw [hx] at h; cases h
    | ok b =>
      have h1 := eq_sound x y b hx
      rw [hx] at h
      cases b
      · cases h
        simp only [Bool.false_eq_true, false_iff] at h1 ⊢
        exact fun hc => h1 hc.1
      · rw [eqs_sound xs ys r h]
        exact ⟨fun h => ⟨h1.mp rfl, h⟩, fun h => h.2⟩
  | [], _ :: _, r, h => by rw [eqs] at h <;> first | (cases h; simp) | simp
  | _ :: _, [], r, h => by rw [eqs] at h <;> first | (cases h; simp) | simp
termination_by xs ys => sizeOf xs + sizeOf ys
end

/-- C48: whenever comparing two monadic lists, or one with a tuple, gives an answer, it is whether the items are equal, one by one, where monadic lists among them count as tuples.
(Missing: items for which the comparison raises TypeError, see `C48_eq_refuted`.) -/
theorem C48_eq_partial (a b : Obj α) (r : Bool) (h : eq a b = .ok r) : r = true ↔ astuple a = astuple b := eq_sound a b r h

mutual
private theorem eq_plain : (a b : Obj α) → Plain a → Plain b → ∃ r, eq a b = .ok r
  | .iter xs, .iter ys, ha, hb => by
    rw [eq]
    cases ha with | iter ha => cases hb with | iter hb => exact eqs_plain xs ys ha hb
  | .atom a, .atom b, _, _ => by rw [eq]; exact ⟨_, rfl⟩
  | .nil, .nil, _, _ | .iter _, .nil, _, _ | .iter _, .atom _, _, _ | .nil, .iter _, _, _ | .atom _, .iter _, _, _ | .nil, .atom _, _, _ | .atom _, .nil, _, _ => by rw [eq]; exact ⟨_, rfl⟩
  | .ml _, _, ha, _ => by cases ha
  | .nil, .ml _, _, hb | .atom _, .ml _, _, hb | .iter _, .ml _, _, hb => by cases hb
termination_by a b => sizeOf a + sizeOf b

private theorem eqs_plain : (xs ys : List (Obj α)) → (∀ x ∈ xs, Plain x) → (∀ y ∈ ys, Plain y) → ∃ r, eqs xs ys = .ok r
  | [], [], _, _ => by rw [eqs]; exact ⟨_, rfl⟩
  | x :: xs, y :: ys, hx, hy => by
    rw [eqs]
    obtain ⟨r, hr⟩ := eq_plain x y (hx x (.head _)) (hy y (.head _))
    rw [hr]
    cases r
    · exact ⟨_, rfl⟩
    · exact eqs_plain xs ys (fun x h => hx x (.tail _ h)) (fun y h => hy y (.tail _ h))
  | [], _ :: _, _, _ => ⟨false, by rw [eqs] <;> simp⟩
  | _ :: _, [], _, _ => ⟨false, by rw [eqs] <;> simp⟩
termination_by xs ys => sizeOf xs + sizeOf ys
end

/-- C48: two monadic lists without monadic lists inside are equal if they have equal items, and otherwise they are not; it is the same for one of them and a tuple. -/
theorem C48_eq_plain (xs ys : List (Obj α)) (hx : ∀ x ∈ xs, Plain x) (hy : ∀ y ∈ ys, Plain y) :
    (∃ r, eq (.ml xs) (.ml ys) = .ok r ∧ (r = true ↔ xs = ys)) ∧ (∃ r, eq (.ml xs) (.iter ys) = .ok r ∧ (r = true ↔ xs = ys)) ∧ (∃ r, eq (.iter xs) (.ml ys) = .ok r ∧ (r = true ↔ xs = ys)) := by
  have hid : ∀ {zs : List (Obj α)}, (∀ z ∈ zs, Plain z) → zs.map astuple = zs := by
    have hp : ∀ z : Obj α, Plain z → astuple z = z := by
      intro z hz
      induction hz with
      | nil => rw [astuple]
      | atom => rw [astuple]
      | @iter zs _ ih =>
        rw [astuple_iter]
        congr 1
        exact (List.map_congr_left (fun z hz => ih z hz)).trans (List.map_id _)
    intro zs hz
    exact (List.map_congr_left (fun z h => hp z (hz z h))).trans (List.map_id _)
  have hans : (∃ r, eq (.ml xs) (.ml ys) = .ok r) ∧ (∃ r, eq (.ml xs) (.iter ys) = .ok r) ∧ (∃ r, eq (.iter xs) (.ml ys) = .ok r) := by
    refine ⟨?_, ?_, ?_⟩ <;> rw [eq] <;> split
    · exact ⟨_, rfl⟩
    · exact eqs_plain xs ys hx hy
    · exact ⟨_, rfl⟩
    · exact eqs_plain ys xs hy hx
    · exact ⟨_, rfl⟩
    · exact eqs_plain xs ys hx hy
  obtain ⟨⟨r1, h1⟩, ⟨r2, h2⟩, ⟨r3, h3⟩⟩ := hans
  refine ⟨⟨r1, h1, ?_⟩, ⟨r2, h2, ?_⟩, ⟨r3, h3, ?_⟩⟩
  · rw [eq_sound _ _ _ h1, astuple_ml, astuple_ml, hid hx, hid hy]; simp
  · rw [eq_sound _ _ _ h2, astuple_ml, astuple_iter, hid hx, hid hy]; simp
  · rw [eq_sound _ _ _ h3, astuple_ml, astuple_iter, hid hx, hid hy]; simp

/-- C48 refuted for comparisons: comparing a monadic list with an object that has no length, such as a number or None, raises TypeError instead of answering that they are not equal; so
a list of both can not be searched with `in`, nor can nested monadic lists be compared with flat ones. -/
theorem C48_eq_refuted (xs : List (Obj α)) (a : α) (rest : List (Obj α)) :
    eq (.ml xs) (.atom a) = .error .TypeError ∧ eq (.atom a) (.ml xs) = .error .TypeError ∧ eq (.ml [.ml xs]) (.ml [.atom a]) = .error .TypeError ∧
    eqs (.ml xs :: rest) (.atom a :: rest) = .error .TypeError := by
  have h1 : eq (.ml xs) (.atom a) = .error .TypeError := by rw [eq]
  have h2 : eq (.atom a) (.ml xs) = .error .TypeError := by rw [eq]
  refine ⟨h1, h2, ?_, ?_⟩
  · rw [eq, if_neg (by simp), eqs, h1]
  · rw [eqs, h1]

-- `MonadicList(1, (2,)) == MonadicList(1, MonadicList(2))`
example : astuple (.ml [.atom 1, .iter [.atom 2]] : Obj Nat) = astuple (.ml [.atom 1, .ml [.atom 2]]) ∧ eq (.ml [.atom 1, .iter [.atom 2]] : Obj Nat) (.ml [.atom 1, .ml [.atom 2]]) = .ok true := by
  refine ⟨by simp [astuple], by simp [eq, eqs]⟩
-- lists of numbers and tuples are plain
example : ∀ x ∈ ([.atom 1, .iter [.atom 2, .nil]] : List (Obj Nat)), Plain x := by
  intro x h
  simp at h
  rcases h with rfl | rfl
  · exact .atom
  · exact .iter (by intro x h; simp at h; rcases h with rfl | rfl <;> constructor)

end Unpy.Props
