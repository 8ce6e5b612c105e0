import Verif.Model.ItEdge
import Verif.Proof.It
/-! # C21 and C68: `flatten1` without a predicate, `flatten_in` on named tuples, `subset` of an iterator, `iterate` -/
namespace Unpy.Props
open Unpy Unpy.ItEdge
universe u
variable {α : Type u}

/-- C21: `flatten1(xs)` without a predicate, on a list of lists and tuples, is `flatten1` with the predicate that accepts everything.
(Missing: items which are neither lists nor tuples, where it is refuted.) -/
theorem C21_nopred_partial (iter : α → Option (List (Val α))) (xs : List (Val α)) (h : ∀ v ∈ xs, ∃ t es, v = .seq t es) :
    ItEdge.flatten1 iter xs = ⟨It.flatten1p (fun _ _ => true) xs, none⟩ := by
  induction xs with
  | nil => rfl
  | cons v xs ih =>
    obtain ⟨t, es, rfl⟩ := h v (by simp)
    simp only [ItEdge.flatten1, It.flatten1p, if_true]
    rw [ih (fun w hw => h w (by simp [hw]))]

example : ItEdge.flatten1 (fun _ : Nat => none) [.seq true [.atom 1, .seq false [.atom 2]], .seq false [.atom 3]]
    = ⟨[.atom 1, .seq false [.atom 2], .atom 3], none⟩ := rfl

/-- C21: refuted for `flatten1(xs)` without a predicate, when an item is neither a list nor a tuple: instead of passing it through as
`flatten(xs)` and `flatten1(xs, pred)` do, it raises TypeError there, or if the item is iterable, such as a string, takes it apart. -/
theorem C21_nopred_refuted (iter : α → Option (List (Val α))) (xs ys : List (Val α)) (a : α) (h : ∀ v ∈ xs, ∃ t es, v = .seq t es) :
    (iter a = none → ItEdge.flatten1 iter (xs ++ .atom a :: ys) = ⟨It.flatten1p (fun _ _ => true) xs, some .TypeError⟩) ∧
    (∀ es, iter a = some es → (ItEdge.flatten1 iter (xs ++ .atom a :: ys)).items =
      It.flatten1p (fun _ _ => true) xs ++ es ++ (ItEdge.flatten1 iter ys).items) ∧
    It.flatten1p (fun _ _ => true) (xs ++ .atom a :: ys) =
      It.flatten1p (fun _ _ => true) xs ++ .atom a :: It.flatten1p (fun _ _ => true) ys := by
  induction xs with
  | nil =>
    refine ⟨fun e => ?_, fun es e => ?_, rfl⟩ <;> simp only [List.nil_append, ItEdge.flatten1, e, It.flatten1p]
  | cons v xs ih =>
    obtain ⟨t, es, rfl⟩ := h v (by simp)
    obtain ⟨h1, h2, h3⟩ := ih (fun w hw => h w (by simp [hw]))
    refine ⟨fun e => ?_, fun es e => ?_, ?_⟩
    · simp only [List.cons_append, ItEdge.flatten1, It.flatten1p, if_true, h1 e]
    · simp only [List.cons_append, ItEdge.flatten1, It.flatten1p, if_true, h2 es e, List.append_assoc]
    · simp only [List.cons_append, It.flatten1p, if_true, h3, List.append_assoc]

/-- C21: refuted for `flatten_in` on a named tuple which the predicate does not accept: TypeError (at that point, after what comes before), and if
it has one field only, that field becomes a generator. -/
theorem C21_named_refuted (pred : Kind → List (NVal α) → Bool) (name : String) (es it : List (NVal α)) (h : pred (.named name) es = false) :
    (es.length ≠ 1 → ItEdge.flattenInL pred (.seq (.named name) es :: it) = ⟨[], some .TypeError⟩) ∧
    (es.length = 1 → ∃ l rest, (ItEdge.flattenInL pred (.seq (.named name) es :: it)).items = .seq (.named name) [.generator l] :: rest) := by
  refine ⟨fun hl => ?_, fun hl => ?_⟩
  · simp [ItEdge.flattenInL, ItEdge.flattenInE, h, rebuild, hl]
  · simp only [ItEdge.flattenInL, ItEdge.flattenInE, h, rebuild, hl, if_true, Bool.false_eq_true, if_false]
    exact ⟨_, _, rfl⟩

mutual
/-- lists and tuples among the values with named tuples -/
def plainL : List (Val α) → List (NVal α)
  | [] => []
  | v :: vs => plainE v :: plainL vs
/-- one value -/
def plainE : Val α → NVal α
  | .atom a => .atom a
  | .seq t es => .seq (if t then .tuple else .list) (plainL es)
end

private theorem plainL_append (xs ys : List (Val α)) : plainL (xs ++ ys) = plainL xs ++ plainL ys := by
  induction xs with
  | nil => rfl
  | cons v xs ih => simp only [List.cons_append, plainL, ih]

mutual
private theorem plain_flattenL (pred : Kind → List (NVal α) → Bool) (xs : List (Val α)) :
    ItEdge.flattenInL pred (plainL xs) = ⟨plainL (It.flattenInL (fun t es => pred (if t then .tuple else .list) (plainL es)) xs), none⟩ := by
  cases xs with
  | nil => rfl
  | cons v xs =>
    simp only [plainL, ItEdge.flattenInL, It.flattenInL, plain_flattenE pred v, plain_flattenL pred xs, plainL_append]
private theorem plain_flattenE (pred : Kind → List (NVal α) → Bool) (v : Val α) :
    ItEdge.flattenInE pred (plainE v) = ⟨plainL (It.flattenInE (fun t es => pred (if t then .tuple else .list) (plainL es)) v), none⟩ := by
  cases v with
  | atom a => rfl
  | seq t es =>
    have ih := plain_flattenL pred es
    simp only [plainE, ItEdge.flattenInE, It.flattenInE]
    by_cases h : pred (if t = true then Kind.tuple else Kind.list) (plainL es) = true
    · simp only [h, if_true, ih]
    · simp only [h, if_false, ih, Bool.false_eq_true]
      cases t <;> rfl
end

/-- C21: on lists and tuples, the model with named tuples is the one of `C21_flatten_in_partial`. -/
theorem C21_named_plain (pred : Kind → List (NVal α) → Bool) (xs : List (Val α)) :
    ItEdge.flattenInL pred (plainL xs) = ⟨plainL (It.flatten_in (fun t es => pred (if t then .tuple else .list) (plainL es)) xs), none⟩ :=
  plain_flattenL pred xs

example : ItEdge.flattenInL (fun _ _ => false) [.atom 1, .seq (.named "Point") [.atom 2, .atom (3 : Nat)], .atom 4] = ⟨[.atom 1], some .TypeError⟩ := rfl

/-- C68: `subset(part, whole)` for an iterator `whole`: true exactly if the items of `part` occur in `whole` in the same order, each at a place of
its own.  (So the answer "true" can be relied upon.  Missing: the answer "false", see `C68_subset_refuted`.) -/
theorem C68_subset_iterator_partial [DecidableEq α] (part whole : List α) :
    (subsetIter part whole = true ↔ part.Sublist whole) ∧ (subsetIter part whole = true → It.subset part whole = true) := by
  have key : ∀ (part whole : List α), subsetIter part whole = true ↔ part.Sublist whole := by
    intro part whole
    induction whole generalizing part with
    | nil =>
      cases part with
      | nil => simp [subsetIter]
      | cons x part => simp [subsetIter, inIter]
    | cons y whole ih =>
      cases part with
      | nil => simp [subsetIter]
      | cons x part =>
        by_cases h : y = x
        · subst h
          simp only [subsetIter, inIter, if_true, ih, List.cons_sublist_cons]
        · have e : subsetIter (x :: part) (y :: whole) = subsetIter (x :: part) whole := by simp only [subsetIter, inIter, if_neg h]
          rw [e, ih]
          constructor
          · intro hs; exact hs.cons _
          · intro hs
            cases hs with
            | cons _ hs => exact hs
            | cons_cons _ hs => exact absurd rfl h
  refine ⟨key part whole, fun h => ?_⟩
  have hs := (key part whole).mp h
  simp only [It.subset, List.all_eq_true, List.contains_iff_mem]
  exact fun x hx => hs.subset hx

/-- C68: refuted for iterators: whenever two different items come in the other order, `subset` denies what holds. -/
theorem C68_subset_refuted [DecidableEq α] (a b : α) (h : a ≠ b) :
    subsetIter [b, a] [a, b] = false ∧ It.subset [b, a] [a, b] = true ∧ subsetIter [a, a] [a, b] = false ∧ It.subset [a, a] [a, b] = true := by
  simp [subsetIter, inIter, It.subset, h, h.symm]

/-- C68, `iterate`: the items are the arguments packed, and then, as long as `f` returns `Values`, these; each is passed to `f` to get the next. -/
theorem C68_iterate (f : Vals α → Res (Ret α)) (x : Vals α) (y : Nat → Vals α) (i : Nat) (h0 : y 0 = x)
    (h : ∀ j, j < i → f (y j) = .ok (.values (y (j + 1)))) : iterate f x i = .ok (y i) := by
  induction i generalizing x y with
  | zero => simp [iterate, h0]
  | succ i ih =>
    have e := h 0 (by omega)
    rw [h0] at e
    simp only [iterate, e]
    exact ih (y 1) (fun j => y (j + 1)) rfl (fun j hj => h (j + 1) (by omega))

/-- C68, `iterate`: when `f` returns something else, the next item is a TypeError, and if `f` raises, that exception (RuntimeError for
StopIteration); after that the generator is at its end. -/
theorem C68_iterate_ends (f : Vals α → Res (Ret α)) (x : Vals α) (y : Nat → Vals α) (i : Nat) (h0 : y 0 = x)
    (h : ∀ j, j < i → f (y j) = .ok (.values (y (j + 1)))) :
    (∀ a, f (y i) = .ok (.other a) → iterate f x (i + 1) = .error .TypeError) ∧
    (∀ e, f (y i) = .error e → iterate f x (i + 1) = .error (if e = .StopIteration then .RuntimeError else e)) ∧
    ((∀ v, f (y i) ≠ .ok (.values v)) → ∀ k, iterate f x (i + 2 + k) = .error .StopIteration) := by
  induction i generalizing x y with
  | zero =>
    rw [h0]
    refine ⟨fun a e => by simp [iterate, e], fun e he => ?_, fun hn k => ?_⟩
    · simp only [iterate, he, if_true]
      cases e <;> rfl
    · rw [show 0 + 2 + k = (k + 1) + 1 from by omega, iterate]
      rcases hf : f x with e | r
      · simp
      · cases r with
        | values v => exact absurd hf (hn v)
        | other a => simp
  | succ i ih =>
    have e := h 0 (by omega)
    rw [h0] at e
    obtain ⟨a1, a2, a3⟩ := ih (y 1) (fun j => y (j + 1)) rfl (fun j hj => h (j + 1) (by omega))
    refine ⟨fun a ha => ?_, fun x' hx => ?_, fun hn k => ?_⟩
    · rw [iterate]; simp only [e]; exact a1 a ha
    · rw [iterate]; simp only [e]; exact a2 x' hx
    · rw [show i + 1 + 2 + k = (i + 2 + k) + 1 from by omega, iterate]; simp only [e]; exact a3 hn k

/-- Fibonacci numbers, until the second is 8 -/
example :
    let f : Vals Nat → Res (Ret Nat) := fun v => match v.rets with
      | [a, b] => if b = 8 then .ok (.other 0) else .ok (.values ⟨[b, a + b], []⟩)
      | _ => .error .TypeError
    (List.range 7).map (iterate f ⟨[1, 1], []⟩) =
      [.ok ⟨[1, 1], []⟩, .ok ⟨[1, 2], []⟩, .ok ⟨[2, 3], []⟩, .ok ⟨[3, 5], []⟩, .ok ⟨[5, 8], []⟩, .error .TypeError, .error .StopIteration] := by
  decide

end Unpy.Props
