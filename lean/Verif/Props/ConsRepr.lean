import Verif.Model.ConsRepr
import Verif.Spec.ConsRepr
/-! # C119: representations of cons cells and linked lists -/
namespace Unpy.Props
open Unpy.LList Unpy.Spec.ConsRepr
universe u
variable {α : Type u}

private theorem intercalate_two (s a b : String) : s.intercalate [a, b] = a ++ s ++ b := by
  rfl

private theorem intercalate_three (s a b c : String) : s.intercalate [a, b, c] = a ++ s ++ b ++ s ++ c := by
  rfl

private theorem repr_both (r : α → String) (v : Obj α) :
    (∃ e : Py α, (pyrepr r v).1 = text r e ∧ value e = v) ∧
    ∀ l, (reprs r v).1 = some l → ∃ es : List (Py α), l = texts r es ∧ listOf es = v := by
  induction v with
  | atom a => exact ⟨⟨.atom a, rfl, rfl⟩, fun l h => by simp [reprs] at h⟩
  | nil => exact ⟨⟨.nil, rfl, rfl⟩, fun l h => ⟨[], by simpa [reprs, texts, eq_comm] using h, rfl⟩⟩
  | cons a d iha ihd =>
    obtain ⟨e, he, hv⟩ := iha.1
    constructor
    · cases hy : (reprs r d).1 with
      | some l =>
        obtain ⟨es, hl, hw⟩ := ihd.2 l hy
        exact ⟨.ll (e :: es), by simp [pyrepr, hy, he, hl, text, texts], by simp [value, listOf, hv, hw]⟩
      | none =>
        obtain ⟨e', he', hv'⟩ := ihd.1
        exact ⟨.cons e e', by simp [pyrepr, hy, he, he', text, intercalate_two, String.append_assoc], by simp [value, hv, hv']⟩
    · intro l h
      simp only [reprs] at h
      cases hy : (reprs r d).1 with
      | none => simp [hy] at h
      | some l' =>
        obtain ⟨es, hl, hw⟩ := ihd.2 l' hy
        simp [hy] at h
        exact ⟨e :: es, by simp [← h, he, hl, texts], by simp [listOf, hv, hw]⟩

/-- C119: the representation of any structure of cons cells is the text of a Python expression, made of `ll(...)`, `cons(...)`, `nil` and the representations of the atoms, that evaluates to this structure. -/
theorem C119_repr (r : α → String) (v : Obj α) : ∃ e : Py α, (pyrepr r v).1 = text r e ∧ value e = v := (repr_both r v).1

private theorem reprs_none (r : α → String) (v : Obj α) : (reprs r v).1 = none ↔ ¬ ListOf (fun _ => True) v := by
  induction v with
  | atom a => simp [reprs, ListOf]
  | nil => simp [reprs, ListOf]
  | cons a d _ ihd => simp [reprs, ListOf, ihd]

/-- C119: linked lists are represented as calls of `ll`, all other cells as calls of `cons`. -/
theorem C119_form (r : α → String) (a d : Obj α) :
    (ListOf (fun _ => True) d → ∃ es : List (Py α), (pyrepr r (.cons a d)).1 = text r (.ll es) ∧ listOf es = .cons a d) ∧
    (¬ ListOf (fun _ => True) d → ∃ e e' : Py α, (pyrepr r (.cons a d)).1 = text r (.cons e e') ∧ value e = a ∧ value e' = d) := by
  obtain ⟨e, he, hv⟩ := (repr_both r a).1
  constructor
  · intro h
    cases hy : (reprs r d).1 with
    | none => exact absurd h ((reprs_none r d).1 hy)
    | some l =>
      obtain ⟨es, hl, hw⟩ := (repr_both r d).2 l hy
      exact ⟨e :: es, by simp [pyrepr, hy, he, hl, text, texts], by simp [listOf, hv, hw]⟩
  · intro h
    obtain ⟨e', he', hv'⟩ := (repr_both r d).1
    exact ⟨e, e', by simp [pyrepr, (reprs_none r d).2 h, he, he', text, intercalate_two, String.append_assoc], hv, hv'⟩

private theorem flat_data (r : α → String) (v : Obj α) (h : ListOf (fun x => ¬ x.isCons) v) :
    ∃ ds : List (Datum α), (reprs r v).1 = some (writtens r ds) ∧ data ds = v := by
  induction v with
  | atom a => exact absurd h (by simp [ListOf])
  | nil => exact ⟨[], rfl, rfl⟩
  | cons a d _ ihd =>
    obtain ⟨ds, h1, h2⟩ := ihd h.2
    have ha : ∃ x : Datum α, (pyrepr r a).1 = written r x ∧ datum x = a := by
      cases a with
      | atom a => exact ⟨.atom a, rfl, rfl⟩
      | nil => exact ⟨.nil, rfl, rfl⟩
      | cons _ _ => exact absurd rfl h.1
    obtain ⟨x, hx, hx'⟩ := ha
    exact ⟨x :: ds, by simp [reprs, h1, hx, writtens], by simp [data, hx', h2]⟩

/-- C119: `lispyrepr` gives the structure in dot notation, if no linked list in it has an element that is made of cells.  Missing: such elements, `C119_nested_refuted`. -/
theorem C119_lispy_partial (r : α → String) (v : Obj α) (h : Plain v) : ∃ x : Datum α, (lispyrepr r v).1 = written r x ∧ datum x = v := by
  induction v with
  | atom a => exact ⟨.atom a, rfl, rfl⟩
  | nil => exact ⟨.nil, rfl, rfl⟩
  | cons a d iha ihd =>
    rcases h with h | ⟨h, ha, hd⟩
    · obtain ⟨ds, h1, h2⟩ := flat_data r (.cons a d) h
      cases ds with
      | nil => simp [data] at h2
      | cons x ds =>
        simp only [data, Obj.cons.injEq] at h2
        exact ⟨.list x ds, by simp [lispyrepr, h1, written, writtens], by simp [datum, h2.1, h2.2]⟩
    · obtain ⟨x, hx, hx'⟩ := iha ha
      obtain ⟨y, hy, hy'⟩ := ihd hd
      have hn : (reprs r (.cons a d)).1 = none := by rw [reprs_none]; simp [ListOf, h]
      refine ⟨.pair x y, ?_, by simp [datum, hx', hy']⟩
      simp only [lispyrepr, hn, hx, hy, intercalate_three, written, String.append_assoc]
      rfl

/-- C119 is violated: a linked list in a linked list is not written in dot notation by `lispyrepr`: `ll(ll(1, 2), 3)` gives `(ll(1, 2) 3)`. -/
theorem C119_nested_refuted : (lispyrepr toString (Obj.cons (.cons (.atom 1) (.cons (.atom 2) .nil)) (.cons (.atom (3 : Nat)) .nil))).1 = "(ll(1, 2) 3)" ∧
    written toString (.list (.list (.atom 1) [.atom 2]) [.atom (3 : Nat)]) = "((1 2) 3)" ∧
    datum (.list (.list (.atom 1) [.atom 2]) [.atom (3 : Nat)]) = Obj.cons (.cons (.atom 1) (.cons (.atom 2) .nil)) (.cons (.atom (3 : Nat)) .nil) := by
  refine ⟨by decide +kernel, by decide +kernel, rfl⟩

private theorem lists_work (r : α → String) (v : Obj α) (h : Lists v) :
    (pyrepr r v).2 = atoms v ∧ (ListOf (fun _ => True) v → (reprs r v).2 = atoms v) := by
  induction v with
  | atom a => exact ⟨rfl, fun h => absurd h (by simp [ListOf])⟩
  | nil => exact ⟨rfl, fun _ => rfl⟩
  | cons a d iha ihd =>
    obtain ⟨h0, ha, hd⟩ := h
    have h1 := (iha ha).1
    have h2 := (ihd hd).2 h0
    constructor
    · cases hy : (reprs r d).1 with
      | none => exact absurd h0 ((reprs_none r d).1 hy)
      | some l => simp [pyrepr, hy, h1, h2, atoms]
    · intro _; simp [reprs, h1, h2, atoms]

/-- C119: if every cell is part of a linked list (of linked lists, and so on), then each atom is represented once.  Missing: other structures, `C119_work_refuted`. -/
theorem C119_work_partial (r : α → String) (v : Obj α) (h : Lists v) : (pyrepr r v).2 = atoms v := (lists_work r v h).1

/-- C119 is violated: the representation of `n` cells, each in the first place of the next, asks for that of its atoms more than `2**n` times (there are `n + 1`), whether by `repr` or by `lispyrepr`. -/
theorem C119_work_refuted (r : α → String) (a : α) (n : Nat) :
    atoms (leaning a n) = n + 1 ∧ 2 ^ n ≤ (pyrepr r (leaning a n)).2 ∧ 2 ^ n ≤ (lispyrepr r (leaning a n)).2 := by
  have h : ∀ n, 2 ^ n ≤ (pyrepr r (leaning a n)).2 := by
    intro n
    induction n with
    | zero => simp [leaning, pyrepr]
    | succ n ih => simp [leaning, pyrepr, reprs]; omega
  refine ⟨?_, h n, ?_⟩
  · induction n with
    | zero => rfl
    | succ n ih => simp [leaning, atoms, ih]
  · induction n with
    | zero => simp [leaning, lispyrepr, pyrepr]
    | succ n ih =>
      have := h n
      simp only [leaning, lispyrepr, reprs, Option.map_none, Nat.add_zero]
      omega

/-! ## Examples -/

example : (pyrepr toString (Obj.cons (.cons (.atom 1) (.atom 2)) (.cons .nil (.cons (.atom (3 : Nat)) .nil)))).1 = "ll(cons(1, 2), nil, 3)" := by decide +kernel
example : (lispyrepr toString (Obj.cons (.cons (.atom 1) (.atom 2)) (.cons (.atom 3) (.atom (4 : Nat))))).1 = "((1 . 2) . (3 . 4))" := by decide +kernel
example : Plain (Obj.cons (.cons (.atom 1) (.atom 2)) (.cons (.atom 3) (.atom (4 : Nat)))) := by simp [Plain, ListOf]
example : Plain (Obj.cons (.cons (.atom 1) (.cons (.atom 2) .nil)) (.atom (3 : Nat))) := by simp [Plain, ListOf, Obj.isCons]
example : Lists (Obj.cons (.cons (.atom 1) (.cons (.atom 2) .nil)) (.cons (.atom (3 : Nat)) .nil)) := by simp [Lists, ListOf]
example : (pyrepr toString (leaning (7 : Nat) 5)).2 = 63 := by decide +kernel

end Unpy.Props
