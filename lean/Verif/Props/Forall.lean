import Verif.Proof.Forall
/-!
# The `forall` macro (C105)
-/
namespace Unpy.Props
open Unpy Unpy.Amb Unpy.Forall Unpy.Spec.Forall Unpy.Eff Unpy.Forall.Lemmas
open Unpy.Fold (Err)
variable {σ ε α : Type}

/-- C105: `forall[...]` does what the nested loops do: the same effects in the same order, and the same results or the same exception.  Names
of lines may be repeated, and hide variables from outside.  Partial: nothing is said if a line other than the first raises TypeError
(`C105_typeerror_refuted`) or if a line has just the one item `nil` (`C105_nil_refuted`); the lines do not use a variable called `_ignored`
(`C105_ignored_refuted`). -/
theorem C105_loops_partial (lines : List (Line σ ε α)) (hne : lines ≠ []) (vars : Vars α) (s : σ)
    (hign : ∀ l ∈ lines, Unaware "_ignored" l) (hok : (loops true false vars lines s).1 ≠ .error none) :
    asOut (forallMacro lines vars s) = loops false false vars lines s := by
  have hb : ∀ l ∈ lines, Blind l := fun l hl x vars => hign l hl _ _ fun j hj => by simp [bound, hj]
  rw [loops_plain _ _ _ _ hok]
  have key := eval_loops lines hb hne false vars s
  unfold forallMacro
  rw [build_none _ hne]
  rcases hl : loops true false vars lines s with ⟨r, t⟩
  rw [hl] at key hok
  cases r with
  | error e =>
    cases e with
    | none => exact absurd rfl hok
    | some e => show asOut (eval vars (whole lines) s) = _; rw [key.1]; rfl
  | ok ys => show asOut (eval vars (whole lines) s) = _; rw [key.1]; rfl

/-- Log a number, then go on. -/
private def tell (n : Nat) (v : Except (Err Empty) (Obj Nat)) : Eff (List Nat) (Err Empty) (Obj Nat) := fun s => (v, n :: s)

/-- The number in a variable. -/
private def num (k : String) (vars : Vars Nat) : Nat := match vars k with
  | some (.atom n) => n
  | _ => 0

/-- `x << [1, 2, 3], y << [x, 10], insist(x != 2), x << y + 1, (x, y)`; each line logs its number, or 10 times it plus `x`. -/
private def lines0 : List (Line (List Nat) Empty Nat) :=
  [⟨some "x", fun _ => tell 1 (.ok (.iter [.atom 1, .atom 2, .atom 3]))⟩,
   ⟨some "y", fun e => tell (20 + num "x" e) (.ok (.iter [.atom (num "x" e), .atom 10]))⟩,
   ⟨none, fun e => tell 3 (.ok (.ml (Amb.guard 1 (num "x" e != 2))))⟩,
   ⟨some "x", fun e => tell 4 (.ok (.atom (num "y" e + 1)))⟩,
   ⟨none, fun e => tell 5 (.ok (.iter [.atom (num "x" e), .atom (num "y" e)]))⟩]

private theorem num_unaware {vars vars' : Vars Nat} (h : ∀ j, j ≠ "_ignored" → vars j = vars' j) {k : String} (hk : k ≠ "_ignored") :
    num k vars = num k vars' := by unfold num; rw [h k hk]

/-- Beside `C105_loops_partial`: its hypotheses hold here. -/
example : lines0 ≠ [] ∧ (∀ l ∈ lines0, Unaware "_ignored" l) ∧ (loops true false (fun _ => none) lines0 []).1 ≠ .error none := by
  refine ⟨by simp [lines0], ?_, by simp [lines0, loops, tell, each, range, result, onlyNil, num, seen, Amb.guard, mk, Obj.isNil]⟩
  intro l hl vars vars' h
  simp only [lines0, List.mem_cons, List.not_mem_nil, or_false] at hl
  have hx := num_unaware h (k := "x") (by decide)
  have hy := num_unaware h (k := "y") (by decide)
  rcases hl with rfl | rfl | rfl | rfl | rfl
  all_goals simp only [hx, hy]

/-- The results, and the log. -/
example : forallMacro lines0 (fun _ => none) [] = (.ok [.iter [.atom 2, .atom 1], .iter [.atom 11, .atom 10], .iter [.atom 4, .atom 3],
    .iter [.atom 11, .atom 10]], [5, 4, 3, 5, 4, 3, 23, 3, 3, 22, 5, 4, 3, 5, 4, 3, 21, 1]) := rfl

/-- `x << [1, 0], 1 / x`: the exception comes after the effects of the first item. -/
example : forallMacro [⟨some "x", fun _ => tell 1 (.ok (.iter [.atom 1, .atom 0]))⟩,
      ⟨none, fun e => tell 2 (if num "x" e = 0 then .error (.py .ZeroDivisionError) else .ok (.atom 1))⟩] (fun _ => none) [] =
    (.error (.py .ZeroDivisionError), [2, 2, 1]) := rfl

/-- A variable from outside, a tuple as the only result, and a TypeError of the first line. -/
example : forallMacro [⟨none, fun e => tell 1 (.ok (.iter [.atom (num "x" e), .atom 2]))⟩] (fun k => if k = "x" then some (.atom 7) else none) []
    = (.ok [.iter [.atom 7, .atom 2]], [1]) := rfl

example : forallMacro [⟨some "x", fun _ => tell 1 (.error (.py .TypeError))⟩, ⟨none, fun _ => tell 2 (.ok (.atom 1))⟩] (fun _ => none) [] =
    (.error (.py .TypeError), [1]) := rfl

/-- C105: a TypeError in a line other than the first is lost, and so are all results of the loop: `forall[x << [1, 2], 1 + "a" if x == 2 else x]` is
an empty tuple. -/
theorem C105_typeerror_refuted : ∃ lines : List (Line (List Nat) Empty Nat), lines ≠ [] ∧ (∀ l ∈ lines, Unaware "_ignored" l) ∧
    loops false false (fun _ => none) lines [] = (.error (some (.py .TypeError)), []) ∧
    forallMacro lines (fun _ => none) [] = (.ok [], []) := by
  refine ⟨[⟨some "x", fun _ => ret (.iter [.atom 1, .atom 2])⟩,
    ⟨none, fun e => if num "x" e = 2 then raise (.py .TypeError) else ret (.atom (num "x" e))⟩], by simp, ?_, rfl, rfl⟩
  intro l hl vars vars' h
  simp only [List.mem_cons, List.not_mem_nil, or_false] at hl
  rcases hl with rfl | rfl
  · rfl
  · simp only [num_unaware h (k := "x") (by decide)]

/-- C105: a `nil` of `llist` as the result is lost: `forall[x << [1, 2], nil]` is an empty tuple; and `forall[x << [nil], 1]` too. -/
theorem C105_nil_refuted :
    (∃ lines : List (Line (List Nat) Empty Nat), lines ≠ [] ∧ (∀ l ∈ lines, Unaware "_ignored" l) ∧
      loops false false (fun _ => none) lines [] = (.ok [.nil, .nil], []) ∧ forallMacro lines (fun _ => none) [] = (.ok [], [])) ∧
    ∃ lines : List (Line (List Nat) Empty Nat), lines ≠ [] ∧ (∀ l ∈ lines, Unaware "_ignored" l) ∧
      loops false false (fun _ => none) lines [] = (.ok [.atom 1], []) ∧ forallMacro lines (fun _ => none) [] = (.ok [], []) := by
  refine ⟨⟨[⟨some "x", fun _ => ret (.iter [.atom 1, .atom 2])⟩, ⟨none, fun _ => ret .nil⟩], by simp, ?_, rfl, rfl⟩,
    ⟨[⟨some "x", fun _ => ret (.iter [.nil])⟩, ⟨none, fun _ => ret (.atom 1)⟩], by simp, ?_, rfl, rfl⟩⟩
  all_goals
    intro l hl vars vars' h
    simp only [List.mem_cons, List.not_mem_nil, or_false] at hl
    rcases hl with rfl | rfl <;> rfl

/-- C105: a variable called `_ignored` is hidden by any line without a name: with `_ignored = 7` outside, `forall[insist(True), _ignored]` is `(True,)`
(`True` is 1 here). -/
theorem C105_ignored_refuted : ∃ (lines : List (Line (List Nat) Empty Nat)) (vars : Vars Nat), lines ≠ [] ∧
    (loops true false vars lines []).1 ≠ .error none ∧ loops false false vars lines [] = (.ok [.atom 7], []) ∧
    forallMacro lines vars [] = (.ok [.atom 1], []) := by
  refine ⟨[⟨none, fun _ => ret (.ml (Amb.guard 1 true))⟩, ⟨none, fun e => ret ((e "_ignored").getD .nil)⟩],
    fun k => if k = "_ignored" then some (.atom 7) else none, by simp, ?_, rfl, rfl⟩
  show Except.ok _ ≠ _
  nofun

end Unpy.Props
