import Verif.Model.Py
/-!
# Model of the lazy parts of `unpythonic/it.py`: `partition`, `inn`, `within` on infinite inputs
-/
namespace Unpy.ItLazy
universe u
variable {α : Type u}

/-! ## partition (it.py:588-612) -/

/-- `t1, t2 = tee(iterable)`: what is left in the source, and the items already pulled from the
source that the false-side (`t1`) resp. the true-side (`t2`) has not yet seen. -/
structure Tee (α : Type u) where
  src : List α
  bufF : List α
  bufT : List α

/-- The buffer of one side. -/
def Tee.buf (side : Bool) (st : Tee α) : List α := if side then st.bufT else st.bufF

/-- `next` on one of the two tee'd iterators (itertools.tee semantics): from its own buffer, else
from the source, in which case the other side's buffer gets a copy. -/
def teeNext (side : Bool) (st : Tee α) : Option (α × Tee α) :=
  match side, st with
  | false, ⟨src, x :: b, bt⟩ => some (x, ⟨src, b, bt⟩)
  | false, ⟨x :: src, [], bt⟩ => some (x, ⟨src, [], bt ++ [x]⟩)
  | false, ⟨[], [], _⟩ => none
  | true, ⟨src, bf, x :: b⟩ => some (x, ⟨src, bf, b⟩)
  | true, ⟨x :: src, bf, []⟩ => some (x, ⟨src, bf ++ [x], []⟩)
  | true, ⟨[], _, []⟩ => none

theorem teeNext_lt {side : Bool} {st : Tee α} {x st'} (h : teeNext side st = some (x, st')) :
    (st'.buf side).length + st'.src.length < (st.buf side).length + st.src.length := by
  obtain ⟨src, bf, bt⟩ := st
  cases side <;> cases src <;> cases bf <;> cases bt <;> simp [teeNext] at h <;>
    obtain ⟨rfl, rfl⟩ := h <;> simp [Tee.buf]

/-- `next` on `filterfalse(pred, t1)` (`side = false`) or `filter(pred, t2)` (`side = true`)
(it.py:612). -/
def partNext (pred : α → Bool) (side : Bool) (st : Tee α) : Option α × Tee α :=
  match h : teeNext side st with
  | none => (none, st)
  | some (x, st') => if pred x = side then (some x, st') else partNext pred side st'
  termination_by (st.buf side).length + st.src.length
  decreasing_by exact teeNext_lt h

/-- A consumer calling `next` on the two outputs of `partition(pred, xs)` in any order. -/
def partRun (pred : α → Bool) : List Bool → Tee α → List (Option α)
  | [], _ => []
  | side :: ops, st => let r := partNext pred side st; r.1 :: partRun pred ops r.2

/-- `partition` (it.py:588-612). -/
def partition (_pred : α → Bool) (xs : List α) : Tee α := ⟨xs, [], []⟩

/-! ## inn (it.py:614-679)

The input is a function from the number of the `next` call to its outcome (`none` = StopIteration).
`fuel` counts loop iterations; the outcome `none` means that the loop has not ended yet. -/

/-- `while yj == y0: yj = next(it)` (it.py:669-673): `some none` = the input ended (`return False`). -/
def innSkip (src : Nat → Option Int) (y0 : Int) : Nat → Nat → Option (Option (Int × Nat))
  | 0, _ => none
  | fuel + 1, i =>
    match src i with
    | none => some none
    | some y => if y = y0 then innSkip src y0 fuel (i + 1) else some (some (y, i + 1))

/-- `x in takewhile(pred, it)` (it.py:678-679). -/
def innSearch (src : Nat → Option Int) (pred : Int → Bool) (x : Int) : Nat → Nat → Option Bool
  | 0, _ => none
  | fuel + 1, i =>
    match src i with
    | none => some false
    | some e => if pred e then (if e = x then some true else innSearch src pred x fuel (i + 1))
                else some false

/-- `inn` (it.py:614-679), on ints. -/
def inn (fuel : Nat) (x : Int) (src : Nat → Option Int) : Option Bool :=
  match src 0 with
  | none => some false
  | some y0 =>
    if y0 = x then some true else
    match innSkip src y0 fuel 1 with
    | none => none
    | some none => some false
    | some (some (yj, i)) =>
      if yj = x then some true else
      let d := yj - y0
      let pred : Int → Bool := if d > 0 then (fun elt => decide (elt ≤ x)) else (fun elt => decide (elt ≥ x))
      innSearch src pred x fuel i

end Unpy.ItLazy
