import Verif.Model.It
import Verif.Model.PySlice
/-!
# Model of `islice` (unpythonic/slicing.py:12-93) on a finite iterable

The iterable is the list of its items; the result is the list of items the returned iterator yields.
-/
namespace Unpy.ISlice
open Unpy Unpy.It
universe u
variable {α : Type u}

/-- The loop of `itertools.islice`, after the equivalent code in Python's documentation: `i` counts the items seen, `nexti` is the
position of the next item to yield. -/
def isliceLoop (stop : Option Nat) (step : Nat) : Nat → Nat → List α → List α
  | _, _, [] => []
  | i, nexti, x :: xs =>
    if stop.any (· ≤ nexti) then []
    else if i = nexti then x :: isliceLoop stop step (i + 1) (nexti + step) xs
    else isliceLoop stop step (i + 1) nexti xs

/-- `itertools.islice(xs, start, stop, step)` (imported as `islicef`, slicing.py:6): negative start or stop, or a step below 1, is a
ValueError. -/
def islicef (xs : List α) (start stop step : Option Int) : Res (List α) :=
  if start.any (· < 0) || stop.any (· < 0) || step.any (· < 1) then .error .ValueError
  else .ok (isliceLoop (stop.map Int.toNat) (step.getD 1).toNat 0 (start.getD 0).toNat xs)

/-- `x and x < 0` -/
def neg (x : Option Int) : Bool := x.any (· < 0)

/-- slicing.py:55-87, `islice(xs)[start:stop:step]`.  (In `butlastn` and `lastn` the counts are positive here, so they do not raise.
`not stop` is true for None and 0.) -/
def isliceSlice (xs : List α) (s : Slice) : Res (List α) :=
  if neg s.start && neg s.stop then
    islicef (butlastn (-(s.stop.getD 0)) (lastn (-(s.start.getD 0)) xs).items).items none none s.step
  else if neg s.start then
    let n := -(s.start.getD 0)
    if s.stop = none ∨ s.stop = some 0 then islicef (lastn n xs).items none s.stop s.step
    else
      let it := (lastn n xs).items
      let n_dropped := max 0 ((xs.length : Int) - n)   -- `cit.count` after forcing is the number of items
      let stop := s.stop.getD 0 - n_dropped
      if stop ≥ 0 then islicef it none (some stop) s.step else .error .AssertionError
  else if neg s.stop then islicef (butlastn (-(s.stop.getD 0)) xs).items s.start none s.step
  else islicef xs s.start s.stop s.step

/-- slicing.py:88-90, `islice(xs)[k]`; `none` is Python's None (it.py:415-421 `first` with the default `default`). -/
def isliceIndex (xs : List α) (k : Int) : Res (Option α) :=
  if k < 0 then .ok ((lastn (-k) xs).items.head?)
  else match islicef xs (some k) (some (k + 1)) none with
    | .ok l => .ok l.head?
    | .error e => .error e

end Unpy.ISlice
