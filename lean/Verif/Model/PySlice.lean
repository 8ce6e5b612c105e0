/-!
# Python's `range` and slices (language semantics)

The meaning of `range(a, b, s)`, of a slice object applied to a sequence of length `n`, and of `seq[s]`, as
documented in the Python language reference (builtin types, common sequence operations, notes 3-5).
These are Python's own semantics, not code of /repo; both the model and the specifications use them.
-/
namespace Unpy
universe u
variable {α : Type u}

/-- A slice object with integer or missing (`None`) fields. -/
structure Slice where
  start : Option Int := none
  stop : Option Int := none
  step : Option Int := none
  deriving DecidableEq, Repr

/-- The step of a slice; `None` means 1. -/
def Slice.by (s : Slice) : Int := s.step.getD 1

/-- `len(range(a, b, s))` -/
def rangeLen (a b s : Int) : Nat :=
  if s > 0 then ((b - a + s - 1) / s).toNat
  else if s < 0 then ((a - b + (-s) - 1) / (-s)).toNat
  else 0

/-- `range(a, b, s)`: the items `a + k*s` below `b` (above `b` for negative `s`) -/
def pyRange (a b s : Int) : List Int := (List.range (rangeLen a b s)).map (fun k : Nat => a + (k : Int) * s)

/-- Start position of a slice in a sequence of length `n`: a negative one counts from the end, and the
result is clamped; a missing one is the end from which the slice starts. -/
def Slice.startIn (s : Slice) (n : Nat) : Int :=
  match s.start with
  | none => if s.by < 0 then n - 1 else 0
  | some k =>
    let k := if k < 0 then k + n else k
    if s.by < 0 then (if k < 0 then -1 else if k ≥ n then n - 1 else k)
    else (if k < 0 then 0 else if k ≥ n then n else k)

/-- Stop position of a slice in a sequence of length `n`. -/
def Slice.stopIn (s : Slice) (n : Nat) : Int :=
  match s.stop with
  | none => if s.by < 0 then -1 else n
  | some k =>
    let k := if k < 0 then k + n else k
    if s.by < 0 then (if k < 0 then -1 else if k ≥ n then n - 1 else k)
    else (if k < 0 then 0 else if k ≥ n then n else k)

/-- The positions that the slice selects from a sequence of length `n`, in order.
(`slice(*s.indices(n))`; a zero step is a ValueError, checked by the callers.) -/
def Slice.indices (s : Slice) (n : Nat) : List Int := pyRange (s.startIn n) (s.stopIn n) s.by

/-- `seq[s]` -/
def pySlice (l : List α) (s : Slice) : List α := (s.indices l.length).filterMap (fun i => l[i.toNat]?)

/-- The position meant by index `i`, negative counting from the end. -/
def normIdx (i : Int) (n : Nat) : Int := if i < 0 then i + n else i

end Unpy
