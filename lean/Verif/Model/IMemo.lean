import Verif.Model.GMemo
/-!
# Model of `imemoize` and `fimemoize` (gmemo.py:158-236)

`imemoize(iterable)` is `gmemoize` of a generator function without parameters that does `yield from iterable`
(gmemo.py:187-190): every generator made by it reads the same iterator.
-/
namespace Unpy.GMemo
universe u v
variable {Out : Type v}

/-- How many items have been taken from the iterable by all generators made. -/
def St.taken {K : Type u} (st : St K Out) : Nat := (st.cells.map Cell.calls).sum

/-- One step of a program that uses `imemoize(iterable)`; `items n` is the outcome of the `n`-th `next` on the
iterable. -/
def istep (items : Nat → Out) (st : St Unit Out) (e : Event Unit) : St Unit Out :=
  step (fun _ _ _ => items st.taken) st e

def irun (items : Nat → Out) (evs : List (Event Unit)) : St Unit Out := evs.foldl (istep items) init

/-- `fimemoize(ifactory)` (gmemo.py:231-235): `gmemoize` of `yield from ifactory(*args, **kwargs)`; `ifactory k r n` is
the outcome of the `n`-th `next` on the iterable that the `r`-th call of `ifactory` returned, called with the arguments
`k`.  The factory returns a new iterable each time. -/
def firun {K : Type u} [DecidableEq K] (ifactory : K → Nat → Nat → Out) (evs : List (Event K)) : St K Out :=
  run ifactory evs

end Unpy.GMemo
