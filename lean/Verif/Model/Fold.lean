import Verif.Model.It
/-!
# Model of `unpythonic/fold.py`

All Python values live in one type `V`.  A user function is `proc : List V → Except ε V`: it receives
the tuple of its positional arguments and returns or raises.  A finite generator is the list of the
items it yields followed by a normal end or an exception (`GenE`).  Simplification: the input iterables
themselves do not raise while being iterated; the laziness of the input is covered by a separate prefix
theorem.  A user function does not raise StopIteration, which a generator would replace by RuntimeError; and no named
state of `unfold` is called `proc` or `self`, which are parameters of `unfold` and of `Values`.
-/
namespace Unpy.Fold
open Unpy.It
universe u w
variable {V : Type u} {ε : Type w}

/-- A finite generator run to its end, with user-defined exceptions. -/
structure GenE (ε : Type w) (V : Type u) where
  items : List V
  exc : Option ε := none
  deriving DecidableEq, Repr

/-- `z = zip if not longest else partial(zip_longest, fillvalue=fillvalue)` (fold.py:65, 103) applied
to the inputs. -/
def zipRows (longest : Bool) (fill : V) (its : List (List V)) : List (List V) :=
  if longest then pyzipLongest fill its else pyzip its

/-- `acc = init; yield acc; for xs in ...: acc = proc(*(xs + (acc,))); yield acc`
(fold.py:66-70, 124-128). -/
def scanLoop (proc : List V → Except ε V) (acc : V) : List (List V) → GenE ε V
  | [] => ⟨[acc], none⟩
  | xs :: rest =>
    match proc (xs ++ [acc]) with
    | .error e => ⟨[acc], some e⟩
    | .ok acc' => let r := scanLoop proc acc' rest; ⟨acc :: r.items, r.exc⟩

/-- `scanl` (fold.py:32-70). -/
def scanl (proc : List V → Except ε V) (init : V) (it0 : List V) (its : List (List V))
    (longest : Bool) (fill : V) : GenE ε V :=
  scanLoop proc init (zipRows longest fill (it0 :: its))

/-- The `init` argument of `scanr`: a value, or the sentinel `_uselast` (fold.py:189), which only
`scanr1` passes. -/
inductive Init (V : Type u) where
  | value (v : V)
  | uselast

/-- `scanr` (fold.py:72-128) for an ordinary `init`. -/
def scanr (proc : List V → Except ε V) (init : V) (it0 : List V) (its : List (List V))
    (longest : Bool) (fill : V) : GenE ε V :=
  scanLoop proc init (rev (zipRows longest fill (it0 :: its)))

/-- `scanr` (fold.py:72-128) as called by `scanr1`: one input, `init` possibly `_uselast`; in that case
`init = next(xss)[0]`, and an empty input ends the generator (fold.py:105-109).  The rows of one input
are 1-tuples, so `[0]` never fails; the unreachable branch is modelled as an empty row being skipped. -/
def scanrOne (proc : List V → Except ε V) (init : Init V) (it0 : List V) : GenE ε V :=
  let xss := rev (pyzip [it0])
  match init with
  | .value v => scanLoop proc v xss
  | .uselast =>
    match xss with
    | [] => ⟨[], none⟩
    | row :: rest =>
      match row with
      | x :: _ => scanLoop proc x rest
      | [] => ⟨[], none⟩

/-- `scanl1` (fold.py:163-187); `init = none` is Python's `init=None`. -/
def scanl1 (proc : List V → Except ε V) (it : List V) (init : Option V) : GenE ε V :=
  match init with
  | some v => scanLoop proc v (pyzip [it])
  | none =>
    match it with
    | [] => ⟨[], none⟩
    | x :: rest => scanLoop proc x (pyzip [rest])

/-- `scanr1` (fold.py:190-195). -/
def scanr1 (proc : List V → Except ε V) (it : List V) (init : Option V) : GenE ε V :=
  scanrOne proc (match init with | none => .uselast | some v => .value v) it

/-- `last(gen)` (it.py:441-449) on a generator that may raise: draining it into the deque propagates the
exception; the default for an empty generator is `None`. -/
def lastG (g : GenE ε V) : Except ε (Option V) :=
  match g.exc with
  | some e => .error e
  | none => .ok (dequeOf 1 g.items).getLast?

/-- `foldl` (fold.py:197-211). -/
def foldl (proc : List V → Except ε V) (init : V) (it0 : List V) (its : List (List V))
    (longest : Bool) (fill : V) : Except ε (Option V) :=
  lastG (scanl proc init it0 its longest fill)

/-- `foldr` (fold.py:214-219). -/
def foldr (proc : List V → Except ε V) (init : V) (it0 : List V) (its : List (List V))
    (longest : Bool) (fill : V) : Except ε (Option V) :=
  lastG (scanr proc init it0 its longest fill)

/-- `reducel` (fold.py:221-227). -/
def reducel (proc : List V → Except ε V) (it : List V) (init : Option V) : Except ε (Option V) :=
  lastG (scanl1 proc it init)

/-- `reducer` (fold.py:228-236). -/
def reducer (proc : List V → Except ε V) (it : List V) (init : Option V) : Except ε (Option V) :=
  lastG (scanr1 proc it init)

/-- `rscanl` (fold.py:238-247). -/
def rscanl (proc : List V → Except ε V) (init : V) (it0 : List V) (its : List (List V))
    (longest : Bool) (fill : V) : GenE ε V :=
  scanl proc init (rev it0) (its.map rev) longest fill

/-- `rscanl1` (fold.py:249-251). -/
def rscanl1 (proc : List V → Except ε V) (it : List V) (init : Option V) : GenE ε V :=
  scanl1 proc (rev it) init

/-- `rfoldl` (fold.py:253-262). -/
def rfoldl (proc : List V → Except ε V) (init : V) (it0 : List V) (its : List (List V))
    (longest : Bool) (fill : V) : Except ε (Option V) :=
  foldl proc init (rev it0) (its.map rev) longest fill

/-- `rreducel` (fold.py:264-266). -/
def rreducel (proc : List V → Except ε V) (it : List V) (init : Option V) : Except ε (Option V) :=
  reducel proc (rev it) init

/-- `operator.mul(a, b)` as used by `prod`: receives `(elt, acc)`. -/
def mulProc : List Int → Except ε Int
  | [x, acc] => .ok (x * acc)
  | _ => .ok 0  -- unreachable: `prod` has one input

/-- `prod` (fold.py:362-367) on integers. -/
def prod (it : List Int) (start : Int) : Except Empty (Option Int) :=
  reducel mulProc it (some start)

/-! ## unfold -/

/-- What one call of `next()` on a generator does. -/
inductive Out (ε : Type w) (V : Type u) where
  | item (v : V)
  | stop
  | raised (e : ε)
  deriving DecidableEq, Repr

/-- What the user function of `unfold1` can do: return `None`, return something iterable (a tuple),
return something not iterable, or raise. -/
inductive Ret1 (ε : Type w) (V : Type u) where
  | none
  | seq (vs : List V)
  | scalar (v : V)
  | raise (e : ε)

/-- Errors seen by the consumer: those of Python itself, and those of the user function. -/
inductive Err (ε : Type w) where
  | py (e : PyErr)
  | user (e : ε)
  deriving DecidableEq, Repr

/-- One `next()` of the generator `unfold1(proc, ·)` (fold.py:291-299); the generator's local state is
`some state` while it runs and `none` once it has returned or raised. -/
def unfold1Next (proc : V → Ret1 ε V) : Option V → Out (Err ε) V × Option V
  | none => (.stop, none)
  | some state =>
    match proc state with
    | .raise e => (.raised (.user e), none)
    | .none => (.stop, none)
    | .seq vs =>
      match vs with
      | [value, state'] => (.item value, some state')
      | _ => (.raised (.py .ValueError), none)   -- wrong number of values to unpack
    | .scalar _ => (.raised (.py .TypeError), none)  -- cannot unpack non-iterable

/-- The results of the first `n` calls of `next()` on `unfold1(proc, init)`. -/
def unfold1 (proc : V → Ret1 ε V) (init : V) (n : Nat) : List (Out (Err ε) V) :=
  let rec go : Nat → Option V → List (Out (Err ε) V)
    | 0, _ => []
    | n + 1, st => let r := unfold1Next proc st; r.1 :: go n r.2
  go n (some init)

/-- A `Values` object: positional and named return values (funutil.py:200-389). -/
structure Vals (V : Type u) where
  rets : List V
  kwrets : List (String × V)

/-- What the user function of `unfold` can do. -/
inductive RetN (ε : Type w) (V : Type u) where
  | none
  | values (v : Vals V)
  | other (v : V)
  | raise (e : ε)

/-- One `next()` of the generator `unfold(proc, ...)` (fold.py:320-329). -/
def unfoldNext (proc : List V → List (String × V) → RetN ε V) :
    Option (Vals V) → Out (Err ε) V × Option (Vals V)
  | none => (.stop, none)
  | some state =>
    match proc state.rets state.kwrets with
    | .raise e => (.raised (.user e), none)
    | .none => (.stop, none)
    | .other _ => (.raised (.py .TypeError), none)
    | .values r =>
      match r.rets with
      | value :: rets => (.item value, some ⟨rets, r.kwrets⟩)
      | [] => (.raised (.py .ValueError), none)    -- not enough values to unpack

/-- The results of the first `n` calls of `next()` on `unfold(proc, *inits, **kwinits)`. -/
def unfold (proc : List V → List (String × V) → RetN ε V) (inits : List V)
    (kwinits : List (String × V)) (n : Nat) : List (Out (Err ε) V) :=
  let rec go : Nat → Option (Vals V) → List (Out (Err ε) V)
    | 0, _ => []
    | n + 1, st => let r := unfoldNext proc st; r.1 :: go n r.2
  go n (some ⟨inits, kwinits⟩)

/-! ## minmax -/

/-- The inner function `mm` of `running_minmax` (fold.py:388-394). `lt a b` models `a < b`, and `a > b`
is `lt b a`. -/
def mm (lt : V → V → Bool) (elt : V) (acc : V × V) : V × V :=
  let a := if lt elt acc.1 then elt else acc.1
  let b := if lt acc.2 elt then elt else acc.2
  (a, b)

/-- `running_minmax` (fold.py:369-396): `scanl(mm, (first, first), it)`. -/
def running_minmax (lt : V → V → Bool) : List V → List (V × V)
  | [] => []
  | first :: rest =>
    let rec go (acc : V × V) : List V → List (V × V)
      | [] => [acc]
      | x :: xs => acc :: go (mm lt x acc) xs
    go (first, first) rest

/-- `minmax` (fold.py:398-409); `none` models the default `(None, None)`. -/
def minmax (lt : V → V → Bool) (xs : List V) : Option (V × V) :=
  (dequeOf 1 (running_minmax lt xs)).getLast?

end Unpy.Fold
