import Verif.Model.Eff
/-!
# Model of `unpythonic/tco.py`: `jump` and `trampolined`

Simplification: the lazy variant of the trampoline (tco.py:275-305) is the same code with promises forced
before each call, and is not modelled separately.  No argument is named `target`, which is a parameter of `jump` itself; nor `f`, which in the lazy
variant is a parameter of what makes the call (lazyutil.py:113).
-/
namespace Unpy.Tco
open Unpy.Eff
open Unpy.Fold (Err Vals)
variable {σ ε V : Type}

/-- What a Python value is, as far as the trampoline cares. -/
inductive View (σ ε V : Type) where
  /-- not callable -/
  | data
  /-- a function that is not decorated; called at some stack depth -/
  | func (body : Nat → Args V → Eff σ (Err ε) V)
  /-- the function made by `trampolined(entry)`; `entry` is its attribute `_entrypoint` -/
  | trampolined (entry : V)
  /-- a function that calls another one, made by a decorator that uses `functools.wraps` (such as `memoize`, fun.py:75, `curry`, fun.py:336,
  or `valuify`, funutil.py:398) from a function that has the attribute `_entrypoint`: `wraps` copies the attributes, so it has that
  attribute, too -/
  | wrapper (body : Nat → Args V → Eff σ (Err ε) V) (entry : V)
  /-- the object made by `jump(target, *args, **kwargs)` -/
  | jump (target : V) (args : Args V)

/-- A program: what each value is. -/
abbrev Prog (σ ε V : Type) := V → View σ ε V

/-- `callable(v)` -/
def callable (P : Prog σ ε V) (v : V) : Bool :=
  match P v with
  | .func _ => true
  | .trampolined _ => true
  | .wrapper _ _ => true
  | _ => false

/-- `target._entrypoint if hasattr(target, "_entrypoint") else target` in `_jump.__init__` (tco.py:167). -/
def strip (P : Prog σ ε V) (t : V) : V :=
  match P t with
  | .trampolined e => e
  | .wrapper _ e => e
  | _ => t

/-- The loop of `trampoline` (tco.py:245-261), running at stack depth `d`.  The first number bounds the rounds;
`none`: not finished yet. -/
def trampoline (P : Prog σ ε V) : Nat → Nat → V → Args V → σ → Option (Except (Err ε) V × σ)
  | 0, _, _, _, _ => none
  | n + 1, d, f, args, s =>
    let out : Option (Except (Err ε) V × σ) :=
      match P f with
      | .func body => some (body (d + 1) args s)
      | .trampolined e => trampoline P n (d + 1) e args s
      | .wrapper body _ => some (body (d + 1) args s)
      | _ => some (.ok f, s)
    match out with
    | none => none
    | some (.error e, s') => some (.error e, s')
    | some (.ok v, s') =>
      match P v with
      | .jump t a =>
        let f' := strip P t
        if !callable P f' then some (.error (.py .RuntimeError), s')
        else trampoline P n d f' a s'
      | _ => some (.ok v, s')

/-- Calling the function made by `trampolined(entry)` from stack depth `d` (tco.py:245-249, 269-272). -/
def callTrampolined (P : Prog σ ε V) (n d : Nat) (entry : V) (args : Args V) (s : σ) :
    Option (Except (Err ε) V × σ) := trampoline P n (d + 1) entry args s

/-- `trampolined(x)` where `x` is not callable, but the value to which a decorator such as `call_ec` has
already replaced the function: `return trampoline()` (tco.py:273-274). -/
def trampolinedValue (P : Prog σ ε V) (n d : Nat) (x : V) (s : σ) : Option (Except (Err ε) V × σ) :=
  trampoline P n (d + 1) x ⟨[], []⟩ s

end Unpy.Tco

/-! # Model of `unpythonic/gtco.py` -/
namespace Unpy.Gtco
open Unpy.Fold (Err)
variable {ε V G : Type}

/-- What a generator returns at its end: another generator, a trampolined one (`_TrampolinedGenerator`; its `g`
is a generator), some other iterable (its items, and an exception it may raise after them), or a value that is
not iterable (such as `None`). -/
inductive GRet (ε V G : Type) where
  | gen (g : G)
  | tramp (g : G)
  | iter (xs : List V) (exc : Option (Err ε))
  | other (v : V)

/-- What a generator in a given state does next. -/
inductive GOut (ε V G : Type) where
  | yield (v : V) (g : G)
  | ret (r : GRet ε V G)
  | raise (e : Err ε)

/-- How the generator made by `gtco` ends: it returns `None`, a value, or the iterable that it was
iterating, or it raises. -/
inductive End (ε V : Type) where
  | retNone
  | retVal (v : V)
  | retIter
  | raise (e : Err ε)
  deriving DecidableEq

/-- Where the code of `gtco` is: in `yield from generator` (gtco.py:24) or in the last batch (gtco.py:33). -/
inductive St (ε V G : Type) where
  | run (g : G)
  | final (xs : List V) (exc : Option (Err ε))

inductive Ev (ε V G : Type) where
  | emit (v : V) (st : St ε V G)
  | silent (st : St ε V G)
  | stop (e : End ε V)

/-- One step of `gtco` (gtco.py:23-35).  After a last batch that ends normally, the loop goes round again:
the old generator is exhausted and gives `None`, which is not iterable, so `None` is returned.  A TypeError from
the last batch is taken for "not iterable". -/
def step (next : G → GOut ε V G) : St ε V G → Ev ε V G
  | .run g =>
    match next g with
    | .yield v g' => .emit v (.run g')
    | .raise e => .stop (.raise e)
    | .ret (.gen g') => .silent (.run g')
    | .ret (.tramp g') => .silent (.run g')
    | .ret (.iter xs exc) => .silent (.final xs exc)
    | .ret (.other v) => .stop (.retVal v)
  | .final (x :: xs) exc => .emit x (.final xs exc)
  | .final [] none => .stop .retNone
  | .final [] (some (.py .TypeError)) => .stop .retIter
  | .final [] (some e) => .stop (.raise e)

/-- `n` steps: what was yielded, and the end if it was reached. -/
def runN (next : G → GOut ε V G) : Nat → St ε V G → List V × Option (End ε V)
  | 0, _ => ([], none)
  | n + 1, st =>
    match step next st with
    | .emit v st' => let r := runN next n st'; (v :: r.1, r.2)
    | .silent st' => runN next n st'
    | .stop e => ([], some e)

/-- `gtco(g)`, run for `n` steps. -/
def gtco (next : G → GOut ε V G) (n : Nat) (g : G) : List V × Option (End ε V) := runN next n (.run g)

/-! ## Iterating in pieces -/

/-- Take `k` items from the generator made by `gtco`, in state `st`, within `n` steps: the items, and the state of the generator after that.
(`none`: it has ended, or has not got there yet.) -/
def takeN (next : G → GOut ε V G) : Nat → Nat → St ε V G → List V × Option (St ε V G)
  | _, 0, st => ([], some st)
  | 0, _ + 1, _ => ([], none)
  | n + 1, k + 1, st =>
    match step next st with
    | .emit v st' => let r := takeN next n k st'; (v :: r.1, r.2)
    | .silent st' => takeN next n (k + 1) st'
    | .stop _ => ([], none)

/-- `gtco(g)` used for several loops, one after the other, each of which is left after so many items: a generator goes on where it was. -/
def pieces (next : G → GOut ε V G) (n : Nat) : Option (St ε V G) → List Nat → List (List V)
  | _, [] => []
  | none, _ :: ks => [] :: pieces next n none ks
  | some st, k :: ks => let r := takeN next n k st; r.1 :: pieces next n r.2 ks

/-- The same with the object made by a `gtrampolined` function (gtco.py:57-65): each loop starts a new trampoline on the first generator of the chain (`__iter__`).  When
the loop is left, nobody has the trampoline any more, so Python closes it, and with it the generator it was running; by then the
first generator has been closed, too, or has come to its end.  A trampoline that has not been started leaves the generator alone. -/
def decoratedPieces (next : G → GOut ε V G) (n : Nat) : Option G → List Nat → List (List V)
  | _, [] => []
  | none, _ :: ks => [] :: decoratedPieces next n none ks
  | some g, k :: ks => (takeN next n k (.run g)).1 :: decoratedPieces next n (if k = 0 then some g else none) ks

end Unpy.Gtco
