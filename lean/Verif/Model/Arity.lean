import Verif.Model.Sig
/-!
# Model of `unpythonic/arity.py`: parameter binding

`bind` transcribes `_bind` (arity.py:472-614), itself a modified copy of `inspect.Signature.bind` from the
standard library.  The strict `bind` of the standard library is the same loop that raises TypeError at the
places where `_bind` records something unbound or extra, so it is modelled by `bindStrict`.
-/
namespace Unpy.Arity
variable {V : Type}

/-- The state of `_bind` after the first loop: the parameters still to be looked at
(`itertools.chain(parameters_ex, parameters)`) and what was collected. -/
structure Phase1 (V : Type) where
  params : List (Param V)
  arguments : PyDict String (BVal V)
  unbound : List (Param V)
  extraArgs : List V

/-- The `while True` loop over positional arguments and parameters (arity.py:487-559).  When no parameters
are left, each round of the loop moves one more argument to `extra_args`; the model moves them all at once. -/
def phase1 (part : Bool) (kwargs : PyDict String V) (args : List V) : List (Param V) →
    PyDict String (BVal V) → List (Param V) → List V → Res (Phase1 V)
  | [], arguments, unbound, extra => .ok ⟨[], arguments, unbound, extra ++ args⟩
  | p :: ps, arguments, unbound, extra =>
    match args with
    | [] =>
      if p.kind = .varPos then .ok ⟨ps, arguments, unbound, extra⟩
      else if PyDict.has kwargs p.name then
        if p.kind = .posOnly then .error .TypeError
        else .ok ⟨p :: ps, arguments, unbound, extra⟩
      else if p.kind = .varKw ∨ p.default.isSome then .ok ⟨p :: ps, arguments, unbound, extra⟩
      else if part then .ok ⟨p :: ps, arguments, unbound, extra⟩
      else phase1 part kwargs [] ps arguments (unbound ++ [p]) extra
    | a :: as =>
      let extra := if p.kind = .varKw ∨ p.kind = .kwOnly then extra ++ [a] else extra
      if p.kind = .varPos then
        .ok ⟨ps, PyDict.set arguments p.name (.tuple (a :: as)), unbound, extra⟩
      else if PyDict.has kwargs p.name ∧ p.kind ≠ .posOnly then .error .TypeError
      else phase1 part kwargs as ps (PyDict.set arguments p.name (.val a)) unbound extra

/-- The state of `_bind` after the second loop. -/
structure Phase2 (V : Type) where
  kwargs : PyDict String V
  arguments : PyDict String (BVal V)
  unbound : List (Param V)
  kwargsParam : Option (Param V)

/-- The loop over the remaining parameters (arity.py:561-600). -/
def phase2 (part : Bool) : List (Param V) → PyDict String V → PyDict String (BVal V) →
    List (Param V) → Option (Param V) → Res (Phase2 V)
  | [], kwargs, arguments, unbound, kp => .ok ⟨kwargs, arguments, unbound, kp⟩
  | p :: ps, kwargs, arguments, unbound, kp =>
    if p.kind = .varKw then phase2 part ps kwargs arguments unbound (some p)
    else if p.kind = .varPos then phase2 part ps kwargs arguments unbound kp
    else match PyDict.get? kwargs p.name with
      | none =>
        if !part && p.kind ≠ .varPos && p.default.isNone then
          phase2 part ps kwargs arguments (unbound ++ [p]) kp
        else phase2 part ps kwargs arguments unbound kp
      | some v =>
        if p.kind = .posOnly then .error .TypeError
        else phase2 part ps (PyDict.erase kwargs p.name) (PyDict.set arguments p.name (.val v)) unbound kp

/-- The result of `_bind`. -/
structure Analysis (V : Type) where
  arguments : PyDict String (BVal V)
  unbound : List (Param V)
  extraArgs : List V
  extraKwargs : PyDict String V
  deriving DecidableEq

/-- `_bind(thesignature, args, kwargs, partial=...)` (arity.py:472-614). -/
def bind (part : Bool) (sig : Sig V) (args : List V) (kwargs : PyDict String V) : Res (Analysis V) :=
  match phase1 part kwargs args sig [] [] [] with
  | .error e => .error e
  | .ok s1 =>
    match phase2 part s1.params kwargs s1.arguments s1.unbound none with
    | .error e => .error e
    | .ok s2 =>
      if s2.kwargs.isEmpty then .ok ⟨s2.arguments, s2.unbound, s1.extraArgs, []⟩
      else match s2.kwargsParam with
        | some kp => .ok ⟨PyDict.set s2.arguments kp.name (.dict s2.kwargs), s2.unbound, s1.extraArgs, []⟩
        | none => .ok ⟨s2.arguments, s2.unbound, s1.extraArgs, s2.kwargs⟩

/-- `inspect.Signature.bind` (called at arity.py:418). -/
def bindStrict (sig : Sig V) (args : List V) (kwargs : PyDict String V) : Res (PyDict String (BVal V)) :=
  match bind false sig args kwargs with
  | .error e => .error e
  | .ok r =>
    if r.unbound.isEmpty && r.extraArgs.isEmpty && r.extraKwargs.isEmpty then .ok r.arguments
    else .error .TypeError

/-- `BoundArguments.apply_defaults` (called at arity.py:419): the parameters in order, an unbound one with
its default, `()` for `*args`, `{}` for `**kwargs`. -/
def applyDefaults (sig : Sig V) (arguments : PyDict String (BVal V)) : List (String × BVal V) :=
  sig.filterMap (fun p =>
    match PyDict.get? arguments p.name with
    | some b => some (p.name, b)
    | none =>
      match p.default with
      | some d => some (p.name, .val d)
      | none =>
        if p.kind = .varPos then some (p.name, .tuple [])
        else if p.kind = .varKw then some (p.name, .dict [])
        else none)

/-- `tuplify_bindings(resolve_bindings(f, *args, **kwargs))` (arity.py:349-461), the key used by
`memoize`, `gmemoize` and `fix`.  Turning the dicts into tuples of their items keeps the order, and a dict is
modelled as the list of its items, so this is the list of bindings itself. -/
def key (sig : Sig V) (args : List V) (kwargs : PyDict String V) : Res (List (String × BVal V)) :=
  match bindStrict sig args kwargs with
  | .error e => .error e
  | .ok arguments => .ok (applyDefaults sig arguments)

/-! ## Arities -/

/-- `arities(f)` of an inspectable, non-generic function (arity.py:251-277): smallest and largest number of
positional arguments; `none` is infinity.  `bound` says whether `self`/`cls` is passed implicitly. -/
def arities (bound : Bool) (sig : Sig V) : Int × Option Int :=
  let r := sig.foldl (fun (lu : Int × Option Int) p =>
    if p.kind = .posOnly ∨ p.kind = .posOrKw then
      (if p.default.isNone then lu.1 + 1 else lu.1, lu.2.map (· + 1))
    else if p.kind = .varPos then (lu.1, none)
    else lu) (0, some 0)
  if bound then (r.1 - 1, r.2.map (· - 1)) else r

/-- `arity_includes(f, n)` (arity.py:334-340). -/
def arityIncludes (bound : Bool) (sig : Sig V) (n : Int) : Bool :=
  let r := arities bound sig
  decide (r.1 ≤ n) && (match r.2 with | none => true | some u => decide (n ≤ u))

/-- `required_kwargs(f)` and `optional_kwargs(f)` (arity.py:279-322), for non-generics; a set as a list. -/
def kwargsOf (optionals : Bool) (sig : Sig V) : List String :=
  (sig.filter (fun p => p.kind = .kwOnly ∧ p.default.isSome = optionals)).map (·.name)

end Unpy.Arity
