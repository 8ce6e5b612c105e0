import Verif.Model.Py
/-!
# Model of `unpythonic/mathseq.py`

An iterable is a finite list or an infinite sequence (`Iter`).  Wrapping in `imathify` (mathseq.py:459-601), which only
adds infix operators, is left out.  Numbers are exact rationals; what Python does in floating point (`log`, `**` with a
fractional exponent, the tolerance of `almosteq`) is given by a structure `Fl` of arbitrary functions, so nothing
proved depends on how it rounds, but rounding in `+`, `-`, `*`, `/` on `float` inputs is not modelled.
-/
namespace Unpy.Mathseq

/-- An iterable, by the items it yields. -/
inductive Iter (α : Type) where
  | fin (l : List α)
  | inf (f : Nat → α)

variable {α β γ δ : Type}

/-- `take(n, it)` (it.py:260-271), as a list. -/
def Iter.prefix (n : Nat) : Iter α → List α
  | .fin l => l.take n
  | .inf f => (List.range n).map f

/-- The item at an index, if there is one. -/
def Iter.get? : Iter α → Nat → Option α
  | .fin l, i => l[i]?
  | .inf f, i => some (f i)

/-! ## s -/

/-- An argument of `s`: a number, `...`, or a list. -/
inductive Item where
  | num (q : Rat)
  | dots
  | list (l : List Rat)
  deriving DecidableEq

/-- Floating point: `almosteq(x, y)` (numutil.py:35-66), `is_almost_int(x)` (mathseq.py:271-277), `math.log(x, b)`
where it is defined, `x**y`; and whether the given numbers are all of type `int`. -/
structure Fl where
  aeq : Rat → Rat → Bool
  almostInt : Rat → Bool
  log : Rat → Rat → Rat
  pow : Rat → Rat → Rat
  ints : Bool

/-- `math.log(x, b)`. -/
def Fl.logPy (fl : Fl) (x b : Rat) : Except PyErr Rat :=
  if x ≤ 0 ∨ b ≤ 0 then .error .ValueError
  else if b = 1 then .error .ZeroDivisionError
  else .ok (fl.log x b)

/-- `abs` -/
def rabs (x : Rat) : Rat := if x < 0 then -x else x

/-- `round` (to even or not is of no interest, as only almost integral numbers are rounded). -/
def rround (x : Rat) : Int := (x + 1 / 2).floor

/-- The descriptions that `analyze` returns: `("const", x0, None)`, and so on. -/
inductive Desc where
  | const (x0 : Rat)
  | arith (x0 k : Rat)
  | geom (x0 k : Rat)
  | power (x0 k : Rat)
  deriving DecidableEq

/-- The type and the number, for comparing descriptions. -/
def Desc.same (fl : Fl) : Desc → Desc → Bool
  | .const _, .const _ => true
  | .arith _ k, .arith _ l => fl.aeq l k
  | .geom _ k, .geom _ l => fl.aeq l k
  | .power _ k, .power _ l => fl.aeq l k
  | _, _ => false

/-- `analyze(a0, a1)` (mathseq.py:283-288). -/
def analyze2 (a0 a1 : Rat) : Desc :=
  let d1 := a1 - a0
  if d1 = 0 then .const a0 else .arith a0 d1

/-- The last two cases of `analyze(a0, a1, a2)` (mathseq.py:313-320). -/
def analyzePower (fl : Fl) (a0 a1 a2 : Rat) : Except PyErr Desc :=
  if rabs a0 ≠ 1 ∧ a1 ≠ 0 ∧ a2 ≠ 0 then
    match fl.logPy (rabs a1) (rabs a0) with
    | .error e => .error e
    | .ok p1 =>
      match fl.logPy (rabs a2) (rabs a1) with
      | .error e => .error e
      | .ok p2 => if fl.aeq p1 p2 then .ok (.power a0 ((p1 + p2) / 2)) else .error .SyntaxError
  else .error .SyntaxError

/-- `analyze(a0, a1, a2)` (mathseq.py:289-320). -/
def analyze3 (fl : Fl) (a0 a1 a2 : Rat) : Except PyErr Desc :=
  let d1 := a1 - a0
  let d2 := a2 - a1
  if d2 = d1 ∧ d1 = 0 then .ok (.const a0)
  else if fl.aeq d2 d1 then .ok (.arith a0 (if d1 = d2 then d1 else (d1 + d2) / 2))
  else if a0 ≠ 0 ∧ a1 ≠ 0 ∧ a2 ≠ 0 then
    let r1 := a1 / a0
    let r2 := a2 / a1
    if fl.aeq r2 r1 then
      .ok (.geom a0 (if fl.ints ∧ (r1.floor : Rat) = r1 ∧ (r2.floor : Rat) = r2 then r1.floor else (r1 + r2) / 2))
    else analyzePower fl a0 a1 a2
  else analyzePower fl a0 a1 a2

/-- `[analyze(*triplet) for triplet in window(3, spec)]` (mathseq.py:322). -/
def analyzeAll (fl : Fl) : List Rat → Except PyErr (List Desc)
  | a0 :: a1 :: a2 :: rest =>
    match analyze3 fl a0 a1 a2 with
    | .error e => .error e
    | .ok d =>
      match analyzeAll fl (a1 :: a2 :: rest) with
      | .error e => .error e
      | .ok ds => .ok (d :: ds)
  | _ => .ok []

/-- `analyze(*spec)` (mathseq.py:278-331). -/
def analyze (fl : Fl) : List Rat → Except PyErr Desc
  | [] => .error .ValueError
  | [a0] => .ok (.const a0)
  | [a0, a1] => .ok (analyze2 a0 a1)
  | [a0, a1, a2] => analyze3 fl a0 a1 a2
  | spec =>
    match analyzeAll fl spec with
    | .error e => .error e
    | .ok [] => .error .ValueError
    | .ok (d :: ds) => if ds.all (fun d' => d.same fl d') then .ok d else .error .SyntaxError

/-- What `nofterms` returns: `False`, `infty`, or the number of terms. -/
inductive NTerms where
  | no
  | infty
  | n (n : Nat)
  deriving DecidableEq

/-- `nofterms(desc, elt)` (mathseq.py:335-359). -/
def nofterms (fl : Fl) (desc : Desc) (elt : Rat) : Except PyErr NTerms :=
  match desc with
  | .const x0 => if elt = x0 then .ok .infty else .ok .no
  | .arith x0 k =>
    if k = 0 then .error .ZeroDivisionError else
    let a := (elt - x0) / k
    if fl.almostInt a ∧ 0 < a then .ok (.n (1 + rround a).toNat) else .ok .no
  | .geom x0 k =>
    if x0 = 0 then .error .ZeroDivisionError else
    match fl.logPy (rabs (elt / x0)) (rabs k) with
    | .error e => .error e
    | .ok a =>
      if fl.almostInt a ∧ 0 < a then
        if !(fl.aeq (x0 * fl.pow k a) elt) then .ok .no else .ok (.n (1 + rround a).toNat)
      else .ok .no
  | .power x0 k =>
    match fl.logPy (rabs elt) (rabs x0) with
    | .error e => .error e
    | .ok l =>
      match fl.logPy l (rabs k) with
      | .error e => .error e
      | .ok a =>
        if fl.almostInt a ∧ 0 < a then
          if !(fl.aeq (fl.pow x0 (fl.pow k a)) elt) then .ok .no else .ok (.n (1 + rround a).toNat)
        else .ok .no

/-- The term at index `j` (mathseq.py:402-455). -/
def term (fl : Fl) (desc : Desc) (j : Nat) : Rat :=
  match desc with
  | .const x0 => x0
  | .arith x0 k => x0 + j * k
  | .geom x0 k => if rabs k ≥ 1 then x0 * k ^ j else x0 / ((1 / k) ^ j)
  | .power x0 k => if rabs k ≥ 1 then fl.pow x0 (k ^ j) else fl.pow x0 (1 / ((1 / k) ^ j))

/-- The numbers among the arguments; `...` and lists do not support arithmetic. -/
def nums : List Item → Except PyErr (List Rat)
  | [] => .ok []
  | .num q :: rest =>
    match nums rest with
    | .error e => .error e
    | .ok qs => .ok (q :: qs)
  | _ :: _ => .error .TypeError

/-- `yield from initial; while True: yield from repeating` (mathseq.py:405-410). -/
def cyclicTerm (initial : List Item) (repeating : List Rat) (j : Nat) : Option Item :=
  if j < initial.length then initial[j]?
  else (repeating[(j - initial.length) % repeating.length]?).map Item.num

/-- `s(*spec)` (mathseq.py:361-455).  The items yielded are those of the specification, or numbers.  A final element
that is not a number is left out of the model (`TypeError`). -/
def s (fl : Fl) (spec : List Item) : Except PyErr (Iter (Option Item)) :=
  if !(spec.contains .dots) then
    match spec.getLast? with
    | none => .error .AssertionError
    | some (.list _) => .error .SyntaxError
    | some _ => .ok (.fin (spec.map some))
  else
    match spec.getLast? with
    | none => .error .AssertionError
    | some .dots =>
      let spec := spec.dropLast
      match spec.getLast? with
      | none => .error .SyntaxError
      | some (.list []) => .error .SyntaxError
      | some (.list repeating) => .ok (.inf (cyclicTerm spec.dropLast repeating))
      | some _ =>
        match nums spec with
        | .error e => .error e
        | .ok qs =>
          match analyze fl qs with
          | .error e => .error e
          | .ok desc => .ok (.inf (fun j => some (.num (term fl desc j))))
    | some last =>
      let spec := spec.dropLast
      match spec.getLast? with
      | some .dots =>
        let spec := spec.dropLast
        if spec.isEmpty then .error .SyntaxError else
        match nums spec with
        | .error e => .error e
        | .ok qs =>
          match analyze fl qs with
          | .error e => .error e
          | .ok desc =>
            match last with
            | .num elt =>
              match nofterms fl desc elt with
              | .error e => .error e
              | .ok .no => .error .SyntaxError
              | .ok .infty => .error .SyntaxError
              | .ok (.n n) => .ok (.fin ((List.range n).map (fun j => some (.num (term fl desc j)))))
            | _ => .error .TypeError
      | _ => .error .SyntaxError

/-! ## termwise operations -/

/-- Something to compute with termwise: a scalar, or a sequence of such things, with its length (`none`: infinite). -/
inductive Tree (α : Type) where
  | leaf (x : α)
  | node (len : Option Nat) (f : Nat → Tree α)

/-- `zip` ends with the shorter input. -/
def minLen : Option Nat → Option Nat → Option Nat
  | none, n => n
  | m, none => m
  | some m, some n => some (min m n)

/-- `_make_termwise_stream_unop(op)` (mathseq.py:627-632). -/
def unop (op : α → β) : Tree α → Tree β
  | .leaf x => .leaf (op x)
  | .node n f => .node n (fun i => unop op (f i))

/-- `_make_termwise_stream_binop(op)` (mathseq.py:633-647): `stream_op(c, y)` for a scalar `c`. -/
def binopLeft (op : α → α → β) (c : α) : Tree α → Tree β
  | .leaf y => .leaf (op c y)
  | .node n g => .node n (fun i => binopLeft op c (g i))

/-- `_make_termwise_stream_binop(op)` (mathseq.py:633-647). -/
def binop (op : α → α → β) : Tree α → Tree α → Tree β
  | .leaf x, b => binopLeft op x b
  | .node m f, .node n g => .node (minLen m n) (fun i => binop op (f i) (g i))
  | .node m f, .leaf y => .node m (fun i => binop op (f i) (.leaf y))

/-! ## diagonal_reduce -/

/-- `diagonal` in `diagonal_reduce` (mathseq.py:868-885), from `n` on, at most so many terms.  `imemoize` (gmemo.py) is
taken to give the items of the input each time. -/
def diagonalFrom (all : Bool) (combine : List α → List β → γ) (reduce : γ → δ) (a : Iter α) (b : Iter β) :
    Nat → Nat → List δ
  | 0, _ => []
  | fuel + 1, n =>
    let xs := a.prefix n
    let ys := b.prefix n
    let lx := xs.length
    let ly := ys.length
    if all ∧ (lx < n ∨ ly < n) then []
    else
      let cut := (lx = ly ∧ lx < n) ∨ lx < ly ∨ ly < lx
      let xs' := if cut then xs.drop (n - ly) else xs
      let ys' := if cut then ys.drop (n - lx) else ys
      if xs'.isEmpty then []
      else reduce (combine xs' ys'.reverse) :: diagonalFrom all combine reduce a b fuel (n + 1)

/-- `diagonal_reduce(a, b, combine, reduce, require)` (mathseq.py:781-886): the first so many terms, or all if there
are fewer. -/
def diagonalReduce (all : Bool) (combine : List α → List β → γ) (reduce : γ → δ) (a : Iter α) (b : Iter β)
    (count : Nat) : List δ :=
  diagonalFrom all combine reduce a b count 1

/-- `cauchyprod(a, b, require)` (mathseq.py:753-779) on numbers: `combine=smul`, `reduce=sum`. -/
def cauchyprod (all : Bool) (a b : Iter Int) (count : Nat) : List Int :=
  diagonalReduce all (fun xs ys => List.zipWith (· * ·) xs ys) (fun zs => zs.foldl (· + ·) 0) a b count

/-! ## fibonacci, triangular, primes -/

/-- `fibos` (mathseq.py:892-896): the first so many items. -/
def fibos : Nat → Nat → Nat → List Nat
  | 0, _, _ => []
  | n + 1, a, b => a :: fibos n b (a + b)
/-- `fibonacci()` (mathseq.py:890-897). -/
def fibonacci (n : Nat) : List Nat := fibos n 1 1

/-- `_triangular` (mathseq.py:912-918): the first so many items. -/
def triangularFrom : Nat → Nat → Nat → List Nat
  | 0, _, _ => []
  | n + 1, s, r => s :: triangularFrom n (s + r) (r + 1)
/-- `triangular()` (mathseq.py:899-919). -/
def triangular (n : Nat) : List Nat := triangularFrom n 1 2

/-- `any(n % p == 0 for p in takewhile(lambda x: x * x <= n, memo))` (mathseq.py:942). -/
def hasDivisor (n : Nat) (memo : List Nat) : Bool := (memo.takeWhile (fun x => x * x ≤ n)).any (fun p => n % p == 0)

/-- `_fastprimes` (mathseq.py:935-945): the memo, which is also what has been yielded, after so many passes through
the loop over `count(start=3, step=2)`. -/
def fastprimes : Nat → List Nat
  | 0 => [2]
  | j + 1 =>
    let memo := fastprimes j
    let n := 3 + 2 * j
    if !(hasDivisor n memo) then memo ++ [n] else memo

/-- The same test in `_primes` (mathseq.py:932), whose inner `_primes()` reads the items that `gmemoize`
(gmemo.py:16-102, 106-134) has memoized, and, should it need more, would ask the generator that is running for its next item,
which raises `ValueError: generator already executing`. -/
def hasDivisorMemo (n : Nat) : List Nat → Except PyErr Bool
  | [] => .error .ValueError
  | x :: rest => if x * x ≤ n then (if n % x == 0 then .ok true else hasDivisorMemo n rest) else .ok false

/-- `_primes` (mathseq.py:928-933), likewise. -/
def memprimes : Nat → Except PyErr (List Nat)
  | 0 => .ok [2]
  | j + 1 =>
    match memprimes j with
    | .error e => .error e
    | .ok memo =>
      let n := 3 + 2 * j
      match hasDivisorMemo n memo with
      | .error e => .error e
      | .ok b => if !b then .ok (memo ++ [n]) else .ok memo

end Unpy.Mathseq
