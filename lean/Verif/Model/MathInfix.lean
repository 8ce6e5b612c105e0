import Verif.Model.Py
import Verif.Model.Mathseq
/-!
# Model of infix arithmetic with mathematical sequences (`unpythonic/mathseq.py`, class `imathify`)

What an operator means when an operand is a sequence with math support: which method of `imathify` (mathseq.py:459-601) Python calls, with which arguments, and what
the termwise function called there (mathseq.py:625-749) returns.

Simplifications: sequences can be iterated again (for those that cannot, see `Verif.Model.MathOnce`); operations on numbers do not raise; whether an item of a sequence, itself a sequence,
has math support is not kept; operands whose own operator accepts anything (`str.__mod__`, `numpy` arrays) are not there.
-/
namespace Unpy.MathInfix
open Unpy.Mathseq (Tree)
variable {N : Type}

/-- Python's binary operators. -/
inductive Op where
  | add | sub | mul | truediv | floordiv | divmod | mod | pow | lshift | rshift | and | xor | or
  | lt | le | eq | ne | ge | gt
  deriving DecidableEq, Repr

inductive UnOp where
  | abs | pos | neg | invert | round | trunc | floor | ceil
  deriving DecidableEq, Repr

/-- An object: a number; something iterable, with math support or without (length `none`: endless). -/
inductive Obj (N : Type) where
  | num (x : N)
  | iter (math : Bool) (len : Option Nat) (items : Nat → Tree N)

def Obj.tree : Obj N → Tree N
  | .num x => .leaf x
  | .iter _ n f => .node n f

/-- What Python's operators do with numbers: all but `divmod` give a number.  `own`: two operands of which neither has math support, and one at least is not a number. -/
structure World (N : Type) where
  num : Op → N → N → N
  divmod : N → N → N × N
  un : UnOp → N → N
  pow3 : N → N → N → N
  round2 : N → N → N
  truth : N → Bool
  ofBool : Bool → N
  own : Op → Obj N → Obj N → Except PyErr (Obj N)

/-- A binary operator on two numbers. -/
def prim (W : World N) (o : Op) (x y : N) : Obj N :=
  if o = .divmod then .iter false (some 2) (fun i => .leaf (if i = 0 then (W.divmod x y).1 else (W.divmod x y).2))
  else .num (W.num o x y)

/-- A nested sequence of nested sequences. -/
def graft : Tree (Tree N) → Tree N
  | .leaf t => t
  | .node n f => .node n (fun i => graft (f i))

/-- `imathify(...)` of what is iterable (mathseq.py:508-511). -/
def mathify : Tree N → Obj N
  | .leaf x => .num x
  | .node n f => .iter true n f

/-- `_make_termwise_stream_binop(op)` (mathseq.py:633-647): if neither is iterable, the operator itself, and otherwise a sequence with math support. -/
def streamBin (op : N → N → Obj N) : Obj N → Obj N → Obj N
  | .num x, .num y => op x y
  | a, b => mathify (graft (Mathseq.binop (fun x y => (op x y).tree) a.tree b.tree))

/-- `_make_termwise_stream_unop(op)` (mathseq.py:627-632) -/
def streamUn (op : N → N) : Obj N → Obj N
  | .num x => .num (op x)
  | a => mathify (Mathseq.unop op a.tree)

/-- `sadd`, `ssub`, ... (mathseq.py:649-652, 659-660, 672-679, 704-713, 738-749), by the operator in their definition; `spow` (mathseq.py:662-670) without the optional argument -/
def sBin (W : World N) (o : Op) : Obj N → Obj N → Obj N := streamBin (prim W o)

/-- `spow(a, b, mod)` (mathseq.py:663-670) -/
def spow3 (W : World N) (a b : Obj N) (mod : N) : Obj N := streamBin (fun x y => .num (W.pow3 x y mod)) a b

/-- `sabs`, ... (mathseq.py:653-658, 696-701, 714), by the function in their definition; `sround` (mathseq.py:681-694) without the optional argument -/
def sUn (W : World N) (o : UnOp) : Obj N → Obj N := streamUn (W.un o)

/-- `sround(a, ndigits)` (mathseq.py:682-694) -/
def sround2 (W : World N) (a : Obj N) (ndigits : N) : Obj N := streamUn (fun x => W.round2 x ndigits) a

/-- `imathify.__add__`, ... (mathseq.py:512-513, 516-517, 528-529, 532-533, 536-537, 540-541, 544-545, 548-549, 560-561, 564-565, 568-569, 572-573, 576-577, and the comparisons, 590-601):
`self` and `other`. -/
def method (W : World N) : Op → Obj N → Obj N → Obj N
  | .add, self, other => sBin W .add self other
  | .sub, self, other => sBin W .sub self other
  | .mul, self, other => sBin W .mul self other
  | .truediv, self, other => sBin W .truediv self other
  | .floordiv, self, other => sBin W .floordiv self other
  | .divmod, self, other => sBin W .divmod self other
  | .mod, self, other => sBin W .mod self other
  | .pow, self, other => sBin W .pow self other
  | .lshift, self, other => sBin W .lshift self other
  | .rshift, self, other => sBin W .rshift self other
  | .and, self, other => sBin W .and self other
  | .xor, self, other => sBin W .xor self other
  | .or, self, other => sBin W .or self other
  | .lt, self, other => sBin W .lt self other
  | .le, self, other => sBin W .le self other
  | .eq, self, other => sBin W .eq self other
  | .ne, self, other => sBin W .ne self other
  | .ge, self, other => sBin W .ge self other
  | .gt, self, other => sBin W .gt self other

/-- `imathify.__radd__`, ... (mathseq.py:514-515, 518-519, 530-531, 534-535, 538-539, 542-543, 546-547, 550-551, 562-563, 566-567, 570-571, 574-575, 578-579).  A comparison has no such
method: Python calls the mirrored one instead. -/
def rmethod (W : World N) : Op → Obj N → Obj N → Obj N
  | .add, self, other => sBin W .add other self
  | .sub, self, other => sBin W .sub other self
  | .mul, self, other => sBin W .mul other self
  | .truediv, self, other => sBin W .truediv other self
  | .floordiv, self, other => sBin W .floordiv other self
  | .divmod, self, other => sBin W .divmod other self
  | .mod, self, other => sBin W .mod other self
  | .pow, self, other => sBin W .pow other self
  | .lshift, self, other => sBin W .lshift other self
  | .rshift, self, other => sBin W .rshift other self
  | .and, self, other => sBin W .and other self
  | .xor, self, other => sBin W .xor other self
  | .or, self, other => sBin W .or other self
  | .lt, self, other => method W .gt self other
  | .le, self, other => method W .ge self other
  | .eq, self, other => method W .eq self other
  | .ne, self, other => method W .ne self other
  | .ge, self, other => method W .le self other
  | .gt, self, other => method W .lt self other

/-- `a + b`, ...: Python calls the method of the left operand; if that has none for the other (a number, a list, ...), the reflected method of the right operand. -/
def binary (W : World N) (o : Op) (a b : Obj N) : Except PyErr (Obj N) :=
  match a, b with
  | .iter true _ _, _ => .ok (method W o a b)
  | _, .iter true _ _ => .ok (rmethod W o b a)
  | .num x, .num y => .ok (prim W o x y)
  | _, _ => W.own o a b

/-- `-a`, `abs(a)`, `round(a)`, `math.floor(a)`, ... (mathseq.py:520-527, 552-559): things that are iterable and have no math support have no such operators. -/
def unary (W : World N) (o : UnOp) (a : Obj N) : Except PyErr (Obj N) :=
  match a with
  | .iter true _ _ => .ok (sUn W o a)
  | .num x => .ok (.num (W.un o x))
  | _ => .error .TypeError

/-- `round(a, ndigits)` (mathseq.py:552-553) -/
def round2 (W : World N) (a : Obj N) (ndigits : N) : Except PyErr (Obj N) :=
  match a with
  | .iter true _ _ => .ok (sround2 W a ndigits)
  | .num x => .ok (.num (W.round2 x ndigits))
  | _ => .error .TypeError

/-- `pow(a, b, mod)` (mathseq.py:548-551): with three arguments Python calls only the method of the first one (since Python 3.14 also `__rpow__`, with one argument more than it has here). -/
def pow3 (W : World N) (a b : Obj N) (mod : N) : Except PyErr (Obj N) :=
  match a, b with
  | .iter true _ _, _ => .ok (spow3 W a b mod)
  | .num x, .num y => .ok (.num (W.pow3 x y mod))
  | _, _ => .error .TypeError

/-- `bool(a)`: `imathify` has neither `__bool__` nor `__len__` (mathseq.py:580-589), so its instances are all true.  Lists are true if they have an item; generators always (not told apart here). -/
def truth (W : World N) : Obj N → Bool
  | .num x => W.truth x
  | .iter true _ _ => true
  | .iter false n _ => n != some 0

/-- Expressions with names. -/
inductive Ex (N : Type) where
  | name (i : Nat)
  | bin (o : Op) (a b : Ex N)
  | un (o : UnOp) (a : Ex N)
  | round2 (a : Ex N) (ndigits : N)
  | pow3 (a b : Ex N) (mod : N)
  /-- `sadd(a, b)`, ... -/
  | fn (o : Op) (a b : Ex N)
  /-- `a < b < c`, ... -/
  | chain (o1 o2 : Op) (a b c : Ex N)
  /-- `not a` -/
  | not (a : Ex N)

def eval (W : World N) (ρ : Nat → Obj N) : Ex N → Except PyErr (Obj N)
  | .name i => .ok (ρ i)
  | .bin o a b => do binary W o (← eval W ρ a) (← eval W ρ b)
  | .un o a => do unary W o (← eval W ρ a)
  | .round2 a d => do round2 W (← eval W ρ a) d
  | .pow3 a b m => do pow3 W (← eval W ρ a) (← eval W ρ b) m
  | .fn o a b => do .ok (sBin W o (← eval W ρ a) (← eval W ρ b))
  | .chain o1 o2 a b c => do
    let x ← eval W ρ a
    let y ← eval W ρ b
    let r ← binary W o1 x y
    if truth W r then binary W o2 y (← eval W ρ c) else .ok r
  | .not a => do .ok (.num (W.ofBool (!truth W (← eval W ρ a))))

end Unpy.MathInfix
