/-!
# Model of the warnings about tail calls that are never made (`unpythonic/tco.py`)

Programs are trees: what a function does next, given the results of the calls it has made.  The `jump` objects that have been made are in a table.  When the program is over, all of them
have been deleted (the docstring, tco.py:182-187, says when Python may not do so); in which order is not modelled.

Simplifications: a function has one argument; there is no lazy code (the loop there, tco.py:282-298, is the same); decorated values that are not callable are not there (see `Verif.Model.Tco`).
-/
namespace Unpy.JumpWarn

/-- Values: data; a function, by its name (trampolined or not); what is inside of the trampoline of a trampolined function (`_entrypoint`); a `jump` object. -/
inductive V where
  | data (n : Nat)
  | fn (i : Nat)
  | entry (i : Nat)
  | jump (j : Nat)
  deriving DecidableEq, Repr

inductive Err where
  | typeError | runtimeError | user (n : Nat)
  deriving DecidableEq, Repr

/-- Code: return; raise; make a jump, `x = jump(target, arg)`; call in the ordinary way, `x = f(arg)`, and go on with the result, or with the exception. -/
inductive Prog where
  | ret (v : V)
  | raise (e : Err)
  | jump (target arg : V) (k : V → Prog)
  | call (f arg : V) (k : Except Err V → Prog)

/-- The functions of a program, and which of them have the decorator `trampolined`. -/
structure World where
  body : Nat → V → Prog
  trampolined : Nat → Bool

/-- A `_jump` (tco.py:165-170) -/
structure J where
  target : V
  arg : V
  claimed : Bool
  deriving DecidableEq, Repr

/-- The `jump` objects.  `carried` is not in the code: the jumps on whose behalf a trampoline has called the target, in this order. -/
structure St where
  jumps : List J
  carried : List Nat
  deriving DecidableEq, Repr

/-- `callable(f)` -/
def callable : V → Bool
  | .fn _ | .entry _ => true
  | .data _ | .jump _ => false

/-- `target._entrypoint if hasattr(target, "_entrypoint") else target` (tco.py:167) -/
def strip (W : World) : V → V
  | .fn i => if W.trampolined i then .entry i else .fn i
  | v => v

/-- `v._claimed = True` (tco.py:257) -/
def claim (j : Nat) (x : J) (s : St) : St := { s with jumps := s.jumps.set j { x with claimed := true } }

/-- A trampoline calls a function, on behalf of a jump or to begin with. -/
def carry (by' : Option Nat) (s : St) : St :=
  match by' with
  | some j => { s with carried := s.carried ++ [j] }
  | none => s

mutual
/-- Run code.  The number bounds the depth and the steps; `none`: it is too small (or the code uses a `jump` object that does not exist). -/
def run (W : World) : Nat → Prog → St → Option (Except Err V × St)
  | 0, _, _ => none
  | _ + 1, .ret v, s => some (.ok v, s)
  | _ + 1, .raise e, s => some (.error e, s)
  | n + 1, .jump t a k, s => run W n (k (.jump s.jumps.length)) { s with jumps := s.jumps ++ [⟨strip W t, a, false⟩] }   -- 128-144, 165-170
  | n + 1, .call f a k, s =>
    match call W n f a s with
    | none => none
    | some (r, s) => run W n (k r) s
/-- An ordinary call. -/
def call (W : World) : Nat → V → V → St → Option (Except Err V × St)
  | 0, _, _, _ => none
  | n + 1, .fn i, a, s => if W.trampolined i then loop W n (.entry i) a none s else run W n (W.body i a) s
  | n + 1, .entry i, a, s => run W n (W.body i a) s
  | _ + 1, _, _, s => some (.error .typeError, s)
/-- The loop of the trampoline (tco.py:245-261): a function to call, with its argument, and on behalf of which jump. -/
def loop (W : World) : Nat → V → V → Option Nat → St → Option (Except Err V × St)
  | 0, _, _, _, _ => none
  | n + 1, f, a, by', s =>
    match call W n f a (carry by' s) with
    | none => none
    | some (.error e, s) => some (.error e, s)
    | some (.ok (.jump j), s) =>
      match s.jumps[j]? with
      | none => none
      | some x =>
        if callable x.target then loop W n x.target x.arg (some j) (claim j x s)
        else some (.error .runtimeError, s)        -- 253-254
    | some (.ok v, s) => some (.ok v, s)
end

/-- The program with this main code. -/
def program (W : World) (n : Nat) (main : Prog) : Option (Except Err V × St) := run W n main ⟨[], []⟩

/-- `__del__` (tco.py:175-225) of all of them: those for which "WARNING: unclaimed" is printed. -/
def warned (s : St) : List Nat := (List.range s.jumps.length).filter fun j => (s.jumps[j]?).any fun x => !x.claimed

end Unpy.JumpWarn
