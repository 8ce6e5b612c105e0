/-!
# Model of blocks that push something on a stack of their thread

`with dyn.let(...)` (dynassign.py:37-49), `with handlers(...)` and `with restarts(...)` (conditions.py:419-427) push their bindings when the block is entered, and pop
the stack when it is left: whatever is on top then.  Blocks of ordinary functions are nested, but those of generators may overlap: a generator that is
suspended inside its block is resumed when others have been entered and left.

(`with catch_signals(...)`, test/fixtures.py:553-565, and the postprocessors of test blocks, test/fixtures.py:687, 706, keep stacks in the same way.)

The blocks are numbered, and used in one `with` each.  The stacks are those of one thread, innermost first.
-/
namespace Unpy.Overlap
variable {F R : Type}

inductive Op (F : Type) where
  /-- the block with this number, which has these bindings, is entered -/
  | enter (id : Nat) (bindings : F)
  /-- it is left, normally or by an exception -/
  | leave (id : Nat) (bindings : F)

/-- One step.  `dyn.let` without bindings pushes nothing, and pops nothing (dynassign.py:41, 46): `empty`.  The others do not look. -/
def step (empty : F → Bool) (stack : List F) : Op F → List F
  | .enter _ b => if empty b then stack else b :: stack       -- dynassign.py:40-44, conditions.py:423-425
  | .leave _ b => if empty b then stack else stack.tail       -- dynassign.py:45-49, conditions.py:426-427

def run (empty : F → Bool) (stack : List F) (ops : List (Op F)) : List F := ops.foldl (step empty) stack

/-- A search from the innermost scope outwards, for the first that has what is wanted: `dyn._resolve` (dynassign.py:146-154), `find_restart` (conditions.py:531-535) and the search for handlers
(conditions.py:507-511) -/
def find (has : F → Option R) : List F → Option R
  | [] => none
  | b :: stack => match has b with
    | some r => some r
    | none => find has stack

/-- The same for `dyn.let` in several threads: each has its own stack, and what is pushed and popped is that of the thread that enters or leaves the block
(dynassign.py:18-30, 42, 47).  Popping an empty stack is an IndexError and changes nothing. -/
def runThreads (empty : F → Bool) (stacks : Nat → List F) (ops : List (Nat × Op F)) : Nat → List F :=
  ops.foldl (fun stacks o t => if t = o.1 then step empty (stacks t) o.2 else stacks t) stacks

end Unpy.Overlap
