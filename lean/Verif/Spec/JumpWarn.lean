import Verif.Model.JumpWarn
/-!
# Programs that follow the rules for tail calls
-/
namespace Unpy.JumpWarn.Spec

def NotJump (v : V) : Prop := ∀ j, v ≠ .jump j

/-- In an ordinary way one may call a trampolined function, or one that makes no tail calls (or, in error, what is no function). -/
def MayCall (W : World) (tails : Nat → Prop) : V → Prop
  | .fn i => W.trampolined i = true ∨ ¬ tails i
  | .entry i => ¬ tails i
  | .data _ => True
  | .jump _ => False

/-- Code that makes no tail calls. -/
def Ordinary (W : World) (tails : Nat → Prop) : Prog → Prop
  | .ret v => NotJump v
  | .raise _ => True
  | .jump .. => False
  | .call f a k => MayCall W tails f ∧ NotJump a ∧ ∀ r, (∀ v, r = .ok v → NotJump v) → Ordinary W tails (k r)

/-- Code that may make a tail call, by `return jump(target, arg)`. -/
def Tail (W : World) (tails : Nat → Prop) : Prog → Prop
  | .ret v => NotJump v
  | .raise _ => True
  | .jump t a k => NotJump t ∧ NotJump a ∧ ∀ v, k v = .ret v
  | .call f a k => MayCall W tails f ∧ NotJump a ∧ ∀ r, (∀ v, r = .ok v → NotJump v) → Tail W tails (k r)

/-- The functions that make tail calls are known (`tails`), and each of them is called by trampolines only. -/
structure Rules (W : World) (tails : Nat → Prop) : Prop where
  tail : ∀ i a, NotJump a → Tail W tails (W.body i a)
  ordinary : ∀ i a, NotJump a → ¬ tails i → Ordinary W tails (W.body i a)

end Unpy.JumpWarn.Spec
