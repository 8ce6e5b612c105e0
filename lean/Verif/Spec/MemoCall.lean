import Verif.Model.MemoCall
import Verif.Spec.Arity
/-! # What callers of memoized functions rely on -/
namespace Unpy.Spec.MemoCall
open Unpy Unpy.Arity Unpy.Spec.Arity Unpy.Fold Unpy.MemoCall
variable {V R ε : Type}

/-- `f` is a Python function with this signature, that is pure: if the arguments fit, what it returns or raises depends only on what is bound to the parameters; otherwise it raises TypeError. -/
def IsFunction (sig : Sig V) (body : List (Option (BVal V)) → Except (Err ε) R) (f : List V → PyDict String V → Except (Err ε) R) : Prop :=
  ∀ args kwargs, f args kwargs = if Accepts sig args kwargs then body (sig.map (seen sig args kwargs)) else .error (.py .TypeError)

/-- The two are found under each other in a dict. -/
inductive Alike (w : World V) : Option (BVal V) → Option (BVal V) → Prop where
  | none : Alike w none none
  | val {a b} : w.eq a b = true → Alike w (some (.val a)) (some (.val b))
  | tuple {as bs} : as.length = bs.length → (∀ (i : Nat) a b, as[i]? = some a → bs[i]? = some b → w.eq a b = true) → Alike w (some (.tuple as)) (some (.tuple bs))
  | dict {as bs} : as.length = bs.length → (∀ (i : Nat) a b, as[i]? = some a → bs[i]? = some b → a.1 = b.1 ∧ w.eq a.2 b.2 = true) → Alike w (some (.dict as)) (some (.dict bs))

/-- Two calls bind alike. -/
def BindAlike (w : World V) (sig : Sig V) (c d : List V × PyDict String V) : Prop := ∀ p ∈ sig, Alike w (seen sig c.1 c.2 p) (seen sig d.1 d.2 p)

/-- The function does not distinguish what is found under each other in a dict (such as `1` and `True`). -/
def Respects (w : World V) (sig : Sig V) (f : List V → PyDict String V → Except (Err ε) R) : Prop :=
  ∀ c d, Accepts sig c.1 c.2 → Accepts sig d.1 d.2 → BindAlike w sig c d → f c.1 c.2 = f d.1 d.2

/-- All that the call binds can be hashed. -/
def CanHash (w : World V) (sig : Sig V) (c : List V × PyDict String V) : Prop :=
  ∀ p ∈ sig, match seen sig c.1 c.2 p with
    | none => True
    | some (.val a) => w.hashable a = true
    | some (.tuple as) => ∀ a ∈ as, w.hashable a = true
    | some (.dict as) => ∀ kv ∈ as, w.hashable kv.2 = true

end Unpy.Spec.MemoCall
