import Verif.Model.Intern
/-!
# Live objects
-/
namespace Unpy.Spec.Intern
open Unpy.Intern
variable {K : Type}

/-- There is a reference to object `i`: in the program, or in a call of this code that has not ended. -/
def Alive (st : St K) (i : Nat) : Prop := i ∈ st.held ∨ ∃ t, (st.threads t).ref = some i

/-- Object `i` was created for the key `k` (a name, a UUID, a class). -/
def IsFor (st : St K) (i : Nat) (k : K) : Prop := st.keys[i]? = some k

end Unpy.Spec.Intern
