import Verif.Model.Env
/-!
# Public operations of environments
-/
namespace Unpy.Props
open Unpy Unpy.EnvM
universe u
variable {V : Type u}

/-- The operations of C08: everything except leaving a `with` block (which clears even a finalized env, as
documented) and overwriting the internal variables `_env` and `_finalized`. -/
def PublicOp : Op V → Prop
  | .exit => False
  | .setattr n _ | .setitem n _ | .set n _ | .lshift n _ => n ≠ "_env" ∧ n ≠ "_finalized"
  | _ => True

/-- Client code does not write to the internal variables. -/
def Direct : Op V → Prop
  | .setattr n _ | .setitem n _ | .set n _ | .lshift n _ => n = "_env" ∨ n = "_finalized"
  | _ => False

/-- The value given last for a name in a list of items. -/
def lastGiven (bs : List (String × V)) (x : String) : Option V := (bs.reverse.find? (fun p => p.1 = x)).map Prod.snd

/-- What an operation that succeeds and returns `out` does to the bindings, as a function from names to values. -/
def effect (w : World V) (op : Op V) (out : Out V) (m : String → Option V) : String → Option V :=
  match op, out with
  | .setattr n v, _ | .setitem n v, _ | .set n v, _ | .lshift n v, _ => fun x => if x = n then some v else m x
  | .delattr n, _ | .delitem n, _ | .pop n _, _ => fun x => if x = n then none else m x
  | .popitem, .item k _ => fun x => if x = k then none else m x
  | .clear, _ | .exit, _ => fun _ => none
  | .update ms bs, _ => fun x => (lastGiven (ms.flatten ++ bs) x).or (m x)
  | .setdefault k d, _ => fun x => if x = k then (m k).or (some (d.getD w.none)) else m x
  | _, _ => m

/-- What an operation that succeeds returns. -/
def Answers (w : World V) (m : String → Option V) : Op V → Out V → Prop
  | .setattr _ _, out | .setitem _ _, out | .clear, out | .exit, out | .finalize, out | .update _ _, out => out = .unit
  | .set _ v, out => out = .val v
  | .lshift _ _, out => out = .self
  | .delattr n, out | .delitem n, out => (m n).isSome ∧ out = .unit
  | .getattr n, out | .getitem n, out => ∃ v, m n = some v ∧ out = .val v
  | .get n d, out => out = .val ((m n).getD d)
  | .contains n, out => out = .bool (m n).isSome
  | .len, out => ∃ names : List String, names.Nodup ∧ (∀ x, x ∈ names ↔ (m x).isSome) ∧ out = .nat names.length
  | .pop k d, out => ∃ v, (m k).or d = some v ∧ out = .val v
  | .popitem, out => ∃ k v, m k = some v ∧ out = .item k v
  | .setdefault k d, out => out = .val ((m k).getD (d.getD w.none))

/-- Reading one of these finds an attribute of the class, or an internal variable, instead of a binding. -/
def ReadsAttribute (w : World V) : Op V → Prop
  | .getattr n | .getitem n | .get n _ => w.classAttr n = true ∨ n = "_env" ∨ n = "_finalized"
  | _ => False

/-- Names that cannot be bound at all: the methods `set`, `clear`, `finalize` and two class attributes. -/
def Protected (n : String) : Prop := n = "set" ∨ n = "clear" ∨ n = "finalize" ∨ n = "_direct_write" ∨ n = "_reserved_names"

/-- When an operation raises, and what.  `m`: the bindings; `fin`: the env is finalized; `once`: it is an
`assignonce`, in which a plain assignment may not rebind. -/
def Refuses (w : World V) (once fin : Bool) (m : String → Option V) : Op V → PyErr → Prop
  | .setattr n _, x | .setitem n _, x =>
    (x = .AttributeError ∧ (Protected n ∨ (once = true ∧ m n ≠ none) ∨ (fin = true ∧ m n = none))) ∨
    (x = .ValueError ∧ w.isIdent n = false ∧ ¬ Protected n ∧ (m n ≠ none → once = false) ∧ (m n = none → fin = false))
  | .set n _, x | .lshift n _, x =>
    (x = .AttributeError ∧ (m n = none ∨ Protected n)) ∨
    (x = .ValueError ∧ w.isIdent n = false ∧ m n ≠ none ∧ ¬ Protected n)
  | .getattr n, x | .getitem n, x =>
    (x = .ValueError ∧ w.isIdent n = false) ∨ (x = .AttributeError ∧ w.isIdent n = true ∧ m n = none)
  | .get n _, x => x = .ValueError ∧ w.isIdent n = false ∧ m n ≠ none
  | .delattr n, x | .delitem n, x =>
    (x = .ValueError ∧ w.isIdent n = false) ∨ (x = .TypeError ∧ w.isIdent n = true ∧ fin = true) ∨
    (x = .AttributeError ∧ w.isIdent n = true ∧ fin = false ∧ m n = none)
  | .pop k d, x => (x = .TypeError ∧ fin = true) ∨ (x = .KeyError ∧ fin = false ∧ m k = none ∧ d = none)
  | .popitem, x => (x = .TypeError ∧ fin = true) ∨ (x = .KeyError ∧ fin = false ∧ ∀ k, m k = none)
  | .clear, x => x = .TypeError ∧ fin = true
  | .update ms bs, x =>
    (x = .TypeError ∧ ∃ p ∈ bs, p.1 = "self") ∨
    (x = .ValueError ∧ (¬ ∃ p ∈ bs, p.1 = "self") ∧ 2 ≤ ms.length) ∨
    (x = .AttributeError ∧ (¬ ∃ p ∈ bs, p.1 = "self") ∧ ms.length ≤ 1 ∧ fin = true ∧ ∃ p ∈ ms.flatten ++ bs, m p.1 = none)
  | .setdefault k _, x => x = .AttributeError ∧ fin = true ∧ m k = none
  | .contains _, _ | .len, _ | .finalize, _ | .exit, _ => False

end Unpy.Props
