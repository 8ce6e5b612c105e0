import Verif.Model.Ec
/-!
# Model of the tags of `catch` and `throw` (`unpythonic/ec.py`)

The tags are kept in a set, which needs hash values; in `Verif.Model.Ec` all tags have one.  Simplified: objects that are equal have the same hash value, and computing it does nothing else; a
`set`, for which Python looks up the `frozenset` instead, is not considered as a tag.
-/
namespace Unpy.EcTags
open Unpy Unpy.Ec
open Unpy.Fold (Err)
variable {ε T V : Type} [DecidableEq T]

/-- `catch(tags)` (ec.py:179-183): what the decorator keeps -/
def makeTags (hashable : T → Bool) : Option (List T) → Res (Option (List T))
  | none => .ok none
  | some ts => if ts.all hashable then .ok (some ts) else .error .TypeError

/-- `shouldcatch` (ec.py:185-188) -/
def shouldcatch (hashable : T → Bool) (tags : Option (List T)) (catch_untagged : Bool) (tag : Option T) (allow_catchall : Bool) : Res Bool :=
  if tags.isNone && allow_catchall then .ok true
  else if catch_untagged && tag.isNone then .ok true
  else match tags, tag with
    | some ts, some t => if hashable t then .ok (decide (t ∈ ts)) else .error .TypeError
    | _, _ => .ok false

/-- `catchpoint` (ec.py:191-199): what becomes of the outcome of the function.  An exception of `shouldcatch` is raised in place of the `Escape`. -/
def catchpoint (hashable : T → Bool) (tags : Option (List T)) (catch_untagged : Bool) : Except (Exc ε T V) V → Except (Exc ε T V) V
  | .ok v => .ok v
  | .error (.escape v (some (.uid n)) a) => .error (.escape v (some (.uid n)) a)   -- of `call_ec`, see `Verif.Model.Ec`
  | .error (.escape v (some (.user t)) a) =>
    match shouldcatch hashable tags catch_untagged (some t) a with
    | .error e => .error (.err (.py e))
    | .ok true => .ok v
    | .ok false => .error (.escape v (some (.user t)) a)
  | .error (.escape v none a) =>
    match shouldcatch hashable tags catch_untagged none a with
    | .error e => .error (.err (.py e))
    | .ok true => .ok v
    | .ok false => .error (.escape v none a)
  | .error (.err e) => .error (.err e)

/-- A call of a function decorated with `@catch(tags, catch_untagged)`, of which the outcome without that is known -/
def callCatch (hashable : T → Bool) (tags : Option (List T)) (catch_untagged : Bool) (out : Except (Exc ε T V) V) : Except (Exc ε T V) V :=
  match makeTags hashable tags with
  | .error e => .error (.err (.py e))
  | .ok tags => catchpoint hashable tags catch_untagged out

end Unpy.EcTags
