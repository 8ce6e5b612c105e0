import Verif.Model.Ec
/-!
# Where an escape goes

The unfinished calls and blocks around a point of a program are its *frames*, innermost first.
-/
namespace Unpy.Spec.Ec
open Unpy Unpy.Ec
open Unpy.Fold (Err)
variable {σ ε T V : Type}

/-- An unfinished call or block. -/
inductive Frame (σ ε T V : Type) where
  | catch (tags : Option (List T)) (catch_untagged : Bool) (k : V → Prog σ ε T V)
  | seq (k : V → Prog σ ε T V)
  | tryExcept (h : Err ε → Prog σ ε T V) (k : V → Prog σ ε T V)
  | tryFinally (q : Prog σ ε T V) (k : V → Prog σ ε T V)
  | callEc (n : Nat) (k : V → Prog σ ε T V)

/-- `Active p st q st' fs`: the run of `p` from `st` gets, in state `st'`, to running `q`, with the frames `fs`
still unfinished around it. -/
inductive Active [DecidableEq T] : Prog σ ε T V → St σ → Prog σ ε T V → St σ → List (Frame σ ε T V) → Prop where
  | here {p st} : Active p st p st []
  | look {k st q st' fs} : Active (k st.world) st q st' fs → Active (.look k) st q st' fs
  | put {s k st q st' fs} : Active k { st with world := s } q st' fs → Active (.put s k) st q st' fs
  | inCatch {tags cu p k st q st' fs} : Active p st q st' fs →
      Active (.catch tags cu p k) st q st' (fs ++ [.catch tags cu k])
  | inSeq {p k st q st' fs} : Active p st q st' fs → Active (.seq p k) st q st' (fs ++ [.seq k])
  | inTry {p h k st q st' fs} : Active p st q st' fs →
      Active (.tryExcept p h k) st q st' (fs ++ [.tryExcept h k])
  | inHandler {p h k st e st1 q st' fs} : eval p st = (.error (.err e), st1) → Active (h e) st1 q st' fs →
      Active (.tryExcept p h k) st q st' (fs ++ [.seq k])
  | inTryFinally {p f k st q st' fs} : Active p st q st' fs →
      Active (.tryFinally p f k) st q st' (fs ++ [.tryFinally f k])
  | inCallEc {f k st q st' fs} :
      Active (f st.next) { st with next := st.next + 1, valid := fun i => if i = st.next then true else st.valid i }
        q st' fs →
      Active (.callEc f k) st q st' (fs ++ [.callEc st.next k])
  /-- after a function has returned -/
  | afterSeq {p k st v st1 q st' fs} : eval p st = (.ok v, st1) → Active (k v) st1 q st' fs →
      Active (.seq p k) st q st' fs
  | afterCatch {tags cu p k st v st1 q st' fs} : eval (.catch tags cu p .ret) st = (.ok v, st1) →
      Active (k v) st1 q st' fs → Active (.catch tags cu p k) st q st' fs
  | afterTry {p h k st v st1 q st' fs} : eval (.tryExcept p h .ret) st = (.ok v, st1) →
      Active (k v) st1 q st' fs → Active (.tryExcept p h k) st q st' fs
  | afterTryFinally {p f k st v st1 q st' fs} : eval (.tryFinally p f .ret) st = (.ok v, st1) →
      Active (k v) st1 q st' fs → Active (.tryFinally p f k) st q st' fs
  | afterCallEc {f k st v st1 q st' fs} : eval (.callEc f .ret) st = (.ok v, st1) →
      Active (k v) st1 q st' fs → Active (.callEc f k) st q st' fs

/-- The cells of the table in the documentation of `catch`. -/
inductive Cell where
  | pass | check | caught

/-- The table in the documentation of `catch`: the row by whether the catch point has tags and catches untagged
throws, the column by whether the throw has a tag and allows catch-alls. -/
def table : (hasTags catchUntagged : Bool) → (hasTag allowCatchall : Bool) → Cell
  -- a: no tags
  | false, false, false, false => .pass
  | false, false, false, true => .caught
  | false, false, true, false => .pass
  | false, false, true, true => .caught
  -- b: no tags, catch untagged
  | false, true, false, false => .caught
  | false, true, false, true => .caught
  | false, true, true, false => .pass
  | false, true, true, true => .caught
  -- c: with tags
  | true, false, false, false => .pass
  | true, false, false, true => .pass
  | true, false, true, _ => .check
  -- d: with tags, catch untagged
  | true, true, false, false => .caught
  | true, true, false, true => .caught
  | true, true, true, _ => .check

/-- Does a catch point catch a throw? -/
def Catches (tags : Option (List (Tag T))) (cu : Bool) (tag : Option (Tag T)) (a : Bool) : Prop :=
  match table tags.isSome cu tag.isSome a with
  | .pass => False
  | .caught => True
  | .check => ∃ ts t, tags = some ts ∧ tag = some t ∧ t ∈ ts

/-- Does a frame catch a throw with this tag?  A `call_ec` catches only its own. -/
def Frame.Catches (tag : Option (Tag T)) (a : Bool) : Frame σ ε T V → Prop
  | .catch tags cu _ => Spec.Ec.Catches (tags.map (·.map .user)) cu tag a
  | .callEc n _ => tag = some (.uid n)
  | _ => False

/-- What the program after the frame is. -/
def Frame.cont : Frame σ ε T V → V → Prog σ ε T V
  | .catch _ _ k => k
  | .seq k => k
  | .tryExcept _ k => k
  | .tryFinally _ k => k
  | .callEc _ k => k

/-- The state after leaving a `call_ec`. -/
def expire (n : Nat) (st : St σ) : St σ := { st with valid := fun i => if i = n then false else st.valid i }

open Classical in
/-- How a run goes on when the innermost part has ended with an outcome: a value goes to the next frame; an exception
goes to the first frame that is for it; `finally` blocks run on the way; `call_ec` frames expire. -/
noncomputable def resume [DecidableEq T] : List (Frame σ ε T V) → Except (Exc ε T V) V → St σ →
    Except (Exc ε T V) V × St σ
  | [], out, st => (out, st)
  | .seq k :: fs, .ok v, st => let r := eval (k v) st; resume fs r.1 r.2
  | .seq _ :: fs, .error e, st => resume fs (.error e) st
  | .tryExcept _ k :: fs, .ok v, st => let r := eval (k v) st; resume fs r.1 r.2
  | .tryExcept h k :: fs, .error (.err e), st => let r := eval (.seq (h e) k) st; resume fs r.1 r.2
  | .tryExcept _ _ :: fs, .error e, st => resume fs (.error e) st
  | .tryFinally q k :: fs, .ok v, st => let r := eval (.seq q (fun _ => k v)) st; resume fs r.1 r.2
  | .tryFinally q _ :: fs, .error e, st =>
    match eval q st with
    | (.ok _, st') => resume fs (.error e) st'
    | (.error e', st') => resume fs (.error e') st'
  | .catch _ _ k :: fs, .ok v, st => let r := eval (k v) st; resume fs r.1 r.2
  | .catch tags cu k :: fs, .error (.escape v tag a), st =>
    if Catches (tags.map (·.map .user)) cu tag a then let r := eval (k v) st; resume fs r.1 r.2
    else resume fs (.error (.escape v tag a)) st
  | .catch _ _ _ :: fs, .error e, st => resume fs (.error e) st
  | .callEc n k :: fs, .ok v, st => let r := eval (k v) (expire n st); resume fs r.1 r.2
  | .callEc n k :: fs, .error (.escape v tag a), st =>
    if tag = some (.uid n) then let r := eval (k v) (expire n st); resume fs r.1 r.2
    else resume fs (.error (.escape v tag a)) (expire n st)
  | .callEc n _ :: fs, .error e, st => resume fs (.error e) (expire n st)

/-- The state after leaving these frames by an escape that none of them catches; `none` if a `finally` block does
not end normally. -/
def leave [DecidableEq T] : List (Frame σ ε T V) → St σ → Option (St σ)
  | [], st => some st
  | .tryFinally q _ :: fs, st =>
    match eval q st with
    | (.ok _, st') => leave fs st'
    | (.error _, _) => none
  | .callEc n _ :: fs, st => leave fs (expire n st)
  | _ :: fs, st => leave fs st

/-- The numbers of the `call_ec` frames. -/
def ecs : List (Frame σ ε T V) → List Nat
  | [] => []
  | .callEc n _ :: fs => n :: ecs fs
  | _ :: fs => ecs fs

end Unpy.Spec.Ec
