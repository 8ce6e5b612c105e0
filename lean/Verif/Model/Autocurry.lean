/-!
# Model of the `autocurry` macro (`unpythonic/syntax/autocurry.py`)

Programs with functions, calls, `Values(...)`, output and `curry` written by hand; what the macro makes of them; and what the result does
when it runs, with `curry` and `_currycall` of `unpythonic/fun.py`.

Simplifications.  Arguments are positional; the last parameters may have defaults.  A function body is one expression.  A definition is
an expression, `def x(...): return ...` with the rest of the program in it; it has no other decorators than those of the macro.  `curry` written
by hand has one argument.  The code outside the `with` block is marked in the program (`leave`), wherever it is.  Decorators of lambdas
are not sorted afterwards (`Model/Deco.lean` is about that), no other macros are in the block, and there is no `chain_conts`.
-/
namespace Unpy.Autocurry

mutual
/-- Programs as they are written. -/
inductive E where
  | int (n : Int)
  | name (x : String)
  | sub (a b : E)
  /-- `b if t else e` -/
  | ite (b t e : E)
  /-- `lambda ps: e`; the last parameters have the defaults `ds`. -/
  | lam (ps : List String) (ds : Es) (e : E)
  | call (f : E) (args : Es)
  | tuple (es : Es)
  /-- `Values(...)` -/
  | values (es : Es)
  /-- A builtin that shows a number and returns it; its signature is not known to `inspect`. -/
  | show
  /-- `curry(e)` -/
  | curry (e : E)
  /-- `def x(ps): return e`, and then the rest -/
  | fdef (x : String) (ps : List String) (ds : Es) (e : E) (rest : E)
  /-- Code outside of the block. -/
  | leave (e : E)
inductive Es where
  | nil
  | cons (e : E) (es : Es)
end

mutual
/-- Expanded programs. -/
inductive T where
  | int (n : Int)
  | name (x : String)
  | sub (a b : T)
  | ite (b t e : T)
  /-- A lambda; with `c`, `curryf(lambda ...: ...)`. -/
  | lam (c : Bool) (ps : List String) (ds : Ts) (e : T)
  /-- A call; with `c`, `currycall(f, *args)`. -/
  | call (c : Bool) (f : T) (args : Ts)
  | tuple (es : Ts)
  | values (es : Ts)
  | show
  | curry (e : T)
  /-- A definition; with `c`, decorated with `@curryf`. -/
  | fdef (c : Bool) (x : String) (ps : List String) (ds : Ts) (e : T) (rest : T)
  /-- Code outside of the block. -/
  | leave (e : T)
inductive Ts where
  | nil
  | cons (e : T) (es : Ts)
end

/-! ## The macro -/

/-- `is_decorated_lambda(tree, mode="any")` (syntax/util.py:161-187): calls with one argument around a lambda. -/
def isDecoratedLambda : E → Bool
  | .call _ (.cons e .nil) | .values (.cons e .nil) | .curry e => match e with
    | .lam .. => true
    | e => isDecoratedLambda e
  | _ => false

/-- Whether one of the calls is `is_lambda_decorator(x, "curry")` (syntax/util.py:139-159): its function is `curry` or a call of `curry`
(`is_decorator`, syntax/util.py:122-137). -/
def curryAmong : E → Bool
  | .curry _ => true
  | .call f (.cons e .nil) => (match f with
    | .curry _ => true
    | _ => false) || curryAmong e
  | .values (.cons e .nil) => curryAmong e
  | _ => false

/-- `has_curry` (syntax/util.py:216-244) for calls. -/
def hasCurry (e : E) : Bool := isDecoratedLambda e && curryAmong e

mutual
/-- Code that the macro leaves as it is. -/
def untouched : E → T
  | .int n => .int n
  | .name x => .name x
  | .sub a b => .sub (untouched a) (untouched b)
  | .ite b t e => .ite (untouched b) (untouched t) (untouched e)
  | .lam ps ds e => .lam false ps (untouchedAll ds) (untouched e)
  | .call f args => .call false (untouched f) (untouchedAll args)
  | .tuple es => .tuple (untouchedAll es)
  | .values es => .values (untouchedAll es)
  | .show => .show
  | .curry e => .curry (untouched e)
  | .fdef x ps ds e rest => .fdef false x ps (untouchedAll ds) (untouched e) (untouched rest)
  | .leave e => .leave (untouched e)
def untouchedAll : Es → Ts
  | .nil => .nil
  | .cons e es => .cons (untouched e) (untouchedAll es)
end

mutual
/-- `AutoCurryTransformer` (autocurry.py:81-136); `h` is the state `hascurry`, which is inherited by what is inside. -/
def auto (h : Bool) : E → T
  | .int n => .int n
  | .name x => .name x
  | .sub a b => .sub (auto h a) (auto h b)
  | .ite b t e => .ite (auto h b) (auto h t) (auto h e)
  | .lam ps ds e =>  -- autocurry.py:127-134; only the body is visited, not the defaults
    if h then .lam false ps (autoAll true ds) (auto true e)
    else .lam true ps (untouchedAll ds) (auto false e)
  | .call f args =>  -- autocurry.py:109-117
    let h' := h || hasCurry (.call f args)
    .call true (auto h' f) (autoAll h' args)
  | .tuple es => .tuple (autoAll h es)
  | .values es => .values (autoAll h es)  -- autocurry.py:103-108
  | .show => .show
  | .curry e => .curry (auto (h || hasCurry (.curry e)) e)  -- autocurry.py:109-117; the call itself is left as it is
  | .fdef x ps ds e rest => .fdef true x ps (autoAll h ds) (auto h e) (auto h rest)  -- autocurry.py:119-125
  | .leave e => .leave (untouched e)
def autoAll (h : Bool) : Es → Ts
  | .nil => .nil
  | .cons e es => .cons (auto h e) (autoAll h es)
end

/-- `with autocurry` (autocurry.py:138-140). -/
def autocurry (e : E) : T := auto false e

/-! ## What programs do -/

inductive Err where
  | name
  /-- TypeError of an operation -/
  | type
  /-- TypeError of a call: what is called is no function, or is not to be called with so many arguments -/
  | call
  | value
  | recursion
  deriving DecidableEq

/-- A computation: what was shown, the last first. -/
abbrev M (α : Type) := List Int → Except Err α × List Int

def M.pure {α : Type} (a : α) : M α := fun s => (.ok a, s)
def M.fail {α : Type} (e : Err) : M α := fun s => (.error e, s)
def M.bind {α β : Type} (m : M α) (k : α → M β) : M β := fun s =>
  match m s with
  | (.ok a, s) => k a s
  | (.error e, s) => (.error e, s)
/-- Show a number. -/
def M.emit (n : Int) : M Unit := fun s => (.ok (), n :: s)

/-- Values.  A function may be curried; it may have a name by which it knows itself, as it was defined, curried or not; `pend` are the arguments it has been given already
(as a `functools.partial`). -/
inductive V where
  | int (n : Int)
  | tuple (vs : List V)
  | values (vs : List V)
  | show
  | fn (c : Bool) (x : Option (Bool × String)) (ps : List String) (ds : List V) (t : T) (env : List (String × V)) (pend : List V)

def find {α : Type} (x : String) : List (String × α) → Option α
  | [] => none
  | (y, v) :: env => if x = y then some v else find x env

/-- `callable` -/
def callable : V → Bool
  | .show | .fn .. => true
  | _ => false

/-- Whether a value counts as true. -/
def truth : V → Bool
  | .int n => n ≠ 0
  | .tuple vs => !vs.isEmpty
  | _ => true

/-- The variables in the body of a function that is called with these arguments. -/
def frame (x : Option (Bool × String)) (ps : List String) (ds : List V) (t : T) (env : List (String × V)) (args : List V) :
    List (String × V) :=
  ps.zip (args ++ ds.drop (args.length - (ps.length - ds.length))) ++ (match x with
    | some (c, y) => (y, .fn c x ps ds t env []) :: env
    | none => env)

/-- What `curried` decides to do with these arguments (`_decide_curry_action`, fun.py:515-521; functions that are not generic). -/
inductive Action where
  | call
  | passthrough (extra : Nat)
  | keepCurrying

def decide (ps : List String) (ds : List V) (args : List V) : Action :=
  if args.length < ps.length - ds.length then .keepCurrying
  else if args.length ≤ ps.length then .call
  else .passthrough (args.length - ps.length)

/-- `curry(f)` without arguments (fun.py:306-334). -/
def curryV : V → M V
  | .show => M.fail .value
  | .fn _ x ps ds t env pend => M.pure (.fn true x ps ds t env pend)
  | v => M.pure v

/-- The results of the function and the arguments to come: what is to be called, if it is callable, and with which arguments
(fun.py:377-432). -/
def leftmost (r : V) (later : List V) : Option V × List V :=
  match r with
  | .values (l :: others) => if callable l then (some l, others ++ later) else (none, l :: others ++ later)
  | .values [] => (none, later)
  | r => if callable r then (some r, later) else (none, r :: later)

/-- `curried` of `curry` (fun.py:336-444), for a function with these parameters that has been given `pend` already: `run` calls it, `again` is a
call of another function, both in a curry context; `wait` is the partial application. -/
def curried (ctx : Bool) (run : List V → M V) (again : V → List V → M V) (wait : List V → V) (ps : List String) (ds pend args : List V) : M V :=
  match decide ps ds (pend ++ args) with
  | .call => run (pend ++ args)
  | .passthrough extra =>
    (run (pend ++ args.take (args.length - extra))).bind fun r =>
      match leftmost r (args.drop (args.length - extra)) with
      | (some l, later) => (curryV l).bind fun l => again l later
      | (none, later) => if ctx then M.pure (.values later) else M.fail .call
  | .keepCurrying => M.pure (wait (pend ++ args))

mutual
/-- Evaluate an expression; `ctx` is whether `dyn.curry_context` has any items. -/
def eval : Nat → Bool → List (String × V) → T → M V
  | 0, _, _, _ => M.fail .recursion
  | _ + 1, _, _, .int n => M.pure (.int n)
  | _ + 1, _, env, .name x => match find x env with
    | some v => M.pure v
    | none => M.fail .name
  | n + 1, ctx, env, .sub a b => (eval n ctx env a).bind fun v => (eval n ctx env b).bind fun w => match v, w with
    | .int v, .int w => M.pure (.int (v - w))
    | _, _ => M.fail .type
  | n + 1, ctx, env, .ite b t e => (eval n ctx env t).bind fun v => if truth v then eval n ctx env b else eval n ctx env e
  | n + 1, ctx, env, .lam c ps ds e => (evalAll n ctx env ds).bind fun ds => M.pure (.fn c none ps ds e env [])
  | n + 1, ctx, env, .call c f args => (eval n ctx env f).bind fun f => (evalAll n ctx env args).bind fun vs => call n c ctx f vs
  | n + 1, ctx, env, .tuple es => (evalAll n ctx env es).bind fun vs => M.pure (.tuple vs)
  | n + 1, ctx, env, .values es => (evalAll n ctx env es).bind fun vs => M.pure (.values vs)
  | _ + 1, _, _, .show => M.pure .show
  | n + 1, ctx, env, .curry e => (eval n ctx env e).bind curryV
  | n + 1, ctx, env, .fdef c x ps ds e rest => (evalAll n ctx env ds).bind fun ds =>
    eval n ctx ((x, .fn c (some (c, x)) ps ds e env []) :: env) rest
  | n + 1, ctx, env, .leave e => eval n ctx env e
termination_by structural n => n
/-- Evaluate arguments. -/
def evalAll : Nat → Bool → List (String × V) → Ts → M (List V)
  | 0, _, _, _ => M.fail .recursion
  | _ + 1, _, _, .nil => M.pure []
  | n + 1, ctx, env, .cons e es => (eval n ctx env e).bind fun v => (evalAll n ctx env es).bind fun vs => M.pure (v :: vs)
termination_by structural n => n
/-- A call of Python; with `c`, `_currycall` (fun.py:453-466), which is `curry` with arguments, or made to call (fun.py:306-334, 448-451). -/
def call : Nat → Bool → Bool → V → List V → M V
  | 0, _, _, _, _ => M.fail .recursion
  | n + 1, c, ctx, .fn c' x ps ds t env pend, vs =>
    if c || c' then
      curried ctx (fun args => eval n true (frame x ps ds t env args) t) (fun f args => call n false true f args)
        (fun args => .fn true x ps ds t env args) ps ds pend vs
    else if ps.length - ds.length ≤ vs.length ∧ vs.length ≤ ps.length then eval n ctx (frame x ps ds t env vs) t
    else M.fail .call
  | _ + 1, _, _, .show, vs => match vs with
    | [.int n] => (M.emit n).bind fun _ => M.pure (.int n)
    | _ => M.fail .type
  | _ + 1, c, _, v, _ => if c then M.pure v else M.fail .call
termination_by structural n => n
end

end Unpy.Autocurry
