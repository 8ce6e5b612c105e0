/-!
# Model of the views of expanded `let` and `do` forms (`unpythonic/syntax/letdoutil.py`), of what makes these forms, and of two macros that use the views

Syntax trees, the detection of expanded forms, with and without `autocurry`, and the views that read and write their parts; the last step of the macros `let`, `letrec`,
`dlet`, `dletrec` and `do`; and `autocurry` for calls and lambdas.

Simplifications.  Only the kinds of nodes that are looked at have constructors of their own; all others are `other`, and have none of the attributes `args`, `func`, `elts`
and `keywords`.  Lambdas have positional parameters only; what else is in their `arguments` is not touched here.  Source locations are left out.  The views change trees in
place; here a setter returns the tree as it is afterwards, also if it fails.  That a lambda is renamed although it is not put into the tree in the end is left out.
-/
namespace Unpy.ExpView

/-- The values of `ast.Constant`. -/
inductive Const where
  | str (s : String)
  /-- any other, with what `str` makes of it -/
  | other (s : String)
  deriving DecidableEq

/-- Syntax trees. -/
inductive T where
  | name (id : String)
  /-- a hygienic capture, `q[h[…]]` -/
  | cap (id : String)
  /-- `mcpyrate.core.Done` -/
  | done (body : T)
  | attr (value : T) (attr : String)
  | const (c : Const)
  | tuple (elts : List T)
  | list (elts : List T)
  /-- `lambda ps: body`; the name of a parameter may have been set to None -/
  | lam (ps : List (Option String)) (body : T)
  | call (func : T) (args : List T) (kws : List (String × T))
  | other (kind : String) (parts : List T)

/-- The exceptions. -/
inductive Err where
  | type
  | attribute
  | index
  | value
  | assertion
  | notImplemented
  deriving DecidableEq

/-- `getname` (nameutil.py:77-94) -/
def getname : T → Option String
  | .done t => getname t
  | .name x => some x
  | .cap x => some x
  | .attr _ a => some a
  | _ => none

/-- `isx` (nameutil.py:52-75) -/
def isx (t : T) (x : String) : Bool := getname t = some x

/-- `t.args[i]`; the `args` of a lambda are no list. -/
def arg (i : Nat) : T → Except Err T
  | .call _ args _ => match args[i]? with
    | some t => .ok t
    | none => .error .index
  | .lam _ _ => .error .type
  | _ => .error .attribute

/-- `t.args[i] = f(t.args[i])` -/
def modArg (i : Nat) (f : T → Except Err T) : T → Except Err T
  | .call g args kws => match args[i]? with
    | some t => (f t).map fun t => .call g (args.set i t) kws
    | none => .error .index
  | .lam _ _ => .error .type
  | _ => .error .attribute

/-- `t.args[i] = new` -/
def setArg (i : Nat) (new : T) : T → Except Err T := modArg i fun _ => .ok new

/-- `t.func`, changed -/
def modFunc (f : T → Except Err T) : T → Except Err T
  | .call g args kws => (f g).map fun g => .call g args kws
  | _ => .error .attribute

/-- `t.elts` -/
def elts : T → Except Err (List T)
  | .tuple ts => .ok ts
  | .list ts => .ok ts
  | _ => .error .attribute

/-- `k, v = b.elts` -/
def pair (b : T) : Except Err (T × T) := match elts b with
  | .ok [k, v] => .ok (k, v)
  | .ok _ => .error .value
  | .error e => .error e

/-- `t.args.args[0].arg`, for a lambda -/
def firstParam : List (Option String) → Except Err (Option String)
  | p :: _ => .ok p
  | [] => .error .index

/-- Whether a parameter `mode` is given once, as a constant (letdoutil.py:185-187) -/
def modeOf (kws : List (String × T)) : Except Err Const := match kws.filter fun k => k.1 == "mode" with
  | [(_, .const c)] => .ok c
  | _ => .error .assertion

/-- The first lines of `islet` and `isdo` with `expanded=True` (letdoutil.py:178-184, 297-303): whether the form is curried; `n` is the name of the function that runs it. -/
def form (n : String) : T → Except Err (Option Bool)
  | .call f args _ =>
    if isx f "currycall" then match args with
      | [] => .error .index
      | a :: _ => .ok (if isx a n then some true else none)
    else .ok (if isx f n then some false else none)
  | _ => .ok none

/-- What `islet` finds out. -/
structure Kind where
  curried : Bool
  decorator : Bool
  mode : Const

/-- `islet` (letdoutil.py:139-192), with `expanded=True` -/
def islet (t : T) : Except Err (Option Kind) := match form "letter" t with
  | .error e => .error e
  | .ok none => .ok none
  | .ok (some c) => match t with
    | .call _ _ kws => (modeOf kws).map fun m => some ⟨c, kws.any fun k => k.1 == "_envname", m⟩
    | _ => .ok none

/-- `isdo` (letdoutil.py:279-304), with `expanded=True` -/
def isdo (t : T) : Except Err (Option Bool) := form "dof" t

/-! ## `ExpandedLetView` (letdoutil.py:617-797) -/

structure View where
  tree : T
  kind : Kind
  envname : Option String

/-- The tuple of the bindings (letdoutil.py:702, 736) -/
def theBindings (c : Bool) (t : T) : Except Err T := arg (if c then 1 else 0) t

/-- The lambda in `namelambda(…)(lambda …: …)` (letdoutil.py:710, 716, 779-782, 857, 860) -/
def unwrap (c : Bool) (t : T) : Except Err T := if c then (match arg 1 t with
  | .ok t => arg 0 t
  | .error e => .error e) else arg 0 t

/-- The loop of `_getbindings` (letdoutil.py:708-716) -/
def unwrapAll (c : Bool) : List T → Except Err (List T)
  | [] => .ok []
  | b :: bs => match pair b with
    | .error e => .error e
    | .ok (k, v) => match unwrap c v with
      | .error e => .error e
      | .ok v => (unwrapAll c bs).map (.tuple [k, v] :: ·)

/-- `_getbindings` (letdoutil.py:698-719) -/
def getBindings (k : Kind) (t : T) : Except Err T := match theBindings k.curried t with
  | .error e => .error e
  | .ok b => if k.mode = .str "letrec" then (match elts b with
      | .error e => .error e
      | .ok bs => (unwrapAll k.curried bs).map .tuple) else .ok b

/-- `_getbody` (letdoutil.py:772-782) -/
def getBody (k : Kind) (t : T) : Except Err T :=
  if k.decorator then .error .type else match arg (if k.curried then 2 else 1) t with
    | .ok t => unwrap k.curried t
    | .error e => .error e

/-- `lam.args.args[0].arg`, if it is a lambda (letdoutil.py:675-677, 690-693, 843-845) -/
def lambdaParam : T → Except Err (Option String)
  | .lam ps _ => firstParam ps
  | _ => .error .type

/-- The first part of `_deduce_envname` (letdoutil.py:673-677) -/
def envOfBody (k : Kind) (t : T) : Except Err (Option String) := match getBody k t with
  | .ok b => lambdaParam b
  | .error e => .error e

/-- The second part of `_deduce_envname` (letdoutil.py:681-693) -/
def envOfBindings (k : Kind) (t : T) : Except Err (Option String) :=
  if k.mode = .str "letrec" then match getBindings k t with
    | .error e => .error e
    | .ok b => match elts b with
      | .error e => .error e
      | .ok [] => .error .value
      | .ok (b :: _) => match pair b with
        | .error e => .error e
        | .ok (_, v) => lambdaParam v
  else .ok none

/-- `_deduce_envname` (letdoutil.py:671-696): an IndexError is not caught. -/
def envname (k : Kind) (t : T) : Except Err (Option String) := match envOfBody k t with
  | .ok e => .ok e
  | .error .type | .error .attribute => (match envOfBindings k t with
    | .ok e => .ok e
    | .error .type | .error .attribute | .error .value => .ok none
    | .error e => .error e)
  | .error e => .error e

/-- `__init__` (letdoutil.py:660-669) -/
def letView (t : T) : Except Err View := match islet t with
  | .error e => .error e
  | .ok none => .error .type
  | .ok (some k) => (envname k t).map fun e => ⟨t, k, e⟩

/-- `view.bindings` (letdoutil.py:698-719) -/
def View.bindings (v : View) : Except Err T := getBindings v.kind v.tree
/-- `view.body` (letdoutil.py:772-782) -/
def View.body (v : View) : Except Err T := getBody v.kind v.tree

/-- `newv.args.args[0].arg = envname` (letdoutil.py:750, 756, 788, 876, 883), after the test whether it is a lambda -/
def inject (e : Option String) : T → Except Err T
  | .lam (_ :: ps) b => .ok (.lam (e :: ps) b)
  | .lam [] _ => .error .index
  | _ => .error .type

/-- The new name of the function (letdoutil.py:752, 759) -/
def label : T → T
  | .const (.str s) => .const (.str ("letrec_binding_" ++ s))
  | .const (.other s) => .const (.str ("letrec_binding_" ++ s))
  | t => t

/-- Put a new lambda into `namelambda(…)(lambda …: …)` (letdoutil.py:751, 757, 793-796, 877, 884) -/
def rewrap (c : Bool) (new : T) : T → Except Err T := if c then modArg 1 (setArg 0 new) else setArg 0 new

/-- Change the name in it (letdoutil.py:752, 759) -/
def relabel (c : Bool) (l : T) : T → Except Err T := if c then modArg 0 (setArg 1 l) else modFunc (setArg 0 l)

/-- One turn of the loop of `_setbindings` (letdoutil.py:742-759): the value as it is afterwards, and the exception -/
def setValue (c : Bool) (e : Option String) (thev newk newv : T) : T × Option Err := match inject e newv with
  | .error x => (thev, some x)
  | .ok newv => match rewrap c newv thev with
    | .error x => (thev, some x)
    | .ok thev => match relabel c (label newk) thev with
      | .error x => (thev, some x)
      | .ok thev => (thev, none)

/-- The loop of `_setbindings` (letdoutil.py:741-767).  The values are changed one after the other; the keys are changed at the end.  The result is the list of
bindings as it is afterwards. -/
def setValues (c : Bool) (e : Option String) : List T → List T → Except (List T × Err) (List T)
  | b :: bs, n :: ns => match pair b, pair n with
    | .ok (k, thev), .ok (newk, newv) => (match setValue c e thev newk newv with
      | (thev, some x) => .error (.tuple [k, thev] :: bs, x)
      | (thev, none) => match setValues c e bs ns with
        | .error (bs, x) => .error (.tuple [k, thev] :: bs, x)
        | .ok bs => .ok (.tuple [newk, thev] :: bs))
    | .error x, _ => .error (b :: bs, x)
    | _, .error x => .error (b :: bs, x)
  | bs, _ => .ok bs

/-- Whether the new bindings are pairs (letdoutil.py:723-726) -/
def isPair : T → Bool
  | .tuple [_, _] => true
  | _ => false
/-- Whether the key is a constant (letdoutil.py:729-732) -/
def constKey : T → Bool
  | .tuple (.const _ :: _) => true
  | _ => false

/-- The checks of `_setbindings` (letdoutil.py:721-732): the new bindings, as a list -/
def checkBindings (v : View) : T → Except Err (List T)
  | .tuple ns =>
    if ns.all isPair then match v.bindings with
      | .error e => .error e
      | .ok b => match elts b with
        | .error e => .error e
        | .ok bs =>
          if ns.length ≠ bs.length then .error .notImplemented
          else if ns.all constKey then .ok ns
          else .error .type
    else .error .type
  | _ => .error .type

/-- `thebindings.elts = …` -/
def setElts (bs : List T) : T → Except Err T
  | .tuple _ => .ok (.tuple bs)
  | .list _ => .ok (.list bs)
  | _ => .error .attribute

/-- The bindings are changed in place in the tree (letdoutil.py:736, 767-769). -/
def putBindings (v : View) (bs : List T) : View := match modArg (if v.kind.curried then 1 else 0) (setElts bs) v.tree with
  | .ok t => { v with tree := t }
  | .error _ => v

/-- `_setbindings` (letdoutil.py:720-769): the view afterwards, and the exception -/
def View.setBindings (v : View) (new : T) : View × Option Err := match checkBindings v new with
  | .error e => (v, some e)
  | .ok ns =>
    if v.kind.mode = .str "letrec" then match theBindings v.kind.curried v.tree with
      | .error e => (v, some e)
      | .ok b => match elts b with
        | .error e => (v, some e)
        | .ok bs => match setValues v.kind.curried v.envname bs ns with
          | .error (bs, x) => (putBindings v bs, some x)
          | .ok bs => (putBindings v bs, none)
    else (putBindings v ns, none)

/-- `_setbody` (letdoutil.py:783-796) -/
def View.setBody (v : View) (new : T) : View × Option Err :=
  if v.kind.decorator then (v, some .type) else match inject v.envname new with
    | .error e => (v, some e)
    | .ok new => match modArg (if v.kind.curried then 2 else 1) (rewrap v.kind.curried new) v.tree with
      | .error e => (v, some e)
      | .ok t => ({ v with tree := t }, none)

/-! ## `ExpandedDoView` (letdoutil.py:799-885) -/

structure DoView where
  tree : T
  curried : Bool
  envname : Option String

/-- `theitems` (letdoutil.py:856, 859, 872, 879) -/
def items (c : Bool) : T → Except Err (List T)
  | .call _ args _ => .ok (if c then args.drop 1 else args)
  | _ => .error .attribute

/-- `_getbody` (letdoutil.py:850-860) -/
def unwrapItems (c : Bool) : List T → Except Err (List T)
  | [] => .ok []
  | t :: ts => match unwrap c t with
    | .error e => .error e
    | .ok t => (unwrapItems c ts).map (t :: ·)

def getItems (c : Bool) (t : T) : Except Err (List T) := match items c t with
  | .error e => .error e
  | .ok ts => unwrapItems c ts

/-- `_deduce_envname` (letdoutil.py:836-848) -/
def doEnvname (c : Bool) (t : T) : Except Err (Option String) := match (match getItems c t with
    | .error e => .error e
    | .ok [] => .error .value
    | .ok (t :: _) => lambdaParam t : Except Err (Option String)) with
  | .ok e => .ok e
  | .error .type | .error .attribute | .error .value => .ok none
  | .error e => .error e

/-- `__init__` (letdoutil.py:828-834) -/
def doView (t : T) : Except Err DoView := match isdo t with
  | .error e => .error e
  | .ok none => .error .type
  | .ok (some c) => (doEnvname c t).map fun e => ⟨t, c, e⟩

/-- `view.body` (letdoutil.py:850-860) -/
def DoView.body (v : DoView) : Except Err (List T) := getItems v.curried v.tree

/-- The loop of `_setbody` (letdoutil.py:873-884): the items as they are afterwards, and the exception -/
def setItems (c : Bool) (e : Option String) : List T → List T → List T × Option Err
  | old :: os, new :: ns => match inject e new with
    | .error x => (old :: os, some x)
    | .ok new => match rewrap c new old with
      | .error x => (old :: os, some x)
      | .ok old => (old :: (setItems c e os ns).1, (setItems c e os ns).2)
  | os, _ => (os, none)

/-- `_setbody` (letdoutil.py:861-884); what is assigned is a list. -/
def DoView.setBody (v : DoView) (new : List T) : DoView × Option Err := match v.body with
  | .error e => (v, some e)
  | .ok old => if new.length ≠ old.length then (v, some .notImplemented) else match v.tree with
    | .call f args kws => if v.curried then
        ({ v with tree := .call f (args.take 1 ++ (setItems true v.envname (args.drop 1) new).1) kws }, (setItems true v.envname (args.drop 1) new).2)
      else ({ v with tree := .call f (setItems false v.envname args new).1 kws }, (setItems false v.envname args new).2)
    | _ => (v, some .attribute)

/-! ## What makes these forms -/

/-- `h[namelambda](u[l])(a[f])` (letdo.py:402, 405, 912) -/
def named (l : String) (f : T) : T := .call (.call (.cap "namelambda") [.const (.str l)] []) [f] []

/-- `letrec_binding{j}_{lhs}` (letdo.py:402-403, 539-540) -/
def nameValues (names : List String) : Nat → List T → List T
  | j, v :: vs => match names with
    | n :: ns => named ("letrec_binding" ++ toString j ++ "_" ++ n) v :: nameValues ns (j + 1) vs
    | [] => []
  | _, [] => []

/-- `[q[(u[k], a[v])] for k, v in zip(names, values)]` (letdo.py:414, 547) -/
def pairUp (names : List String) (values : List T) : T := .tuple (List.zipWith (fun k v => .tuple [.const (.str k), v]) names values)

def modeName (letrec : Bool) : String := if letrec then "letrec" else "let"

/-- The end of `_let_expr_impl` (letdo.py:400-416); the values of a `letrec`, and the body, are lambdas already (`_envwrap`, 488-492). -/
def letExpr (letrec : Bool) (names : List String) (values : List T) (body : T) : T :=
  .call (.cap "letter") [pairUp names (if letrec then nameValues names 1 values else values), named (modeName letrec ++ "_body") body]
    [("mode", .const (.str (modeName letrec)))]

/-- The decorator made by `_let_decorator_impl` (letdo.py:537-554) -/
def letDecorator (letrec : Bool) (e : String) (names : List String) (values : List T) : T :=
  .call (.cap "letter") [pairUp names (if letrec then nameValues names 1 values else values)]
    [("mode", .const (.str (modeName letrec))), ("_envname", .const (.str e))]

/-- The lines of `_do` (letdo.py:890-914) -/
def nameLines : Nat → List T → List T
  | j, v :: vs => named ("do_line" ++ toString j) v :: nameLines (j + 1) vs
  | _, [] => []

/-- The end of `_do` (letdo.py:915-920) -/
def doExpr (lines : List T) : T := .call (.cap "dof") (nameLines 1 lines) []

/-! ## `autocurry` -/

/-- `is_decorated_lambda(tree, mode="any")` (syntax/util.py:161-187), and whether one of the decorators is `curry` (`has_curry`, syntax/util.py:216-248) -/
def hasCurry : T → Bool × Bool
  | .call f [a] _ =>
    let here := isx f "curry" || (match f with
      | .call g _ _ => isx g "curry"
      | _ => false)
    match a with
    | .lam _ _ => (true, here)
    | a => ((hasCurry a).1, here || (hasCurry a).2)
  | _ => (false, false)

/-- `_iscurry` (autocurry.py:78) -/
def isCurryName (t : T) : Bool := isx t "curry" || isx t "currycall"

/-- `Values(…)` and `chain_conts(…)(…)` (autocurry.py:103-104) -/
def uncurried (f : T) : Bool := isx f "Values" || (match f with
  | .call g _ _ => isx g "chain_conts"
  | _ => false)

mutual
/-- `AutoCurryTransformer` (autocurry.py:81-136), for expressions; `h` is the state `hascurry`, which is inherited by what is inside. -/
def autocurry (h : Bool) : T → T
  | .cap x => .cap x
  | .call f args kws =>
    if uncurried f then .call f (autocurries h args) (autocurryKws h kws)
    else
      let h' := h || ((hasCurry (.call f args kws)).1 && (hasCurry (.call f args kws)).2)
      if isCurryName f then .call (autocurry h' f) (autocurries h' args) (autocurryKws h' kws)
      else .call (.cap "currycall") (autocurry h' f :: autocurries h' args) (autocurryKws h' kws)
  | .lam ps b => if h then .lam ps (autocurry h b) else .call (.cap "curryf") [.lam ps (autocurry false b)] []
  | .name x => .name x
  | .done t => .done (autocurry h t)
  | .attr t a => .attr (autocurry h t) a
  | .const c => .const c
  | .tuple ts => .tuple (autocurries h ts)
  | .list ts => .list (autocurries h ts)
  | .other k ts => .other k (autocurries h ts)
def autocurries (h : Bool) : List T → List T
  | [] => []
  | t :: ts => autocurry h t :: autocurries h ts
def autocurryKws (h : Bool) : List (String × T) → List (String × T)
  | [] => []
  | (k, t) :: ts => (k, autocurry h t) :: autocurryKws h ts
end

/-! ## Two macros that use the views -/

/-- `with autoref` takes the name of the environment from the form (autoref.py:228-233); none if the node is no such form. -/
def autorefEnv (t : T) : Except Err (Option (Option String)) := match islet t with
  | .error e => .error e
  | .ok (some _) => (match letView t with
    | .error e => .error e
    | .ok v => match v.body with
      | .error e => .error e
      | .ok b => (match b with
        | .lam ps _ => (firstParam ps).map some
        | _ => .error .attribute))
  | .ok none => match isdo t with
    | .error e => .error e
    | .ok none => .ok none
    | .ok (some _) => match doView t with
      | .error e => .error e
      | .ok v => match v.body with
        | .error e => .error e
        | .ok [] => .error .index
        | .ok (b :: _) => match b with
          | .lam ps _ => (firstParam ps).map some
          | _ => .error .attribute

/-- `thelambda.body = f(thelambda.body)` -/
def modLambda (f : T → T) : T → Except Err T
  | .lam ps b => .ok (.lam ps (f b))
  | _ => .error .attribute

/-- `unwrap`, changed in place -/
def modUnwrap (c : Bool) (f : T → Except Err T) : T → Except Err T := if c then modArg 1 (modArg 0 f) else modArg 0 f

/-- Change the value of a binding; `view.bindings` looks into it if the mode is `"letrec"` (lazify.py:713-719) -/
def modValue (m : Const) (c : Bool) (f : T → T) (v : T) : Except Err T :=
  if m = .str "let" then .ok (f v)
  else if m = .str "letrec" then modUnwrap c (modLambda f) v
  else modLambda f v

/-- The loops over the bindings (lazify.py:714-719) -/
def modValues (m : Const) (c : Bool) (f : T → T) : List T → Except Err (List T)
  | [] => .ok []
  | b :: bs => match pair b with
    | .error e => .error e
    | .ok (k, v) => match modValue m c f v with
      | .error e => .error e
      | .ok v => (modValues m c f bs).map (.tuple [k, v] :: ·)

/-- The same for the whole tuple -/
def modBindings (m : Const) (c : Bool) (f : T → T) (b : T) : Except Err T := match elts b with
  | .error e => .error e
  | .ok bs => match modValues m c f bs with
    | .error e => .error e
    | .ok bs => setElts bs b

/-- `with lazify` at an expanded `let` (lazify.py:711-723); `f` is `transform_arg`, `g` is `visit`; none if the node is no such form. -/
def lazifyLet (f g : T → T) (t : T) : Except Err (Option T) := match islet t with
  | .error e => .error e
  | .ok none => .ok none
  | .ok (some k) => match letView t with
    | .error e => .error e
    | .ok v => match modArg (if k.curried then 1 else 0) (modBindings k.mode k.curried f) v.tree with
      | .error e => .error e
      | .ok t => match getBody k t with
        | .error e => .error e
        | .ok _ => (modArg (if k.curried then 2 else 1) (modUnwrap k.curried (modLambda g)) t).map some

end Unpy.ExpView
