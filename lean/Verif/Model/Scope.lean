/-!
# Model of the queries of the scope analyzer (syntax/scopeanalyzer.py:89-93, 166-468)

`scoped_transform` (syntax/scopeanalyzer.py:95-164), which walks a tree with the help of these functions, is in `Model/Dlet.lean`.

Not modelled: the identity and the order of the fields of the nodes of Python's `ast` module that the analyzer treats alike (they are all `other`); `TypeAlias`, type parameters.
-/
namespace Unpy.Scope

inductive Ctx where
  | load | store | del
  deriving DecidableEq, Repr

/-- the class of a comprehension -/
inductive Comp where
  | list | set | gen | dict
  deriving DecidableEq, Repr

/-- The parameters of a function, `ast.arguments`, without the default values and annotations: they are with the other parts of the function that the surrounding scope evaluates. -/
structure Params where
  posonly : List String := []
  args : List String := []
  vararg : Option String := none
  kwonly : List String := []
  kwarg : Option String := none
  deriving DecidableEq, Repr

/-- `import head.tail… as asname`: the name is given as its parts between the dots -/
structure Dotted where
  head : String
  tail : List String := []
  asname : Option String := none
  deriving DecidableEq, Repr

/-- The name as it is in the AST -/
def Dotted.full (d : Dotted) : String := String.intercalate "." (d.head :: d.tail)

/-- Trees of Python's AST.  A node that makes a new scope has its parts in two groups: `outer` are those that Python evaluates in the surrounding scope. -/
inductive Tree where
  | name (id : String) (ctx : Ctx)
  /-- mcpyrate's marker around expanded names -/
  | done (body : Tree)
  | tuple (elts : List Tree)
  /-- `FunctionDef`, `AsyncFunctionDef`; `outer`: decorators, default values, annotations -/
  | func (isAsync : Bool) (name : String) (params : Params) (outer body : List Tree)
  /-- `outer`: default values -/
  | lam (params : Params) (outer : List Tree) (body : Tree)
  /-- `outer`: keyword arguments and decorators -/
  | cls (name : String) (bases outer body : List Tree)
  /-- The targets of the generators, the iterator of the first generator, and the rest: the other iterators, the conditions, the elements -/
  | comp (c : Comp) (targets : List Tree) (iter : Tree) (rest : List Tree)
  | imp (names : List Dotted)
  /-- `from … import name as asname, …`; the name may be `*` -/
  | importFrom (names : List (String × Option String))
  /-- `Try`, `TryStar`: the names of the handlers, if they have one; all the bodies and exception types -/
  | try_ (handlers : List (Option String)) (parts : List Tree)
  /-- `MatchAs`, which is also the pattern of a captured name, and with no name `_`; `MatchStar` -/
  | matchAs (name : Option String) (parts : List Tree)
  | matchStar (name : Option String)
  | matchMapping (rest : Option String) (parts : List Tree)
  | matchClass (parts : List Tree)
  | globals (names : List String)
  | nonlocals (names : List String)
  /-- Any other node: a statement or an expression.  `x := v` is `other [name x store, v]`. -/
  | other (parts : List Tree)

inductive Err where
  | type | value | syntax_
  deriving DecidableEq, Repr

/-- `isnewscope` (syntax/scopeanalyzer.py:89-93) -/
def isnewscope : Tree → Bool
  | .lam .. | .func .. | .cls .. | .comp .. => true
  | _ => false

/-- One result after the other -/
def cat (a b : Except Err (List α)) : Except Err (List α) := match a with
  | .error e => .error e
  | .ok x => match b with
    | .error e => .error e
    | .ok y => .ok (x ++ y)

mutual
/-- `get_names_in_store_context` (syntax/scopeanalyzer.py:288-395).  What is collected is a list in which `None` may occur (line 356).  For `MatchMapping` and `MatchClass`, the
`MatchCapturesCollector` is called with a positional argument (lines 365, 372), which the constructor of mcpyrate's walkers does not take: TypeError. -/
def storeNames : Tree → Except Err (List (Option String))
  | .name id ctx => .ok (if ctx = .store then [some id] else [])
  | .done t => storeNames t
  | .tuple ts => storeNamesL ts
  | .func _ name .. => .ok [some name]
  | .lam .. => .ok []
  | .cls name .. => .ok [some name]
  | .comp .. => .ok []
  | .imp names => .ok (names.map fun d => some (d.asname.getD d.full))
  | .importFrom names => .ok (names.map fun p => some (p.2.getD p.1))
  | .try_ handlers parts => cat (.ok handlers) (storeNamesL parts)
  | .matchAs name parts => cat (.ok (if name.isSome then [name] else [])) (storeNamesL parts)
  | .matchStar name => .ok (if name.isSome then [name] else [])
  | .matchMapping .. => .error .type
  | .matchClass .. => .error .type
  | .globals _ => .ok []
  | .nonlocals _ => .ok []
  | .other parts => storeNamesL parts
/-- A list is visited element by element. -/
def storeNamesL : List Tree → Except Err (List (Option String))
  | [] => .ok []
  | t :: ts => cat (storeNames t) (storeNamesL ts)
end

mutual
/-- The walk of `DelNamesCollector`, `GlobalsCollector` and `NonlocalsCollector` (syntax/scopeanalyzer.py:405-415, 442-448, 458-464): `f` is what is collected at a node; the children
of a node are visited unless the node makes a new scope. -/
def walk (f : Tree → List String) : Tree → List String
  | .done t => f (.done t) ++ walk f t
  | .tuple ts => f (.tuple ts) ++ walkL f ts
  | .try_ h ts => f (.try_ h ts) ++ walkL f ts
  | .matchAs n ts => f (.matchAs n ts) ++ walkL f ts
  | .matchMapping n ts => f (.matchMapping n ts) ++ walkL f ts
  | .matchClass ts => f (.matchClass ts) ++ walkL f ts
  | .other ts => f (.other ts) ++ walkL f ts
  | t => f t
def walkL (f : Tree → List String) : List Tree → List String
  | [] => []
  | t :: ts => walk f t ++ walkL f ts
end

/-- `get_names_in_del_context` (syntax/scopeanalyzer.py:397-417) -/
def delNames : List Tree → List String := walkL fun
  | .name id .del => [id]
  | _ => []

/-- `collect_globals` (syntax/scopeanalyzer.py:437-451) -/
def collectGlobals : List Tree → List String := walkL fun
  | .globals names => names
  | _ => []

/-- `collect_nonlocals` (syntax/scopeanalyzer.py:453-467) -/
def collectNonlocals : List Tree → List String := walkL fun
  | .nonlocals names => names
  | _ => []

/-- `extract_args` (syntax/scopeanalyzer.py:419-435), of the parameters -/
def Params.extract (a : Params) : List String :=
  let allargs := a.args ++ a.kwonly ++ a.posonly
  let argnames := allargs ++ (match a.vararg with | some v => [v] | none => [])
  argnames ++ (match a.kwarg with | some v => [v] | none => [])

/-- `extract_args` (syntax/scopeanalyzer.py:419-435) -/
def extractArgs : Tree → Except Err (List String)
  | .func _ _ a _ _ => .ok a.extract
  | .lam a _ _ => .ok a.extract
  | _ => .error .value

/-- `uniqify` (it.py:225-248), without a key: the first of each -/
def uniqify [DecidableEq α] : List α → List α
  | [] => []
  | x :: xs => x :: (uniqify xs).filter (fun y => y ≠ x)

mutual
/-- `NamesCollector` in the target of a comprehension (syntax/scopeanalyzer.py:267-274): all names in it, whatever they are there for; it does not stop at new
scopes. -/
def allNames : Tree → List String
  | .name id _ => [id]
  | .done t => allNames t
  | .tuple ts => allNamesL ts
  | .func _ _ _ outer body => allNamesL outer ++ allNamesL body
  | .lam _ outer body => allNamesL outer ++ allNames body
  | .cls _ bases outer body => allNamesL bases ++ allNamesL outer ++ allNamesL body
  | .comp _ targets iter rest => allNamesL targets ++ allNames iter ++ allNamesL rest
  | .try_ _ parts => allNamesL parts
  | .matchAs _ parts => allNamesL parts
  | .matchMapping _ parts => allNamesL parts
  | .matchClass parts => allNamesL parts
  | .other parts => allNamesL parts
  | _ => []
def allNamesL : List Tree → List String
  | [] => []
  | t :: ts => allNames t ++ allNamesL ts
end

/-- The names of one target (syntax/scopeanalyzer.py:261-276) -/
def targetNames : Tree → Except Err (List String)
  | .name id _ => .ok [id]
  | .done (.name id _) => .ok [id]
  | .tuple ts => .ok (allNamesL ts)
  | _ => .error .syntax_

/-- The loop over the generators (syntax/scopeanalyzer.py:260-276) -/
def targetsNames : List Tree → Except Err (List String)
  | [] => .ok []
  | t :: ts => cat (targetNames t) (targetsNames ts)

/-- `[b.id for b in tree.bases if type(b) is Name]` (syntax/scopeanalyzer.py:236) -/
def baseNames (bases : List Tree) : List String := bases.filterMap fun
  | .name id _ => some id
  | _ => none

/-- `get_lexical_variables(tree, collect_locals)` (syntax/scopeanalyzer.py:166-286): `args`, in which there may be `None`, and `nonlocals`. -/
def lexicalVariables (t : Tree) (collectLocals : Bool := true) : Except Err (List (Option String) × List String) := match t with
  | .lam a _ _ => .ok (uniqify (a.extract.map some), uniqify [])
  | .func _ name a _ body =>
    match (if collectLocals then (storeNamesL body).map uniqify else .ok []) with
    | .error e => .error e
    | .ok localvars => .ok (uniqify ([some name] ++ a.extract.map some ++ localvars), uniqify (collectNonlocals body ++ collectGlobals body))
  | .cls name bases _ _ => .ok (uniqify (([name] ++ baseNames bases).map some), [])
  | .comp _ targets _ _ => (targetsNames targets).map fun names => (uniqify (names.map some), [])
  | _ => .error .type

end Unpy.Scope
