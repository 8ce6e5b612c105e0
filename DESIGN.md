# A machine-checked model of unpythonic in Lean 4

## Layout

* `properties.jsonl` – the properties (C01, C02, ...), in terms of the API.
* `lean/Verif/Model/*.lean` – the model. One definition per function or per block of a function of
  `/repo/unpythonic`, each with a comment citing file and lines, and saying what is simplified.
* `lean/Verif/Spec/*.lean` – small independent specifications. They use at most the data types of the model
  (programs, signatures, type specifications, states), none of its functions, unless the comment says so.
* `lean/Verif/Proof/*.lean` – helper lemmas.
* `lean/Verif/Props/*.lean` – the property theorems (named `Cnn_...`), each followed by an `example`
  in which a concrete non-trivial case meets its hypotheses.
* `MANIFEST.json` – which theorems settle which property, and with what status.
* `seeded/LOG.jsonl` – wrong programs the theorems were tested against.  `failed` lists the declarations whose proofs
  broke first; where that is only a helper lemma, the theorems resting on it are not shown false, just no longer proved.

## Trusted base

* Lean 4.33.0's kernel. No axioms are added; the theorems depend on at most `propext`,
  `Classical.choice` and `Quot.sound` (Lean's standard three). No `sorry`, `native_decide`, `bv_decide`.
* The correspondence between `/repo` and the model, made by reading: the code is not executed. Each model
  definition cites the lines it transcribes so a reader can compare them.
* General modelling conventions, used everywhere:
  * Exceptions are values (`Except`-like outcomes, or a step of the state machine), never "undefined".
  * Python ints are `Int`/`Nat`; floats are not modelled (where the code is generic in the number type the
    model uses an exact type and says so).
  * A finite iterable is a `List`; a general one is a function from the index of the `next` call to its
    outcome (item / exception / StopIteration). Generators that only forward items lazily are modelled by
    the list of items they yield; where laziness itself is the claim, the model is a step machine.
  * Unbounded `while True` loops are modelled by a transition function plus either a well-founded measure or
    an explicit step count (fuel), and the theorem then says that enough fuel always exists or relates the
    result to a coinductive/inductive big-step relation. Fuel never bounds the claim.
  * Mutable objects are an explicit state (heap or record), threads are an interleaving of atomic steps;
    one atomic step is at most what the GIL + the code's locks make atomic.
  * User callbacks are arbitrary Lean functions (pure), or arbitrary relations/scripts of operations where
    the effects matter (dyn, conditions, ec).
* Not modelled: CPython's memory model below the bytecode level, pickling byte formats, `repr`, docstrings,
  signature inspection via `inspect` (signatures are given as data), REPL/network server code
  (`net/server`, `net/client`, `net/ptyproxy`), and the macro layer `unpythonic/syntax` except where noted: of it,
  the expression macros `let`, `letrec`, `letseq`, `do`, `do0`, `cond`, `aif` are modelled as transformations of a fragment
  of Python's expressions, together with what the expanded code does (`Model/PyExpr.lean`, `Model/LetDo.lean`); the block
  macros `tco` and `autoreturn` are modelled on a fragment with statements (`Model/PyStmt.lean`, `Model/TcoMacro.lean`,
  `Model/Autoreturn.lean`), without decorators; `prefix` on expressions (`Model/Prefix.lean`); `continuations`, `lazify` and `envify` on fragments with
  functions, loops and assignments (`Model/Conts.lean`, `Model/Lazify.lean`, `Model/Envify.lean`); the ordering of decorators by priority
  (`Model/Deco.lean`); the run-time part of the test framework (`Model/Fixtures.lean`), without `the[]` and the texts of messages; `let_syntax` and `abbrev` (`Model/LetSyntax.lean`), for trees in which no other macros are left;
  `autoref` on a fragment with functions, loops and nested blocks (`Model/Autoref.lean`), without other macros in the block;
  `namedlambda` (`Model/NamedLambda.lean`) as a transformation of trees, for blocks in which no other macros are expanded between its passes;
  `fn[]` (`Model/QuickLambda.lean`) on expressions with functions, without other macros;
  `autocurry` (`Model/Autocurry.lean`) on expressions with functions and `def`, with positional arguments only, without other decorators; `forall` (`Model/Forall.lean`) on lines given as functions of the variables; `dlet`, `dletrec`, `blet`, `bletrec` (`Model/Dlet.lean`), not `dletseq`, at the top level of a module, without `nonlocal`, classes and comprehensions; Python's own scopes are modelled there, too. The macros `test[...]`, `with test`, `test_raises[...]`, `with test_raises` and `the[...]` (`Model/The.lean`), not `test_signals`, `fail`, `error` and `warn`, whose run-time parts are in `Model/Fixtures.lean`; what the program's functions and operators do is a parameter there. The surface syntaxes of `let` and the views of unexpanded forms (`Model/LetView.lean`). `box`, `Some` and `Shim` (`Model/Shim.lean`); boxes and attributes with shims in them are not modelled. The control channel of the REPL server with its sessions, and `bg` and `fg` (`Model/Control.lean`); the sockets, the PTY proxy and what runs in a session are not modelled, and only threads of sessions can be hit by `async_raise`. The client of the REPL server (`Model/Client.lean`), with Ctrl+C at the points where it waits; UTF-8 is that of Lean's library. The views of expanded `let` and `do` forms are modelled on trees that have constructors for what the views look at; lambdas have positional parameters only; that a setter which fails has renamed the parameter of a lambda that is not in the tree is left out. For C114, the nodes of the syntax trees that the scope analyzer treats alike are one constructor with a list of parts, a node that makes a scope has its parts in two groups (those that Python evaluates in the scope around it, and the rest), and it is assumed that the walkers of mcpyrate take no positional arguments when they are made; type aliases and type parameters are left out. Of `net/ptyproxy.py` the thread and the starting and stopping are modelled (C115); what `poll`, the reads and the writes do is given, and `openpty`, `setraw` and failures of `poll` itself are left out. Of `net/server.py`, `start`, `stop`, `halt` and the loop of `main` are modelled (C116) as operations on the state of the process; the banner, port 0 and several interfaces are left out, and shutting down a listening server is taken to succeed. For `dletseq` and `bletseq` (C117), values are integers, bodies have no branches, loops or inner functions, parameters have no defaults, the function is at the top level of a module, and `:=` is used for let variables only. `ulp` (`Model/Ulp.lean`): floats are the finite binary64 numbers, as reals; `math.log2` and the multiplication give a nearest float (the C library may be off by more), infinities and NaN are left out. The representations of cons cells (`Model/ConsRepr.lean`): those of atoms do not raise. Introspection of generic functions (`Model/DispatchList.lean`): the text of a description (`_format_callable`) is a parameter; it fails if there is no source code. The summary of a test session (`Model/Summary.lean`): the floats are those of `ulp`, with any correct rounding; the texts are given with the names of their styles instead of escape sequences. The description of an exception (`Model/Describe.lean`): exceptions are records in a heap; the text of a traceback and `str` of an exception are given; the dim color is left out; the recursion limit is a parameter. The arity queries for generic functions (`Model/ArityGeneric.lean`): multimethods are inspectable and not generic themselves; of the table of built-ins, only `print` is modelled. Manually made tracebacks (`Model/Traceback.lean`): the call stack is a list of frames, and `sys._getframe` exists. The macro `dbg` (`Model/Dbg.lean`): evaluation is in any lawful monad; constructs other than calls and tuples are nodes with an arbitrary meaning; `unparse` is a parameter. The macro `nb` (`Model/Nb.lean`): expressions and statements are arbitrary computations on the variables and the rest of the world. The client's side of the control channel (`Model/ControlClient.lean`): messages are delivered in order; the client is interrupted before sending or while waiting, not in the middle of a message. Compositions of curried functions (`Model/CurryCompose.lean`): as for `curry`; each call has the same depth of the stack left. Comparing views (`Model/ViewEq.lean`): both sequences are read in one go; objects other than views are represented by their length and items, if any, and are taken to have no comparison with views of their own; of printing, only what sequence is printed. For partial application and currying of generic functions (`Model/CurryGeneric.lean`), which multimethod runs with which arguments, and not what it does; the signature of a `functools.partial` is taken to be computed as in the standard library, which rejects arguments that do not fit (so also in `Model/Curry.lean`). For partial application and currying of annotated functions (`Model/CurryAnnotated.lean`), that `functools.partial` of a `functools.partial` is flattened, and that type hints can be resolved. A named argument that clashes with a parameter of an internal function of the library (`f` of `maybe_force_args`, `self` of a method) raises TypeError, as Python's call rule has it; the attributes of the class of `dyn` are a parameter of its model. In `Model/MemoCall.lean`, equality and hashability of values are parameters, the function is pure, and there is one thread. In `Model/ForceArgs.lean`, identity of immutable containers is not modelled, sets iterate in the order of insertion, and the list that other threads see has atoms in it. In `Model/FupCall.lean`, targets are values (lists, tuples, named tuples, dicts and frozendicts with strings as keys), and bools, strings as targets and memoized iterators as values are left out. In `Model/SymName.lean`, UUIDs are distinct, pickles are made by `dumps`, the attribute `name` is not assigned to, and equality of names is an equivalence. In `Model/Lazyrec.lean`, the constructors have their usual names, sets keep the order in which items were added, and a value with a promise in it is equal to no other. `Model/EnvMap.lean` takes pairs to be tuples of a name and a value; `Model/Shadowed.lean` has no layers without effect (`ix=None`), and sequences at the bottom are lists, tuples, named tuples, strings or ranges. Model/ViewCopy.lean reads the items of the right-hand side one by one between the writes; the right-hand side is the sequence or a view of it, other live iterables (such as generators over the sequence) are not modelled. Model/ItEdge.lean: what an item that is no list or tuple yields when iterated is a parameter; fields of named tuples have no defaults; an iterator given to `subset` is the list of its items. Functions decorated further after `trampolined` or `curry` are those made with `functools.wraps`, which copies the attributes; for `curry` the other decorator is `flip`, with functions of a fixed number of parameters. C139 models only the pushing and popping of blocks and the search from the innermost one; what the blocks do is in C18 and C43. C140 takes a test for its outcome; how it comes about is in C98.  A step of a thread is one access to the lock or to a counter. In `Verif.Model.MathOnce`, the operations on terms do not raise, and the terms are not sequences. In `Verif.Model.SignalArg`, `signal` returns `None` instead of the condition, and error messages can always be made. For `async_raise` (C143) the interpreter is CPython, a thread is started in one step, and a thread that gets an exception goes on running; for `equip_with_traceback` (C144) frames are anything, and the interpreter has `sys._getframe`. For compositions in lazy code (C145) arguments are positional, promises are not inside of containers, functions do not return promises, and no function is marked while a composition runs. In `AmbEq` the iterables a monadic list is compared with are tuples, all other objects have no length, and no item's comparison raises. In `EcTags` equal objects have equal hash values, and a tag that is itself a set of tags is not considered. In `Typecheck` the second argument of `isinstance` is a class, a bare generic, a protocol or a union of these; everything else is refused. In `LibCall` nothing is lazy, arguments can be hashed, and only the first call of memoized, fixed and iterated functions is followed; for `with autocurry` the arguments fit the function. For memoized generators that use themselves (GMemoSelf) there is one thread and one set of arguments, and the generator takes finitely many steps for each item. For jumps as objects that `fixtco` changes (FixShared), bodies end in a value or a jump at once. For several memoized functions in threads (MemoMany), the dicts of the functions are one dict whose keys tell the function, and binding the arguments is not a step. For lambdas with brackets (Multilambda), captured values and the statements around the lambdas are left out. For memoized functions in lazy code (LazyMemo), arguments are positional, promises are neither nested nor inside of containers, and there is one thread. For `fix` in lazy code (FixLazy), functions are pure, their arguments do not raise, and each call makes at least one promise. For memoized generators that use each other (GMemoMany), the entries exist from the start, and an instance is used only by the thread or by the generator that made it. For currying in lazy code (CurryLazy), there are only positional arguments, functions with a fixed number of parameters that return one value, and promises are not inside of containers. For tail calls in lazy code (TcoLazy), there are only positional arguments, what is called is a function, promises do not make tail calls themselves, and a jump that no trampoline takes is an exception. For calling functions through the library in lazy code (LazyCalls), there are only positional arguments, functions return one value, and promises are not inside of containers, but for a list that is written as the last argument of apply. For pipes in lazy code (LazyPipe), there are only positional arguments, functions are not curried, and promises are not inside of containers. For `let` in lazy code (LazyLet), expressions are constants, names bound by `let`, operators with two operands, conditional expressions, and `let` and `letrec`; there are no functions, containers or assignments, and what is reached is bounded by no depth (Python's recursion limit is not modelled). The model of functions in lazy code (C158) adds lambdas with positional parameters and calls with positional arguments of functions made in the block; functions from outside of the block, defaults, keyword arguments and containers are not in it. `Model/LazyOrder.lean` has the effects of leaves of `lazyrec[]` literals and their order; sets, starred items, constructors that unpack their arguments, keys that cannot be hashed or whose comparison has effects, and threads are not in it. `Model/MathInfix.lean` takes for granted that numbers and iterables without math support leave operators with an `imathify` object to the latter, as Python's numbers, lists and tuples do; that sequences can be iterated again; and that operations on numbers do not raise; `str.__mod__`, `numpy` arrays and augmented assignments are not in it. `Model/JumpWarn.lean` takes for granted that each `jump` object is deleted before the program ends; functions have one argument, and lazy code is not in it. `Model/Report.lean` takes for granted that describing an exception and unparsing do not raise; source code and reprs parse to one expression or not at all. For errors of multiple dispatch: the names of functions, the lines that show multimethods and the texts of types are given; `repr` of an argument gives a text or raises. For simple let: mcpyrate gives the bindings as a list and expands from the outside in; expressions are functions of the scope, without assignment expressions. For `callsite_filename`: `inspect.stack()` gives the functions running, by the names in their code, from the inside. For uses of macros: the expander gives what names are bound to, and mcpyrate the names of captured macros. For `doc` the results of the inspect module are given (C167). For `detect_lambda` the visitor of mcpyrate is taken to visit the parts of a node in their order (C168).

## Plan per property

Verdict words: *full* = prove as stated; *refute+partial* = the code violates the property as stated, the
model exhibits it (a theorem with a concrete witness) and the largest true part is proved as `_partial`.

| id | what is modelled | how it is proved |
|----|------------------|------------------|
| C01 | `gmemoize` memo list + per-instance positions; underlying generator = arbitrary outcome stream | invariant by induction on the history of next calls |
| C02 | same, with `__next__` split in the read of `self.j` and the locked part, threads interleaved | refute (schedule witness), partial: at most one in-flight call per instance |
| C03 | `memoize` memo + RLock as atomic-step machine over threads | invariant by induction on schedules |
| C04 | `_bind`, `resolve_bindings`, `tuplify_bindings` over signatures as data | refute for `**kwargs` order, partial for the rest |
| C05 | dyn scope stack, program AST of let/read/assign/raise | induction on programs against an environment-passing spec |
| C06 | per-thread stacks with scope-dict identities (heap), thread start copies | refute (child assigns parent's shared scope), partial: programs that only let/read, or assign to own scopes |
| C07 | `update` | direct proof over all stacks |
| C08 | env state machine over all mutators | invariant over op lists |
| C09 | assignonce on top of env | invariant; refute for `update`/`pop`+rebind, partial for attribute/subscript/set |
| C10 | `fupdate`, `ShadowedSequence`, `in_slice`, `index_in_slice`, `_canonize_slice`; calls of `fupdate` and `fup` with their arguments | functional correctness vs a spec of Python slice selection |
| C11 | as above | refute (negative step at start = length; out-of-range raises), partial where accepted |
| C12 | `roview`/`view` as slices over heap sequence with cache | refute nested stale cache, partial |
| C13 | `frozendict` construction | functional correctness on association lists |
| C14 | `ThreadLocalBox` | refinement over histories |
| C15 | `islice` | functional correctness by cases; refute for documented gap, partial |
| C16–C28, C67, C68 | `it.py`, `fold.py` functions on lists (and streams where infinite) | functional correctness by induction |
| C29–C31 | cons cells as a tree datatype; iterators as stack machines | induction on trees |
| C32, C36, C37, C65 | functions on `Values` (positional + named) | induction on the list of functions |
| C33, C34 | `_bind`/`_decide_curry_action`/curry loop | induction; refute + partial for the known binder bug |
| C35 | `flip`, `rotate`, `tokth` | list algebra; refute `tolast` on one argument |
| C38, C39 | trampoline loop with fuel; looped/looped_over | simulation of direct recursion big-step relation |
| C40 | gtco over trees of generators | induction |
| C41, C42 | mini-language with catch/throw/call_ec, big-step; code path through `Escape` exceptions | induction vs a spec of innermost admissible catcher |
| C43, C44 | handler/restart stacks, mini-language of handler bodies | induction on programs |
| C45 | registries, MRO list, `_resolve_multimethod` | functional correctness; refute falsy `self` |
| C46 | `isoftype` over a universe of values and type specs | induction on specs vs a denotational spec |
| C47, C48 | `MonadicList`, `forall` evaluation | induction on lines; refute eager `then`, shadowing |
| C49, C50 | instance dictionary with locks, weak references, GC steps | invariant over schedules |
| C51, C52 | byte-level decoder with receive buffer over any chunking | decoder run = spec on concatenated stream; refute beyond 4096 |
| C53 | partition recursion | soundness, completeness, no duplicates |
| C54–C57 | mathseq generators over exact numbers | closed forms, induction; Mathlib `Nat.Prime` for primes |
| C58, C59 | tryf, reraise | case analysis vs try-statement spec; refute unmatched swallow |
| C60 | fix with visited set | well-founded/finite argument; refute memo history dependence |
| C61 | let/letrec evaluation | induction on binding lists |
| C62 | Lazy.force sequential and threaded | invariant; refute threaded |
| C63 | seconds_to_human over Int | omega |
| C64 | Popper | histories |
| C66 | within/fixpoint | induction on fuel |
| C69 | bytessource, recvall, netstringify | induction |
| C70, C71 | env operations, constructors | invariant over op lists; refute constructor edge cases |
| C72 | fupdate on mappings; calls with their arguments (`Model/FupCall.lean`) | heap of mapping objects, invariant over histories; case analysis over the binding of arguments |
| C73, C74 | apply/identity/const; begin family | direct; induction on the list of thunks with arbitrary effects |
| C75 | arities/arity_includes/kwargs over all well-formed signatures | agreement with the independent acceptance relation `Spec.Arity.Accepts` |
| C76 | `within` on lists and streams with an arbitrary closeness test | induction on the items read |
| C77 | `ETAEstimator` as a state machine over exact times | invariant over the list of ticks |
| C78 | `CountingIterator`, `slurp` | invariant over next calls; induction on the queue |
| C79 | `getattrrec`, `setattrrec` on chains of wrappers | induction on the chain |
| C80 | `fixtco`: trampoline inside `fix`, with the cleanup of the set of active calls | simulation against recursion; refute cleanup after an exception; jump objects with identity (Model/FixShared), refuted for memoized functions |
| C81 | `do`, `do0` on top of the `env` model | induction on the items; refute `do()` and the clash with `_do0_result` |
| C82 | `_resignal_handler`, `resignal` on top of the conditions model; conditions carry protocol and cause | exact list of what runs, by induction on the mapping; refute for protocols other than `error`, and for a value that matches its own key |
| C83 | `available_restarts`, `available_handlers`: dedup and stable sort over the stacks | membership characterised by induction on the stacks |
| C84 | `ChainMap` methods, `_DynLiveView` with its observers per thread | agreement with the dyn model; invariant over interleavings |
| C85 | `mogrify`'s `doit` over a heap of mutable containers, with fuel for the depth; `force1` over the states of promises | induction on the tree a container stands for; frame conditions; refute for shared and cyclic containers |
| C86 | `imemoize` as gmemoize over one shared iterator, `fimemoize` as gmemoize | simulation by the gmemoize model while there is one generator; refute for racing first calls |
| C87 | the expander for `let`, `letrec`, `do` (both passes of `_letlike_transform`, `_do`, gensym, order of expansion), Python's evaluation of the expansions with `env`, `lispylet._let`, `seq.do` | a reference semantics with frames of variables; a relation between source and expansion proved of what the expander returns; simulation by induction on call depth and expressions; freshness of the generated names; an exact condition for the expansion to succeed. `_partial`: programs that keep to `Wf`; four refutations |
| C88 | `_cond`, `_aif`, `_letseq`, `_do0` | equations between the meaning of the rewritten program and a direct description; for `do0` an invariant that nothing assigns to the hidden variable |
| C89 | A fragment of Python with statements (`Model/PyStmt.lean`: expressions, `return`, assignment, `if`, `while`, `def`, `try`; closures, cells, bounded stack), and the passes of `_tco` (`Model/TcoMacro.lean`) | The passes are fused into one transformation (`Proof/TcoFull.lean`); the expanded program runs in lockstep with a semantics with proper tail calls (`Proof/TcoSim.lean`), which agrees with plain Python (`Proof/TcoOrder.lean`). Conditions (`okSs`): no variable `it`, no call of a name taken for an escape continuation, no `return` of a call in `try`, no top-level `return`; tail `and` reads as `last if others else False`. Each condition has a counterexample |
| C90 | As C89; calls nest at most `d` deep | The lockstep simulation: depth `d` with proper tail calls is depth `2d` after expansion; counting down as an example for every number |
| C91 | `_autoreturn` on the statement fragment of C89 | simulation: Python run on the expansion against a semantics in which the body of a function has a value; induction on syntax and on the depth of calls |
| C92 | `_prefix` on expressions, with let, do and subscripts told apart | equality of the meaning of the expansion with a meaning given directly by the rules of the block, for every compositional meaning; induction on depth |
| C93 | `register_decorator`, `sort_lambda_decorators`, `suggest_decorator_index` on lists of decorator names | insertion sort: permutation and order; the index of a name in the registry is monotone in its priority; case analysis for the insertion |
| C94 | Source programs with `call_cc`, the expansion (implicit returns, `call_cb`, `data_cb`, `make_continuation`, syntax checks), `chain_conts`, `get_cc`, `identity`, trampolines, Python for the expanded code | Reference interpreter after the documentation; lockstep simulation with a translation of values (source functions and continuations to expanded ones), with equal bounds; a careful version of the interpreter stops where the macro deviates, and each such deviation is refuted on a program; syntax errors characterised by induction on the block |
| C95 | Source programs with functions, tuples, subscripts and `lazy[...]`, the expansion (`rec`, `lazyrec`, `transform_starred`), `Lazy`, `force`, `force1`, `maybe_force_args`, Python for the expanded code | Reference interpreter for call by need, which in its careful form stops where the macro is known to deviate; lockstep simulation with a translation of values and promises; one refutation for each deviation |
| C96 | As C95, and plain Python for functional programs (arguments before calls, no state) | Plain evaluation with a clock; each promise belongs to an evaluation that plain Python completes at some time and depends only on what is completed before; induction on that time shows that using it succeeds with the same value. Transfer by C95 |
| C97 | `_envify` on a fragment with functions (defaults, `*args`, named arguments), lambdas, loops, `del`, `try` and comprehensions, `env` objects (`Model/Envify.lean`) | reference interpreter with records for parameters (`Spec/Envify.lean`); a simulation with related values, scopes and states, the `careful` interpreter stopping where the macro does otherwise; refutations by running programs |
| C98 | tests, testsets, sessions, the handlers of both, the counters, `catch_signals`, `terminate`, callbacks (`Model/Fixtures.lean`) | reference semantics without counters, in which tests have verdicts (`Spec/Fixtures.lean`); a simulation, the `careful` interpreter stopping where the framework does otherwise; an invariant of the counters for all programs; refutations by running programs |
| C99 | syntax trees; the two substitutions, the expression and the block variant of `let_syntax`, `eliminate_ifones` (`Model/LetSyntax.lean`) | simultaneous substitution, with splicing of blocks (`Spec/LetSyntax.lean`), the `careful` one stopping where the macro does otherwise; with enough fuel the visitors converge to it, up to `if 1`, which `eliminate_ifones` removes; its correctness for every compositional meaning of statements; refutations by running the model |
| C100 | `_autoref`, `_autoref_resolve`, the transformer with its referents, markers and skip list, expansion from the inside out, and what the expanded code does | nested expansion equals one direct translation (induction over statements); lockstep simulation of the expanded code by a reference interpreter that knows the objects around; the interpreter is stopped only where refutations show that the code differs; plain programs never stop (invariant) |
| C101 | `namelambda` on a heap of function objects with `__name__`, `__qualname__` and `co_name` | induction over the list of renamings, with the part of the qualified name before the last dot as invariant; the copy and names with dots are refuted |
| C102 | the three passes of `_namedlambda` on syntax trees with lambdas, calls, dictionaries, `let` forms and assignments | the names given to each lambda are read off the result and compared with those a separate specification assigns from the bindings; mutual induction over the syntax; that nothing else is changed is by erasure |
| C103 | `fn[]` as a transformation of expressions with functions, calls, conditionals, tuples, dictionaries and output, and what the expanded program does | a separate evaluator runs the source, looking up each underscore by its position; lockstep simulation by induction on the fuel, with the expansion at an offset |
| C104 | `_autocurry` on programs with functions, defaults, `def`, `Values`, `curry` by hand and code outside; `curry` and `_currycall` at run time, with the curry context | one evaluator of source programs, plain or with currying one argument at a time; a simulation with a relation by which functions of the code may be curried where those of the specification are not; induction on fuel |
| C105 | The expression built by the `forall` macro (`Model/Forall.lean`: splicing into the hole, then the run with the `MonadicList` of `Model/Amb.lean`), lines being functions of the variables with any effects. | Induction over the lines: building gives the nested binds; each bind, consumed, is the loop of `Spec/Forall.lean`, as long as no TypeError of an inner line and no lone `nil` occurs. Refuted: TypeErrors and lone `nil`s are lost, `_ignored` is a real variable. |
| C106 | Programs with functions, local variables, `global`, `del`, `if`, `while`, lambdas and output (`Model/Dlet.lean`): the two passes of `scoped_transform` over the decorated function, with the state they keep (including the list of arguments that is changed in place), `_let_decorator_impl`, `_let`, `_dlet`, `_blet`, and the run of the expanded module. | `Spec/Dlet.lean` runs the module as it is written, keeping the let variables that can be seen at each place. Induction over programs: both passes together resolve the names as the specification does; induction over the steps: the resolved program, run on the mapped state, does what the specification does. Refuted: blocks of compound statements, parameters and defaults of nested functions, `global` around a nested function, own defaults, `del` in a nested function. |
| C107 | Expressions and blocks with tests and marks (`Model/The.lean`): `_transform_important_subexpr`, the implicit mark, `_test_expr`, `_test_block`, `_test_expr_raises`, `_test_block_raises`, expansion from the outside in, `_record_value`, `unpythonic_assert`, `unpythonic_assert_raises`, and the run of the expanded module in a world whose functions and operators have arbitrary effects. | `Spec/The.lean` runs the module as it is written. Induction over programs: a mark that has been transformed for the test number `d` does what a mark inside of `d + 1` tests does; the expansion does the same as the module. Refuted: marks in a `with test` block in another one; the source shown for a mark with a mark in it; literals; `test_raises` with exceptions that are no `Exception`. |
| C108 | Syntax trees with the nodes that are looked at (`Model/LetView.lean`): `canonize_bindings`, `isenvassign`, `islet`, `_ishaskellylet`, `isdo` (unexpanded forms), `UnexpandedEnvAssignView`, `UnexpandedLetView`, `UnexpandedDoView` with their setters, including the double assignment in `_set_subscript_slice`, and `_destructure_and_apply_let`. | `Spec/LetView.lean` is a grammar of the documented syntaxes. Both directions for the bindings (accepted exactly if written so); by cases on the grammar for reading and writing: the changed tree is in the grammar again, with the new part. Refuted: writing the body of `let[...][body]` with Python 3.9 or later; the body of decorators; templates in the haskelly syntaxes; names with two markers. |
| C109 | `Model/Shim.lean`: `__eq__` of the boxes with Python's rules for reflected methods; a machine whose state is what is in each box, for each thread, and the attributes of each object, with the operations on boxes and the attribute access of `Shim`, with chains of fallbacks. | Equality by induction along the calls. The state agrees with a specification in terms of the history (`Spec/Shim.lean`): induction on the operations; then the search along the chain. Refuted: fallbacks that count as false are not tried; the names any object has are written to the target, but read from the shim. |
| C110 | `Model/Control.lean`: JSON messages, the handler of a control channel, and a machine with any number of sessions, their threads with idents, and control channels; the handling of KeyboardInterrupt is split in two steps, the lookup of the session and `async_raise`, so that other events can come between. | `Spec/Control.lean` says in terms of the history which sessions are open, what a channel is paired with and what the answers are; the state agrees with it, by induction on the history. Partial: interrupts hit the right session unless its thread has ended in the meantime. Refuted: idents of threads are used again, so another session can be hit; some requests close the channel instead of being answered. |
| C111 | `Model/Control.lean`: `bg`, its worker, and `fg`, as operations on the dictionary of results with idents of threads as keys. | By induction on the jobs, of objects that pass the check of the type in `fg`. Refuted: no thread passes this check; three more cases in which the results are wrong. |
| C112 | `Model/Client.lean`: `connect` as a machine that waits for the first line, for data, for the user, or gathers data after Ctrl+C; bytes and UTF-8 as in Lean's own library; the search for the session's number in the first line. | An invariant over all sequences of events that can happen: what is on the screen and what is held are what was received, what is sent is what was typed. UTF-8: a suffix that is a text starts at a character. Partial: answers split at characters, with the prompt in one part. Refuted: a split prompt is never seen, a split character ends the client, a text that looks like a prompt, empty prompts. |
| C113 | the expanded formats of `let`, `letrec`, `dlet`, `do`, bare and curried; `islet` and `isdo` for them; both views with their setters; the last step of the macros; `autocurry` on calls and lambdas; the parts of `autoref` and `lazify` that use the views (`Model/ExpView.lean`) | the documented formats are the specification; each view of a form is computed, by induction on the bindings; a setter gives the form with the new parts; refuted for views of `@dlet`, for assignments that fail in the middle, for the user's own `letter`, for lambdas curried by hand, and for `autoref` and `lazify` with decorators |
| C114 | `isnewscope`, `get_names_in_store_context`, `get_names_in_del_context`, `collect_globals`, `collect_nonlocals`, `extract_args` and `get_lexical_variables` on trees with all binding constructs of Python (`Model/Scope.lean`) | the binding rules of the language reference as an inductive relation, with the way in which a name is bound; by induction on the trees, what is collected is what is bound in a plain way, and what is mistaken for a name; refuted for `del`, `import x.y`, assignment expressions in inner scopes, class and mapping patterns, names declared global, lambdas, other targets of comprehensions, and classes |
| C115 | The thread of `PTYSocketProxy` as a fold over rounds of `poll`, with what each read gives and each write takes as data; the callbacks; `start` and `stop` as a state machine (`Model/Pty.lean`) | the loop is shown equal to taking the events up to the first that does not go on (`Spec/Pty.lean`); induction on rounds and events; an invariant for the closing; counterexamples for short writes, callbacks that are not set, hang-ups, and `stop` |
| C116 | The process as a state: streams and prompts in `sys`, what was kept at the import, ports, the instance, `atexit`; `start`, `stop`, assignments and session events as operations; the loop of `main` (`Model/Lifecycle.lean`) | an invariant over all histories (ports distinct, registered exactly while running); the loop against the last `halt` and the open sessions, defined on the history (`Spec/Lifecycle.lean`); counterexamples for streams, prompts, failed starts, leaked ports, and `halt` of embedded servers |
| C117 | `dletseq` and `bletseq`: the nested functions that the macro makes, with the renaming for one variable at each level, and running them: environments in a heap, parameters of the functions around, local variables, decorators, prints (`Model/Dletseq.lean`) | the form of the nested functions by induction on the bindings; a relation between the heap and a list of variables, kept by expressions, bodies and nested functions; for sequences of calls by induction; what the code does otherwise is refuted by programs |
| C118 | `ulp` on binary64 numbers as reals, with a logarithm and a product that are rounded to a nearest float, in a relation between a call and its outcome (`Model/Ulp.lean`) | bounds of the logarithm near powers of two, and monotonicity of rounding; the floats next to powers of two from 8 on, the largest one, subnormal ones and zero are refuted |
| C119 | `cons.__repr__` and `lispyrepr` on structures of cells, with the number of representations asked for (`Model/ConsRepr.lean`) | against a small syntax of Python expressions (and of Lisp data) with their texts and values, by induction on the structure; nested lists in `lispyrepr` and exponential work are refuted |
| C120 | `isgeneric`, `list_methods`, `format_methods` and the docstring of the dispatcher, on top of the registries of C45, with functions whose source code is missing (`Model/DispatchList.lean`) | invariants over histories of decorations, relating registries and docstrings to the list of successful decorations; the listing is related to what calls do by the search lemmas of C45; missing source code and unusual names of `self` are refuted |
| C121 | `summarize` with floating-point percentages (`Model/Summary.lean`) | error bounds for the four roundings on the grid of floats; the text and colors by cases; a count for which the percentage is one too low is a refutation |
| C122 | `describe_exception` on a heap of exceptions with causes and contexts (`Model/Describe.lean`), against stories told from the first exception on (`Spec/Describe.lean`) | induction on the story; circular causes are a refutation |
| C123 | `arities`, `arity_includes`, `required_kwargs` and `optional_kwargs` of generic functions and bound generic methods (`Model/ArityGeneric.lean`), on top of the registries of C45 | the loop over the multimethods gives the hull of their arities; with C45 and C75, calls are within it; what the code does for bound methods, base classes and named arguments are refutations |
| C124 | `equip_with_traceback` on a stack of frames; the level used by `signal` (`Model/Traceback.lean`) | induction over the stack for the loop that collects and the loop that chains |
| C125 | the transformers of `dbg` in both variants, and the default printers (`Model/Dbg.lean`); the specification evaluates with a changed `print` (`Spec/Dbg.lean`) | mutual induction over expressions, in any lawful monad; what is violated (stars, `sep=None`, nested blocks) is refuted |
| C126 | the expansion of `nb` and how it runs (`Model/Nb.lean`); the specification is a notebook (`Spec/Nb.lean`) | induction over the statements of the block; refuted for programs with their own `theprint` |
| C127 | `ControlClient` against any server, and against the server of `Model/Control.lean` (`Model/ControlClient.lean`); the specification is remote procedure calls (`Spec/ControlClient.lean`) | invariant over sequences of calls: no unread reply; refuted when the client is interrupted while waiting |
| C128 | `composelc`, `composerc`, `pipec` on top of the model of `curry` (`Model/CurryCompose.lean`); the specification is a chain of calls and a stack machine (`Spec/CurryCompose.lean`) | induction on the list of functions; `composerc` of three or more functions refuted at the top level |
| C129 | `==`, `str` and `repr` of views on top of the model of views (`Model/ViewEq.lean`); the specification compares lists, and says of which type a slice is (`Spec/ViewEq.lean`) | from C12, after any history; refuted for objects without length, for sets and dictionaries, and for printing views of strings and ranges |
| C130 | `partial` and `curry` of generic functions, on top of the models of dispatch and of currying (`Model/CurryGeneric.lean`); the specification says when arguments are all right for a multimethod, complete it, or are too many (`Spec/CurryGeneric.lean`) | from the theorem about argument binding (C34), also for `bind_partial` (`Proof/BindPartial.lean`), and dispatch (C45); by induction on the calls; refuted for a name also given by position, for a multimethod longer than the first, for arguments left over, and for bound methods |
| C131 | `partial` and `curry` of annotated functions, with the signature of a `functools.partial` (`Model/CurryAnnotated.lean`); the specification says when arguments fit the annotations (`Spec/CurryAnnotated.lean`) | by induction on the parameters for the signature of the partial, then from the theorem about argument binding; refuted for positional arguments in more than one step: all arguments are bound again, to the parameters that are left |
| C132 | `memoize` with calls given by arguments (fun.py:52-98), on top of the binding of C04; equality and hashability of values are parameters | invariant over the list of calls: each entry of the dict is what the original gives for some call with that key |
| C133 | `maybe_force_args` and `mogrify` on arguments without promises: containers nested and shared in a heap, views of mappings, sets, classes of sequences; `call`, `callwith`, `withself`; a list being rebuilt while another thread appends (`Model/ForceArgs.lean`) | induction on the depth: rebuilding a plain object gives the same object and leaves the heap as it is. `_partial`: five refutations (views of mappings, cycles, sequences that cannot be rebuilt, a named argument `f`, other threads) |
| C134 | `sym`, `gsym`: `__new__`, `__init__`, `__getnewargs__`, `__str__`, `__repr__` (`Model/SymName.lean`) | invariant over histories: the table leads to an object with that key |
| C135 | `Model/Lazyrec.lean`: the macro `lazyrec[]` on container literals and calls of constructors, evaluation of what it makes, and `force`. | Structural induction over the literal: what the rewritten literal evaluates to is forced to the value of the literal; which expressions are evaluated is a function of the literal. Five refutations. |
| C136 | `env`: `update` with pairs, iteration, `items`, `values`, comparison (`Model/EnvMap.lean`, on top of `Model/Env.lean`) | an invariant of the names over all histories; the order of the names as a list of names on which the operations act; equality by that of dicts; what the code does otherwise is refuted for all environments |
| C137 | reading a `ShadowedSequence` by index and slice, and the constructors that rebuild sequences (`Model/Shadowed.lean`, on top of `Model/Slices.lean`) | by induction on the layers, for positive and negative indices; slices by induction on the positions; several layers, strings and ranges are refuted |
| C138 | Model/ViewCopy.lean: `view.__setitem__` with a live right-hand side, on the heap of views of C12 | invariant of the caches (C12) and induction over the pairs of positions; `C138_shift_refuted` and `C138_mirror_refuted` for overlapping views, for every list |
| C139 | the stacks of `dyn.let`, `handlers` and `restarts`, with blocks entered and left in any order, and in threads | invariants: nested blocks give the list of those in effect; in general the bottom of the stack stays; refute overlap and change of thread |
| C140 | the counters of the test framework, with a lock, and threads that run tests and testsets in small steps | invariant: counter and what is still to be added make the total, and who has the lock sees the counter unchanged; a measure for progress; refute reports, and testsets in other threads |
| C141 | generators with arithmetic, their positions shared by all expressions that they are in; the two memos of `cauchyprod(a, a)` | a generator mentioned once is at the index of the term (induction over expressions and over terms); refute generators mentioned twice or used again, the item lost at the end, and squares |
| C142 | conditions and causes given as instances, classes, None or other objects; making an instance may do anything | refinement: each call is the call with the instance, in the world after making it; refute the category of warnings, classes that need arguments, None, and the message about causes |
| C143 | `async_raise` over histories of threads that are made, started, run and end; the check and the call of the interpreter are apart, and anything can happen between | invariants over histories: numbers of threads have one owner; numbers used again, lost exceptions and instances refute the full claim |
| C144 | `equip_with_traceback`, its loops over frames and tracebacks; the frames that the signalling functions add | induction on the stack: the shown frames are the reverse of the rest of the stack |
| C145 | the `compose` functions, `flip`, `maybe_force_args` and `islazy` on function objects that carry marks, with promises as arguments | monad laws and induction on the list of functions; one function, and three from left to right, refute the claim |
| C146 | each function of the library that the arguments pass on the way to the function of the user, with its own parameters, and the binder of `Arity` for each of these calls (`Model/LibCall.lean`) | the result is the direct call unless one of the names in a small table (`Spec/LibCall.lean`) is used, by computing the binder for symbolic arguments; refuted for exactly those names |
| C147 | a generator as a state machine that may ask an instance of its own (Model/GMemoSelf) | the sequences that agree with themselves are given as a relation (Spec/GMemoSelf); invariant over histories that the memo is a beginning of it; refuted for items not delivered yet |
| C148 | `memoize` (fun.py:53-99) used for several functions that call each other: the machine of C03 with one re-entrant lock per function (MemoMany) | the invariant of C03 with a hold count per lock; no deadlock for functions in layers: the holder of the lowest lock held can finish its call alone, and then less is left to do; refuted for functions that call each other (`even` and `odd`): each of two threads waits for the lock of the other |
| C149 | `multi`: brackets around lambda bodies become `do`; the expansion of C87 after it | The meaning of such programs is defined directly, with functions that run items; the relation between it and the meaning of the program with `do` is preserved by evaluation; then C87 |
| C150 | `memoized` with promises as keys, `maybeForceArgs`, functions as trees of uses of parameters | Each entry of the memo is what running the function with these arguments gives, and the promises that takes have been forced; invariant over calls |
| C151 | `@fix` functions whose arguments are promises, told apart by the path of calls that made them (FixLazy) | for terminating recursion by the theorems on `fix`, plain recursion being the same with promises; the claim about cycles is refuted for all functions: what `fix` returns is what plain recursion returns, by induction on the depth, since a path is longer than those in `visited` |
| C152 | `gmemoize` (gmemo.py:95-134) used for several generators that ask instances of each other, in threads: one entry with a re-entrant lock per generator (GMemoMany) | the sequences are given as a relation that agrees with itself (Spec/GMemoMany); invariant over schedules that each memo is a beginning of its sequence and each lock is held as often as there are calls in it; no deadlock for generators in layers: the holder of the lowest lock can go on, and then less is left to do; refuted for generators that use each other: each of two threads waits for the lock of the other, though the items needed are in the memos |
| C153 | `curry` and `partial` (fun.py:110-451) with arguments that may be promises, called by `maybe_force_args` (CurryLazy); functions with effects | induction over the calls, with effects as equations between computations; refuted for functions with annotations, where the check of `partial` sees promises, and for arguments left over by functions defined elsewhere, which are evaluated though the next function may not need them |
| C154 | Model/TcoLazy.lean: bodies as trees of computations, calls and tail calls; the two trampolines, with the arguments on their way to a body | induction on the steps and the bodies, that the program with trampolines does what the program with ordinary calls does, if all trampolines are aware of lazy code, or the functions that run in others give promises only to marked ones; refuted for a function made after the block |
| C155 | Model/LazyCalls.lean: call, callwith, apply, notf, andf, orf, rotate, tokth and withself, with promises as arguments | case analysis and induction on the list of functions; refuted for apply with a promise of a list, and for what tokth returns with a marked function |
| C156 | Model/LazyPipe.lean: the three kinds of pipes, with promises as initial values and functions | induction on the functions, that each pipe calls the functions in turn; refuted for pipe (evaluates the initial value) and piped without functions (gives a promise) |
| C157 | `let` and `letrec` after `lazify`: the code made, promises and environments at run time; specification: evaluation by name, and by value | simulation between promises and the expressions they stand for, both ways, by induction on depth and structure; at most once by least depth; a `letrec` with a name for a later name refutes the full statement |
| C158 | lambdas, calls, `let` and `letrec` after `lazify`: the code made, promises, functions and environments at run time; specification: evaluation by name, and by value | simulation between promises and the expressions they stand for, and between functions and their closures, both ways, by induction on depth and structure; at most once by least depth; a `letrec` with a name for a later name refutes the full statement |
| C159 | `Model/LazyOrder.lean`: `lazyrec[]` on nested literals whose leaves are state transformers that may raise; evaluation from left to right, a table of promises, and `force` with containers updated in place. | Mutual structural induction over literals and objects: what forcing does, with the promises of the literal at known places of the table; forcing again by induction over the object. Four refutations (keys with effects, equal keys, StopIteration, SystemExit). |
| C160 | `Model/MathInfix.lean`: the methods of `imathify` with their reflected forms, the way in which Python finds the method for an operator, and expressions of any depth over nested sequences, numbers and other iterables. | Structural induction over expressions; positions in nested sequences with C57; swapping the operands of mirrored comparisons. |
| C161 | `Model/JumpWarn.lean`: programs as trees of returns, exceptions, jumps and calls; a table of `jump` objects with `_claimed`; the loop of the trampoline; `__del__`. | Induction over the steps, with the invariant that the claimed jumps are those carried out; for programs that follow the rules, that all jumps but the one being returned are settled. |
| C162 | `unpythonic_assert`, `_signals` and `_raises` after the tested code ran: from its outcome, the captured values and the message to the counters, type and text of the condition | case analysis against a table of verdicts and a specification of the texts; the filter for trivial values, values that cannot be shown and values that cannot be conditions are refuted by their execution |
| C163 | the error branch of the dispatcher, with the text built from the arguments, the list of multimethods and the mismatches of a single one; the same for `partial` | equality with a text stated apart, by induction over lists of arguments; refutations for arguments that fit no single multimethod by number, arguments that cannot be written, and methods in partial applications in steps |
| C164 | `let` and `letseq` of simplelet.py as expansions to calls of lambdas, over expressions that are functions of a scope, with effects; class bodies have names that functions in them do not see | equality with scopes stated apart, by induction over the bindings; class bodies are refuted |
| C165 | the walk up the call stack, and the frames each helper leaves on it | induction over the stack; `callwith`, functions named like helpers and tail calls are refuted |
| C166 | the functions that recognize uses of macros, over trees and an expander that binds names to macros | case analysis against a relation that says what a use is, invariance under renaming by induction; macro arguments, several items in a `with` and test macros are refuted |
| C167 | `doc` and `_get_source`, over a given view of objects by the inspect module, with what is printed and how the call ends | case analysis over what is known of the object and of its class; refutations for classes made by a metaclass and for docstrings that are no strings |
| C168 | `detect_lambda` with `isdo` and `ExpandedDoView.body`, over trees with references, lambdas, calls and other nodes, with failure as an outcome | induction over the source in which some do expressions are expanded, by a tree made from it and the lambdas written in it; refutations for functions of the user called dof or currycall |

## Findings

Places where the code disagrees with the property as stated. Each is a theorem about the model, with a witness
or for all inputs of a kind; the property itself is then claimed only as `_partial`, or restricted as the
theorem says. The text is that of the theorem's comment.

* `C02_shared_instance_duplicates_refuted`: C02 is violated (duplicate): two threads call `next` on one and the same instance; both get the first item, although one serialization of the two calls would deliver the first and the second.
* `C02_shared_instance_skips_refuted`: C02 is violated (skip): if another instance has already filled the memo, the race makes the shared instance skip an item: 15 is never delivered by instance 1.
* `C02_racing_first_calls_refuted`: C02 (related): two threads racing on the very first call with some arguments can start two runs of the underlying generator (gmemo.py:98-100 is not locked).
* `C04_kwargs_order_refuted`: C04 refuted for the contents of `**kwargs`: `f(1, x=2, y=3)` and `f(1, y=3, x=2)` bind the same, but have different keys.
* `C05_method_names_refuted`: C05 is violated for names of attributes of the class of `dyn`, such as `items`: inside `with dyn.let(items=v)`, reading `dyn.items` gives the method, and reading it does not raise where it is not bound. Moreover, no name can be bound by `dyn.let` if one of them is called `self`.
* `C06_dyn_child_assignment_visible_refuted`: C06 is violated (1): a child thread assigns to an inherited binding, and the main thread sees it.
* `C06_dyn_inherits_late_refuted`: C06 is violated (2): a thread started inside the main thread's block, but using `dyn` first after that block has exited, does not see the binding.
* `C07_self_refuted`: C07 is violated for a dynamic variable called `self`: although it is bound, updating it raises TypeError.
* `C08_direct_write_unfinalizes_refuted`: C08 cannot cover the internal variables: client code can un-finalize an env by assigning to `_finalized` (a known TODO in the code).
* `C09_assignonce_update_refuted`: C09 is violated by `update`, which overwrites a bound name without complaint.
* `C10_values_refuted`: C10 is violated (4): too few values for several indices do not raise; the updates left over are not done, for every target and all indices. For a mapping without indices, its keys are taken for pairs.
* `C10_index_at_length_refuted`: C10 is violated (1): index `len(seq)` is ignored instead of raising IndexError (for every sequence).
* `C10_empty_refuted`: C10 is violated (2): on an empty sequence no index is rejected.
* `C10_slice_limits_refuted`: C10 is violated (3): a slice reaching beyond the end, which Python's slice assignment clamps, raises IndexError; and starting at `len(seq)` with a negative step updates the wrong elements.
* `C11_out_of_range_refuted`: C11 is violated (1): Python clamps a stop beyond the end, `in_slice` raises.
* `C11_start_at_length_refuted`: C11 is violated (2): `start == length` with a negative step is not clamped to the last element: with step -2 the wrong elements are reported, and with step -1 `index_in_slice` is off by one.
* `C11_index_at_length_refuted`: C11 is violated (3): the nonexistent index `length` is accepted, and said to be "in" the int index `length`.
* `C12_stale_refuted`: C12 is violated: a view of the last three items, viewed again, does not notice that an item was appended, since its length stayed three: `v = view(lst)[-3:]; w = v[0:2]; list(w); lst.append(4)` leaves `w` at the old place, while `v` itself is right.
* `C12_stale_shrunk_refuted`: C12 is violated in the same way when the sequence shrinks: the positions remembered may not exist any more. With `lst = [0, 1, 2, 3]` and `w` as before, after `lst.pop()` `w` is at the places 1 and 2 instead of 0 and 1; when `lst` had five items before, at 2 and 3, so that reading and writing raise IndexError, after having written to the first place.
* `C13_names_refuted`: C13 is violated: `self` and `cls` as names of bindings raise TypeError, whatever the mappings and the other bindings; in a mapping they are keys like others.
* `C15_islice_assert_refuted`: C15 is violated (1): `list(xs)[-2:1]` is empty, but `islice(xs)[-2:1]` raises AssertionError.
* `C15_islice_index_refuted`: C15 is violated (2): an index before the beginning gives the first item, instead of an error; an index beyond the end gives None. (For every nonempty, respectively every, iterable.)
* `C21_nopred_refuted`: C21: refuted for `flatten1(xs)` without a predicate, when an item is neither a list nor a tuple: instead of passing it through as `flatten(xs)` and `flatten1(xs, pred)` do, it raises TypeError there, or if the item is iterable, such as a string, takes it apart.
* `C21_named_refuted`: C21: refuted for `flatten_in` on a named tuple which the predicate does not accept: TypeError (at that point, after what comes before), and if it has one field only, that field becomes a generator.
* `C29_llist_of_iterator_refuted`: C29 refuted for a reverse iterator that has been advanced: `llist` ignores what was consumed.
* `C31_order_refuted`: C31 refuted: the walk is not left to right when a leaf follows a subtree.
* `C32_edges_refuted`: C32 refuted at the edges: composing no functions raises AttributeError (the comment in the code says the result is `None`), and so does composing a single builtin function.
* `C32_named_f_refuted`: C32 refuted for the name `f`: a composition of two or more functions cannot be called with a named argument called `f`, whatever the functions do; and if a function returns a named value called `f`, the next function is not called. Both raise TypeError.
* `C33_names_refuted`: C33 refuted for parameters called `f` and `func`: Python accepts `g(1, f=2)`, but for `def g(x, f)`, `curry(g)(1, f=2)` and `curry(g)(1)(f=2)` are TypeErrors, though `curry(g)(f=2)(1)` is not; and for `def g(x, func)`, `curry(g)(func=2)` is TypeError, though `curry(g)(1, func=2)` is not. `curry(g, f=2)` is always TypeError. In a curry context, a named argument left over is returned with the result, but one called `self` is TypeError.
* `C33_toplevel_refuted`: C33 refuted for arguments left over at the top level: `curry(lambda x: lambda y: 0)(10, 20, 30)` does not raise TypeError but returns `Values(0, 30)`, because the second function is called inside the curry context of the first.
* `C33_early_kwarg_refuted`: C33 refuted for a named argument that does not fit and comes before the last step: passed together with the rest it is passed on, passed earlier it is a ValueError (`partial object ... has incorrect arguments`).
* `C33_kwonly_refuted`: C33 refuted for a positional argument too many when a keyword-only one is still missing: the curried function does not wait for `k`, but calls `f(10)`, a TypeError.
* `C33_decorated_refuted`: C33 refuted for other functions: if `f` is a curried function of two parameters, then for `g = curry(flip(f))`, `g(x, y)` is `f(y, x)`, but `g(x)(y)` is `f(x, y)`. (`flip` is made with `functools.wraps`, which also copies the mark of curried functions, so that `curry` leaves `flip(f)` as it is.)
* `C34_overflow_refuted`: C34 refuted for positional overflow: for `def f(a, *, k)`, the call `f(1, 2)` leaves `k` missing, but the binder binds `k` to the extra argument and reports nothing missing; for `def f(a, **kw)`, the call `f(1, 2, x=3)` reports `x=3` as extra although `f` accepts it.
* `C34_posonly_refuted`: C34 refuted for positional-only names: `def f(a=1, /, **kw)` accepts `f(a=2)` (as `kw = {'a': 2}`), the binder raises TypeError.
* `C35_tokth_refuted`: C35 refuted for `k = -n`: `tolast(f)` of a single argument raises IndexError, although that argument is the last one.
* `C35_named_f_refuted`: C35 refuted for the name `f`: `flip(g)`, `rotate(k)(g)` and `to(spec1, spec2)` raise TypeError when called with a named argument called `f`, and call nothing.
* `C35_named_self_refuted`: C35 refuted for the name `self`: `tokth(k, f)` called with a named argument called `self` calls `f`, and then raises TypeError, because no `Values` can have a named value of this name.
* `C36_named_f_refuted`: C36 refuted for the name `f`: `andf`, `orf` (of at least one function) and `notf` raise TypeError when called with a named argument called `f`, and call nothing.
* `C37_named_f_refuted`: C37: a named value called `f`, given or returned, cannot be piped into any function: the pipes raise TypeError, without calling it. (All kinds of pipes do this, so that they still compute the same thing.)
* `C38_wraps_refuted`: C38 refuted in one case: for a trampolined function, `return jump(flip(f), x, y)` computes `f(x, y)`, where `return flip(f)(x, y)` computes `f(y, x)`. (`flip` is made with `functools.wraps`, which also copies the attribute by which `jump` finds the function to enter.)
* `C39_final_acc_refuted`: C39 refuted in one point: the documentation says that the value of the loop is always the final accumulator, but a body that returns without calling `loop` ends the loop with what it returned.
* `C40_typeerror_refuted`: C40 refuted in one case: when the iterable returned last raises TypeError while it is iterated, the error is lost and the generator just ends, handing back the iterable.
* `C40_pieces_refuted`: C40 refuted for a second loop: a generator made by `gtco` goes on where the first loop left it, but what a `gtrampolined` function returns has ended then, also in the middle of a generator without any tail call.
* `C41_unhashable_refuted`: C41 refuted for tags that have no hash value, such as lists, although the documentation asks only that tags can be compared: a `@catch` with such a tag raises TypeError when the function is defined; and a throw with such a tag becomes a TypeError at the first catch point with tags that it passes, so the catch point for it further out, here one for everything, does not get it.
* `C43_nested_handlers_refuted`: Without that assumption the claim is false: a handler that declines, but has used `with handlers` inside, makes `signal` raise RuntimeError instead of going on to the outer handlers.
* `C44_names_refuted`: C44 is violated for some names of arguments: "any args and kwargs are passed through to the restart", but with a named argument `name_or_restart`, `restart` or `self`, `invoke` of a restart in scope raises TypeError where it is called, and the restart is not invoked; so a restart with such a parameter, like `b` below, cannot be given it by name.
* `C44_own_restart_refuted`: What C44 might suggest, but is false: while a restart function runs, its own block's restarts are still in scope; a restart function that invokes its own name does not reach the next block out that binds it, nor its own block, but leaves the program with an uncaught `InvokeRestart`.
* `C44_stale_refuted`: Likewise a restart object invoked after its block has ended: no ControlError, an uncaught `InvokeRestart`.
* `C45_typed_refuted`: But if the name was already generic, `@typed` keeps the earlier multimethods, so the function accepts more than one combination of argument types.
* `C45_diamond_refuted`: In a diamond the documented order is violated: for `D(B, C)` with `B(A)` and `C(A)`, where `B` does not define the method, the multimethod of `A` runs although one of `C`, which comes first in the MRO `D, B, C, A`, accepts the arguments.
* `C45_falsy_refuted`: The method of a base class is not found for an object whose truth value is False (an empty container, say), although it is found for any other object of the same class.
* `C45_super_refuted`: `super(B, obj).f(5)` from within `B.f` calls the `f` of `A`. It has no matching multimethod, and neither has anything after it in the MRO; but instead of raising TypeError, it runs the multimethod of `B` again, because the search starts over at the class of the object.
* `C45_varargs_refuted`: `def f(*args: typing.Tuple[int, ...])` is documented to accept "any number of ints", but does not accept none at all; and `def f(**kwargs: typing.Dict[str, int])` cannot be called without named arguments.
* `C45_default_refuted`: A default that is not of the annotated type, as in `def f(x: int = None)`, makes the multimethod refuse every call that relies on the default.
* `C46_str_subclass_refuted`: With a subclass of `str` as the type, every string is accepted, also one that is no instance of the subclass.
* `C46_tuple_subclass_refuted`: With a subclass of `tuple` (say, a named tuple) as the type, every tuple is accepted.
* `C46_dict_subclass_refuted`: With a subclass of `dict` as the type, every nonempty dict is accepted, and an empty instance of the subclass is not.
* `C46_empty_builtin_refuted`: In particular, `isoftype({}, dict)` is False, and so is `isoftype([], list)`, although the builtin classes are no type specifications but concrete types.
* `C46_callable_class_refuted`: With a class whose instances can be called as the type, every callable is accepted.
* `C46_sequence_class_refuted`: With a class that inherits from `Sequence` (say, `range`) as the type, every nonempty sequence is accepted.
* `C46_bound_refuted`: The bound of a type variable is ignored.
* `C46_empty_tuple_type_refuted`: `Tuple[()]`, the type of the empty tuple, accepts every tuple.
* `C46_newtype_refuted`: A `NewType` over a generic with type arguments, over another `NewType` or over a type variable raises TypeError, whether the value belongs to it or not.
* `C46_newtype_empty_refuted`: A `NewType` over `typing.List`, say, accepts an empty list, which `typing.List` does not.
* `C47_insist_refuted`: The lines after an `insist` that fails are evaluated all the same (once): here the nested loops return, but `forall` raises.
* `C47_typeerror_refuted`: A TypeError raised by a line after the first choice is swallowed, and results are lost.
* `C47_shadowing_refuted`: A name bound again by an inner line is not restored for the outer one.
* `C47_nil_refuted`: A choice from the one item `nil`, and a result that is `nil`, vanish.
* `C48_nil_refuted`: For `nil` both fail.
* `C48_typeerror_refuted`: A function that raises TypeError: bind swallows the exception and returns an empty list.
* `C48_eq_refuted`: C48 refuted for comparisons: comparing a monadic list with an object that has no length, such as a number or None, raises TypeError instead of answering that they are not equal; so a list of both can not be searched with `in`, nor can nested monadic lists be compared with flat ones.
* `C49_keyerror_refuted`: What C49 might suggest, but is false: that `sym(name)` always returns. Between its check that the name is there and its access to it, another thread may drop the last reference to the symbol; then it raises KeyError.
* `C50_keyerror_refuted`: Unpickling a singleton can raise KeyError in the same way as in `C49_keyerror_refuted`.
* `C51_large_message_refuted`: C51 fails for a chunk of 4096 bytes: a message of that size, read in chunks of the default size, makes the decoder raise `UnboundLocalError`.
* `C51_split_header_refuted`: C51 fails for a header that comes in two chunks of which the second is large: the message is skipped.
* `C52_bad_length_refuted`: C52 fails for a length that `int` does not accept: the decoder raises, and as it leaves its buffer as it was, every later call raises again.
* `C56_given_power_refuted`: C56 fails for power sequences: signs of the given terms are ignored. `s(2, -4, 16, ...)` yields 2, 4, 16, ... (`log` and `pow` are exact here, so it is no matter of rounding.)
* `C56_given_tolerance_refuted`: C56 fails for large integers: the tolerance that is meant for floats makes `s(0, 10**9, 2*10**9 + 1, ...)` an arithmetic sequence, which does not go through the given terms.
* `C56_final_first_refuted`: C56 fails: the first element as the final one is rejected, although it belongs to the sequence.
* `C56_final_truncates_refuted`: C56 fails: a final element that precedes the last of the given terms is accepted, and then not all given terms are included.
* `C56_final_tolerance_refuted`: C56 fails for large integers: a final element that does not belong to the sequence is accepted; the sequence then ends with another one.
* `C56_errors_refuted`: C56 fails: not every unrecognized specification is a `SyntaxError`.
* `C58_uncaught_refuted`: C58 fails: whenever the body raises an exception that no handler matches, and `finallyf` does not raise, the exception is swallowed, and `tryf` returns `None`.
* `C59_block_stopiteration_refuted`: C59 fails for the block form: `with reraise({StopIteration: RuntimeError})` does not convert (class 4 is `StopIteration`, class 5 is `RuntimeError`), and `with reraise({KeyError: StopIteration})` raises a `RuntimeError`.
* `C60_memo_history_refuted`: With `memo` (the default), that fails: results computed inside a cycle, from bottom, are remembered. Here `f(1)` is `[1] + f(2)`, `f(2)` is `[2] + f(1)`, and bottom is `[]`. As a first call, `f(2)` gives `[2, 1]`; after `f(1)`, it gives `[2]`.
* `C61_internal_names_refuted`: With a name of an internal variable among the bindings, they do not: in `lispylet` the binding is forgotten together with the environment. Neither rejects it, although both names are listed as reserved.
* `C61_method_names_refuted`: A name that is a method of `env` can be bound, but the body does not see the binding.
* `C61_parameter_names_refuted`: C61 is violated for the names of parameters of the code: a binding called `body` or `mode` is TypeError for `let`, `letrec` and the decorators (though not for `lispylet`), and the decorators do not bind a name `_envname`.
* `C62_lazy_race_runs_twice_refuted`: C62 is violated under concurrency (1): two threads forcing a fresh promise both run the thunk and can get different values.
* `C62_lazy_race_returns_exception_refuted`: C62 is violated under concurrency (2): if the thunk raises, a second thread that comes between lines 66 and 67 gets the exception instance *returned* as if it were the value.
* `C63_format_negative_refuted`: C63: negative times are not told apart from positive ones by `format_human_time`: minus half a minute is shown as almost a day.
* `C68_subset_refuted`: C68: refuted for iterators: whenever two different items come in the other order, `subset` denies what holds.
* `C70_env_shadowed_by_method_refuted`: C70 is violated for names of methods of `env` which are not reserved: the write is accepted, the name is then bound, and reading it gives the method.
* `C70_update_self_refuted`: C70 is violated by `update` with a named argument `self`: a dict (and `e["self"] = 1`) accepts the name, `update` raises TypeError.
* `C71_assignonce_constructor_refuted`: C71 is violated by `assignonce`: `assignonce(foo=1)` always raises, because `__init__` runs twice.
* `C72_names_refuted`: C72 is violated: keys named like the parameters of `fupdate`. A new value for the key `values` is lost without notice, for every mapping and whatever the other bindings are. The key `indices` is lost if the new value is None, and is otherwise an error; the key `target` is always an error. For a frozendict, `self` and `cls` are errors too; as keys of a dict they are not.
* `C73_names_refuted`: C73 refuted for some names: `apply(g, lst, f=...)` and `apply(g, lst, arg0=...)` raise TypeError without calling `g`; `identity(self=...)` and `const(self=...)` raise TypeError.
* `C77_keep_none_refuted`: C77 fails for `keep_last=0`: it raises `ZeroDivisionError` after the first tick.
* `C80_leak_refuted`: If they do catch exceptions, this fails: the jump targets of a chain that raises stay in the set of active calls until the outermost call is over. Here `f(0)` calls `f(1)`, which jumps to `f(2)`, which raises; `f(0)` catches that, and jumps to `f(2)`. Plain recursion raises; `@fixtco` returns bottom.
* `C80_memoized_refuted`: C80 is violated by functions that return the same jump object again, such as memoized ones: `fixtco` replaces the target of the jump with a function of its own, and when it meets the same jump again, this function calls itself forever. For the memoized `countdown`, the ordinary values exist, and the call with 1 returns 0, but a call with 2 after that does not return (in Python: RecursionError).
* `C80_memoized_cycle_refuted`: C80 is violated: nor does `fixtco` find the cycles of such functions.
* `C81_do_empty_refuted`: `do()` has no value to return: it raises UnboundLocalError, an internal error.
* `C81_do0_name_clash_refuted`: An item that assigns to `_do0_result` changes the result.
* `C82_signal_refuted`: C82 fails for the other protocols: with `signal`, a condition that two entries match is converted into both, and if these are declined, the original is delegated to the outer handlers all the same.
* `C82_recursion_refuted`: Another way in which C82 fails: if the value of the matching entry is itself an instance of the type of that entry (say, `resignal({Exception: MyError})`), the conversion never ends, whatever the protocol.
* `C84_method_names_refuted`: C84 is violated for names of attributes of the class of `dyn`: `x in dyn` although iteration does not give it (nor does a live view have it), and where it is bound, the mapping gives the value but `get` gives the method.
* `C85_shared_refuted`: C85 fails when a mutable container occurs twice: the function is applied to its atoms twice, the second time to its own results. Here `[a, a]` with `a = [1]` and adding one: `a` becomes `[3]`.
* `C85_stopiteration_refuted`: C85, "raises the same exception", fails for a StopIteration in a tuple: the items of a tuple are processed by a generator expression, which replaces it by a RuntimeError. In a list it stays a StopIteration.
* `C85_cycle_refuted`: C85 fails for a container that contains itself: the recursion has no end.
* `C86_imemoize_race_refuted`: C86 fails for `imemoize` when two threads race on its first call: each gets a generator of its own over the same iterator, so that each misses the items that the other one takes.
* `C87_shadow_refuted`: The documentation's example of a `let` in a `do` that shadows a name of the `do` (it should print 23 and 17) does not expand: it raises SyntaxError.
* `C87_default_refuted`: In `let[x := 1][(lambda x=x: x)()]` the default of the parameter is not the `x` of the `let`: the expansion raises NameError (or takes a global `x`), though by the rules of scoping the result is 1.
* `C87_method_name_refuted`: A variable may have the name of a method of `env` (as far as it is not reserved), but then reading it yields the method: `let[items := 1][items]` is not 1, and not even an object of the program.
* `C87_local_rhs_refuted`: In `local[x := (x := 5)]` the inner assignment goes to the new variable, although "the old bindings are still in effect on the RHS" (letdo.py:641-645): the outer `x` keeps its value 1.
* `C89_and_refuted`: C89. `return 0 and ident(1)` returns 0 in Python, but False in a `with tco` block.
* `C89_it_refuted`: C89. A variable named `it`: `def f(it): return 0 or ident(it)` returns its argument in Python; in a `with tco` block the variable is taken for the value of the first operand.
* `C89_list_refuted`: C89. A list: `return [1, 2] or ident(3)` returns the list in Python; in a `with tco` block the list is taken for a `do`, and 2 is returned.
* `C89_try_refuted`: C89. `try: return boom() / except: return 7`: in Python, the exception is caught; in a `with tco` block, it is not: the call is made after the `try` has been left.
* `C89_finally_refuted`: C89. `try: return log1() / finally: log2()`: in a `with tco` block, the `finally` clause comes first.
* `C89_ec_refuted`: C89. A function named `ec` that returns normally: `def f(): return ec(5)`. In a `with tco` block the result is lost.
* `C89_block_return_refuted`: C89. A `with tco` block in a function, with `return ident(5)` directly in the block: the function returns a jump object instead of 5.
* `C89_not_callable_refuted`: C89. Calling something that cannot be called, as in `def f(): return 5()`: a TypeError in Python, but a RuntimeError in a `with tco` block (which is why `Same` admits this).
* `C89_ec_arity_refuted`: C89. Calling an escape continuation with no argument, or with two (as in `throw(value, tag)`), breaks the expansion of the block.
* `C90_loop_refuted`: C90 is violated: the macro leaves calls of functions named `loop` (or `jump`, or `Values`) as they are, also if they are functions of the program. A function named `loop` that counts down by calling itself in tail position needs no more stack for greater numbers if tail calls are proper, but in a `with tco` block it needs a stack deeper than the number it counts down from.
* `C91_branch_def_refuted`: C91. A function definition in tail position within an `if`, as in `def f(x): if x: def g(): 1`, is not expanded to a program that compiles: two statements are put in the place of one. By the documentation, the function should be returned.
* `C92_empty_tuple_refuted`: C92. There is no way to write the empty tuple in a `with prefix` block: although quoted, `(q, ())` makes the macro raise ValueError.
* `C92_double_star_refuted`: C92. A `kw(...)` should take individual named arguments only, but `**d` in it is accepted; and of `(f, kw(**d), kw(**e))` only `**e` remains.
* `C93_same_priority_refuted`: C93. Decorators of the same priority are not left in the order that they are in: `withself(call_ec(lambda ...))` becomes `call_ec(withself(lambda ...))`.
* `C93_named_arguments_refuted`: C93. Named arguments do not follow their function when the decorators are put in order: `trampolined(curry(lambda x, y: ..., x=1))` becomes `curry(trampolined(lambda x, y: ..., x=1))`.
* `C93_documented_order_refuted`: C93. The docstring of `sort_lambda_decorators` says that `call_ec(curry(trampolined(lambda ...)))` becomes `trampolined(call_ec(curry(lambda ...)))`; with the priorities of the library it becomes `curry(trampolined(call_ec(lambda ...)))`.
* `C93_not_in_order_refuted`: C93. The check that the existing decorators are in order never fails (it looks at the running maximum, which always is), so that an index is suggested for `trampolined` in the list `memoize`, `curry`, `call_ec`; where there is no correct one.
* `C94_and_refuted`: C94. `return None and f()` gives `False` (0 here), not `None` (tailtools.py:1632-1636).
* `C94_two_callcc_refuted`: C94. A function with two `call_cc`s, itself called by `call_cc`: the rest of the function that called it is never run. The continuation made by the second one has for its parent the `cc` of the first continuation, which is `identity`, not the parent of the first continuation (tailtools.py:1109-1111). The documentation allows several `call_cc`s in a function (425-426) and says that a function with a `call_cc` in it goes on to its own `cc` in the end (464-481).
* `C94_skip_refuted`: C94. `call_cc[... if p else None]` where the call is skipped, in a function that was called by `call_cc`: what follows that function is run twice. The continuation is called with `cc=cc` and has `cc` for its parent, too (tailtools.py:1090, 1109-1111).
* `C94_composed_refuted`: C94. After a `call_cc`, in a function that was itself called by `call_cc`, a tail call of a function that uses `call_cc` ends in a TypeError: the composed continuation that is passed to it as `cc` becomes the parent of the continuation made there, and is called with `cc=...`, which it passes to `jump` a second time (tailtools.py:765-766). The documentation says that a composed continuation is passed to tail calls (504-507).
* `C94_call_composed_refuted`: C94. A composed continuation that is called other than in tail position does not run: it has no trampoline, and the value of the call is a `jump` object (tailtools.py:764-766). Any other `cc` can be called like a function.
* `C94_return_cc_refuted`: C94. `return cc(5)` in a function that is called normally gives `Values(5, cc=identity)`, not `5`: the tail call passes `cc=cc` on, and `identity` returns all its arguments (fun.py:673-675).
* `C95_augassign_refuted`: C95: refuted for augmented assignment. In a function, `n += 1` on a parameter `n` raises TypeError (the promise is not forced, as the name is not in Load context), even for the call `f(1)`.
* `C95_star_refuted`: C95: refuted for unpacking a parameter in a call. In a function, `f(*t)` for a parameter `t` raises TypeError (the promise is not forced), unless the caller has written a tuple, list or set as the argument.
* `C95_default_refuted`: C95: refuted for the defaults of parameters. They are not transformed, so that a default that computes with a parameter of the function around it raises TypeError.
* `C95_flat_refuted`: C95: refuted for what is computed within `(...)[i]`. Names in there are forced only superficially; `a == (1, 2)` compares the promises in the tuple `a`, so that the program takes the wrong branch, without any error.
* `C95_nested_refuted`: C95: refuted for a promise that evaluates to a container with a promise in it. Using its name does not evaluate the items, unlike for a container that is not in a promise.
* `C95_name_refuted`: C95: refuted for functions of the user's own with the name of a container constructor, such as `box`, `Some`, `cons`, `ll`. The arguments are evaluated even if they are not used.
* `C97_shadow_refuted`: C97: refuted for a local variable with the name of a parameter of an enclosing function. An assignment to it assigns to the parameter of the enclosing function: here `f(5)` returns 1.
* `C97_comprehension_refuted`: C97: refuted for comprehensions. A comprehension whose variable has the name of a parameter assigns its items to the parameter: with `def f(a): [a for a in (1, 2)]; return a`, `f(5)` returns 2.
* `C97_def_refuted`: C97: refuted for `def` with the name of a parameter. The function that is defined is not seen; the name still means the argument: here `g(7)` in `f(print)` calls `print`, where it should raise TypeError, as `g` has no parameters.
* `C97_default_refuted`: C97: refuted for defaults. A default that mentions a variable with the name of a parameter (as in the idiom `lambda x=x: ...`) raises NameError when the function is defined.
* `C97_del_refuted`: C97: refuted for parameters that have been deleted. Use of a deleted parameter, and deleting it again, raise AttributeError instead of NameError; and after `del a`, the assignment `a := 1` raises AttributeError too, where Python assigns.
* `C97_self_refuted`: C97: refuted for a parameter named `self`. A call of such a function raises TypeError, so that methods are not possible in a `with envify` block; likewise for `cls` in a `def`.
* `C97_reserved_refuted`: C97: refuted for a parameter with a name that environments reserve: `set`, `clear`, `finalize`. For a `def`, a call raises AttributeError; for a lambda, the name means a method of the environment instead of the argument.
* `C97_method_refuted`: C97: refuted for a parameter with the name of a method of environments, as `items` or `values`. In the body of the function the name means that method instead of the argument; no error is raised.
* `C98_terminate_refuted`: `terminate`, also as the callback of a testset, should end the session. `testset` is a context manager made of a generator, in which `except TestSessionExit: pass` does not pass the exception on but swallows it: only the innermost testset ends, and the following tests are run.
* `C98_terminate_in_test_refuted`: `terminate` called in a test does not end the session either: the test is one that errored, and the following tests are run.
* `C98_stray_signal_refuted`: A plain `signal` outside tests should be counted once, as a `cerror` is. There is no restart to stop it with, so that every testset around it counts it: in a testset in a session, twice. Also the `ControlError` of an `error` is counted, thus three times.
* `C98_testset_in_test_refuted`: A plain `signal` in a testset that is in a test, is counted by that testset and, again, as an error of the test; and the rest of the testset is not run.
* `C98_bool_refuted`: A test should not prevent what comes after it, and be counted once. A test with a value whose truth value raises (an array of more than one number) ends the testset, and is counted twice: as one that passed, and as an error.
* `C98_str_refuted`: A test that passes with a value whose `str` (or, for a captured one, `repr`) raises is counted as an error, and ends the testset: the text of the message is made although it is not needed.
* `C99_capture_refuted`: The arguments of a template are put in one after the other, so that a parameter that occurs in an argument is replaced as well: with `f[a, b] << g(a, b)`, `f[b, 1]` becomes `g(1, 1)` and not `g(b, 1)`.
* `C99_self_refuted`: A bare name the right hand side of which contains the name itself, as in `x << f(x)`, is replaced over and over: RecursionError.
* `C99_argument_refuted`: A use of a template with an argument that contains the parameter, as `f[a + 1]` for `f[a] << a * 2`, is a RecursionError.
* `C99_nested_refuted`: The result of a substitution is not looked at itself, only what is in it: with `f[a] << a`, `f[f[1]]` becomes `f[1]`, not 1.
* `C99_nested_block_refuted`: What a block template is replaced by is not looked at: with `with block[a] as twice: a; a`, in `twice[twice[x]]` the inner use is left as it is.
* `C99_duplicate_refuted`: A second definition of a bare name in a block is no duplicate: the name is replaced first. `with expr as x: y`, then `with expr as x: z` defines `y` to be `z`.
* `C99_parameter_refuted`: A parameter of a block template that is also a bare name defined before is replaced in the list of parameters: AttributeError.
* `C99_empty_refuted`: Eliminating `if 0:` may leave an `if` without statements, which is no Python.
* `C100_key_refuted`: C100, refuted for keys: in `d[k] = 5` the key is not looked up in the object, though it is read; `autoref` skips all of the target.
* `C100_skipped_refuted`: C100, refuted for the names on the list: an attribute of the object named as one of the helpers of other macros, such as `lazy` or `curry`, is never found.
* `C100_property_refuted`: C100, refuted for properties: a name that is a property of the object evaluates it twice, first for `hasattr`.
* `C100_loop_refuted`: C100, refuted for functions in loops: a block in a loop has one variable, so a function made in it refers to the object of the last round, not to that of the round that made it. Here each of two objects is given a function `f` made in a block for it; the `f` of the first then returns the `b` of the second.
* `C100_own_name_refuted`: C100, refuted for an object computed from the name it is given: in `with autoref[o]:`, the `p` in brackets of `with autoref[p] as p:` is not looked up in `o`, though it is read before the inner block begins.
* `C101_copy_refuted`: C101, refuted for the original. The documentation says that the result is a modified copy and the original is not mutated. But `copy.copy` does not copy functions, so it is the original that is renamed.
* `C101_qualname_refuted`: C101, refuted for names with dots. A function whose name has a dot in it, such as those that `namedlambda` makes from the name of the file and the line, keeps a part of that name in its qualified name when it is renamed.
* `C102_default_refuted`: C102, refuted for defaults: a lambda that is the default of a parameter of a lambda gets no name, as in `f = lambda g=lambda: 0: g()`.
* `C102_decorator_refuted`: C102, refuted for decorators: a lambda in a decorator of a lambda that is bound gets no name, as in `f = trace(lambda: 0)(lambda: 1)`.
* `C102_function_refuted`: C102, refuted for the function of a call with named arguments: what is bound there is named by its location instead, as in `make(h=lambda: 1)(k=2)`.
* `C102_key_refuted`: C102, refuted for keys that are no strings: in `{1: lambda: 0}` the lambda is to be named 1, which is no string; by `C101_errors`, this is a TypeError when the program runs.
* `C103_conditional_refuted`: C103, refuted for conditional expressions: `fn[_ if _ else _](1, 0, 3)` is 0, though it reads `1 if 0 else 3`: the first argument is the condition.
* `C103_dict_refuted`: C103, refuted for dictionaries: `fn[{_: _, _: _}](1, 2, 3, 4)` is `{1: 3, 2: 4}`, not `{1: 2, 3: 4}`.
* `C104_callable_refuted`: C104, refuted for a call of something that is no function: `5(1)` is 5 in a `with autocurry` block, and not a TypeError; outside, it is one.
* `C104_leftover_refuted`: C104, refuted for arguments left over: `(lambda x: (lambda y: y)(x, 1))(2)` is `Values(2, 1)`, and not a TypeError, though no function takes the last argument.
* `C104_nested_refuted`: C104, refuted for lambdas in a lambda curried by the user: with `f = curry(lambda x: lambda y, z: x - y - z)` in the block, `f(1)(2)(3)` outside is a TypeError; without that `curry` it is not.
* `C104_argument_refuted`: C104, refuted for lambdas that are arguments of a function curried by the user: in `curry(use)(lambda x, y: x - y)` the lambda is not curried, as if `curry(use)` was a `curry` for it.
* `C104_default_refuted`: C104, refuted for defaults of lambdas: with a function `f` of two arguments from outside of the block, `(lambda g=f(1): g(2))()` is a TypeError, as the call in the default is not curried; in a default of a `def`, it is.
* `C105_typeerror_refuted`: C105: a TypeError in a line other than the first is lost, and so are all results of the loop: `forall[x << [1, 2], 1 + "a" if x == 2 else x]` is an empty tuple.
* `C105_nil_refuted`: C105: a `nil` of `llist` as the result is lost: `forall[x << [1, 2], nil]` is an empty tuple; and `forall[x << [nil], 1]` too.
* `C105_ignored_refuted`: C105: a variable called `_ignored` is hidden by any line without a name: with `_ignored = 7` outside, `forall[insist(True), _ignored]` is `(True,)` (`True` is 1 here).
* `C106_block_refuted`: C106, refuted for assignments in the block of a compound statement: after `if 1: x = 5`, in the same block, `return x` returns the let variable, 1, and not the local variable, 5, though it is in the lexically remaining part of the scope.
* `C106_block_local_refuted`: C106, refuted for local variables deleted in the block of a compound statement: after `x = 5`, with `if 1: del x; return x` the local variable is meant and not the let variable, so that an exception is raised.
* `C106_parameter_refuted`: C106, refuted for functions in functions with parameters named like let variables: after `def g(x): return 0`, in the decorated function, `return x` does not return the let variable, 1, but the global one, 9: the parameter is taken for one of the decorated function.
* `C106_default_refuted`: C106, refuted for defaults of functions in functions: `def g(x=x): return x` does not see the let variable, 1, but the global one, 9.
* `C106_global_refuted`: C106, refuted for functions in a function that declares a let variable `global`: with `global x` in the decorated function, a function in it still sees the let variable, 1, and not the global one, 9, if it does not say `global x` itself.
* `C106_own_default_refuted`: C106, refuted for the defaults of the decorated function: in `@dlet[x := 1, y := 2] def f(a=x): return a` the default is taken for the let variable, but there it cannot be seen, and an exception is raised.
* `C106_nested_delete_refuted`: C106, refuted for functions in functions that delete a let variable: after `x = 5` in the decorated function, its local variable hides the let variable for the functions in it. But `def g(): x = 6; del x; return x` returns the let variable, 1.
* `C107_block_refuted`: A mark in a `with test` block in another one is not noted for the innermost test, but for the outer one.
* `C107_exit_refuted`: `test_raises[KeyboardInterrupt, exit()]` is not passed, nor is it on the log, and the program does not go on, for any function `exit` that raises KeyboardInterrupt, and whatever the types are: only instances of `Exception` are expected.
* `C107_source_refuted`: If a mark is in a mark, the source shown for the outer one is not what was written, but the code inserted by the macro.
* `C107_literal_refuted`: `test[4 in 3]`: the message of the failed test says `4 = 4`; literals should be left out.
* `C108_write_body_refuted`: With Python 3.9 or later, if the body of `let[...][body]` is written, and the new body has an attribute `value` (for instance, it is a constant, an attribute, or a subscript), then this attribute of the new body is overwritten by the body itself.
* `C108_decorator_body_refuted`: The body of a view of a decorator is not None; reading it raises a TypeError. (`prefix` and `namedlambda` read it for each `let` form, so that they fail if there is a `@dlet` in the block.)
* `C108_template_refuted`: Templates are not accepted by `let_syntax[[f(a) << v] in body]` and `let_syntax[body, where[f(a) << v]]`, but only by `let_syntax[f(a) << v][body]`.
* `C108_nested_marker_refuted`: If a name has two markers around it, writing the name of an assignment does not change it.
* `C109_falsy_fallback_refuted`: A fallback that counts as false, such as an empty list, is not tried.
* `C109_special_names_refuted`: A shim is not transparent for the names that any object has, for example `__doc__`: these are written to the object in the box, but they are read from the shim itself.
* `C110_wrong_session_refuted`: If the session ends after the request for an interrupt has been seen, and a new session begins in a thread that gets the ident of the old one, then the new session is interrupted, with which the channel has never been paired. Its client is told that the interrupt was delivered.
* `C110_no_reply_refuted`: "For each request received, the server sends a reply, which is also a dictionary with str keys.": there is none, and the channel is closed, if a request is a dictionary without any keys, if the id of a session is a list, and if `complete` raises an exception (for `text` that is an expression whose attributes cannot be found).
* `C111_thread_refuted`: `fg` never delivers anything for the thread objects that `bg` returns: `"ident" not in thread` raises TypeError, because a thread is no container.
* `C111_results_refuted`: Even of an object that passes the check: (1) if the thunk is ended by an exception that is no Exception, such as KeyboardInterrupt or SystemExit, then `fg` says, for ever, that it is running; (2) after `bg`, and before the worker has begun, there is a ValueError instead of the thread; (3) a new job whose thread gets the ident of the thread of a finished one overwrites its result.
* `C112_split_prompt_refuted`: If the network splits the prompt, then the client shows it, but never asks for input: both sides wait for the other one.
* `C112_split_character_refuted`: If the network splits a character, then the client ends with UnicodeDecodeError.
* `C112_false_prompt_refuted`: If a part of an answer ends with the text of a prompt, then the client asks for input before the answer is complete.
* `C112_empty_prompt_refuted`: With an empty prompt, the output is lost.
* `C112_first_line_refuted`: If the part with the end of the first line ends within a character of the banner, then the client ends with UnicodeDecodeError.
* `C113_decorator_envname_refuted`: A view of an expanded `@dlet` or `@blet` does not have the name of the environment, although it is in the form.
* `C113_half_written_refuted`: An assignment that fails can leave the form half written: with a value that is no lambda after one that is, there is a `TypeError`, but the first variable of the `letrec` has the new value already, under its old name.
* `C113_own_function_refuted`: A call of the user's own function `letter`, also as a method, makes the detection fail with an `AssertionError` if it has no argument `mode`, and is taken for a `let` if that is a constant; and a call of the user's function `dof` is taken for a `do`.
* `C113_do_half_written_refuted`: Here, too, an assignment that fails can leave the form half written.
* `C113_manual_curry_refuted`: In a lambda that is curried by hand, `autocurry` leaves the lambdas of a `let` alone, and makes a form of a third format: the view has neither the body nor the name of the environment.
* `C113_decorator_refuted`: But `with autoref` and `with lazify` fail at a function with one of the decorators `@dlet`, `@dletrec`, `@blet` and `@bletrec`: they ask the view for the body, and get a `TypeError`.
* `C114_bound_refuted`: In Python, `del x`, `import x.y` and `:=` in a comprehension, in a decorator, or in a default value of a function or a lambda bind `x` in the block: these are not seen. What is seen instead is, in a block with `import x.y`, a name `x.y`; with `from m import *`, a name `*`; with an `except` without a name, None.
* `C114_pattern_refuted`: A class pattern `C(…)` or a mapping pattern `{…}` anywhere in the block makes the analyzer fail with a `TypeError`.
* `C114_everything_else_refuted`: A name that the function declares as global and assigns to is in both results, although "the list `args` contains everything else".
* `C114_lambda_refuted`: `lambda: (x := 1)` has a variable `x`, which is not given.
* `C114_comprehension_refuted`: A comprehension in which a target is a list (`for [x, y] in …`), an attribute or a subscript makes the analyzer fail with a `SyntaxError`, although it is correct Python; and in a tuple, the names of the objects whose attributes or items are assigned to are taken for variables of the comprehension (`for (x.a, y) in …`).
* `C114_class_refuted`: These are not "exactly those that shadow" names around the class: a base class `A` is not a variable of the class, and still is given; a variable `x` of the class is not given.
* `C115_short_write_refuted`: **C115**, a counterexample: `socket.send` and `os.write` may take only a part of the bytes, as they may with the buffer nearly full; the rest is thrown away, and the session goes on without it.
* `C115_unset_refuted`: **C115**, a counterexample: the callbacks are optional ("if set"), but the end of a side whose callback is not set ends the thread with a TypeError (`None` is called).
* `C115_hangup_refuted`: **C115**, a counterexample: that the program at the slave side has gone is not always reported as an end: on Linux it is an OSError (EIO). Likewise writing to a socket whose client has gone may be a BrokenPipeError. Both end the thread with this exception, and no callback is called.
* `C115_twice_refuted`: **C115**, a counterexample: the callbacks run inside the `try` that is meant for the socket: one that raises ConnectionResetError makes the callback for the socket be called in addition, even a second time.
* `C115_stop_refuted`: **C115**, counterexamples: `stop` "also closes the PTY", but a proxy that was never started keeps it open; in a callback, `stop` is a RuntimeError (a thread cannot join itself) and leaves it open; and a stopped proxy cannot be started again: that is a TypeError.
* `C116_streams_refuted`: **C116**, a counterexample: a program that has replaced `sys.stdout` since the module was imported, for example to redirect it, finds it undone after it has started and stopped a server.
* `C116_prompts_refuted`: **C116**, counterexamples: an empty prompt is deleted, and so is `sys.ps1` when there is no `sys.ps2`; and if the prompts have been deleted while the server ran, then `stop` is an AttributeError, with the server stopped.
* `C116_failed_start_refuted`: **C116**, a counterexample: each `start` that fails because a port is taken has already replaced the streams and the prompts, whatever they were, and `stop` does not give them back: it does nothing.
* `C116_leak_refuted`: **C116**, a counterexample: if the port for the control channel is taken, then the server for the sessions stays, though `start` has failed: no `stop` and no further `start` closes its port, and a new `start` on it fails, even when the other port has become free.
* `C116_halt_refuted`: **C116**, a counterexample: `halt` is there in all sessions, and says that the server will shut down after the last client has disconnected, but a server that was started by `start` never does: whatever happens in the sessions, it stays.
* `C117_state_refuted`: C117 is violated: with more than one binding, what a call assigns to a let variable (but the first) is forgotten. `@dletseq[x := 0, y := x]` `def f(): (y := y + 1); return y` gives 1 each time; with the one binding `y := 0`, it counts.
* `C117_once_refuted`: C117 is violated: the values of all bindings but the first are computed in each call, and not at all at the definition.
* `C117_parameter_refuted`: C117 is violated: a let variable hides a parameter of the same name (with `dlet`, the parameter hides the let variable): `@dletseq[x := 1]` `def f(x): return x` gives 1, whatever the argument.
* `C117_assigned_parameter_refuted`: C117 is violated: with more than one binding, a parameter that the body assigns to has no value: UnboundLocalError.
* `C117_scope_refuted`: C117 is violated: the values of all bindings but the first see the parameters, not the names outside of the function.
* `C117_decorators_refuted`: C117 is violated: with more than one binding, the other decorators are not applied to the function, but to a function inside it, in each call.
* `C118_below_power_refuted`: C118 is violated: for the float just below `2**n`, for each n from 3 to 1023, `ulp` returns twice the value of its least-significant bit, because the logarithm is rounded up to n.
* `C118_largest_refuted`: C118 is violated: `ulp` of the largest float raises OverflowError.
* `C118_subnormal_refuted`: C118 is violated: for the smallest floats (up to `2**-1024`), `ulp` returns 0; their least-significant bit is worth `2**-1074`.
* `C118_zero_refuted`: C118 is violated: `ulp` of zero raises ValueError; its least-significant bit is worth `2**-1074`.
* `C119_nested_refuted`: C119 is violated: a linked list in a linked list is not written in dot notation by `lispyrepr`: `ll(ll(1, 2), 3)` gives `(ll(1, 2) 3)`.
* `C119_work_refuted`: C119 is violated: the representation of `n` cells, each in the first place of the next, asks for that of its atoms more than `2**n` times (there are `n + 1`), whether by `repr` or by `lispyrepr`.
* `C120_no_source_refuted`: C120 is violated for functions whose source code is not available (typed into Python's own prompt, or made by `exec`): `@generic` raises OSError, but the multimethod is registered: it is listed, and it is called. `@typed` raises, too, and leaves a generic function behind that is open for more.
* `C120_name_refuted`: C120 is violated: if the first parameter of a method has another name (`def f(me: Any, x: int)`), then `list_methods` of the bound method lists the multimethods of the base classes, too, but a call does not find them.
* `C121_percentage_refuted`: C121 is violated: with five tests, four of which fail, 20 percent pass, but 19 is shown: `4 / 5` is rounded up.
* `C122_circle_refuted`: C122 is violated: after `raise e from e` (which Python itself reports as one exception), there is no description: the recursion does not end.
* `C123_kwargs_refuted`: C123 is violated: if any multimethod of a generic function has a keyword-only argument of the asked kind whose name is not exactly two characters long, then `required_kwargs` or `optional_kwargs` raises ValueError.
* `C123_letters_refuted`: C123 is violated: and if the name is two characters long, then what is returned is a dict with the first one as key and the second one as value.
* `C123_bound_refuted`: C123 is violated: `self` counts for a bound method that is generic: for `@generic def f(self, x)`, `arities(obj.f)` is (2, 2), but `obj.f(x)` works, and `obj.f(x, y)` raises TypeError.
* `C123_handler_refuted`: C123 is violated: so a bound generic method `f(self, condition)` is of no use as a handler of conditions: `signal` calls it without the condition, which raises TypeError.
* `C123_base_refuted`: C123 is violated: the multimethods of base classes, which a call can go to, do not count: with `A.f(self, x)` and `B.f(self, x, y)` for a subclass B, `arities(B.f)` is (3, 3), but `B.f(obj, x)` works; and so it is for `obj.f`.
* `C123_negative_refuted`: C123 is violated: for a bound method whose `self` is in its `*args`, the smallest number of arguments is given as -1.
* `C123_builtin_refuted`: C123 is violated for `print`: by the table at least one argument is needed; but `print(*args, sep=' ', end='\n', file=None, flush=False)` can be called without any.
* `C125_sep_refuted`: C125 is violated for `sep=None`, which the built-in `print` takes for the default separator: there is a TypeError.
* `C125_star_refuted`: C125 is violated for arguments with a star: in `print(*xs)`, where `xs` is `[1, 2]`, the printer gets one source code but two values; so by default, only the first value is printed.
* `C125_nested_refuted`: C125 is violated for nested `with dbg[prt]` blocks with the same custom print function: the inner calls are transformed twice, which gives them the named arguments `filename` and `lineno` twice: a SyntaxError.
* `C126_theprint_refuted`: C126 is violated for programs with a variable `theprint`: the macro's own function of this name is in the namespace of the program. Here: `theprint = 5`, and then the expression `7`: TypeError, as 5 is called.
* `C127_interrupted_refuted`: C127 is violated if the client is interrupted (Ctrl+C) while it waits: then from there on each call gets the answer to the request before it, for good. Here, for any server that answers, `a` is the answer to the request that was interrupted, and there are any requests after it.
* `C127_desync_refuted`: C127 is violated: after Ctrl+C during a tab completion, `send_kbinterrupt()` reports success on a channel that is not paired, although the server refused; and the next tab completion (if the server has completions) gets None, the answer to the interrupt. And if pairing came next, the completion after it raises KeyError.
* `C128_named_f_refuted`: C128 is violated for values named `f`: a composition of two or more functions cannot be called with a named argument `f`, and a named value `f` cannot be passed from one function to the next: it is a TypeError.
* `C128_composerc_refuted`: C128 is violated for `composerc` of three functions: `composerc(f3, f2, f1)(1, 2)` raises TypeError, where `composelc(f1, f2, f3)(1, 2)` is 7. (The composition of `f3` and `f2` is not a curried function, so `f1` is not called in a curry context, and cannot pass on the argument 2.)
* `C128_composerc_toplevel_refuted`: C128 is violated by any number of functions from three on: in `composerc(..., f3, f2, f1)`, called at the top level, a function `f1` of a fixed number of parameters that is given more arguments raises TypeError, whatever functions come after it.
* `C129_nan_refuted`: C129 is violated by items that are not equal to themselves, such as `nan`: a view that begins with one is equal to itself, although it is not equal to a list of the same items.
* `C129_unsized_refuted`: C129 is violated: comparing a view with something that has no length, for example a number or None, raises TypeError instead of being False.
* `C129_unordered_refuted`: C129 is violated: a view is equal also to what is not a sequence at all, but a set or dictionary, if iterating over this gives the same items.
* `C129_shown_refuted`: C129 is violated for views of strings and ranges: of a string, a view shows the text `<generator object ...>`, and for a range, even printing it is a TypeError.
* `C130_first_refuted`: C130 refuted, in general: if the arguments so far complete no multimethod, but they are all right for one, then the curried function should wait; but if the multimethod that was defined first has no parameter for one of the arguments, there is a ValueError.
* `C130_conflict_refuted`: C130 refuted for a call in which a multimethod that does not match would get an argument twice: with `def f(a: A, x: B)` and later `def f(x: A, y: A)`, `f(a, x=b)` runs the first one, but `curry(f)(a, x=b)` is a TypeError (multiple values for argument `x`), because the analysis does not skip the second one.
* `C130_longer_refuted`: C130 refuted for multimethods with more parameters than the one that was defined first: with `def f(x: A)` and later `def f(x: B, y: B, z: B)`, `f(b, b, b)` runs the second one, and `curry(f)(b)` waits, but `curry(f)(b)(b)` is a ValueError (`partial object ... has incorrect arguments`), because the signature of the partially applied function is taken to be that of the multimethod that was defined first.
* `C130_extra_refuted`: C130 refuted for arguments left over while others are missing: the comment in the code says that they do not matter, but with `def f(x: A, y: A)`, `curry(f)(a, z=...)` is a TypeError.
* `C130_method_refuted`: C130 refuted for bound methods: with `def meth(self, x: A)`, `obj.meth(a)` runs it, but `curry(obj.meth)(v)` waits for another argument, whatever `v` is, and then there is a TypeError: the first argument is taken to be `self`, although the method has one already.
* `C131_shift_refuted`: C131 refuted for positional arguments: when `before` are given and then `args`, all of them are checked again, but against the parameters that are left; the first argument against the annotation of the first parameter that has none yet, and so on.
* `C131_half_refuted`: C131 refuted: so if more than half of the arguments are given, and then another one, there is a TypeError, whatever they are.
* `C131_one_by_one_refuted`: C131 refuted for more than two calls: a curried function of four or more parameters, of which any is annotated, can not be called with one argument at a time.
* `C131_types_refuted`: C131 refuted: with `def f(x: int, y: str, z: str)`, `partial(partial(f, 1), "a")` is a TypeError, although both arguments are right; and with `def g(x, y: str, z: int)`, `partial(partial(g, "b"), 5)` is accepted, although `y` is not a string.
* `C131_flip_refuted`: C131 refuted for `flip`: `partial(flip(f), *args)` returns exactly if `args` are of the types of the first parameters of `f`; but when it is called with the arguments that are missing, the last parameters get `args`, the last one the first of them.
* `C131_flip_types_refuted`: C131 refuted for `flip`: with `def f(x: int, y: str)`, `partial(flip(f), "a")` is a TypeError, although `flip(f)("a", 1)` gives `f` the right arguments; and `partial(flip(f), 1)` is accepted, although the 1 can only become `y`.
* `C132_named_f_refuted`: C132 refuted for a parameter named `f`: with `def g(f)`, a call `g(f=v)` of the memoized function raises TypeError, and from then on so does `g(v)`; but after a call `g(v)`, both return what `g` does.
* `C132_equal_refuted`: C132 refuted for functions that distinguish equal values: with `memoize(str)`, the call for `True` after that for `1` returns "1".
* `C132_positional_only_refuted`: C132 refuted for `def g(x=d, /, **kw)`: Python accepts `g(x=v)`, but the call of the memoized function raises TypeError.
* `C133_views_refuted`: C133 refuted for views of mappings: with `d = {10: 5, 20: 5}`, a function that is given `d.values()` iterates over two items if called directly, but over one item if called through the library; and if a value is not hashable, the call is a TypeError, and the function is not called.
* `C133_cycle_refuted`: C133 refuted for a list that contains itself: however large the stack, the call is a RecursionError, and the function is not called.
* `C133_sequence_refuted`: C133 refuted for sequences that cannot be built from their items, such as `memoryview`: the call is a TypeError, and the function is not called.
* `C133_named_f_refuted`: C133 refuted for a named argument `f`, which clashes with a parameter of the library.
* `C133_threads_refuted`: C133 refuted for lists that other threads use at the same time: though nobody takes anything out of the list, another thread finds it empty in between; and an item that is appended at the wrong time is lost.
* `C134_name_refuted`: C134 is violated (1): names that are different but equal. After `s = sym(1)`, `sym(True)` is the same symbol, and `s` has the name `True` from then on.
* `C134_str_refuted`: C134 is violated (2): "name: any hashable", but `str` of a symbol whose name is not a string raises TypeError.
* `C134_attributes_refuted`: C134 is violated (3): unpickling changes the living symbol: an attribute set anew since the pickle was made gets its old value back, for every symbol, attribute and value.
* `C135_star_refuted`: **C135, refuted for `*e` in a literal.** `(*xs, 1)` is a tuple, but `lazyrec[(*xs, 1)]` is a SyntaxError.
* `C135_double_star_refuted`: **C135, refuted for `**e` in a dictionary.** With a dictionary `d`, `{**d}` has the same entries as `d`, but `lazyrec[{**d}]` is a TypeError, as `**` is given a promise.
* `C135_several_refuted`: **C135, refuted for the example in the docstring**, which says that `lazyrec[list(2*21, 1/0)]` becomes `[lazy[2*21], lazy[1/0]]`: it is a SyntaxError.
* `C135_stars_refuted`: **C135, refuted for several starred arguments.** `tuple(*[], *[e])` is `tuple(e)`, but `lazyrec[tuple(*[], *[e])]` is a SyntaxError.
* `C135_pairs_refuted`: **C135, refuted for pairs.** `dict([(k, v)])` has the key `k`; but what `lazyrec[dict([(k, v)])]` makes has a promise as a key, and `force` leaves it there, so that the entry is not found.
* `C135_set_refuted`: **C135, refuted for sets that are unpacked.** `tuple({a, b})` with `a == b` has one item, but `force(lazyrec[tuple({a, b})])` has two.
* `C136_names_refuted`: C136: refuted for `update` and `setdefault`: they bind names that are not identifiers, and such a binding can be neither read, nor rebound, nor deleted by its name: each raises ValueError. They also bind reserved names.
* `C136_pairs_refuted`: C136: refuted for `update` with pairs in a finalized env: it always raises, although the same update with a mapping rebinds the names, and no name would be added.
* `C137_layers_refuted`: C137: refuted for slices of a shadowed sequence on top of another one: TypeError, whatever the slice and the layers.
* `C137_types_refuted`: C137: refuted for strings and ranges: a slice of a shadowed string is a string that describes a generator, and a slice of a shadowed range is a TypeError. And so for `fupdate` on a string or range (C10): the one returns the description, even if the update is impossible; the other raises.
* `C138_shift_refuted`: C138: refuted. With `v = view(lst)`, the assignment `v[1:] = v` does not move the items by one, but fills the sequence with its first item. (Assigning a copy, `v[1:] = list(v)`, does move them: `C12_write_exact`.)
* `C138_mirror_refuted`: C138: refuted. With `v = view(lst)`, the assignment `v[::-1] = v` does not reverse the sequence, but mirrors its first half.
* `C139_overlap_refuted`: C139 refuted for blocks that overlap: two generators enter their blocks one after the other, and then the first leaves its block. What the second has bound is gone while its block is in effect, and what the first has bound stays.
* `C139_thread_refuted`: C139 refuted for a block of dynamic variables that is entered in one thread and left in another, as by a generator that is handed over: what it has bound stays in the first thread for good, and in the second the innermost block in effect loses its bindings.
* `C140_report_refuted`: C140, refuted for reports: the testset of the main thread has one test, which passes; but while it runs, a test fails in another thread, and the testset reports two tests, of which one failed.
* `C140_warning_refuted`: C140, refuted for the numbers of a report: a warning in another thread, which is no test, may be among the tests run.
* `C140_ends_refuted`: C140, refuted for tests after one that does not pass, in another thread: they are not run, so whatever they are and however the threads are scheduled, they are not counted.
* `C140_testset_refuted`: C140, refuted for testsets in other threads: nothing in them, and nothing after them, is run.
* `C141_twice_refuted`: C141 refuted for a generator that is in an expression twice: with `a = s(...)`, the terms of `a + a` are the first item of `a` plus the second, the third plus the fourth, and so on.
* `C141_later_refuted`: C141 refuted for a generator that is used again later: after `n` terms of one expression have been taken, each of its generators goes on with the item at `n`, in whatever expression it is.
* `C141_lost_refuted`: C141 refuted for the end: if the second of two sequences has `n` items and the first has more, then the end of their sum costs the first an item that is in no term.
* `C141_square_refuted`: C141 refuted for products: `cauchyprod(a, a)` of a generator is not the square of the series, but the product of that of its items at even indices and that of its items at odd indices; the first term is the product of the first item and the second.
* `C142_warning_refuted`: C142 refuted for the warning of a class: its category is `Warning`, even if the class is another category of warnings, so that filters for this category do not see it; and its text is that of the class, not of the instance. So it is with `resignal({LibraryWarning: ApplicationWarning})` around `warn(LibraryWarning(...))`, which calls `warn` with the class.
* `C142_arguments_refuted`: C142 refuted for a class that cannot be called without arguments: there is no TypeError, as with `raise`, but a ControlError is signalled (by `error`), which says that it is not an exception class.
* `C142_none_refuted`: C142 refuted for `signal(None)`: this is an AttributeError.
* `C142_cause_refuted`: C142 refuted for the error message about something that cannot be a cause: it shows the condition instead.
* `C143_number_refuted`: C143 is false when a number is used again: a thread has ended, and a new one has its number. An exception for the first is raised in the second, which nobody asked for.
* `C143_during_refuted`: The same, when the thread ends and the new one begins during the call.
* `C143_lost_refuted`: C143 is false of two exceptions: both calls return, and only the second exception is raised.
* `C143_ended_refuted`: C143 is false of a thread that ends before it runs again: the call returns, and whatever happens later, the exception is not raised.
* `C143_instance_refuted`: C143 is false of instances, which the documentation allows: the call returns, and a SystemError is raised in the thread instead.
* `C145_left_refuted`: C145 is false of three functions that are composed from left to right, with a first one that has been marked and does not use its argument: called with a promise that cannot be kept, the functions in turn return a value, and the composition raises the exception of the promise.
* `C145_one_refuted`: C145 is false of one function: it is returned itself, and marked. Then it is given promises, in the composition and wherever else it is called in lazy code.
* `C145_let_refuted`: C145 is false of functions called `_let`: they are given promises, though they have not been marked.
* `C146_taken_refuted`: C146 refuted: an argument named `f` given to `call`, to a function made by `callwith`, `memoize`, `gmemoize` or `fix`, to `iterate`, or to any function in a `with lazify` or `with autocurry` block raises TypeError, whatever the function; so does `target` in a tail call in `with tco`, `proc` given to `unfold`, `self` given to `iterate` and `unfold`, and `cls` for the `__init__` of a singleton.
* `C147_busy_refuted`: C147 is violated: when a generator asks an instance of itself for an item that it has not delivered yet, the ValueError that this raises goes into the memo. Even if the generator catches it, the instances no longer agree: the first one, which was the first to ask, delivers the items 0, 0, 7, and all later ones raise ValueError, and then deliver 0, 7.
* `C148_deadlock_refuted`: C148 refuted: memoized functions that call each other may deadlock, as each has a lock of its own: while one thread evaluates `even(2)` and needs `odd(1)`, another evaluates `odd(2)` and needs `even(1)`. From then on neither gets any further, whatever happens.
* `C149_shadow_refuted`: C149 refuted: a lambda in brackets inside another cannot have a local variable of the same name: instead of being shadowed, the name makes the expansion fail.
* `C150_once_refuted`: C150 refuted: in a `with lazify` block, each argument that is not a name makes a new promise, and promises are not equal even if their values are. So of a function defined in the block, `f(5, 5)` twice runs the body twice (of a test of the library it is said that the second call gets the result from the memo, syntax/tests/test_lazify.py:451-455).
* `C151_cycles_refuted`: C151 refuted: in a `with lazify` block, no cycle is ever broken, because the arguments of each call are new promises. Whenever plain recursion does not terminate, `@fix` does not either: no number of nested calls is enough.
* `C152_deadlock_refuted`: C152 refuted: memoized generators that use each other may deadlock, because the lock is held while an item is computed. `a` and `b` yield a number each, and then one more than each item of the other. While one thread computes the second item of `a`, which needs the first of `b`, another computes the second item of `b`, which needs the first of `a`. Both of these items have been computed, but neither thread gets any further, whatever happens.
* `C153_annotated_refuted`: C153 is violated by functions with annotations: if a curried function that is defined in a `with lazify` block gets a promise for a parameter that has an annotation, and not all of its arguments in the same call, there is a TypeError, whatever the value of the promise is. With all the arguments in one call, the function is called.
* `C153_rest_refuted`: C153 is violated by functions defined elsewhere that return functions: when they get more arguments than they have parameters, those left over are evaluated at once. Here `f(1)` returns a function defined in the block that does not use its argument. `f(1)(p)` returns 9, but `f(1, p)` raises the exception of the promise `p`.
* `C154_strict_refuted`: C154 is false of a function that is defined in a `with lazify` block inside of another one, which is called after the block (so the function has got the trampoline that is not aware of lazy code): if it makes a tail call of a function that is defined elsewhere, then this one gets a promise instead of a value. Here, it returns its argument, and raises an exception if that is not a value.
* `C155_apply_refuted`: C155 is false of `apply` with a list that is a promise, such as the result of a call, or a parameter of the function where `apply` is called: there is a TypeError, whatever the list is.
* `C155_tokth_refuted`: C155 is false of `tokth` with a marked function: the arguments that it does not change are returned as they are, so the `Values` it returns contains promises that have not been evaluated (in the code: "return values are never implicitly lazy").
* `C156_pipe_refuted`: C156 is false of `pipe` and `pipe1`: the initial value is evaluated, also if the first function is marked and does not use it. With a promise that cannot be kept, there is its exception, where the other pipes give a value.
* `C156_piped_refuted`: C156 is false of `piped` and `piped1` with no functions: a promise that is put in comes out as it is, and is not evaluated.
* `C157_refuted`: C157 is violated in a `letrec` when a right-hand side is just the name of a later binding: `letrec[a << b, b << v][a]` raises an AttributeError, although `a` stands for `b`, and that for `v`. (The name is looked up when the environment is filled, because a reference is passed on as it is and not made a promise.) In `letrec[a << (b if v else b), b << v][a]` it works.
* `C158_refuted`: C158 is violated in a `letrec` when a right-hand side is just the name of a later binding: `letrec[f << g, g << (lambda: v)][f()]` raises an AttributeError, although `f` stands for `g`. In `letrec[f << (lambda: g()), g << (lambda: v)][f()]` it works.
* `C159_keys_refuted`: **C159, refuted for keys that do something.** In `{k: a, l: b}` Python evaluates `k`, `a`, `l`, `b` in this order; with `lazyrec[...]` and `force` the order is `k`, `l`, `a`, `b`.
* `C159_equal_refuted`: **C159, refuted for equal keys.** In `{k: a, k: b}` Python evaluates both `a` and `b`; with `lazyrec[...]` and `force`, `a` is never evaluated, so that an exception it raises is lost, too.
* `C159_stopiteration_refuted`: **C159, refuted for StopIteration.** If a leaf in a tuple raises an exception that comes out of a generator as another one, then `force` raises that other one.
* `C159_exit_refuted`: **C159, refuted for SystemExit and the like.** A leaf that raises an exception which is no `Exception` is evaluated again when the promise is forced again.
* `C160_mirror_refuted`: C160, refuted: a comparison with the sequence on the right does not call the operator as it is written, but the mirrored one, with the operands swapped: `c < m` has the items `x > c`.
* `C160_chain_refuted`: C160, refuted: `a < m < b` is not termwise: for `m = imathify((0,))`, `5 < m < 10` has the item `True`, though `5 < 0 < 10` is false.
* `C160_truth_refuted`: C160, refuted: `not (a == b)` is false also for sequences that differ at each place.
* `C160_pow3_refuted`: C160, refuted: `pow(2, m, 5)` raises `TypeError`, though `2 ** m`, `pow(m, 2, 5)` and `spow(2, m, 5)` are termwise.
* `C162_trivial_refuted`: C162, refuted: "The condition filters out trivialities due to literals, such as `4 = 4` in `test[4 in (1, 2, 3)]`" (testingtools.py:619). It does not: it compares the source code with the repr of the repr of the value.
* `C162_repr_refuted`: C162, refuted: if `repr` of a captured value raises, this exception comes out of the test, and the test is not counted; also if the test has passed.
* `C162_truth_refuted`: C162, refuted: if the value of the test cannot be a condition (as an array of numpy), the exception comes out of the test, which is counted, but neither as failed nor as errored.
* `C163_unbound_refuted`: C163, refuted: the error for a call with the wrong number of arguments, if there is just one multimethod: the attempt to say more about it ends in the exception of binding the arguments, so the call and the multimethod are not shown. (With two multimethods they are.)
* `C163_repr_refuted`: C163, refuted: if an argument cannot be written, its exception comes instead, which need not be a TypeError.
* `C163_application_unbound_refuted`: C163, refuted: a partial application with too many arguments, or arguments of unknown names, if there is just one multimethod: as for calls, the attempt to say more ends in the exception of binding the arguments, so the partial application and the multimethod are not shown.
* `C163_chain_refuted`: C163, refuted for methods in a partial application made in several steps: the multimethods shown are not those that were tried. The object is looked for among the arguments of the last step (fun.py:152). Here, an object of class `C(A)` is given first: then those of `A`, which were tried as well, are not shown; and if there are only named arguments in the second step, the error is another one, that the object is missing.
* `C163_inherited_refuted`: C163, refuted for inherited methods: the multimethods of the base class are shown twice; and as there seem to be several, the arguments of a wrong type are not told. Here, an object of class `B(A)` that inherits the method of `A`, of which there is one.
* `C164_class_refuted`: C164, refuted in class bodies: the names of the class body are seen in the values of a `let`, but not in its body; and in `letseq`, only in the first value. Instead, the name is not found, or found in an outer scope.
* `C165_callwith_refuted`: C165, refuted for `callwith`: in `callwith()(callsite_filename)`, whatever helpers are within and around it, the file of the library that defines `callwith` is returned, for every caller. The frame left is that of the function `callwith` returns, which has another name.
* `C165_name_refuted`: C165, refuted for functions, or methods, of the user that are named like one of the helpers: the file of their caller is returned instead, or of one further out; if there is no other function, IndexError is raised.
* `C165_tail_refuted`: C165, refuted for tail calls in `with tco`: `return callsite_filename()` returns the file of the library with the trampoline, for every caller.
* `C166_arguments_refuted`: C166, refuted for macro arguments: `m[args][body]` is not recognized as a use of `m`, whatever it is bound to; nor is `module.m[body]`.
* `C166_items_refuted`: C166, refuted for several macros in the same `with`: only the first is recognized, though it would be if it were in a `with` of its own.
* `C166_test_refuted`: C166, refuted for the test macros: they are recognized by the names they have in the library, whatever these are bound to. So a test macro imported under another name is not recognized, and a subscript of a variable that has one of their names is.
* `C167_metaclass_refuted`: C167, refuted for classes whose source is not known (as those made by calling a metaclass in a session): the place printed is that of the metaclass, if this one is known, as if the class were defined there.
* `C167_docstring_refuted`: C167, refuted for objects whose `__doc__` is not a string (any object may be assigned to it), but counts as true: then `doc` raises AttributeError, and no docstring is printed.
* `C168_own_function_refuted`: C168, refuted: a call of a function of the user's own that is called `dof`, also as a method (`lens.dof(x)`), makes the search fail, and with it the macro, if an argument is just a name, or the first one is a call with a lambda that has no parameters (`dof(f(lambda: y))`); and so does a call of one that is called `currycall`, without arguments.
* `C168_missed_refuted`: C168, refuted: and if the argument is a call with a lambda (`lens.dof(f(lambda x: y))`), it does not fail, but the lambda is not found; nor is anything found in the other arguments of that call.

Read in the code, but not stated as theorems:

* `frozendict`: subclasses share the singleton empty instance with their base class.
* `scanl1`/`reducel` treat `init=None` as no `init`; `unfold` with a `Values` that has no positional part raises
  ValueError.
* `arity.kwargs` of a `@generic` function updates a dict from a set; a method with only `*args` has minimal arity -1.
* `pipe` whose last function returns `Values()` raises IndexError.
* `amb.forall`: names `choices`, `body` and the like clash with parameters of internal functions.
* `dispatch`: the dispatcher stays registered if its first multimethod is rejected.
* `conditions`: `warn` still emits the warning after `_proceed`.
* `dyn`: its dictionary of observers holds strong references to the live views, so every `dyn.asdict()`, iteration and
  `len(dyn)` leaves a view behind for the lifetime of the thread.
* `scoped_transform`: for a `def`, `args += moreargs` changes a shared list (scopeanalyzer.py:136), so that the parameters of a
  nested function stay in scope for the statements after it.
* `tco`: generators and coroutines defined in the block return raw jump objects; a lambda among the arguments of a
  parametric tco decorator of another lambda is transformed but gets no trampoline; lambdas in default values are not visited
  as return values; a tail call of an object that is not callable raises RuntimeError instead of TypeError.
* `autoreturn`: an asynchronous generator whose last statement is `yield x` gets a `return` with a value, which is a
  SyntaxError.
* `streamsource` ignores `chunksize`; `bytessource` with chunk size 0 never ends.
