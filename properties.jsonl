{"id": "C01", "title": "gmemoize replays one run of the generator", "statement": "A @gmemoize'd generator function runs its underlying generator at most once per item: for every history of `next` calls on any number of generator instances created with the same arguments, the i-th `next` of each instance delivers the i-th outcome of the underlying generator (item, exception, or StopIteration), and the underlying generator has been advanced exactly as far as the most advanced instance. The length, integer subscripts and slices of an instance show the outcomes produced so far: of a slice, the items at the positions it selects, or, if any of these is an exception, the first such exception is raised; indices out of range raise IndexError and a zero step ValueError.", "quantifier": "every underlying generator (finite, infinite, raising) that does not itself use instances made with the same arguments (those are C147), every number of instances, every interleaving of next calls, where calls on one instance do not overlap in time (calls that do are C02), all indices and slices", "why_tests_cant": "tests replay a couple of instances in a fixed order; the claim is about all interleavings of all instances", "anchors": ["unpythonic/gmemo.py:gmemoize", "unpythonic/gmemo.py:_MemoizedGenerator"]}
{"id": "C02", "title": "gmemoize: concurrent next on one instance", "statement": "When several threads call `next` on the same memoized generator instance, the calls are serialized: every item is delivered exactly once and none is skipped.", "quantifier": "every number of threads sharing one instance, every schedule of their atomic steps", "why_tests_cant": "the failing schedules need a context switch in a window of a few bytecodes", "anchors": ["unpythonic/gmemo.py:_MemoizedGenerator.__next__"]}
{"id": "C03", "title": "memoize evaluates once per argument binding", "statement": "A @memoize'd function calls the original at most once for each distinct set of parameter bindings, under any schedule of calls by any number of threads; every later call with that binding returns the same value, or raises the same exception instance.", "quantifier": "every function (returning or raising), every finite history of calls, every interleaving of threads", "why_tests_cant": "schedules and call histories are unbounded", "anchors": ["unpythonic/fun.py:memoize"]}
{"id": "C04", "title": "Call styles that bind alike share one memo entry", "statement": "Two calls that bind the same values to the same parameters (positionally, by name, or via defaults, in any order of named arguments) have the same canonical binding key, and two calls that bind differently have different keys.", "quantifier": "every signature, every pair of positional/named argument lists", "why_tests_cant": "the set of signatures and call shapes is infinite", "anchors": ["unpythonic/arity.py:resolve_bindings", "unpythonic/arity.py:tuplify_bindings", "unpythonic/arity.py:_bind"]}
{"id": "C05", "title": "dyn: innermost binding wins and is restored on exit", "statement": "Inside any nesting of `with dyn.let(...)` blocks, reading `dyn.x` gives the value most recently bound or assigned in the innermost live block that binds x (else the make_dynvar default, else AttributeError); when a block exits, normally or by an exception, every name reads as it did before the block, except for assignments made to bindings of the surrounding blocks.", "quantifier": "every program of nested blocks, reads, assignments and raised exceptions, of any depth", "why_tests_cant": "nesting depth, shadowing patterns and exit points are unbounded", "anchors": ["unpythonic/dynassign.py:_Dyn", "unpythonic/dynassign.py:_EnvBlock"]}
{"id": "C06", "title": "dyn bindings are thread-local", "statement": "No operation on dynamic variables performed by one thread changes what another thread reads; a thread started while the main thread has bindings in effect starts out seeing those bindings.", "quantifier": "every number of threads, every interleaving of let-enter, let-exit, assignment and read", "why_tests_cant": "schedules are unbounded", "anchors": ["unpythonic/dynassign.py:_getstack", "unpythonic/dynassign.py:_Dyn"]}
{"id": "C07", "title": "dyn.update is all-or-nothing", "statement": "`dyn.update(k=v, ...)` rebinds every given name in the scope where it is currently bound, or, if any of the names is unbound, raises AttributeError and changes nothing.", "quantifier": "every stack of dynamic scopes, every set of bindings", "why_tests_cant": "all stacks and binding sets", "anchors": ["unpythonic/dynassign.py:_Dyn.update"]}
{"id": "C08", "title": "Finalized env keeps exactly its set of names", "statement": "After `env.finalize()`, for every history of operations through the attribute, subscript, `set`, `<<`, `del`, `pop`, `popitem`, `clear`, `update` and `setdefault` interfaces (not overwriting the env's two internal variables `_env` and `_finalized`), the set of bound names never changes (existing names may be rebound); operations that would change it raise, and every operation that raises leaves the env as it was.", "quantifier": "every env, every finite history of operations", "why_tests_cant": "histories are unbounded", "anchors": ["unpythonic/env.py:env"]}
{"id": "C09", "title": "assignonce: define once, rebind only via set", "statement": "In an `assignonce` environment a name that is already bound can only get a new value by `e.set(name, value)`, and `set` never creates a name: for every history of operations, each other write to a bound name raises AttributeError and leaves its value unchanged.", "quantifier": "every history of operations", "why_tests_cant": "histories are unbounded", "anchors": ["unpythonic/assignonce.py:assignonce", "unpythonic/env.py:env"]}
{"id": "C10", "title": "fupdate equals slice assignment on a copy", "statement": "`fupdate(seq, indices, values)` returns what assigning `copy[indices] = values` (index) or elementwise over the slice (slice, with any start/stop/step including negative) would give, never changes `seq`, and performs several updates left to right; an out-of-range index raises IndexError and too few values raise.", "quantifier": "every sequence, every index or slice, every iterable of values", "why_tests_cant": "all lengths, strides and signs", "anchors": ["unpythonic/fup.py:fupdate", "unpythonic/collections.py:ShadowedSequence", "unpythonic/collections.py:in_slice", "unpythonic/collections.py:index_in_slice"]}
{"id": "C11", "title": "in_slice/index_in_slice agree with Python slicing", "statement": "`in_slice(i, s, n)` is true exactly when element i of a length-n sequence is selected by `seq[s]`, and `index_in_slice` then gives its position in `seq[s]`.", "quantifier": "every length, every slice (any sign and size of start, stop, step), every index", "why_tests_cant": "integer arithmetic over all signs and strides", "anchors": ["unpythonic/collections.py:in_slice", "unpythonic/collections.py:index_in_slice", "unpythonic/collections.py:_canonize_slice"]}
{"id": "C12", "title": "view/roview is a live window into the underlying sequence", "statement": "A view, or any nesting of views of views, reads exactly the elements the composed slices select from the current contents of the underlying sequence, also after the underlying sequence changed length; writing through a writable view changes exactly those elements.", "quantifier": "every sequence, every nesting of slices, every history of appends, deletions and writes", "why_tests_cant": "nesting and histories are unbounded", "anchors": ["unpythonic/collections.py:roview", "unpythonic/collections.py:view"]}
{"id": "C13", "title": "frozendict is an immutable functional-update dict", "statement": "`frozendict(m1, m2, ..., **kw)` maps every key to the value of its last occurrence, none of the inputs change, and later changes to the inputs do not change it; there is one empty frozendict.", "quantifier": "every list of mappings and keyword bindings", "why_tests_cant": "all mappings", "anchors": ["unpythonic/collections.py:frozendict"]}
{"id": "C14", "title": "ThreadLocalBox isolates threads", "statement": "A ThreadLocalBox reads, in each thread, the value last set by that thread, or if it never set one (or cleared it) the current default; setdefault changes what exactly the threads without their own value see.", "quantifier": "every history of set, clear, setdefault and read by any number of threads", "why_tests_cant": "histories and thread counts are unbounded", "anchors": ["unpythonic/collections.py:ThreadLocalBox"]}
{"id": "C15", "title": "islice with negative indices equals list slicing", "statement": "`islice(iterable)[start:stop]` and `islice(iterable)[k]`, with negative start, stop or k, yields what slicing the list of all items would.", "quantifier": "every finite iterable, every start, stop, k", "why_tests_cant": "all lengths and signs", "anchors": ["unpythonic/slicing.py:islice"]}
{"id": "C16", "title": "window yields every length-n window in order", "statement": "`window(n, iterable)` yields exactly the contiguous length-n runs of the input in order: max(0, len - n + 1) of them, each item correct; fewer than n items give nothing; n < 2 is rejected.", "quantifier": "every n, every iterable", "why_tests_cant": "all lengths", "anchors": ["unpythonic/it.py:window"]}
{"id": "C17", "title": "chunked partitions the input", "statement": "`chunked(n, iterable)` yields consecutive pieces of exactly n items, except a shorter nonempty last one, whose concatenation is the input; n < 2 is rejected.", "quantifier": "every n, every iterable", "why_tests_cant": "all lengths", "anchors": ["unpythonic/it.py:chunked"]}
{"id": "C18", "title": "butlastn, lastn, butlast, last, drop, take, split_at cut where they say", "statement": "butlastn(n, xs) drops exactly the last n items, lastn(n, xs) keeps exactly the last n, take/drop/split_at cut at n, and each pair reassembles the input, also when n exceeds the length.", "quantifier": "every n, every iterable", "why_tests_cant": "all lengths", "anchors": ["unpythonic/it.py:butlastn", "unpythonic/it.py:lastn", "unpythonic/it.py:take", "unpythonic/it.py:drop", "unpythonic/it.py:split_at"]}
{"id": "C19", "title": "uniqify and uniq", "statement": "`uniqify` keeps exactly the first occurrence of each key in order, `uniq` keeps exactly the first of each maximal run of equal keys.", "quantifier": "every iterable, every key function", "why_tests_cant": "all inputs", "anchors": ["unpythonic/it.py:uniqify", "unpythonic/it.py:uniq"]}
{"id": "C20", "title": "powerset enumerates each nonempty subset once", "statement": "`powerset(iterable)` yields 2^n - 1 tuples: every nonempty sub-selection of positions exactly once, each in input order, and after consuming k input items all subsets of those k items have come out before any containing a later item.", "quantifier": "every iterable", "why_tests_cant": "all lengths", "anchors": ["unpythonic/it.py:powerset"]}
{"id": "C21", "title": "flatten, flatten1 and flatten_in", "statement": "`flatten(iterable, pred)` yields the leaves left to right, entering exactly the lists and tuples (at any depth) accepted by pred without descending into rejected ones; `flatten1` does this one level deep only, with or without a predicate; `flatten_in` descends also into rejected ones, which keep their types, but flattens only the accepted.", "quantifier": "every nesting of lists and tuples (also named tuples) of any depth, every predicate", "why_tests_cant": "nesting depth is unbounded", "anchors": ["unpythonic/it.py:flatten", "unpythonic/it.py:flatten1", "unpythonic/it.py:flatten_in"]}
{"id": "C22", "title": "partition splits by the predicate", "statement": "`partition(pred, xs)` returns the items failing and the items satisfying the predicate, each in the original order, however the consumption of the two outputs is interleaved.", "quantifier": "every iterable, every predicate, every consumption order", "why_tests_cant": "all inputs and interleavings", "anchors": ["unpythonic/it.py:partition"]}
{"id": "C23", "title": "inn decides membership in monotonic iterables", "statement": "`inn(x, xs)` on a monotonic (increasing or decreasing, finite or infinite divergent) iterable terminates and returns whether x occurs in it.", "quantifier": "every monotonic sequence, every x", "why_tests_cant": "infinite inputs", "anchors": ["unpythonic/it.py:inn"]}
{"id": "C24", "title": "interleave is round-robin up to the shortest input", "statement": "`interleave(xs1, ..., xsk)` (k >= 1) yields the items round-robin and stops exactly at the first input that runs out on its turn.", "quantifier": "every list of iterables", "why_tests_cant": "all lengths and counts", "anchors": ["unpythonic/it.py:interleave"]}
{"id": "C25", "title": "unpack returns n items and the tail", "statement": "`unpack(n, xs, k, fillvalue)` returns the first n items and the tail starting at the k-th item; with fewer than n items in the input the missing ones are fillvalue and the tail is empty; negative n or k raise ValueError.", "quantifier": "every n, k, iterable", "why_tests_cant": "all lengths", "anchors": ["unpythonic/it.py:unpack"]}
{"id": "C26", "title": "Scans and folds agree", "statement": "`scanl`/`scanl1`/`scanr`/`scanr1`/`rscanl` yield the successive partial results of the corresponding fold (last yielded value = the fold result; an exception of the user function ends the scan and is raised by the fold), over one or several inputs with shortest/longest semantics. `scanl`/`foldl`/`scanr`/`foldr` line the inputs up at their left ends, `rscanl`/`rfoldl` at their right ends; `scanr`/`foldr` visit the rows last to first.", "quantifier": "every operation, initial value, and list of iterables", "why_tests_cant": "all lengths", "anchors": ["unpythonic/fold.py:scanl", "unpythonic/fold.py:scanr", "unpythonic/fold.py:foldl", "unpythonic/fold.py:foldr", "unpythonic/fold.py:reducel", "unpythonic/fold.py:reducer"]}
{"id": "C27", "title": "unfold generates exactly the iterated sequence", "statement": "`unfold1`/`unfold` yield the values produced by iterating proc from the initial state, stopping exactly when proc returns None.", "quantifier": "every proc and initial state", "why_tests_cant": "unbounded runs", "anchors": ["unpythonic/fold.py:unfold", "unpythonic/fold.py:unfold1"]}
{"id": "C28", "title": "minmax and running_minmax", "statement": "`minmax(xs)` returns the least and greatest item (None, None for empty), and `running_minmax` yields the minmax of every nonempty prefix.", "quantifier": "every iterable of totally ordered items", "why_tests_cant": "all lengths", "anchors": ["unpythonic/fold.py:running_minmax", "unpythonic/fold.py:minmax"]}
{"id": "C29", "title": "Linked list round trips", "statement": "`ll`/`llist` build a linked list that iterates back as the same items, `llist` of a linked list is an equal list, `lappend` concatenates, `lreverse`/`reversed` reverse, `lzip` zips, `member` finds the first matching tail and `car`/`cadr`/`caddr`/... return the items, for every input; a structure that is not a linked list is reported by TypeError when its end is reached.", "quantifier": "every list", "why_tests_cant": "all lengths", "anchors": ["unpythonic/llist.py:cons", "unpythonic/llist.py:llist", "unpythonic/llist.py:lappend", "unpythonic/llist.py:lreverse", "unpythonic/llist.py:lzip"]}
{"id": "C30", "title": "cons equality is structural and consistent with hash", "statement": "Two cons structures are equal exactly when they have the same shape and equal atoms, and equal structures hash equal.", "quantifier": "every pair of cons trees", "why_tests_cant": "all shapes", "anchors": ["unpythonic/llist.py:cons.__eq__", "unpythonic/llist.py:cons.__hash__"]}
{"id": "C31", "title": "BinaryTreeIterator walks depth first, left to right", "statement": "Iterating a cons tree with BinaryTreeIterator yields every leaf (non-cons half) exactly as often as it occurs, depth-first, left to right; JackOfAllTradesIterator does the same except that it leaves out a nil in a cdr half, so that it also walks linked lists.", "quantifier": "every cons tree", "why_tests_cant": "all shapes", "anchors": ["unpythonic/llist.py:BinaryTreeIterator"]}
{"id": "C32", "title": "compose applies in the stated order and threads multiple values", "statement": "`composer`/`composel` (and the 1 variants) equal sequential application right-to-left / left-to-right, passing Values of one function as arguments of the next, and are associative.", "quantifier": "every list of functions; the arguments being such that the library passes them on as they are (C133)", "why_tests_cant": "all lengths", "anchors": ["unpythonic/fun.py:composer", "unpythonic/fun.py:composel", "unpythonic/fun.py:composer1"]}
{"id": "C33", "title": "curry: any way of splitting the arguments gives the same call", "statement": "For a function of any signature, a curried function behaves as the direct call however the arguments are split over calls: nothing is called until all required parameters have an argument, then the function is called exactly once with all of them. Arguments that do not fit the signature are passed on, after the values the function returned, to the callable it returned; if it returned no callable they are returned to the surrounding curry context, or it is a TypeError if there is none. Currying twice is the same as once. All this also holds for functions that other decorators have made from curried ones.", "quantifier": "every signature, every split of every argument list (positional and named), every function behaviour; the arguments being such that the library passes them on as they are (C133)", "why_tests_cant": "exponentially many splits", "anchors": ["unpythonic/fun.py:curry", "unpythonic/fun.py:_decide_curry_action", "unpythonic/fun.py:iscurried", "unpythonic/fun.py:flip"]}
{"id": "C34", "title": "Parameter binding of curry/memoize accepts what Python accepts", "statement": "The partial binder used by curry assigns each supplied argument to the parameter Python would, reports exactly the unbound required parameters, and reports as extra exactly the arguments that Python's binding would reject.", "quantifier": "every signature, every argument list", "why_tests_cant": "all signatures", "anchors": ["unpythonic/arity.py:_bind", "unpythonic/fun.py:_decide_curry_action"]}
{"id": "C35", "title": "flip, rotate, tokth reorder arguments as documented", "statement": "`flip` reverses positional arguments, `rotate(k)` is a cyclic shift (rotate(-k) undoes rotate(k)), and `tokth(k, f)` replaces exactly the k-th positional argument with f of it, where negative k counts from the end.", "quantifier": "every argument count, every k; the arguments being such that the library passes them on as they are (C133)", "why_tests_cant": "all lengths", "anchors": ["unpythonic/fun.py:flip", "unpythonic/fun.py:rotate", "unpythonic/fun.py:tokth", "unpythonic/fun.py:tolast"]}
{"id": "C36", "title": "andf/orf short-circuit like and/or", "statement": "`andf(f1,...)`/`orf(f1,...)` applied to arguments call the functions in order, each at most once, and only until the result is decided. andf returns the last value if all are truthy (True if there are no functions), else False; orf returns the first truthy value, else False. An exception from a called function propagates and ends the chain. notf(f) returns the opposite truth value.", "quantifier": "every list of functions, every argument; the arguments being such that the library passes them on as they are (C133)", "why_tests_cant": "all lengths", "anchors": ["unpythonic/fun.py:andf", "unpythonic/fun.py:orf", "unpythonic/fun.py:notf"]}
{"id": "C37", "title": "pipe, piped and lazy_piped compute the same thing", "statement": "Running a chain of functions on initial values through pipe, piped | ... | exitpipe, or lazy_piped gives the same result; a lazy pipe runs nothing until exit.", "quantifier": "every list of functions, every tuple of initial values; the arguments being such that the library passes them on as they are (C133)", "why_tests_cant": "all lengths", "anchors": ["unpythonic/seq.py:pipe", "unpythonic/seq.py:piped", "unpythonic/seq.py:lazy_piped", "unpythonic/seq.py:pipe1"]}
{"id": "C38", "title": "Trampolined tail calls compute the same value as ordinary calls", "statement": "For every program of mutually tail-calling functions, whatever else they are decorated with, the trampolined program returns exactly the value (or raises the exception) the directly recursive program would, using call-stack depth independent of the length of the tail-call chain.", "quantifier": "every set of functions, every number of jumps", "why_tests_cant": "unbounded chains", "anchors": ["unpythonic/tco.py:trampolined", "unpythonic/tco.py:jump"]}
{"id": "C39", "title": "looped_over is a left fold with early exit", "statement": "`@looped_over(iterable, acc)` with a body that returns loop(f(x, acc)) returns the left fold; a body that returns a plain value ends the loop with it; `brk(v)` in the breakable form makes the whole loop return v, and cnt() skips the element.", "quantifier": "every iterable, every body", "why_tests_cant": "all lengths", "anchors": ["unpythonic/fploop.py:looped_over", "unpythonic/fploop.py:breakably_looped_over"]}
{"id": "C40", "title": "Generator TCO yields the concatenation of the tail chain", "statement": "`gtco(g)` yields the items of g, then of the generator it returns, and so on, ending with the items of a returned iterable, or with the returned non-iterable as the final value. What a `gtrampolined` function returns is iterated like that, in one loop or in several.", "quantifier": "every chain of generators, any length", "why_tests_cant": "unbounded chains", "anchors": ["unpythonic/gtco.py:gtco", "unpythonic/gtco.py:gtrampolined"]}
{"id": "C41", "title": "catch/throw decision table", "statement": "A throw is caught by the dynamically innermost catch point that the documented table says may catch it, and every catch point further in is passed through; if none may, it propagates to the top. Tags are compared with ==, and may be any objects that can be.", "quantifier": "every nesting of catch points, every tag and flag combination", "why_tests_cant": "nesting is unbounded", "anchors": ["unpythonic/ec.py:catch", "unpythonic/ec.py:throw"]}
{"id": "C42", "title": "call_ec connects one-to-one", "statement": "Invoking an escape continuation inside its dynamic extent makes exactly its own call_ec return the value, through any nesting of other catch points and call_ecs; invoking it afterwards raises RuntimeError.", "quantifier": "every nesting of call_ec, catch and throw", "why_tests_cant": "nesting is unbounded", "anchors": ["unpythonic/ec.py:call_ec"]}
{"id": "C43", "title": "Handlers run innermost to outermost until one takes control", "statement": "`signal(c)` runs exactly the matching handlers, dynamically innermost first, until one transfers control; if none does, signal returns normally, `error` raises ControlError, `cerror` returns only via proceed, `warn` returns.", "quantifier": "every stack of handlers and restarts, every program run by the handlers", "why_tests_cant": "stacks and handler programs are unbounded", "anchors": ["unpythonic/conditions.py:signal", "unpythonic/conditions.py:error", "unpythonic/conditions.py:cerror", "unpythonic/conditions.py:warn"]}
{"id": "C44", "title": "invoke unwinds exactly to the innermost matching restart", "statement": "`invoke(name, *args, **kwargs)` terminates the handler, unwinds to the innermost `with restarts` in scope that defines the name, calls the restart with exactly the arguments given, positional and named, sets its result box to the restart's value, and continues after that block, restoring the handler and restart stacks; an unknown name ends in ControlError. (A restart function is outside its own block: what happens if it invokes its own block's restarts, or if a restart object is invoked after its block has ended, is not promised.)", "quantifier": "every nesting of restart and handler blocks, every list of positional and named arguments", "why_tests_cant": "nesting is unbounded, and names of arguments are arbitrary", "anchors": ["unpythonic/conditions.py:invoke", "unpythonic/conditions.py:InvokeRestart", "unpythonic/conditions.py:restarts", "unpythonic/conditions.py:find_restart", "unpythonic/conditions.py:invoker"]}
{"id": "C45", "title": "Multiple dispatch picks the latest matching multimethod", "statement": "Calling a @generic function runs the most recently registered multimethod whose signature accepts the arguments, in the class's own registry before those of its bases in MRO order; if there is none, TypeError is raised and no multimethod runs.", "quantifier": "every registry, every argument list, every class hierarchy", "why_tests_cant": "registries and signatures are unbounded", "anchors": ["unpythonic/dispatch.py:_resolve_multimethod", "unpythonic/dispatch.py:_list_multimethods"]}
{"id": "C46", "title": "isoftype agrees with the meaning of the type specification", "statement": "`isoftype(v, T)` is true exactly when v belongs to the set denoted by T, for every nesting of Any, Union, Optional, TypeVar, Tuple, and the collection and mapping types (with the documented rule that empty collections match no element type).", "quantifier": "every value, every type specification of any nesting depth", "why_tests_cant": "nesting is unbounded", "anchors": ["unpythonic/typecheck.py:isoftype"]}
{"id": "C47", "title": "forall equals the nested list comprehension", "statement": "`forall(lines...)` returns the tuple of results that the corresponding nested for loops (choices as loops, insist as a filter, inner names scoped to inner lines) produce, in depth-first order, and an exception raised by a line propagates.", "quantifier": "every list of lines, every choice set", "why_tests_cant": "unbounded nesting", "anchors": ["unpythonic/amb.py:forall", "unpythonic/amb.py:MonadicList"]}
{"id": "C48", "title": "MonadicList is a monad", "statement": "MonadicList satisfies left identity, right identity and associativity of bind, and fmap/join laws. A MonadicList is equal to another exactly when their items are equal in order, and comparing it with anything answers.", "quantifier": "every list and functions", "why_tests_cant": "all inputs", "anchors": ["unpythonic/amb.py:MonadicList", "unpythonic/amb.py:MonadicList.__eq__"]}
{"id": "C49", "title": "sym interns: same name, same object", "statement": "At any time, all live symbols created by `sym(name)` with equal names are one object, in any number of threads and with garbage collection happening at any time; distinct names give distinct objects, and a gensym is equal to no other symbol.", "quantifier": "every interleaving of threads creating, dropping and unpickling symbols", "why_tests_cant": "schedules are unbounded", "anchors": ["unpythonic/symbol.py:sym", "unpythonic/symbol.py:gensym"]}
{"id": "C50", "title": "Singleton has at most one live instance", "statement": "At most one instance of a Singleton class is alive at any time; constructing again while one is alive raises TypeError, unpickling returns the live one, in any interleaving of threads.", "quantifier": "every interleaving of construct, unpickle and drop", "why_tests_cant": "schedules are unbounded", "anchors": ["unpythonic/singleton.py:ThereCanBeOnlyOne", "unpythonic/singleton.py:Singleton"]}
{"id": "C51", "title": "Message framing round trip, independent of chunking", "statement": "Decoding the concatenation of encoded messages returns exactly their bodies in order and then None, however the byte stream is split into chunks, and skips junk between messages.", "quantifier": "every list of message bodies, every chunking of the stream", "why_tests_cant": "all bodies and all ways to split them", "anchors": ["unpythonic/net/msg.py:encodemsg", "unpythonic/net/msg.py:decodemsg", "unpythonic/net/util.py:ReceiveBuffer"]}
{"id": "C52", "title": "The decoder survives malformed input", "statement": "For every byte stream, decodemsg either returns a body or None; malformed headers are skipped and never make it raise or get stuck.", "quantifier": "every byte stream, every chunking", "why_tests_cant": "all byte streams", "anchors": ["unpythonic/net/msg.py:decodemsg"]}
{"id": "C53", "title": "partition_int enumerates all compositions", "statement": "`partition_int(n, lower, upper)` yields exactly the ordered sequences of integers in [lower, upper] that sum to n, each once; partition_int_custom/triangular likewise for their components.", "quantifier": "every n and limits", "why_tests_cant": "all n", "anchors": ["unpythonic/numutil.py:partition_int", "unpythonic/numutil.py:partition_int_custom", "unpythonic/numutil.py:partition_int_triangular"]}
{"id": "C54", "title": "diagonal_reduce/cauchyprod compute the diagonal sums", "statement": "Term k of `cauchyprod(a, b)` is the sum of a[i]*b[k-i] over all i for which both exist (require='any'), the sequence ending after len(a)+len(b)-1 terms; with require='all' it ends after min(len(a), len(b)) terms.", "quantifier": "every pair of iterables", "why_tests_cant": "all lengths", "anchors": ["unpythonic/mathseq.py:cauchyprod", "unpythonic/mathseq.py:diagonal_reduce"]}
{"id": "C55", "title": "fibonacci, triangular, primes are what they say", "statement": "`primes()` yields exactly the primes in increasing order (both optimization modes), `triangular()` yields n(n+1)/2, `fibonacci()` the Fibonacci numbers.", "quantifier": "every index", "why_tests_cant": "infinite sequences", "anchors": ["unpythonic/mathseq.py:primes", "unpythonic/mathseq.py:triangular", "unpythonic/mathseq.py:fibonacci"]}
{"id": "C56", "title": "s(...) expands the described sequence", "statement": "`s(a0, a1, ..., an)` on exact integers/rationals yields the arithmetic (geometric) sequence its first terms determine, includes the given terms, and ends exactly at the given final element; a final element not in the sequence is rejected.", "quantifier": "every specification", "why_tests_cant": "all terms", "anchors": ["unpythonic/mathseq.py:s"]}
{"id": "C57", "title": "Termwise arithmetic", "statement": "Termwise binary operations on sequences apply the operation at each position, broadcasting scalars on either side, to the length of the shorter input, recursively for sequences of sequences.", "quantifier": "every nested sequence", "why_tests_cant": "all shapes", "anchors": ["unpythonic/mathseq.py:_make_termwise_stream_binop"]}
{"id": "C58", "title": "tryf behaves as try/except/else/finally", "statement": "`tryf(body, *handlers, elsef, finallyf)` returns/raises what the corresponding try statement would: the first matching handler's value, elsef only without exception, finallyf always exactly once, and an exception no handler matches propagates.", "quantifier": "every body outcome, every handler list", "why_tests_cant": "all combinations", "anchors": ["unpythonic/excutil.py:tryf"]}
{"id": "C59", "title": "reraise converts by the first matching entry", "statement": "`reraise_in(body, mapping)` raises the application exception of the first entry whose library exception type matches, with the original as cause, and lets everything else through unchanged.", "quantifier": "every mapping, every exception", "why_tests_cant": "all mappings", "anchors": ["unpythonic/excutil.py:reraise_in", "unpythonic/excutil.py:_reraise_handler"]}
{"id": "C60", "title": "fix breaks exactly the infinite recursion cycles", "statement": "A @fix'd pure function returns the ordinary value whenever the ordinary recursion terminates, always terminates when only finitely many argument values are reachable, uses bottom exactly when the call would re-enter itself with the same arguments, and leaves no trace behind after the outermost call returns or raises.", "quantifier": "every pure recursive function, every argument, every history of earlier calls", "why_tests_cant": "unbounded recursion and histories", "anchors": ["unpythonic/fix.py:fix"]}
{"id": "C61", "title": "letrec binds sequentially, let independently", "statement": "In `letrec`, each `lambda e: ...` value sees exactly the earlier bindings; a reference to a later one raises AttributeError; in `let` the bindings do not see each other; the body sees all; the environment cannot get new names afterwards. (For names other than the env's own internal variables and methods.)", "quantifier": "every binding list", "why_tests_cant": "all lengths", "anchors": ["unpythonic/let.py:_let", "unpythonic/lispylet.py:_let"]}
{"id": "C62", "title": "Lazy promises are evaluated at most once", "statement": "Forcing a promise any number of times, from any number of threads, runs its thunk at most once and always gives the same value or raises the same exception.", "quantifier": "every history of forces, every schedule", "why_tests_cant": "histories are unbounded", "anchors": ["unpythonic/lazyutil.py:Lazy.force"]}
{"id": "C63", "title": "seconds_to_human is a mixed-radix decomposition", "statement": "`seconds_to_human(s)` returns (d, h, m, s') with d*86400 + h*3600 + m*60 + s' = s, 0 <= h < 24, 0 <= m < 60, 0 <= s' < 60, uniquely.", "quantifier": "every integer number of seconds", "why_tests_cant": "all integers", "anchors": ["unpythonic/timeutil.py:seconds_to_human"]}
{"id": "C64", "title": "Popper empties the container exactly once in order", "statement": "Iterating `Popper(seq)` pops items from the left until the container is empty, also when items are appended or prepended during iteration.", "quantifier": "every history of pops, appends and prepends", "why_tests_cant": "histories are unbounded", "anchors": ["unpythonic/misc.py:Popper"]}
{"id": "C65", "title": "Values are transparent", "statement": "A `Values` object iterates over its positional values if it has no named ones and raises ValueError otherwise; int and slice subscripts index the positional part like a tuple, str subscripts, `in` and `get` look at the named part, other subscripts are TypeErrors; two Values are equal exactly if the positional parts are equal and the named parts have the same names with the same values in any order. `valuify` turns a returned tuple into a Values and leaves anything else alone.", "quantifier": "every Values object", "why_tests_cant": "all contents", "anchors": ["unpythonic/funutil.py:Values"]}
{"id": "C66", "title": "Fixpoint iteration returns a fixed point", "statement": "If `fixpoint(f, x0)` (tol=0) returns x, then f(x) = x; with tolerance, the last two iterates differ by at most tol; it returns iff the iteration reaches two consecutive iterates within tol.", "quantifier": "every f and x0", "why_tests_cant": "unbounded iteration", "anchors": ["unpythonic/numutil.py:fixpoint", "unpythonic/it.py:within"]}
{"id": "C67", "title": "Reversing maps and zips differ exactly as documented", "statement": "`rmap(f, xs1, ..., xsk)` maps over the right-aligned reversed inputs (reverse each input, then map), `mapr` maps left-aligned and then reverses the result, `rzip`/`zipr` likewise; they agree for inputs of equal length; `map_longest` pads with the fill value.", "quantifier": "every function, every list of iterables of any lengths", "why_tests_cant": "all lengths", "anchors": ["unpythonic/it.py:rmap", "unpythonic/it.py:mapr", "unpythonic/it.py:rzip", "unpythonic/it.py:zipr", "unpythonic/it.py:map_longest"]}
{"id": "C68", "title": "pad, flatmap, scons, iterate deliver exactly the described sequence", "statement": "`pad(n, fill, xs)` yields xs followed by as many fill values as needed to reach n items; `flatmap(f, xs)` yields the concatenation of the images; `scons(x, s)` yields x and then s; the i-th item of `iterate1(f, x)` is f applied i times to x, and that of `iterate(f, ...)` the `Values` after i calls, until f returns something else, which is a TypeError; `iindex`, `find` and `allsame` give the first position, the first match, and whether all items are equal; `subset(part, whole)` tells for any two iterables whether each item of the one occurs in the other.", "quantifier": "every iterable, function and count", "why_tests_cant": "all lengths and indices", "anchors": ["unpythonic/it.py:pad", "unpythonic/it.py:flatmap", "unpythonic/it.py:scons", "unpythonic/it.py:iterate1", "unpythonic/it.py:iterate", "unpythonic/it.py:subset"]}
{"id": "C69", "title": "Byte-source helpers deliver every byte exactly once", "statement": "`bytessource(data, chunksize)` yields nonempty chunks of at most chunksize bytes whose concatenation is data; `recvall(n, sock)` returns exactly the next n bytes of the stream however recv splits it, or None if the stream ends first; `netstringify` output determines its input.", "quantifier": "every byte string, chunk size and every split of the stream by the network", "why_tests_cant": "all splits", "anchors": ["unpythonic/net/util.py:bytessource", "unpythonic/net/util.py:recvall", "unpythonic/net/util.py:netstringify"]}
{"id": "C70", "title": "env reads back what was written", "statement": "An env behaves as a finite map from names to values: after a write of a name by attribute, subscript, `set` or `<<` succeeded, reading the name by attribute, subscript or `get` gives the value written; deleting, `pop`, `popitem`, `clear`, `update`, `setdefault`, `in` and `len` do and return what they do for a dict; leaving a `with` block removes all bindings.", "quantifier": "every env, every name, every value, every operation", "why_tests_cant": "The set of names is unbounded, and the answer depends on how the name interacts with attribute lookup on the class; tests sample a few names.", "anchors": ["unpythonic/env.py:env.__setattr__", "unpythonic/env.py:env.__getattr__", "unpythonic/env.py:env._reserved_names"]}
{"id": "C71", "title": "Environment constructors bind exactly their keyword arguments", "statement": "`env(**kw)` and `assignonce(**kw)` create an environment binding exactly the given names to the given values, in order, or raise if one of the names is not acceptable.", "quantifier": "every list of keyword arguments", "why_tests_cant": "Must hold for every set of names; the constructor runs `__init__` twice, which only shows for some subclasses.", "anchors": ["unpythonic/env.py:env.__new__", "unpythonic/env.py:env.__init__", "unpythonic/assignonce.py:assignonce"]}
{"id": "C72", "title": "fupdate of a mapping leaves the original alone", "statement": "`fupdate(mapping, **bindings)` returns a mapping of the same kind (dict or frozendict) in which exactly the keys named in bindings have the new values and all other keys are as before; no existing mapping object changes.", "quantifier": "every mapping, every set of bindings, every earlier history of mapping operations", "why_tests_cant": "all mappings and histories", "anchors": ["unpythonic/fup.py:fupdate", "unpythonic/collections.py:frozendict"]}
{"id": "C73", "title": "apply, identity and const", "statement": "`apply(f, a1, ..., lst)` calls f(a1, ..., *lst) with the keyword arguments; `identity` returns one positional argument as it is, None for no arguments and a Values otherwise; `const(...)` returns a function that ignores its arguments, has no effects and always returns what identity returns for the arguments given to const.", "quantifier": "every function, every argument list; the arguments being such that the library passes them on as they are (C133)", "why_tests_cant": "all lengths and contents", "anchors": ["unpythonic/fun.py:apply", "unpythonic/fun.py:identity", "unpythonic/fun.py:const"]}
{"id": "C74", "title": "begin and lazy_begin run their bodies in order", "statement": "`begin`/`begin0` return the last/first value. `lazy_begin`/`lazy_begin0` call the thunks in order, each once, and return the last/first result; an exception propagates at once and no later thunk is called; with no bodies the result is None.", "quantifier": "every list of thunks with any effects", "why_tests_cant": "all lengths and effects", "anchors": ["unpythonic/seq.py:begin", "unpythonic/seq.py:begin0", "unpythonic/seq.py:lazy_begin", "unpythonic/seq.py:lazy_begin0"]}
{"id": "C75", "title": "arities, arity_includes and the kwargs queries agree with the calls Python accepts", "statement": "Every accepted call passes all required_kwargs(f) by name; when exactly those plus any optional_kwargs(f) are passed by name, a call with n positional arguments is accepted if and only if arity_includes(f, n). For a bound method, self does not count.", "quantifier": "every signature Python's grammar allows, every list of positional arguments, every set of named arguments drawn from the keyword-only parameters", "why_tests_cant": "the set of signatures is infinite", "anchors": ["unpythonic/arity.py:arities", "unpythonic/arity.py:arity_includes", "unpythonic/arity.py:required_kwargs", "unpythonic/arity.py:optional_kwargs"]}
{"id": "C76", "title": "within stops at the first close pair", "statement": "`within(tol, xs)` yields the items of xs up to and including the first two successive items that differ by at most tol, and reads no further; if no two successive items are close it yields all of them but the last.", "quantifier": "every sequence, finite or infinite, and every closeness test", "why_tests_cant": "the position of the first close pair is unbounded", "anchors": ["unpythonic/it.py:within"]}
{"id": "C77", "title": "ETAEstimator estimates from the mean of the last tasks", "statement": "After any sequence of `tick()`s, `ETAEstimator(total, keep_last).estimate` is None if there was no tick, 0 if at least `total` tasks are completed, and otherwise the number of remaining tasks times the mean duration of the last `keep_last` >= 1 tasks (all, if not given); `elapsed` counts from construction.", "quantifier": "every number of tasks, every keep_last, every sequence of tick times", "why_tests_cant": "histories of ticks are unbounded", "anchors": ["unpythonic/timeutil.py:ETAEstimator"]}
{"id": "C78", "title": "CountingIterator counts, slurp drains", "statement": "`CountingIterator(it)` yields the items of `it` and its `count` is at every point the number of items yielded; `slurp(queue)` returns the items on the queue in order and leaves it empty.", "quantifier": "every iterable, every number of next() calls, every queue content", "why_tests_cant": "all lengths and all points of iteration", "anchors": ["unpythonic/misc.py:CountingIterator", "unpythonic/misc.py:slurp"]}
{"id": "C79", "title": "getattrrec and setattrrec reach the core of an onion of wrappers", "statement": "`getattrrec(o, name)` returns the innermost object of a chain of wrappers of any depth; `setattrrec(o, name, v)` replaces exactly that object by v, so that `getattrrec` then returns v; with no attribute at all, getattrrec raises AttributeError or uses the default.", "quantifier": "every chain of wrappers, of any depth", "why_tests_cant": "depth is unbounded", "anchors": ["unpythonic/misc.py:getattrrec", "unpythonic/misc.py:setattrrec"]}
{"id": "C80", "title": "fixtco breaks infinite recursion cycles and infinite tail-call chains", "statement": "A @fixtco'd pure function returns the ordinary value (or raises the ordinary exception) whenever ordinary recursion, counting tail calls as calls, terminates; always terminates when only finitely many calls are reachable by calls and jumps; and leaves no active call behind after the outermost call returns or raises.", "quantifier": "every set of mutually recursive pure functions using calls, jumps and exceptions, also memoized ones, every argument, every history of earlier calls", "why_tests_cant": "unbounded recursion depth, chain length and histories; interaction of exceptions with cycle detection", "anchors": ["unpythonic/fix.py:fixtco", "unpythonic/fix.py:_fix", "unpythonic/tco.py:trampolined"]}
{"id": "C81", "title": "do and do0 run their items in order with names for intermediate results", "statement": "`do(*items)` evaluates the items once each, in order, each `lambda e: ...` seeing exactly the latest values assigned by earlier items, stops at the first that raises, and returns the value of the last item; `do0` does the same but returns the value of the first item.", "quantifier": "every list of items and assignments", "why_tests_cant": "all lengths and all patterns of assignment and reference", "anchors": ["unpythonic/seq.py:do", "unpythonic/seq.py:do0", "unpythonic/seq.py:assign"]}
{"id": "C82", "title": "resignal converts conditions by the first matching entry", "statement": "Inside `with resignal(mapping)` (or `resignal_in`), a condition that is signalled, and is an instance of the key of an entry, is converted into a signal of the value of the first such entry, made with the same protocol (`signal`, `error`, `cerror`, `warn`), with the original condition as its cause; a condition that matches no entry is passed on to the outer handlers unchanged.", "quantifier": "every mapping, every condition, every protocol, every stack of handlers outside the block, every behaviour of these handlers", "why_tests_cant": "Handlers are arbitrary code that may return, invoke a restart, raise or signal again; the new signal is itself seen by the same block.", "anchors": ["unpythonic/conditions.py:resignal", "unpythonic/conditions.py:resignal_in", "unpythonic/conditions.py:_resignal_handler"]}
{"id": "C83", "title": "available_restarts and available_handlers list what is in scope", "statement": "`available_restarts()` lists, sorted by name, each name of a restart in scope exactly once, with the restart that `find_restart` finds under it (the innermost); `available_handlers()` lists, sorted by name of the type, each type that a handler in scope is bound to exactly once, with the handler bound to it that comes first (innermost block first, within a block in the order written).", "quantifier": "every stack of `with restarts` and `with handlers` blocks", "why_tests_cant": "Blocks can be nested to any depth with any shadowing of names.", "anchors": ["unpythonic/conditions.py:available_restarts", "unpythonic/conditions.py:available_handlers", "unpythonic/conditions.py:find_restart"]}
{"id": "C84", "title": "dyn as a mapping agrees with reading attributes", "statement": "`name in dyn`, `dyn.get`, iteration, `len(dyn)`, `dyn.items()` agree with what reading attributes of `dyn` gives in the same thread at the same moment (each readable name exactly once, with its current value); and a live view made by `dyn.asdict()` shows at all times what the thread that made it would read, for every history of dynamic scopes beginning and ending and of assignments in any number of threads.", "quantifier": "every interleaving of operations of any number of threads, every name", "why_tests_cant": "Histories and interleavings are unbounded; the view caches a list of scopes that must be refreshed at every change.", "anchors": ["unpythonic/dynassign.py:_Dyn.asdict", "unpythonic/dynassign.py:_DynLiveView", "unpythonic/dynassign.py:_Dyn.__contains__"]}
{"id": "C85", "title": "mogrify maps every atom of a nested container once, in place", "statement": "`mogrify(func, container)` calls func exactly once with each atom of a nested container, in the order of iteration, and returns the same structure with the results in place of the atoms: mutable containers are updated in place (same objects), immutable ones are copied, nothing else is changed. If a call raises, the exception propagates and no container is left with a mixture of old and new items. `force(x)` thus replaces every promise in a structure by its value and runs each pending thunk once.", "quantifier": "every nesting of lists, dicts, sets, boxes, tuples, named tuples, frozendicts, cons structures and Values, every function, every exception it raises", "why_tests_cant": "Nesting is unbounded and the function is arbitrary.", "anchors": ["unpythonic/collections.py:mogrify", "unpythonic/lazyutil.py:force", "unpythonic/lazyutil.py:force1"]}
{"id": "C86", "title": "imemoize and fimemoize make iterables restartable", "statement": "Every generator made from `imemoize(iterable)` delivers the items of the iterable from the first on, in order, whatever other generators made from it have delivered; no more items are taken from the iterable than the most advanced generator has delivered. `fimemoize(f)` does this for the iterable that f returns for the given arguments.", "quantifier": "every iterable, every number of generators and threads, every interleaving", "why_tests_cant": "The claim is about all interleavings of all instances.", "anchors": ["unpythonic/gmemo.py:imemoize", "unpythonic/gmemo.py:fimemoize"]}
{"id": "C87", "title": "let, letrec and do expressions have lexically scoped variables", "statement": "In code written with `let[...][...]`, `letrec[...][...]` and `do[...]` (in any nesting with each other, lambdas and calls), a name refers to the variable of the innermost enclosing construct that has one of that name (of a `do`: from the item after its `local` to its `delete`; in the item making the definition, the old bindings are in effect), else to the ordinary Python variable; `x := v` assigns to that variable; functions that outlive the construct keep their variables. Running the expanded code has the same result or exception, side effects and termination as this says.", "quantifier": "every program in the fragment, every depth of nesting, all external functions and their effects, all names of variables", "why_tests_cant": "The macros rewrite arbitrary nested programs; capture and shadowing mistakes show only for particular combinations of nesting and names.", "anchors": ["unpythonic/syntax/letdo.py:_let_expr_impl", "unpythonic/syntax/letdo.py:_letlike_transform", "unpythonic/syntax/letdo.py:_transform_envassignment", "unpythonic/syntax/letdo.py:_transform_name", "unpythonic/syntax/letdo.py:_do", "unpythonic/syntax/scopeanalyzer.py:scoped_transform", "unpythonic/lispylet.py:_let", "unpythonic/seq.py:do"]}
{"id": "C88", "title": "cond, letseq, aif and do0 mean what their names say", "statement": "`cond[...]` evaluates its tests in order up to the first true one and then only the branch belonging to it (needs an odd number of parts); `letseq` evaluates each value in the scope of the variables before it; `aif` evaluates the test once, outside the scope of `it`, and makes its value available as `it` in the branch chosen; `do0` runs all items in order and returns the value of the first.", "quantifier": "every number of branches, bindings and items, all subexpressions and their effects", "why_tests_cant": "The parts are arbitrary code with effects; the claims are about all of them.", "anchors": ["unpythonic/syntax/ifexprs.py:_cond", "unpythonic/syntax/ifexprs.py:_aif", "unpythonic/syntax/letdo.py:_letseq", "unpythonic/syntax/letdo.py:_do0"]}
{"id": "C89", "title": "with tco does not change what a program does", "statement": "Putting code into a `with tco` block does not change its results: the program with the expanded functions ends if and only if the program as written ends, with the same values in its variables, the same exception, and the same calls of external functions in the same order.", "quantifier": "all programs made of def, lambda, return, if, while, try, assignment, calls, conditional expressions, and/or, list displays, let and do; all external functions; all initial states", "why_tests_cant": "The transformation depends on where tail positions are in nested expressions and statements; a test covers a few shapes, and an early or late call is only visible with side effects and exceptions.", "anchors": ["unpythonic/syntax/tailtools.py:_tco", "unpythonic/syntax/tailtools.py:_transform_retexpr", "unpythonic/syntax/tailtools.py:_tco_transform_return", "unpythonic/syntax/tailtools.py:_tco_transform_def", "unpythonic/syntax/tailtools.py:_tco_transform_lambda", "unpythonic/tco.py:trampolined"]}
{"id": "C90", "title": "with tco makes tail calls in constant stack space", "statement": "In a `with tco` block, a call in tail position takes no stack: the expanded program nests calls at most twice as deep as the program would in a language with proper tail calls, however many tail calls are made.", "quantifier": "all programs as in C89, all numbers of tail calls", "why_tests_cant": "A test makes a fixed number of calls of a fixed program.", "anchors": ["unpythonic/syntax/tailtools.py:_tco", "unpythonic/tco.py:trampolined", "unpythonic/tco.py:jump"]}
{"id": "C91", "title": "autoreturn returns the value in tail position along the executed path", "statement": "In a `with autoreturn` block, a function that reaches the end of its body returns the value of the expression in tail position on the path that was executed: a final expression, the last item of the branch taken of an if, of the else clause (or else the body) or of the except clause of a try; a definition in tail position returns the function defined; a loop or another statement gives None. Explicit returns, side effects, exceptions and the finally clause are as without the macro, and code in which every function already ends with an explicit return is left unchanged.", "quantifier": "all programs of the modelled fragment (expressions, assignment, if, while, def, try, return, nested functions), all external functions, all inputs, any bound on stack and loops", "why_tests_cant": "Tests run a handful of function bodies; the claim is about every nesting of if, try and def, with every combination of exceptions, explicit returns and side effects on the way.", "anchors": ["unpythonic/syntax/tailtools.py:autoreturn", "unpythonic/syntax/tailtools.py:_autoreturn", "doc/macros.md:autoreturn"]}
{"id": "C92", "title": "In a with prefix block, tuples are calls unless quoted", "statement": "Inside `with prefix`, a tuple denotes the call of its first item with the other items as arguments, unless it is quoted: leading q and u operators raise and lower the quote level, and at a level above zero the tuple stays a tuple. Named arguments are collected from kw(...) items, the rightmost definition of a name wins and no name is passed twice. Bindings of let, items of do and index tuples are left alone, and so is code without tuples. Unquoting outside a quote, a tuple of operators only, kw(...) in a quoted tuple and anything but individual named arguments in kw(...) are errors at macro expansion time.", "quantifier": "all expressions, nested to any depth, at every quote level, under every compositional meaning of Python's syntax", "why_tests_cant": "Tests show a few tuples; the claim is about every nesting of quotes, unquotes, calls, kw items and other macros.", "anchors": ["unpythonic/syntax/prefix.py:prefix", "unpythonic/syntax/prefix.py:_prefix", "doc/macros.md:prefix"]}
{"id": "C93", "title": "Known decorators are applied in the order of their priorities", "statement": "The registry of decorators is in order of priority and holds exactly what was registered. Sorting the decorators of a lambda applies the same decorators in order of priority, smallest outermost, if all are registered; a decorator that is not registered stays where it is, with everything outside of it; decorators that are in order are left alone, and sorting twice changes nothing more. When a decorator is to be added to the list of a function, an index is suggested if it is registered and one of the list is, and inserting it there keeps the known ones in order if they were.", "quantifier": "all registries, made by registrations in any order, all chains and lists of decorators, registered or not", "why_tests_cant": "Tests sort a few chains of the library's own decorators; the claim is about every registry, every chain, and every place where unknown decorators can stand.", "anchors": ["unpythonic/regutil.py:register_decorator", "unpythonic/syntax/util.py:sort_lambda_decorators", "unpythonic/syntax/util.py:suggest_decorator_index", "unpythonic/syntax/util.py:is_decorated_lambda"]}
{"id": "C94", "title": "with continuations does what its documentation says", "statement": "In a `with continuations` block, every function takes a continuation `cc`; `return v` passes v to it (a Values is unpacked), `return f(...)` passes it on, a normal call has `cc=identity`. `x = call_cc[f(...)]` calls f with, for its `cc`, the rest of the function as a function of x, in a scope of its own, which can be stored and called any number of times; what follows that rest is whatever would have followed the function. Running the expanded block has the same outcome, the same values in variables and the same calls of other functions in the same order as these rules prescribe. A call_cc elsewhere than at the top level of a function or of the block, or at the end of the block, and a return at the top level of the block, are syntax errors; nothing else is.", "quantifier": "all blocks of function definitions, lambdas, loops, conditionals, `and`, `or`, `let` and `do`, assignments, nonlocal declarations, returns and call_cc statements, all external functions (with effects and exceptions), all bounds on rounds and call depth", "why_tests_cant": "the expansion splits functions at every call_cc and threads two continuations (cc and the parent) through every return and tail call; whether a resumed computation goes on to the right place depends on the nesting of captures, resumptions and tail calls of the whole program", "anchors": ["unpythonic/syntax/tailtools.py:continuations", "unpythonic/syntax/tailtools.py:_continuations", "unpythonic/syntax/tailtools.py:chain_conts", "unpythonic/syntax/tailtools.py:get_cc", "unpythonic/syntax/tailtools.py:_transform_retexpr", "unpythonic/tco.py:trampolined", "unpythonic/fun.py:identity"]}
{"id": "C95", "title": "with lazify is call by need", "statement": "In a `with lazify` block, the arguments of calls of functions defined in the block are not evaluated until they are used, and at most once; a bare reference is passed on without using what it refers to; a tuple written as an argument has its items delayed one by one; functions defined elsewhere get their arguments evaluated. Running the expanded block has the same outcome, the same values in variables, the same arguments evaluated and the same calls of external functions in the same order as these rules prescribe.", "quantifier": "all blocks of function definitions (with defaults and *args), lambdas, loops, conditionals, assignments, nonlocal declarations, tuples, subscripts, calls with and without *, lazy[...]; all operators and external functions (with effects and exceptions), all bounds on rounds and call depth", "why_tests_cant": "whether a promise is forced where it is used, exactly once and not earlier depends on how it travels through calls, tuples and closures in the whole program; tests try a few dozen programs", "anchors": ["unpythonic/syntax/lazify.py:_lazify", "unpythonic/syntax/lazify.py:_lazyrec", "unpythonic/lazyutil.py:Lazy", "unpythonic/lazyutil.py:force", "unpythonic/lazyutil.py:force1", "unpythonic/lazyutil.py:maybe_force_args", "unpythonic/collections.py:mogrify"]}
{"id": "C96", "title": "with lazify does not change what a purely functional program computes", "statement": "If plain Python, which evaluates arguments before calls, evaluates an expression to some value, using functions without side effects, then the same program in a `with lazify` block ends normally and gives the same value, with no promises left in it.", "quantifier": "all function definitions with bodies of `return` and `if`, mutually recursive, all expressions of operators, comparisons, conditionals, tuples, subscripts of references, lambdas and calls; all operators, which may raise", "why_tests_cant": "the order of evaluation changes throughout; that every delayed argument still can be evaluated later, in spite of all that has been evaluated in between, is a claim about all programs", "anchors": ["unpythonic/syntax/lazify.py:_lazify", "unpythonic/lazyutil.py:Lazy", "unpythonic/lazyutil.py:force", "unpythonic/lazyutil.py:maybe_force_args"]}
{"id": "C97", "title": "with envify keeps the meaning of a program, and lets expressions assign to parameters", "statement": "In a `with envify` block, functions behave as in plain Python, except that `x := v` (or `x << v`) for a parameter `x` of the function it is in, or of an enclosing one, assigns to that parameter, for this call of that function, and all references to `x` see it. Running the expanded block has the same outcome, the same values in variables and the same calls of external functions in the same order as these rules prescribe.", "quantifier": "all blocks of function definitions and lambdas (with defaults, keyword-only parameters and *args), while and for loops, conditionals, assignments, del, nonlocal declarations, try/except, comprehensions, tuples, calls with positional and named arguments; all operators and external functions (with effects and exceptions), all bounds on rounds and call depth", "why_tests_cant": "every reference to every parameter is redirected to an object made on each call; whether references at any nesting depth find the right object for each closure is a claim about all programs", "anchors": ["unpythonic/syntax/lambdatools.py:_envify", "unpythonic/env.py:env.__setattr__", "unpythonic/env.py:env.__getattr__", "unpythonic/env.py:env.set", "unpythonic/env.py:env.update", "unpythonic/syntax/letdoutil.py:isenvassign", "unpythonic/env.py:env.__delattr__"]}
{"id": "C98", "title": "The test framework runs and counts every test once", "statement": "In a testset, every test is run, whatever the tests before it do: a test that fails, errors, raises an exception or signals a condition is reported by the innermost testset and the program goes on. Every test is counted exactly once: as passed, failed or errored (warnings separately). A signal or an exception outside of any test, but in a testset, is reported and counted as one errored test; an exception ends the innermost testset only. The summary of each testset has the numbers of what happened in it, nested testsets included. `terminate` ends the session.", "quantifier": "all nestings of tests, testsets, sessions, catch_signals and try/except; all signals with any protocol, exceptions, values and callbacks", "why_tests_cant": "counting and going on depend on how handlers, restarts and exceptions of tests and testsets at all depths interact; the tests of the project rest on this framework themselves, and would not notice tests that are not run", "anchors": ["unpythonic/test/fixtures.py:session", "unpythonic/test/fixtures.py:testset", "unpythonic/test/fixtures.py:terminate", "unpythonic/test/fixtures.py:catch_signals", "unpythonic/syntax/testingtools.py:_observe", "unpythonic/syntax/testingtools.py:unpythonic_assert", "unpythonic/syntax/testingtools.py:unpythonic_assert_signals", "unpythonic/syntax/testingtools.py:unpythonic_assert_raises", "unpythonic/conditions.py:cerror"]}
{"id": "C99", "title": "let_syntax and abbrev substitute", "statement": "In `let_syntax` and `abbrev`, each use of a template is replaced by its right hand side with the arguments in the places of the formal parameters, simultaneously, and each bare name by its right hand side; uses inside arguments are expanded too; in a block, only what is defined before a statement is replaced in it, and the statements of a block used as a statement are put in its place. It is a SyntaxError if, and only if, a name is defined twice, a template gets the wrong number of arguments, a block is used in an expression, the body of `with expr` is not one expression, or nothing is left. Eliminating the `if 1` made on the way does not change what the statements mean, and leaves valid statements.", "quantifier": "all definitions (bare names and templates, of expressions and of blocks), all bodies and all statements of a block, nested to any depth", "why_tests_cant": "which names meet in a program is up to the user: a name of a parameter may occur in an argument, a use of a template in another use of it, a definition in the scope of another one; tests try a few combinations", "anchors": ["unpythonic/syntax/letsyntax.py:let_syntax", "unpythonic/syntax/letsyntax.py:abbrev", "unpythonic/syntax/letsyntax.py:_let_syntax_expr", "unpythonic/syntax/letsyntax.py:_let_syntax_block", "unpythonic/syntax/letsyntax.py:_substitute_barename", "unpythonic/syntax/letsyntax.py:_substitute_templates", "unpythonic/syntax/util.py:eliminate_ifones"]}
{"id": "C100", "title": "Names in a with autoref block are attributes of its object", "statement": "In a program with `with autoref[expr]` blocks, nested in any way and with or without as-parts, each name that is read stands for the attribute of the innermost autoreferenced object around it that has an attribute of that name at the time of the read, and for the ordinary variable otherwise; the name given in an as-part always stands for the variable. The expression for the object is evaluated once, when the block is entered; assignments and deletions are not redirected. Nothing else about the program changes: it ends in the same way, with the same output, variables and objects.", "quantifier": "all programs of the modelled statement language (expressions with names, attributes, items, functions and calls; assignments to names, attributes and items; deletions; loops; nested blocks), all start states, all bounds on the depth of evaluation", "why_tests_cant": "Which object a name belongs to depends on the attributes the objects happen to have at run time, on how blocks nest and on what the code generated for an inner block becomes when the outer block is expanded; tests try a few nestings.", "anchors": ["unpythonic/syntax/autoref.py:autoref", "unpythonic/syntax/autoref.py:_autoref", "unpythonic/syntax/autoref.py:_autoref_resolve"]}
{"id": "C101", "title": "namelambda renames a function everywhere Python shows its name", "statement": "namelambda(name)(f) returns a function with the same code, whose __name__, whose code's co_name and the last part of whose __qualname__ are the new name, however often it has been renamed before. No other function is changed, and according to the documentation neither is f. A value that is no function is returned as it is; a name that is no string is a TypeError and nothing is changed.", "quantifier": "all functions in all scopes, all names, all sequences of renamings", "why_tests_cant": "the qualified name depends on the texts of the names given in the whole history of renamings", "anchors": ["unpythonic/misc.py: namelambda"]}
{"id": "C102", "title": "The namedlambda macro names each lambda after what it is bound to", "statement": "In a with namedlambda block every lambda gets exactly one name: that of the variable, let-binding, named argument or string key of a dictionary it is bound to, possibly with decorators around it; the name the user gave it with namelambda; or else its source location. Apart from naming, the program is left as it is.", "quantifier": "all programs: expressions nested to any depth, with any mixture of bindings, decorators, calls and lambdas", "why_tests_cant": "the rules for bindings, decorators, curry and already named lambdas interact at any nesting depth", "anchors": ["unpythonic/syntax/lambdatools.py: namedlambda, _namedlambda", "unpythonic/syntax/util.py: is_decorated_lambda, has_deco, destructure_decorated_lambda"]}
{"id": "C103", "title": "fn[] makes a function of the underscores in it", "statement": "fn[expr] is a function with one parameter for each underscore in expr, not counting those in a fn[] nested inside; when it is called, the underscores, from left to right, are the arguments, and all else in expr (variables, calls, lambdas, nested fn[]) means what it would mean outside. Outside of fn[], an underscore is an ordinary variable.", "quantifier": "all programs with functions, calls, conditionals, tuples, dictionaries, output and fn[] nested to any depth", "why_tests_cant": "the renaming of underscores must be right at any nesting of fn[], lambdas and calls, and capture no name of the user", "anchors": ["unpythonic/syntax/lambdatools.py: fn, _fn"]}
{"id": "C104", "title": "with autocurry curries all functions and calls in the block, and leaves plain programs as they are", "statement": "A program that runs in plain Python without a TypeError of a call does the same in a with autocurry block: the same value or exception and the same output, also when code outside the block uses its functions. All functions made in the block (def and lambda) and all calls in it are curried: arguments may be given one at a time or in groups, a function with too few waits for more, arguments that are too many are given to the function it returns; uninspectable builtins are called as usual. Calling something that is no function, or arguments that no function takes, are a TypeError.", "quantifier": "all programs with functions (nested, recursive, with defaults), calls, conditionals, tuples, multiple return values, a builtin with output, curry written by hand, and code outside of the block", "why_tests_cant": "the claim is about all programs; which lambdas and calls are transformed depends on what is around them at any depth", "anchors": ["unpythonic/syntax/autocurry.py: autocurry, _autocurry", "unpythonic/fun.py: curry, _currycall", "unpythonic/syntax/util.py: has_curry, has_deco, is_decorated_lambda"]}
{"id": "C105", "title": "The forall macro is nested loops, with real variables and effects in order", "statement": "forall[x << it1, y << it2, cond, result] evaluates as nested loops: each line is evaluated once for each combination of items of the lines before it, with the names of those lines (and the variables around the macro) in scope; a line may reuse a name, which then hides the earlier one for the lines after it; a line without a name binds nothing; the last line, not unpacked, gives the results, in order. All effects happen in the order of the nested loops, a failed insist() keeps the lines after it from being evaluated, and the first exception ends the evaluation and is raised.", "quantifier": "all lists of lines, bodies with arbitrary effects, results and exceptions, all surrounding variables and all initial states", "why_tests_cant": "the number of lines, of items, and the effects and values of the bodies are unbounded", "anchors": ["unpythonic/syntax/forall.py: forall, _forall", "unpythonic/amb.py: MonadicList.__rshift__, fmap, join, from_iterable, monadify"]}
{"id": "C106", "title": "In a function with let variables, each name is the let variable unless something hides it", "statement": "A function decorated by @dlet, @dletrec, @blet or @bletrec runs as if the let variables were a scope around it. In its body, its defaults and all functions and lambdas in it, a name, and a `name := value`, means the let variable, unless the name is hidden there: by a parameter or by the name of a function around the place, by a `global` declaration, or by a local variable. A local variable hides the let variable from the statement after its creation, in the lexically remaining part of the function, until it is deleted; the right-hand side of `x = ...` still sees the let variable. Otherwise the function does what Python does; let variables are kept from call to call, the bindings are evaluated once, in order, when the function is defined (seeing each other only with letrec), and binding a name twice is an error.", "quantifier": "all modules with a decorated function: all statements (assignments, del, if, while, nested def with defaults and global declarations, lambdas, calls, output) before, in and after it, all bindings, parameters and defaults, and any number of steps", "why_tests_cant": "programs, their nesting of scopes and their runs are unbounded; a rule of scope must hold at each place of each program", "anchors": ["unpythonic/syntax/scopeanalyzer.py: scoped_transform, get_lexical_variables, get_names_in_store_context, get_names_in_del_context", "unpythonic/syntax/letdo.py: _let_decorator_impl, _letlike_transform, _transform_envassignment, _transform_name", "unpythonic/lispylet.py: _let, _dlet, _blet", "doc/macros.md: dlet, dletseq, dletrec, blet, bletseq, bletrec"]}
{"id": "C107", "title": "A test runs its code as written, and notes the value of each marked subexpression", "statement": "A module with `test[...]` expressions (with or without a message) and `with test` blocks runs as if each test were a handler around its code: the code is evaluated as written, once, in Python's order of evaluation (with short-circuiting), and in a `with test` block in a scope of its own; an exception or a result that is not true is logged as a failure of this test, and the program goes on; a block without `return` passes if it completes. A `test_raises[t, ...]` or `with test_raises[t]` block does the same, but passes if its code raises an exception of type t, and is logged as a failure or error otherwise. Each value of a subexpression marked `the[...]` is captured, each time it is evaluated, in order, with its source code, for the lexically innermost test around it, also if marks or tests are nested; if a test has no marks, and is a comparison (for a block: returns one at its top level), then the leftmost term is captured. The message of a failed test shows the captured values, but not those of literals.", "quantifier": "all modules with tests: all expressions (calls, comparisons, and, or, conditional expressions, all(...) with a generator, tuples, names, nested tests and marks) and statements (assignments, if, return, nested blocks); all functions and operators with arbitrary effects and exceptions", "why_tests_cant": "the macros rewrite arbitrary code; that nothing is evaluated twice, skipped or captured for another test must hold for every expression and nesting", "anchors": ["unpythonic/syntax/testingtools.py: the, test, test_raises, _test_expr, _test_block, _test_expr_raises, _test_block_raises, _transform_important_subexpr, _record_value, unpythonic_assert, unpythonic_assert_raises, _observe", "doc/macros.md: the: capture the value of interesting subexpressions"]}
{"id": "C108", "title": "All ways to write a let mean the same, and a let can be read and changed without knowing how it is written", "statement": "The bindings of a let may be written `k := v, ...`, `k << v, ...`, `[k, v], ...`, `(k, v), ...` or, for a single one, `k, v`; with brackets or parentheses; in the macro arguments `let[...][body]`, in `let[[...] in body]` or in `let[body, where[...]]`; in let_syntax, the left-hand side may be a template. All of these give the same bindings, in order, and the same body to the macro; what is written in another way is a SyntaxError, and nothing can be read in two ways. A view of an unexpanded let, let decorator, do or environment assignment has the mode, the bindings in canonical form, and the body (None if there is none); writing the bindings, the body, the name or the value changes the form so that it has the new part, with all other parts and the way it is written unchanged.", "quantifier": "all syntax trees, all lists of bindings with arbitrary values, all bodies, all combinations of syntaxes, all supported versions of Python", "why_tests_cant": "the number of bindings and the trees in them are unbounded; each of the many formats has to be told from every other tree", "anchors": ["unpythonic/syntax/letdoutil.py: canonize_bindings, isenvassign, islet, isdo, UnexpandedLetView, UnexpandedDoView, UnexpandedEnvAssignView, _set_subscript_slice", "unpythonic/syntax/letdo.py: _destructure_and_apply_let", "doc/macros.md: let, letseq, letrec as macros"]}
{"id": "C109", "title": "A box is its content, and a shim is the object in its box", "statement": "A box, ThreadLocalBox or Some is equal to its content and to any box with an equal content, to any depth of nesting; it has exactly one item, which unbox, get, iteration and `in` agree on; unbox of anything else is a TypeError. After any history of operations by any number of threads, a box has what was put last into it, and a thread-local box what this thread has put last into it since it was cleared, or else the default. Reading an attribute of a Shim reads it from the object that is in its box now, in the current thread, or else from the first of the fallbacks that has it, as they are now; writing an attribute writes it to the object in the primary box and to no other object; what was written can be read back.", "quantifier": "all nestings of boxes, all histories of operations on boxes, objects and shims, all interleavings of threads, all chains of fallbacks, all names of attributes", "why_tests_cant": "histories and chains are unbounded, and threads interleave in any way", "anchors": ["unpythonic/collections.py: box, ThreadLocalBox, Some, unbox, Shim", "doc/features.md: box, Some, Shim"]}
{"id": "C110", "title": "The control channel answers each request and interrupts only its own session", "statement": "After any history of sessions and control channels, each request that comes in a control channel gets exactly one reply: the description of the server; for PairWithSession, success if and only if the id is that of an open session; for TabComplete, the completion; for KeyboardInterrupt, a failure if the channel is not paired, or the session is closed or has no thread yet, and success otherwise; a failure for missing fields and unknown commands. A remote Ctrl+C interrupts the session that the channel was paired with last, and no other session. Ids of sessions are never used again. What other channels do has no effect on a channel.", "quantifier": "all histories of any number of sessions, threads and control channels, interleaved in any way, all messages", "why_tests_cant": "histories and interleavings are unbounded, and the wrong ones depend on when a thread ends and on which idents the system gives to threads", "anchors": ["unpythonic/net/server.py: ControlSession.handle, ConsoleSession.handle", "unpythonic/excutil.py: async_raise"]}
{"id": "C111", "title": "fg delivers the result of a background job once", "statement": "fg of the thread that bg has returned returns the thread itself while the thunk is running; when it is done, it returns its value or raises its exception, once; after that there is no result.", "quantifier": "all histories of background jobs and calls of fg, all outcomes of thunks, all idents of threads", "why_tests_cant": "histories are unbounded, and what goes wrong depends on the timing and on the idents of threads", "anchors": ["unpythonic/net/server.py: bg, fg"]}
{"id": "C112", "title": "The REPL client shows what the server sends, and sends what the user types", "statement": "However the network splits the data that the server sends, the text on the client's screen, prompts included, is exactly the text that the server has sent, in order; the client asks for input exactly when the server has sent a prompt and waits; what is sent to the server is exactly what the user has typed; and the control channel is paired with the session that the server names in its first line. After Ctrl+C, the answer of the server is gathered and handled in the same way.", "quantifier": "all texts of the server, all ways to split their bytes, all prompts, all inputs of the user, all numbers of sessions", "why_tests_cant": "the ways to split a stream, the texts and the sessions are unbounded; tests on one machine see nearly always the same splits", "anchors": ["unpythonic/net/client.py: connect", "unpythonic/net/util.py: ReceiveBuffer"]}
{"id": "C113", "title": "Views of expanded let and do forms read and write what the form says", "statement": "Of a let, letrec, dlet, dletrec or do form that has been expanded, with or without autocurry, a view tells the mode, the name of the environment, the bindings and the body. Assigning bindings or a body of the right shape gives the same form with these parts, where each lambda takes the environment under its name; anything else is refused, and the form stays as it was. A node that is no such form is not taken for one. The macros autoref and lazify, which use the views, work with all these forms.", "quantifier": "all forms, with any names, values, bodies and number of bindings or lines; all that can be assigned; all other syntax trees", "why_tests_cant": "Tests have a form or two of each kind; here the forms, with anything in them, and what is assigned are arbitrary.", "anchors": ["unpythonic/syntax/letdoutil.py: islet, isdo, ExpandedLetView, ExpandedDoView", "unpythonic/syntax/letdo.py: _let_expr_impl, _let_decorator_impl, _do", "unpythonic/syntax/autocurry.py: AutoCurryTransformer", "unpythonic/syntax/autoref.py: AutorefTransformer", "unpythonic/syntax/lazify.py: LazifyTransformer", "unpythonic/syntax/nameutil.py: isx, getname"]}
{"id": "C114", "title": "The scope analyzer finds the names that Python binds", "statement": "The names that the scope analyzer collects in a block of statements are those that Python binds in the scope of the block; those collected as deleted, declared global, and declared nonlocal are those that are so in the block, outside inner scopes. Of a function, lambda, class or comprehension, the analyzer gives, each once, the names that mean in it something else than in the scope around it, in two disjoint lists, and it refuses anything else. It works for all programs.", "quantifier": "all syntax trees of statements, with functions, classes, lambdas, comprehensions, imports, handlers of exceptions and match patterns nested in any way", "why_tests_cant": "Tests look at a few blocks of a few statements; names can be bound by a dozen constructs at any depth.", "anchors": ["unpythonic/syntax/scopeanalyzer.py: isnewscope, get_lexical_variables, get_names_in_store_context, get_names_in_del_context, extract_args, collect_globals, collect_nonlocals"]}
{"id": "C115", "title": "The PTY proxy passes on all bytes in both directions, and reports a disconnection once", "statement": "What is read from the socket is delivered to the slave side of the PTY, and what is read from the PTY is delivered to the socket: all of it, once, and in order, until the proxy is stopped or one end disconnects. When an end disconnects, its callback, if it is set, is called, exactly once, the other is not, and forwarding ends. After its end the proxy does nothing more. `stop` ends the forwarding and closes the PTY, exactly once, also when it is called several times; a second `start` is refused.", "quantifier": "all sequences of events at the two ends, all sizes of reads and writes, all errors, all settings of the callbacks, and all sequences of starting and stopping", "why_tests_cant": "The interleavings of two streams, the sizes of the parts, and the points where a connection can break are unbounded; a test cannot make the operating system take only a part of the bytes.", "anchors": ["unpythonic/net/ptyproxy.py: PTYSocketProxy, start, forward_traffic, stop"]}
{"id": "C116", "title": "The REPL server can be started and stopped, once at a time, and leaves no traces", "statement": "At most one REPL server runs in a process: a further `start` is refused and changes nothing. `start` succeeds exactly if no server runs and its ports are free; if it fails, nothing has changed. `stop` closes the ports, gives back the standard streams and the prompts as they were before `start`, and may be called again; afterwards a server can be started again. While a server runs, and only then, `stop` is called at the exit of the process. When `halt` has been called, and not been cancelled, the server shuts down after the last session has ended, and not before.", "quantifier": "all histories of starting, stopping, assignments to `sys`, sessions and halts, all ports, and all streams and prompts", "why_tests_cant": "Histories are unbounded, and what goes wrong depends on what other programs and other parts of the process have done before.", "anchors": ["unpythonic/net/server.py: start, stop, halt, main"]}
{"id": "C117", "title": "dletseq and bletseq bind one after the other around a function", "statement": "`@dletseq[...]` over a function definition computes the values of the bindings once, when the function is defined, one after the other, each seeing the variables before it and the names outside of the function; the body sees the let variables (the last one of each name), parameters and local variables hide them, `:=` changes them, and what was assigned stays from call to call; other decorators are applied once to the function. `@bletseq[...]` does the same, calls the function at once, and binds its name to what is returned.", "quantifier": "every sequence of one or more bindings, every list of parameters and decorators, every body of statements, every sequence of calls with any arguments and any global variables", "why_tests_cant": "The macro nests one function per binding and rewrites each for one name; whether names, values, effects and state come out right depends on the combination of repeated names, parameters, assignments and the number of calls, which is unbounded.", "anchors": ["unpythonic/syntax/letdo.py:dletseq", "unpythonic/syntax/letdo.py:bletseq", "unpythonic/syntax/letdo.py:_dletseq_impl", "unpythonic/syntax/letdo.py:_let_decorator_impl"]}
{"id": "C118", "title": "ulp is the value of the least-significant bit", "statement": "For every finite float x, `ulp(x)` returns the value of the least-significant bit of x: `2**e` if x is `m * 2**e` with a 53-bit integer m, and `2**-1074` below the normal range.", "quantifier": "every finite binary64 number, positive, negative, zero, normal or subnormal", "why_tests_cant": "There are 2**64 floats; the code goes through a rounded logarithm, whose error matters only next to powers of two, at which exponents cannot be seen from a sample.", "anchors": ["unpythonic/numutil.py:ulp"]}
{"id": "C119", "title": "The representation of cons cells evaluates back to them", "statement": "`repr` of any structure of cons cells is a Python expression of `ll(...)` for linked lists, `cons(...)` for other cells and `nil`, that evaluates to an equal structure if the representations of its atoms do; `lispyrepr` gives it in Lisp's dot notation. Each atom is represented once.", "quantifier": "every structure of cons cells, of any depth and shape, over any atoms with any representations", "why_tests_cant": "Whether a cell is written as a list depends on the end of a chain of any length, lists and pairs nest in any way, and the amount of work is a matter of growth.", "anchors": ["unpythonic/llist.py:cons.__repr__", "unpythonic/llist.py:cons.lispyrepr"]}
{"id": "C120", "title": "A generic function tells which multimethods it has", "statement": "`isgeneric` tells generic from typed functions and from other callables. `list_methods` lists the multimethods that were registered, in the order in which a call tries them; for bound methods, also those of the base classes. `format_methods` formats this list, and the docstring of the generic function has a part for each multimethod, in the order of registration. A decorator that raises registers nothing.", "quantifier": "every history of @generic, @augment and @typed (successful or not), every callable, class hierarchy and argument list", "why_tests_cant": "Histories of decorations, class hierarchies and signatures are unbounded; that the listing agrees with what calls do is a statement about two different searches.", "anchors": ["unpythonic/dispatch.py:isgeneric", "unpythonic/dispatch.py:list_methods", "unpythonic/dispatch.py:format_methods", "unpythonic/dispatch.py:_setup", "unpythonic/dispatch.py:_register_to"]}
{"id": "C121", "title": "The summary of a test session shows the right counts and percentage", "statement": "The summary shows how many tests passed, failed and errored, how many ran, how many warnings there were (if any), and the percentage of passed tests, rounded down. The counts that are not zero are in color, and the percentage is in the color for success exactly if all tests passed.", "quantifier": "every number of passes, failures, errors and warnings", "why_tests_cant": "The percentage goes through floating-point arithmetic, whose rounding goes wrong only for some of the infinitely many combinations of counts.", "anchors": ["unpythonic/test/fixtures.py:summarize"]}
{"id": "C122", "title": "The description of an exception tells the whole story", "statement": "`describe_exception` lists the exceptions that led to the given one, the first one first, each with traceback, type and message, and says between two of them whether the earlier one was the cause (`raise ... from`) or was being handled (unless suppressed), as Python itself does.", "quantifier": "every exception, every chain of causes and contexts", "why_tests_cant": "Chains of causes and contexts can be of any length and form, including circular ones.", "anchors": ["unpythonic/test/fixtures.py:describe_exception"]}
{"id": "C123", "title": "The arity queries are right for generic functions and methods, too", "statement": "For a generic function or method, `arities` gives the smallest and the largest number of positional arguments that its multimethods accept, not counting `self` of a bound method; a call that a multimethod accepts is within `arity_includes`. `required_kwargs` and `optional_kwargs` give the names of the keyword-only arguments of any of its multimethods.", "quantifier": "every history of decorations, every signature of the multimethods, every class hierarchy and every call", "why_tests_cant": "Sets of multimethods and their signatures are unbounded; that a query agrees with what calls do must hold for all calls.", "anchors": ["unpythonic/arity.py:arities", "unpythonic/arity.py:arity_includes", "unpythonic/arity.py:required_kwargs", "unpythonic/arity.py:optional_kwargs", "unpythonic/arity.py:_builtin_arities"]}
{"id": "C124", "title": "A manually made traceback shows the call stack, as for a raised exception", "statement": "`equip_with_traceback(exc, stacklevel)` gives the exception a traceback that shows the call stack, from the root to the function `stacklevel` levels above, each function at the line it has reached; none if there are not so many levels. For arguments of wrong types it raises TypeError, for a negative level ValueError. A signaled condition has such a traceback, which ends at the caller of `signal`.", "quantifier": "every call stack and every level", "why_tests_cant": "Call stacks are of any depth; the order and the end of the chain must be right for each.", "anchors": ["unpythonic/excutil.py:equip_with_traceback", "unpythonic/conditions.py:signal", "unpythonic/conditions.py:_prepare_signal_instance"]}
{"id": "C125", "title": "Debug printing shows source code with values, and changes nothing else", "statement": "In a `with dbg` block each call of `print` (or of the custom print function) shows the source code of each of its arguments with the value; the arguments are evaluated once, in order, and everything else in the program does what it does without the block. `dbg[expr]` evaluates the expression once, prints source code and value and returns the value.", "quantifier": "every program, every print function, every separator", "why_tests_cant": "A program transformation must preserve the meaning of every program, at every depth of nesting.", "anchors": ["unpythonic/syntax/dbg.py:dbg", "unpythonic/syntax/dbg.py:dbgprint_block", "unpythonic/syntax/dbg.py:dbgprint_expr"]}
{"id": "C126", "title": "A notebook block prints the values of its expressions, and keeps the last one in `_`", "statement": "In a `with nb` block the statements run in order; the value of each expression statement is stored in `_`, and then printed if it is not None. Statements and tests neither print nor change `_`. Before the first expression `_` is None. Printing returns the value that is printed.", "quantifier": "every program, every print function", "why_tests_cant": "A program transformation must be right for all programs, with any effects and exceptions.", "anchors": ["unpythonic/syntax/nb.py:nb", "unpythonic/syntax/nb.py:_nb", "unpythonic/syntax/nb.py:_print_and_passthrough"]}
{"id": "C127", "title": "Each call on the control channel returns the server's answer to it", "statement": "A client's call on the control channel returns the reply of the server to this very request if it reports success, else None; in any sequence of calls, for any server, whatever happens between them. With this library's server: `pair_with_session(id)` is successful exactly if the session is active, `complete` returns what the completer in the server returns, and `send_kbinterrupt` is successful exactly if the paired session's thread was interrupted.", "quantifier": "every server, every sequence of requests, changes of the server between them, and interruptions of the client", "why_tests_cant": "Interruptions come at any time, and sequences of requests are unbounded.", "anchors": ["unpythonic/net/client.py:ControlClient", "unpythonic/net/server.py:ControlSession", "unpythonic/net/common.py:ApplevelProtocolMixin"]}
{"id": "C128", "title": "Compositions of curried functions pass on what is left", "statement": "`composelc`, `composerc` and `pipec` curry each function and apply them in order, from left to right or from right to left; each function but the last gets the left-over arguments of the one before as additional arguments. With functions of fixed numbers of parameters that is a stack machine: each takes its arguments from the left, and puts its values there. If something is left over after the last function, there is a TypeError at the top level.", "quantifier": "all functions, with any effects, any number of them, all arguments; the arguments being such that the library passes them on as they are (C133)", "why_tests_cant": "The number of functions and what each takes and leaves are unbounded; the tests of `composerc` stop at two functions.", "anchors": ["unpythonic/fun.py:composelc", "unpythonic/fun.py:composerc", "unpythonic/fun.py:_make_compose", "unpythonic/seq.py:pipec"]}
{"id": "C129", "title": "Views compare and print like the sequences they show", "statement": "A view is equal to exactly the sequences (also views) that have the same length and equal items as the part of the data it shows at that time; to anything else it is not equal. Printing it shows this part, as a sequence of the type of the data.", "quantifier": "every history of changes of the data, of making views of views, and of their uses; every other object", "why_tests_cant": "Histories, nesting and the types of other objects are unbounded.", "anchors": ["unpythonic/collections.py:_StrReprEqMixin", "unpythonic/collections.py:roview", "unpythonic/collections.py:view"]}
{"id": "C130", "title": "Partial application and currying of generic functions follow dispatch", "statement": "partial(f, ...) of a generic function returns if the arguments are all right for one of its multimethods (each has a parameter, and the types are right), and raises TypeError at once otherwise. A curried generic function waits as long as the arguments are all right for a multimethod but complete none; once they complete one, it runs the multimethod that a direct call with all the arguments would run, however they were split over calls; if no multimethod takes all of them but one is complete with some, the rest is passed on; if they are not right for any multimethod there is a TypeError at once.", "quantifier": "every history of definitions of multimethods with any signatures and annotations, every split of every argument list (positional and named)", "why_tests_cant": "Sets of multimethods, orders of definition, signatures and splits are unbounded.", "anchors": ["unpythonic/fun.py:partial", "unpythonic/fun.py:curry", "unpythonic/fun.py:_decide_curry_action", "unpythonic/dispatch.py:_resolve_multimethod"]}
{"id": "C131", "title": "Partial application and currying check type annotations of ordinary functions", "statement": "partial(f, ...) of a function that is not generic returns if there is a parameter for each argument and all that is bound to annotated parameters is of the right type, and raises TypeError at once otherwise; parameters without an annotation are not checked, and without annotations nothing is. When more arguments are given to the result, in any number of steps, by partial or by calling a curried function, the check is that of giving all of them at once. The arguments of flip(f) are checked against the parameters of f they will be given to.", "quantifier": "every signature and annotations, every sequence of applications with every argument list (positional and named)", "why_tests_cant": "Signatures, annotations and sequences of applications are unbounded; the tests have three parameters of the same type, for which the check happens to be right.", "anchors": ["unpythonic/fun.py:partial", "unpythonic/fun.py:curry", "unpythonic/arity.py:_resolve_bindings", "unpythonic/dispatch.py:_get_argument_type_mismatches"]}
{"id": "C132", "title": "Callers do not notice that a function is memoized", "statement": "For a pure function with any signature, calls of the function made by `memoize`, any number of them, in any order and in any mix of call styles, with hashable arguments, return or raise what the same calls of the original do, including the TypeError for arguments that do not fit; the original runs for no two calls that bind equal values to the parameters.", "quantifier": "all signatures, all pure functions (returning or raising), all sequences of calls with positional and named arguments; the arguments being such that the library passes them on as they are (C133)", "why_tests_cant": "Whether a call hits an entry depends on the whole history of calls and on how each was written; tests try a few call styles of one function.", "anchors": ["unpythonic/fun.py: memoize", "unpythonic/arity.py: resolve_bindings, tuplify_bindings", "unpythonic/lazyutil.py: maybe_force_args"]}
{"id": "C133", "title": "Functions called through the library get their arguments as they are", "statement": "A function that the user gives to the library (to `curry`, `memoize`, `compose`, `flip`, `rotate`, `apply`, `notf`, `andf`, `orf`, `tokth`, the pipes, `withself`, `call`, `callwith`) is called by it with the arguments as they are, if these are not promises: it gets the same values and the same mutable objects, and no container among or in the arguments is changed by the library on the way, also as seen by other threads. `call(f, *args, **kwargs)` and `callwith(*args, **kwargs)(f)` are `f(*args, **kwargs)`; a function made by `withself` gets itself as its first argument.", "quantifier": "all functions, all positional and named arguments with containers nested and shared in any way, all interleavings with other threads that append to a list", "why_tests_cant": "The arguments are taken apart and rebuilt recursively before each call; that nothing changes must hold for all shapes of nested and shared containers, and at all times for other threads.", "anchors": ["unpythonic/lazyutil.py: maybe_force_args, force, islazy", "unpythonic/collections.py: mogrify", "unpythonic/funutil.py: call, callwith", "unpythonic/fun.py: withself"]}
{"id": "C134", "title": "Symbols keep their names, labels and attributes", "statement": "`sym(name)` has that name, and `gensym(label)` that label, for as long as it exists, whatever else is done with symbols; `str` and `repr` show it, and tell different symbols apart. Symbols with different names, and any two gensyms, are different objects. Pickling and unpickling gives the same object if it is alive, unchanged, and otherwise one with the same name and attributes; unpickling again gives that object.", "quantifier": "every hashable name, every history of making symbols, setting attributes, unpickling and dropping symbols (in one thread; threads are C49)", "why_tests_cant": "all histories and names", "anchors": ["unpythonic/symbol.py:sym", "unpythonic/symbol.py:gsym", "unpythonic/symbol.py:gensym"]}
{"id": "C135", "title": "lazyrec[...] delays the leaves of a container literal, and force undoes it", "statement": "For a container literal e, nested to any depth and built from tuples, lists, sets, dictionaries and calls of the known constructors, evaluating lazyrec[e] evaluates only keys and the arguments of constructors that are unpacked and are not literals; every other expression becomes a promise at its own place, so exceptions these would raise do not occur. force(lazyrec[e]) is the value that e has. An expression that is not a container literal becomes one promise, and lazy[e] is not wrapped again.", "quantifier": "all container literals of any depth and size, with starred and named arguments of constructors, all values and exceptions of the expressions at the leaves", "why_tests_cant": "The literals form an infinite family of trees and their leaves may evaluate to anything; tests show a few flat literals.", "anchors": ["unpythonic/syntax/lazify.py:lazyrec", "unpythonic/syntax/lazify.py:_lazyrec", "unpythonic/syntax/lazify.py:_is_literal_container", "unpythonic/lazyutil.py:force", "unpythonic/collections.py:mogrify"]}
{"id": "C136", "title": "Environments: acceptable names, order, comparison", "statement": "By whichever interface a binding is made (attribute, subscript, `set`, `<<`, `update`, `setdefault`), an env only ever binds identifiers which are not reserved, so that each binding can be read, rebound and deleted by its name. `update` takes what `dict.update` takes, a mapping or pairs. Iteration, `keys`, `items` and `values` list the bindings in the order in which they were made, and environments are equal exactly if they have the same bindings.", "quantifier": "every history of operations on an env or assignonce, every name, every value", "why_tests_cant": "Histories and names are unbounded; whether a name is checked depends on which interface is used and whether the env is finalized.", "anchors": ["unpythonic/env.py:env.__setattr__", "unpythonic/env.py:env.update", "unpythonic/env.py:env.setdefault", "unpythonic/env.py:env.__iter__", "unpythonic/env.py:env.__eq__"]}
{"id": "C137", "title": "ShadowedSequence reads like the updated sequence", "statement": "A `ShadowedSequence`, also on top of others, is read by any index or slice, any number of times, like the sequence in which the updates have been done: the same items, IndexError for the same indices, and for slices a sequence of the same type; and `fupdate` returns a sequence of the type of its argument.", "quantifier": "every sequence (list, tuple, named tuple, string, range), every stack of updates, every index and slice", "why_tests_cant": "All lengths, strides, signs and stacks of updates; tests read single layers on lists and tuples.", "anchors": ["unpythonic/collections.py:ShadowedSequence.__getitem__", "unpythonic/collections.py:ShadowedSequence._getone", "unpythonic/fup.py:fupdate"]}
{"id": "C138", "title": "Assigning one view to a slice of another", "statement": "`v[k] = w`, where `w` is a view of the same underlying sequence, or that sequence itself, assigns to the positions selected by `v[k]` the items that `w` showed before the assignment (as slice assignment of a list does, and as assigning `list(w)` does), whether or not the two overlap.", "quantifier": "every sequence, every history of changes and views, every pair of views, every slice", "why_tests_cant": "The outcome depends on how the two views overlap and in which order positions are read and written; the tests only assign tuples and scalars.", "anchors": ["unpythonic/collections.py:view.__setitem__", "unpythonic/collections.py:roview.__iter__"]}
{"id": "C139", "title": "Blocks of dynamic bindings, handlers and restarts may overlap", "statement": "At any time, reading a dynamic variable, looking for a restart or signalling a condition finds what the innermost block in effect has bound, in the order in which the blocks in effect were entered; leaving a block ends the effect of that block and of no other, in whatever order and thread blocks are entered and left (as they are by generators that are suspended inside a block). When all blocks have been left, all is as before. Threads do not matter to each other.", "quantifier": "every sequence of entering and leaving blocks, nested or overlapping, in any number of threads", "why_tests_cant": "the orders in which generators can be suspended and resumed are unbounded", "anchors": ["unpythonic/dynassign.py:_EnvBlock", "unpythonic/conditions.py:_Stacked", "unpythonic/conditions.py:find_restart", "unpythonic/dynassign.py:_Dyn._resolve"]}
{"id": "C140", "title": "Tests in several threads are run, counted and reported", "statement": "If tests run in several threads at the same time, every test is run and counted exactly once, whatever the interleaving of the threads; the threads do not block each other; each testset reports the numbers of the tests in it.", "quantifier": "every number of threads, all tests and testsets in them, and every schedule of their steps (waiting for the lock, reading and writing a counter, releasing the lock)", "why_tests_cant": "the number of interleavings is unbounded, and a lost update happens in few of them", "anchors": ["unpythonic/test/fixtures.py:_update", "unpythonic/test/fixtures.py:testset", "unpythonic/syntax/testingtools.py:unpythonic_assert"]}
{"id": "C141", "title": "An expression with mathematical sequences has the terms that it says", "statement": "With arithmetic on the sequences made by `s`, `imathify` and `gmathify`, the item at each index of an expression (sums, products, unary operations, comparisons, scalars) is the value of the expression of the items of its sequences at that index, up to the end of the shortest. This holds also if a sequence is in an expression more than once, if a sequence is used again after items of another expression with it have been taken, after an expression has ended because another sequence was shorter, and for `cauchyprod(a, a)`.", "quantifier": "all expressions of any depth over any number of sequences, finite or endless, all operations, all numbers of items taken, and all orders in which expressions with the same sequences are used", "why_tests_cant": "What an expression with a sequence that can be iterated once returns depends on where and how often the sequence is mentioned, and on what was taken from it before; tests use each sequence once.", "anchors": ["unpythonic/mathseq.py: imathify, gmathify, s, sadd, smul, _make_termwise_stream_binop, diagonal_reduce, cauchyprod", "unpythonic/gmemo.py: imemoize"]}
{"id": "C142", "title": "Signalling an exception class is signalling a new instance of it", "statement": "signal, error, cerror and warn accept an exception class instead of an instance, for the condition and for cause, like `raise ... from ...`: a new instance is made without arguments, and all that follows (handlers, restarts, the category and text of an emitted warning) is as if the instance had been given. If the class cannot be called without arguments, its exception comes out of the call. Anything that is not an exception or exception class (also None) is refused by an `error` with a ControlError that shows it.", "quantifier": "all four protocols, all conditions and causes (instances, classes with any constructor, None, other objects), all stacks of handlers and restarts, all programs as handlers", "why_tests_cant": "Handlers, restarts and constructors can do anything; tests signal instances, and look at few of the combinations.", "anchors": ["unpythonic/conditions.py: signal, error, cerror, warn, _prepare_signal_instance, _resignal_handler"]}
{"id": "C143", "title": "An exception for another thread is raised in that thread and nowhere else", "statement": "async_raise(thread, exception) either raises an exception itself (TypeError if the object is no thread, ValueError if the thread is not running) and does nothing else, or it returns, and then the exception (a class or an instance) is raised in this thread when it runs next, once, and in no other thread.", "quantifier": "all histories of threads being made, started, running and ending, with any thread numbers the interpreter hands out, all calls, all events during a call", "why_tests_cant": "It depends on the schedule of threads and on which numbers the interpreter uses again; a test sees one schedule.", "anchors": ["unpythonic/excutil.py: async_raise"]}
{"id": "C144", "title": "The traceback of an exception that is not raised shows the call stack", "statement": "equip_with_traceback(exc, stacklevel) returns exc with a traceback that shows exactly the frames of the call stack from the root to the one stacklevel levels below the top, most recent call last (None if there are none); other exceptions keep theirs. Arguments of wrong types are TypeErrors, a negative stacklevel is a ValueError, and nothing is changed. The traceback of a signalled condition ends in the caller of signal.", "quantifier": "all call stacks of any depth, all stacklevels, all objects as arguments", "why_tests_cant": "Stacks can have any depth, and tests look at one or two.", "anchors": ["unpythonic/excutil.py: equip_with_traceback", "unpythonic/conditions.py: signal, _prepare_signal_instance, error, cerror, warn"]}
{"id": "C145", "title": "Composing functions in lazy code", "statement": "Calling a composition (composel, composer, composel1, composer1) with promises is calling its functions in turn: the first one to be applied gets the promises as they are if it is marked with passthrough_lazy_args, and their values otherwise; no promise is forced that this function does not need. Composing and flipping functions marks no function that was there before, and so does not change how it is called elsewhere.", "quantifier": "all sequences of functions of any length, all marks, all arguments (values, promises that compute a value, raise or have effects), both directions", "why_tests_cant": "Functions and promises can do anything, and compositions can have any length; what goes wrong depends on the length and on which functions are marked.", "anchors": ["unpythonic/fun.py: composel, composer, composel1, composer1, flip", "unpythonic/lazyutil.py: maybe_force_args, passthrough_lazy_args, islazy"]}
{"id": "C146", "title": "Named arguments may have any names", "statement": "A function of the user that is called through the library (by call, callwith, a memoized, gmemoized or fix'd version of it, iterate, unfold, the constructor of a singleton class, or in a with tco, with lazify or with autocurry block) gets just the arguments of the call, positional and named, whatever the names of the latter are; what it returns or raises is what the call returns or raises.", "quantifier": "all functions and signatures, all positional and named arguments with all names, all these ways", "why_tests_cant": "Which names go wrong depends on the names of parameters of internal functions several calls away; tests use a handful of names.", "anchors": ["unpythonic/lazyutil.py: maybe_force_args", "unpythonic/arity.py: resolve_bindings", "unpythonic/tco.py: jump", "unpythonic/fun.py: memoize, curry, _currycall", "unpythonic/funutil.py: call, callwith, Values", "unpythonic/gmemo.py: gmemoize", "unpythonic/fix.py: fix", "unpythonic/it.py: iterate", "unpythonic/fold.py: unfold", "unpythonic/singleton.py: ThereCanBeOnlyOne, Singleton"]}
{"id": "C147", "title": "A memoized generator may use itself", "statement": "A @gmemoize'd generator function may, while it computes an item, use instances that it makes itself by calling the memoized function with the same arguments. All instances, the user's and its own, have the same outcomes: those of the generator itself, in order, each computed at most once. There is at most one sequence of outcomes that agrees with itself in this way.", "quantifier": "all generators, using any number of instances of themselves in any way; all histories of calls and next calls by the user", "why_tests_cant": "Tests define one or two well-known recursive sequences; whether the memo stays right depends on which items the generator asks for and when.", "anchors": ["unpythonic/gmemo.py: gmemoize", "unpythonic/gmemo.py: _MemoizedGenerator.__next__"]}
{"id": "C148", "title": "Memoized functions that call each other can be used from several threads", "statement": "Any number of @memoize'd functions may call themselves and each other, and be called from any number of threads. Under every schedule, each original is evaluated at most once for each set of parameter bindings; every completed call delivers what the plain functions compute, and the same object as any other call of the same function with the same bindings. The threads do not block each other forever: whatever has happened, all calls can still complete.", "quantifier": "all sets of memoized functions that terminate, all threads and their calls, all schedules", "why_tests_cant": "A deadlock needs two threads to be inside two functions at the same moment, which a test hits by luck only; its absence is a property of all schedules.", "anchors": ["unpythonic/fun.py: memoize"]}
{"id": "C149", "title": "In a with multilambda block, a lambda with brackets around its body runs the items in order, with local variables", "statement": "In a with multilambda block, calling a lambda whose body is in brackets evaluates the items from left to right, in the scope of the parameters, and returns the value of the last one. Items may declare variables with local[...] that are fresh for each call, assign to them and delete them; assigning to a name not declared writes to the let or do around it. Only the outermost brackets of a lambda body mean this: all other brackets, also those of an item of the body, are lists, and lambdas without brackets mean what they mean in Python. The body may use any expressions, including further such lambdas with local variables of any names.", "quantifier": "all expressions built from calls, lambdas with defaults, if-expressions, tuples, lists, assignments, let, letrec, do and lambdas with brackets, all worlds of external functions, all depths", "why_tests_cant": "Brackets, lambdas, let and do may be nested in each other in any way, with names that shadow each other; tests show some of the nestings only.", "anchors": ["unpythonic/syntax/lambdatools.py: multilambda, _multilambda", "unpythonic/syntax/letdo.py: _implicit_do, _do"]}
{"id": "C150", "title": "Memoized functions in lazy code", "statement": "In a with lazify block, a memoized function, be it defined in the block or elsewhere, may be called with any arguments, any number of times. Each call returns or raises what the function itself would; the expressions given as arguments are evaluated when, and only if, the function itself would have them evaluated, and each at most once. The body of the function is run at most once for the same values of the arguments.", "quantifier": "all functions (which use their parameters in any order and may stop at, or catch, exceptions), lazy and ordinary, all promises and values as arguments, all histories of calls", "why_tests_cant": "The results are right whether or not the memo is used, so a test of them shows nothing; what is evaluated depends on the whole history of calls.", "anchors": ["unpythonic/fun.py: memoize", "unpythonic/lazyutil.py: Lazy, maybe_force_args, islazy, passthrough_lazy_args", "unpythonic/syntax/lazify.py: _lazify"]}
{"id": "C151", "title": "Recursion cycles in lazy code", "statement": "In a with lazify block, a function decorated with fix gives what plain recursion gives whenever that terminates; and when the recursion comes back to the same function with the same values of the arguments, the cycle is broken there, as it is outside of the block.", "quantifier": "all functions that call each other in any way, all arguments, with or without memo, all histories of earlier calls", "why_tests_cant": "Whether a cycle is broken depends on the identity of the promises that the calls make, at every depth of the recursion and after every history.", "anchors": ["unpythonic/fix.py: fix", "unpythonic/fun.py: memoize", "unpythonic/lazyutil.py: Lazy, passthrough_lazy_args", "unpythonic/syntax/lazify.py: _lazify"]}
{"id": "C152", "title": "Memoized generators that use each other, in several threads", "statement": "When memoized generators use each other, and are used in several threads at the same time, each instance delivers the items of its sequence in order, each item is computed only once, and all the threads get their items, as long as no item is needed to compute itself.", "quantifier": "all memoized generators that use instances of each other, all sequences of calls of next in any number of threads, all interleavings of their steps", "why_tests_cant": "The interleavings of the threads, and the ways in which the generators use each other, are unbounded; a deadlock needs one particular schedule.", "anchors": ["unpythonic/gmemo.py: gmemoize, _MemoizedGenerator"]}
{"id": "C153", "title": "Currying in lazy code", "statement": "In a with lazify block, a curried function can be given its arguments in any number of calls. A function defined in the block is then called with the arguments as they were given, none of them evaluated by the currying, and arguments that are left over are passed on to the function that it returns; any other function is called with the values of its arguments, evaluated in order.", "quantifier": "all functions and what they do, all arguments (values and promises, with any effects), all ways to split them into calls", "why_tests_cant": "Whether a promise is evaluated, and when, depends on the function, on the way the arguments are split and on what the promises do; all of these are unbounded.", "anchors": ["unpythonic/fun.py: curry, partial", "unpythonic/lazyutil.py: maybe_force_args, passthrough_lazy_args, islazy", "unpythonic/dispatch.py: _get_argument_type_mismatches"]}
{"id": "C154", "title": "Tail calls in lazy code", "statement": "In a block with lazify and tco, a program does the same as if its tail calls were other calls: a function defined in the block gets the arguments of a tail call as they are, evaluated only when it uses them, and a function defined elsewhere gets their values.", "quantifier": "all programs of functions that call and tail-call each other (marked or not, with the trampoline for lazy code, the other one, or none), all arguments and promises with any effects, all lengths of chains", "why_tests_cant": "Which trampoline runs a function depends on the whole chain of calls that leads to it, and chains and promises are unbounded.", "anchors": ["unpythonic/tco.py: trampolined, jump", "unpythonic/lazyutil.py: maybe_force_args, islazy", "unpythonic/syntax/lazify.py: _lazify"]}
{"id": "C155", "title": "Calling functions through the library in lazy code", "statement": "In a with lazify block, the functions of the library that call a function given to them (call, callwith, apply, notf, andf, orf, rotate, tokth, withself) do not evaluate arguments themselves: a function defined in the block gets them as they are, any other gets their values, and andf and orf do not evaluate for functions that they do not call. What they return are values.", "quantifier": "all functions and what they do, marked or not; all arguments (values and promises, with any effects); all lists of functions", "why_tests_cant": "Which promises are evaluated, and in which order, depends on every function, its mark and what it returns; all of these are unbounded.", "anchors": ["unpythonic/fun.py: apply, notf, andf, orf, rotate, tokth, withself", "unpythonic/funutil.py: call, callwith", "unpythonic/lazyutil.py: maybe_force_args, force1, passthrough_lazy_args"]}
{"id": "C156", "title": "Pipes in lazy code", "statement": "In a with lazify block, the three kinds of pipes (pipe, piped and lazy_piped, and the same for one value) give the same result: the functions are called in turn, the first gets the initial values as they are if it is defined in the block, and their values otherwise; no initial value is evaluated that is not used. What comes out of a pipe are values, not promises.", "quantifier": "all functions and what they do, marked or not; all initial values (values and promises, with any effects); all lists of functions, given by any expressions", "why_tests_cant": "Which promises are evaluated, and when, depends on every function in the pipe and on what it returns; all of these are unbounded.", "anchors": ["unpythonic/seq.py: pipe, pipe1, piped, piped1, lazy_piped, lazy_piped1", "unpythonic/lazyutil.py: maybe_force_args, force1, force"]}
{"id": "C157", "title": "let and letrec in lazy code give each name the value of its expression, evaluated at most once and only if used", "statement": "In a `with lazify` block, an expression made of `let[]` and `letrec[]`, nested to any depth, has the value it has when each name stands for the expression it is bound to, evaluated where the name is used, in the scope of its binding. The same exceptions are raised, exceptions of right-hand sides that are not used are not raised, and evaluation comes to an end exactly if it does so that way. Each right-hand side is evaluated at most once for each time its let is evaluated. If the expression has a value outside of a lazy block, it has the same one inside.", "quantifier": "all expressions built from constants, names, operators, conditional expressions, let and letrec, nested to any depth; all operators, with any exceptions", "why_tests_cant": "Which right-hand sides are evaluated, and when, depends on the whole program; tests try a few short programs.", "anchors": ["unpythonic/syntax/lazify.py: LazifyTransformer, transform_arg", "unpythonic/lispylet.py: _let", "unpythonic/lazyutil.py: Lazy.force"]}
{"id": "C158", "title": "In lazy code, functions get their arguments by name, each evaluated at most once and only if used", "statement": "In a `with lazify` block, an expression made of lambdas, calls, `let[]` and `letrec[]`, nested to any depth, comes to what it comes to when each parameter stands for the argument of the call and each other name for the expression it is bound to, evaluated where the name is used, in the scope it was written in. The same exceptions are raised, exceptions of arguments that are not used are not raised, and evaluation comes to an end exactly if it does so that way; functions may be passed as arguments and returned. Each argument is evaluated at most once for each call. If the expression has a value outside of a lazy block, it has the same one inside.", "quantifier": "all expressions built from constants, names, operators, conditional expressions, lambdas, calls, let and letrec, nested to any depth, also recursive ones; all operators, with any exceptions", "why_tests_cant": "Which arguments are evaluated, when and in which scope depends on the whole program, and a program may call functions any number of times; tests try a few short programs.", "anchors": ["unpythonic/syntax/lazify.py: LazifyTransformer, transform_arg", "unpythonic/lazyutil.py: maybe_force_args, passthrough_lazy_args, Lazy.force", "unpythonic/lispylet.py: _let"]}
{"id": "C159", "title": "When the leaves of a lazyrec[...] literal are evaluated, and what happens when they raise", "statement": "Evaluating lazyrec[e], for a container literal e of any depth, evaluates the keys of dictionaries, in the order in which they are written, and nothing else. If the keys are constants and different, force of the result does at that time what evaluating e would do: the same leaves are evaluated, from left to right, each once, until one raises; the outcome is the same value or the same exception. Forcing the same object again, also when the first attempt raised in the middle and mutable containers were updated in part, gives the same outcome, and no leaf is evaluated again. After force has returned, a list, box or dictionary is itself what was returned.", "quantifier": "all literals made of tuples, lists, boxes, Some, ll(...) and dictionaries, of any depth and size; all effects and exceptions of the leaves; all states in which promises exist already", "why_tests_cant": "The order of effects depends on the shape of the literal and on which leaf raises; tests look at the values of a few flat literals only.", "anchors": ["unpythonic/syntax/lazify.py:_lazyrec", "unpythonic/lazyutil.py:Lazy.force", "unpythonic/lazyutil.py:force", "unpythonic/collections.py:mogrify"]}
{"id": "C160", "title": "Infix operators on mathematical sequences mean what is written", "statement": "In an expression with Python's arithmetic, bitwise and comparison operators, `divmod`, `pow`, `round`, `abs`, ... on sequences made by `s`, `imathify` or `gmathify`, with numbers and other iterables on either side, each operation is applied termwise, to the operands in the order in which they are written, at all depths; the result has math support if an operand has, and the length of the shortest sequence; the function forms (`sadd`, ..., also with the optional arguments of `spow` and `sround`) give the same for iterables without math support. Comparisons with the sequence on the right, chained comparisons, conditions and `pow` with three arguments agree with that as well.", "quantifier": "all expressions of any depth, all operators, all nested finite and endless sequences, numbers and iterables on either side, all meanings of the operators on numbers", "why_tests_cant": "There are 19 operators, each with a reflected method, and any combination of operands and nesting; tests try a few operators on a few sequences, most of them commutative or with the sequence on the left.", "anchors": ["unpythonic/mathseq.py: imathify", "unpythonic/mathseq.py: _make_termwise_stream_binop", "unpythonic/mathseq.py: _make_termwise_stream_unop", "unpythonic/mathseq.py: spow", "unpythonic/mathseq.py: sround"]}
{"id": "C161", "title": "A warning comes for exactly those jumps whose tail call was never made", "statement": "\"WARNING: unclaimed\" is printed for a `jump(...)` object, once, exactly if no trampoline has ever called its target on its behalf: so a program that only uses `return jump(...)`, in functions that are trampolined or entered by a tail call, gets no warnings and sees no jump objects (unless a target cannot be called, which is a RuntimeError as well), and a missing `return`, a missing trampoline, and a trampoline at the wrong level get one.", "quantifier": "all programs of functions with ordinary calls, exceptions and tail calls, trampolined or not, all uses of jump objects as values, all runs that end", "why_tests_cant": "Whether each jump is claimed depends on the whole history of calls, trampolines and exceptions; tests see the warning on stderr in a few cases, and cannot show that there is none elsewhere.", "anchors": ["unpythonic/tco.py: jump", "unpythonic/tco.py: _jump.__init__", "unpythonic/tco.py: _jump.__del__", "unpythonic/tco.py: trampolined"]}
{"id": "C162", "title": "What a test counts as, and what it reports", "statement": "A `test[]` passes if its value is true, fails if it is false, and is an error if it ends by an exception or an uncaught signal; `fail[]` and `error[]` count as a failed and an errored test, `warn[]` as a warning and not as a test. `test_signals` and `test_raises` pass if there was a signal or an exception of that type, fail if the code ended normally, and are errors otherwise. Each test that does not pass reports its file and line, its source code, the message of the user, and the reason: for a failed test, the captured values with their source code in the order in which they were captured, leaving out trivial ones such as `4 = 4`, or the result if there are none; for an errored test, the exception and what was expected. The text for `fail`, `error` and `warn` is the message alone. This is so whatever the values are.", "quantifier": "all values, exceptions, captured values, messages and source texts, whatever repr, str, bool and isinstance do", "why_tests_cant": "the test framework tests itself only with values that can be shown and can be conditions; which values, and how many, are captured is unbounded", "anchors": ["unpythonic/syntax/testingtools.py:unpythonic_assert", "unpythonic/syntax/testingtools.py:unpythonic_assert_signals", "unpythonic/syntax/testingtools.py:unpythonic_assert_raises"]}
{"id": "C163", "title": "The error of a failed multiple dispatch tells what was called and why nothing matched", "statement": "When no multimethod of a generic function matches the arguments of a call, or of a partial application made at once or in several steps, the TypeError raised names the function and shows every argument as it is written (with dots for those that may follow in a partial application), then lists exactly the multimethods that were tried, in the order in which they were tried; if there is just one, it also tells which parameters have arguments of a wrong type, with the argument and the type expected. The same holds for functions with @typed.", "quantifier": "all generic and typed functions, registries of multimethods, positional and named arguments, type checks", "why_tests_cant": "the text depends on all arguments and all multimethods registered; the tests only check the type of the exception raised, for a handful of functions", "anchors": ["unpythonic/dispatch.py:_raise_multiple_dispatch_error", "unpythonic/dispatch.py:_get_argument_type_mismatches", "unpythonic/dispatch.py:_resolve_multimethod", "unpythonic/fun.py:partial"]}
{"id": "C164", "title": "Simple let and letseq bind names as nested functions would", "statement": "With the macros of unpythonic.syntax.simplelet, let[[x, e], ...][body] evaluates the values from left to right, each once, where the expression stands, and then the body, where the names bound are seen besides the names of that place and hide those of the same name. letseq[[x, e], ...][body] does so one binding at a time: each value sees the names bound before it, a name may be bound again, and a letseq can be split anywhere. If no value depends on the names, both do the same. A let without bindings or with a name bound twice is a SyntaxError, and anything that is not a pair of a name and a value is refused.", "quantifier": "all lists of bindings, values, bodies and scopes, with effects and exceptions", "why_tests_cant": "the order of evaluation and the scopes must be right for any number of bindings and any expressions; the tests have a few literal bindings", "anchors": ["unpythonic/syntax/simplelet.py:let", "unpythonic/syntax/simplelet.py:letseq"]}
{"id": "C165", "title": "callsite_filename names the file of the code that calls it", "statement": "callsite_filename() returns the file of the function that calls it; also if the call goes through the helpers of the library for lazy code, curried code, autocurry, call and callwith, nested in any way.", "quantifier": "all call stacks, callers and nestings of helpers", "why_tests_cant": "the stack may have any depth and any mixture of helpers; the test calls it directly from one function", "anchors": ["unpythonic/misc.py:callsite_filename", "unpythonic/funutil.py:call", "unpythonic/funutil.py:callwith", "unpythonic/fun.py:curry", "unpythonic/lazyutil.py:maybe_force_args"]}
{"id": "C166", "title": "Uses of macros inside other macros are recognized by what the names are bound to", "statement": "Where a macro of the library looks for uses of another one in its block or expression (local and delete in do, lazy in lazify, let_syntax, abbrev, expr and block in let_syntax, the test macros in blocks that transform them), a use is recognized exactly if the name written is bound to that macro, whatever name it was imported by, or is a hygienic capture of it; with macro arguments or not, and also if it is one of several macros in a with statement.", "quantifier": "all bindings of macros, renamings by as-imports, captures, and trees", "why_tests_cant": "any import name and any shape of tree may occur; the tests have one macro with one name", "anchors": ["unpythonic/syntax/nameutil.py:is_unexpanded_expr_macro", "unpythonic/syntax/nameutil.py:is_unexpanded_block_macro", "unpythonic/syntax/testingtools.py:isunexpandedtestmacro"]}
{"id": "C167", "title": "doc in a REPL session prints where an object is defined, and its docstring", "statement": "doc(obj) never fails: it prints the file and the first line of the definition of the object if they are known, or those of its class if the object is an instance, and nothing in that place if neither is known; then the docstring of the object, formatted, or that there is none.", "quantifier": "all objects, classes and docstrings, and all outcomes of Python's search for sources", "why_tests_cant": "whether a source is found depends on the kind of object, on how it was made and on the files present; no test calls it", "anchors": ["unpythonic/net/server.py:doc", "unpythonic/net/server.py:_get_source"]}
{"id": "C168", "title": "Block macros tell the lambdas of the user from those that macros have made", "statement": "In the blocks of tco, continuations and envify, exactly the lambdas that the user has written are treated as the user's, each once, wherever they are in the block; none that was made for a line of a do expression which has been expanded already (as in multilambda), with autocurry or without.", "quantifier": "all trees, nestings of lambdas, calls and expanded do expressions, curried or not, and all names of functions in the user's code", "why_tests_cant": "any nesting may occur, and any name of a function that is called; the test has one lambda and one do expression", "anchors": ["unpythonic/syntax/util.py:detect_lambda", "unpythonic/syntax/letdoutil.py:isdo", "unpythonic/syntax/letdoutil.py:ExpandedDoView", "unpythonic/syntax/tailtools.py:_tco", "unpythonic/syntax/lambdatools.py:_envify"]}
