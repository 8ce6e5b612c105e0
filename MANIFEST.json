{
 "claims": [
  {
   "property": "C01",
   "status": "proved",
   "theorems": [
    "Unpy.Props.C01_gmemoize_replays",
    "Unpy.Props.C01_gmemoize_one_run",
    "Unpy.Props.C01_gmemoize_single_threaded",
    "Unpy.Props.C01_gmemoize_getitem",
    "Unpy.Props.C01_gmemoize_slice"
   ],
   "note": ""
  },
  {
   "property": "C02",
   "status": "partial",
   "theorems": [
    "Unpy.Props.C02_shared_instance_duplicates_refuted",
    "Unpy.Props.C02_shared_instance_skips_refuted",
    "Unpy.Props.C02_racing_first_calls_refuted",
    "Unpy.Props.C02_shared_instance_partial",
    "Unpy.Props.C02_shared_instance_serial_partial"
   ],
   "note": "C02_shared_instance_partial: C02, the part that does hold for every schedule without any exclusion: calls into the underlying generator are serialized (each of its outcomes is produced once, in order, and stored); every delivery is one of the outcomes produced by the instance's own underlying generator; and no outcome is lost: each one produced has been delivered through some instance of that run. Missing with respect to C02: exactly-once delivery per instance, refuted above. C02_shared_instance_serial_partial: C02, the part that holds: calls on one instance that do not overlap in time deliver, in order, every item exactly once (whichever threads make them). (Missing: calls that overlap, see `C02_shared_instance_duplicates_refuted` and `C02_shared_instance_skips_refuted`.) The code violates the rest: C02_shared_instance_duplicates_refuted, C02_shared_instance_skips_refuted, C02_racing_first_calls_refuted."
  },
  {
   "property": "C03",
   "status": "proved",
   "theorems": [
    "Unpy.Props.C03_memoize_evaluates_at_most_once",
    "Unpy.Props.C03_memoize_transparent",
    "Unpy.Props.C03_memoize_same_object",
    "Unpy.Props.C03_memoize_completes",
    "Unpy.Props.C03_memoize_entry_present"
   ],
   "note": ""
  },
  {
   "property": "C04",
   "status": "partial",
   "theorems": [
    "Unpy.Props.C04_rejected",
    "Unpy.Props.C04_key_iff",
    "Unpy.Props.C04_named_order_partial",
    "Unpy.Props.C04_kwargs_order_refuted"
   ],
   "note": "C04_named_order_partial: C04 (partial): in a function without `**kwargs`, the order of the named arguments does not matter to the key. (Missing: functions with `**kwargs`, see `C04_kwargs_order_refuted`.) The code violates the rest: C04_kwargs_order_refuted."
  },
  {
   "property": "C05",
   "status": "partial",
   "theorems": [
    "Unpy.Props.C05_dyn_is_dynamic_scoping_partial",
    "Unpy.Props.C05_dyn_reads_innermost_partial",
    "Unpy.Props.C05_method_names_refuted",
    "Unpy.Props.C05_dyn_restores",
    "Unpy.Props.C05_dyn_stack_balanced",
    "Unpy.Props.C05_dyn_contains_partial"
   ],
   "note": "C05_dyn_is_dynamic_scoping_partial: C05: every program of nested `with dyn.let` blocks, reads, assignments, mass updates, exceptions and try/except, of any depth, run with any defaults, reads the same values and raises in the same cases as under the textbook semantics of dynamic scoping. (Missing: names of attributes of the class of `dyn`, and `self`, see `C05_method_names_refuted`.) C05_dyn_reads_innermost_partial: C05, reading: in any state, `dyn.x` is the value in the innermost live block of this thread that binds `x`, else the default, else AttributeError. (Missing: names of attributes of the class of `dyn`, see `C05_method_names_refuted`.) C05_dyn_contains_partial: C05: `name in dyn` says whether the name is bound. (Missing: names of attributes of the class of `dyn`, see `C84_method_names_refuted`.) The code violates the rest: C05_method_names_refuted."
  },
  {
   "property": "C06",
   "status": "partial",
   "theorems": [
    "Unpy.Props.C06_dyn_isolation_partial",
    "Unpy.Props.C06_dyn_isolation_no_assign",
    "Unpy.Props.C06_dyn_inherits_at_first_use",
    "Unpy.Props.C06_dyn_child_assignment_visible_refuted",
    "Unpy.Props.C06_dyn_inherits_late_refuted"
   ],
   "note": "C06_dyn_isolation_partial: C06 (the part that holds): in every interleaving of the operations of any number of threads in which no assignment hits a scope shared with another thread, the scopes of a thread (once it has used `dyn`), hence everything it reads, depend on its own operations only. Missing: assignments to inherited or default bindings, refuted below. The code violates the rest: C06_dyn_child_assignment_visible_refuted, C06_dyn_inherits_late_refuted."
  },
  {
   "property": "C07",
   "status": "partial",
   "theorems": [
    "Unpy.Props.C07_self_refuted",
    "Unpy.Props.C07_dyn_update_nothing_partial",
    "Unpy.Props.C07_dyn_update_all_partial"
   ],
   "note": "C07_dyn_update_nothing_partial: C07: `dyn.update(**bs)` raises AttributeError, changing nothing, if one of the names is unbound. (Missing: bindings called `self`, see `C07_self_refuted`.) C07_dyn_update_all_partial: C07: otherwise it succeeds, every given name then reads as the (last) value given for it, all other names read as before, and each name was rebound in the very scope where it was bound: nothing else in any scope has changed. (Missing: bindings called `self`, see `C07_self_refuted`.) The code violates the rest: C07_self_refuted."
  },
  {
   "property": "C08",
   "status": "proved",
   "theorems": [
    "Unpy.Props.C08_raising_changes_nothing",
    "Unpy.Props.C08_finalized_names",
    "Unpy.Props.C08_finalized_rejects",
    "Unpy.Props.C08_finalized_rebinds",
    "Unpy.Props.C08_direct_write_unfinalizes_refuted"
   ],
   "note": "The refuted theorem is about writing to the internal variable _finalized, which the statement excludes."
  },
  {
   "property": "C09",
   "status": "partial",
   "theorems": [
    "Unpy.Props.C09_assignonce_step",
    "Unpy.Props.C09_assignonce_keeps_partial",
    "Unpy.Props.C09_assignonce_update_refuted"
   ],
   "note": "C09_assignonce_keeps_partial: C09 (what holds): for every history in which `x` is not the target of `set`/`<<`, of a deletion, or of `update`, a bound name `x` keeps its value. Missing: `update`, refuted below. The code violates the rest: C09_assignonce_update_refuted."
  },
  {
   "property": "C10",
   "status": "partial",
   "theorems": [
    "Unpy.Props.C10_call_one_partial",
    "Unpy.Props.C10_call_many_partial",
    "Unpy.Props.C10_call_errors",
    "Unpy.Props.C10_values_refuted",
    "Unpy.Props.C10_fupdate_partial",
    "Unpy.Props.C10_fupdate_bad_index",
    "Unpy.Props.C10_fupdate_too_few",
    "Unpy.Props.C10_fupdate_no_stopiteration",
    "Unpy.Props.C10_index_at_length_refuted",
    "Unpy.Props.C10_empty_refuted",
    "Unpy.Props.C10_slice_limits_refuted",
    "Unpy.Props.C10_shadowed_error_unnoticed"
   ],
   "note": "C10_call_one_partial: C10, calls: on a list, tuple or named tuple, `fupdate(seq, ix, v)` does the one update if it fits, with the index and the value given by position or by name, and so does `fup(seq)[ix] << v`; the result has the type of `seq`. (Missing: indices and slices that do not fit, see `C10_fupdate_partial`; memoized iterators as values are there.) C10_call_many_partial: C10, calls: with a list or tuple of indices and as many values (in any iterable), all updates are done, left to right. (Missing: as above, and fewer values than indices, see `C10_values_refuted`.) C10_fupdate_partial: C10 (what holds): for every sequence and every list of updates that fit its length, the result of `fupdate` is what assigning elementwise to a copy, left to right, gives. The replacement of a slice may be a sequence, or an iterator, with at least as many items as the slice selects; for a negative step the iterator must be a memoized one. Missing: slices with limits beyond the ends (rejected), and the refutations below. (That `seq` is not changed is built into the model: no function of collections.py or fup.py used here assigns to it.) The code violates the rest: C10_values_refuted, C10_index_at_length_refuted, C10_empty_refuted, C10_slice_limits_refuted."
  },
  {
   "property": "C11",
   "status": "partial",
   "theorems": [
    "Unpy.Props.C11_in_slice_partial",
    "Unpy.Props.C11_in_slice_int",
    "Unpy.Props.C11_in_slice_rejects",
    "Unpy.Props.C11_in_slice_without_length",
    "Unpy.Props.C11_out_of_range_refuted",
    "Unpy.Props.C11_start_at_length_refuted",
    "Unpy.Props.C11_index_at_length_refuted"
   ],
   "note": "C11_in_slice_partial: C11 (what holds): for the slices that `in_slice` accepts (`Accepted`) it is true exactly for the positions that Python's `seq[s]` selects, and `index_in_slice` gives the place of the position in `seq[s]`, or None. Missing: start or stop beyond the ends (rejected with IndexError, see `C11_in_slice_rejects`), length 0 (rejected), and `start == length` with a negative step (wrong, see the refutations). The code violates the rest: C11_out_of_range_refuted, C11_start_at_length_refuted, C11_index_at_length_refuted."
  },
  {
   "property": "C12",
   "status": "partial",
   "theorems": [
    "Unpy.Props.C12_live_partial",
    "Unpy.Props.C12_live_anchored",
    "Unpy.Props.C12_live_constant_length",
    "Unpy.Props.C12_write_exact",
    "Unpy.Props.C12_reverse",
    "Unpy.Props.C12_readonly",
    "Unpy.Props.C12_stale_refuted",
    "Unpy.Props.C12_stale_shrunk_refuted",
    "Unpy.Props.C12_step_zero"
   ],
   "note": "C12_live_partial: C12 (what holds): after any history of direct changes of the sequence (also of its length), creations of views (from the sequence or from views, by constructor or by subscripting) and uses of views, using the view in variable `v`, made through the slices `c`, gives the value and has the effect on the sequence which the specification `Spec.View.use` gives for the *current* contents — provided that at every level of nesting, the length of what is sliced determines what the slice selects. Missing: the other nestings, for which the property is false (`C12_stale_refuted`), and slices with step zero. The code violates the rest: C12_stale_refuted, C12_stale_shrunk_refuted."
  },
  {
   "property": "C13",
   "status": "partial",
   "theorems": [
    "Unpy.Props.C13_frozendict",
    "Unpy.Props.C13_frozendict_total_partial",
    "Unpy.Props.C13_one_empty",
    "Unpy.Props.C13_eq_hash",
    "Unpy.Props.C13_names_refuted"
   ],
   "note": "C13_frozendict_total_partial: C13: an argument that exists never makes the constructor fail. (Missing: bindings named `self` or `cls`, see `C13_names_refuted`.) The code violates the rest: C13_names_refuted."
  },
  {
   "property": "C14",
   "status": "proved",
   "theorems": [
    "Unpy.Props.C14_threadlocalbox",
    "Unpy.Props.C14_isolation"
   ],
   "note": ""
  },
  {
   "property": "C15",
   "status": "partial",
   "theorems": [
    "Unpy.Props.C15_islice_slice_partial",
    "Unpy.Props.C15_islice_bad_step",
    "Unpy.Props.C15_islice_index_partial",
    "Unpy.Props.C15_islice_assert_refuted",
    "Unpy.Props.C15_islice_index_refuted"
   ],
   "note": "C15_islice_slice_partial: C15 (what holds): for every finite iterable and every slice with a positive (or no) step, `islice(xs)[start:stop:step]` yields what `list(xs)[start:stop:step]` contains — except that a negative start together with a positive stop lying before the items that `start` selects raises AssertionError (instead of yielding nothing). (Missing: that case, see `C15_islice_assert_refuted`.) C15_islice_index_partial: C15: a single index within the range gives the item. (Missing: indices out of range, see `C15_islice_index_refuted`.) The code violates the rest: C15_islice_assert_refuted, C15_islice_index_refuted."
  },
  {
   "property": "C16",
   "status": "proved",
   "theorems": [
    "Unpy.Props.C16_window",
    "Unpy.Props.C16_window_prefix"
   ],
   "note": ""
  },
  {
   "property": "C17",
   "status": "proved",
   "theorems": [
    "Unpy.Props.C17_chunked",
    "Unpy.Props.C17_chunked_early"
   ],
   "note": ""
  },
  {
   "property": "C18",
   "status": "proved",
   "theorems": [
    "Unpy.Props.C18_take_drop",
    "Unpy.Props.C18_butlastn",
    "Unpy.Props.C18_butlastn_neg",
    "Unpy.Props.C18_lastn",
    "Unpy.Props.C18_reassemble",
    "Unpy.Props.C18_last_nth",
    "Unpy.Props.C18_ends"
   ],
   "note": ""
  },
  {
   "property": "C19",
   "status": "proved",
   "theorems": [
    "Unpy.Props.C19_uniqify",
    "Unpy.Props.C19_uniq",
    "Unpy.Props.C19_prefix"
   ],
   "note": ""
  },
  {
   "property": "C20",
   "status": "proved",
   "theorems": [
    "Unpy.Props.C20_powerset_distinct",
    "Unpy.Props.C20_powerset",
    "Unpy.Props.C20_powerset_length",
    "Unpy.Props.C20_powerset_prefix"
   ],
   "note": ""
  },
  {
   "property": "C21",
   "status": "partial",
   "theorems": [
    "Unpy.Props.C21_flatten",
    "Unpy.Props.C21_flatten_atoms",
    "Unpy.Props.C21_flatten_in_partial",
    "Unpy.Props.C21_flatten1",
    "Unpy.Props.C21_nopred_partial",
    "Unpy.Props.C21_nopred_refuted",
    "Unpy.Props.C21_named_refuted",
    "Unpy.Props.C21_named_plain"
   ],
   "note": "C21_flatten_in_partial: C21: `flatten_in` yields the same items as `flatten`, except that the lists/tuples passed through have had `flatten_in` applied inside them. (Missing: named tuples among those passed through, see `C21_named_refuted`.) C21_nopred_partial: C21: `flatten1(xs)` without a predicate, on a list of lists and tuples, is `flatten1` with the predicate that accepts everything. (Missing: items which are neither lists nor tuples, where it is refuted.) The code violates the rest: C21_nopred_refuted, C21_named_refuted."
  },
  {
   "property": "C22",
   "status": "proved",
   "theorems": [
    "Unpy.Props.C22_partition"
   ],
   "note": ""
  },
  {
   "property": "C23",
   "status": "proved",
   "theorems": [
    "Unpy.Props.C23_inn"
   ],
   "note": ""
  },
  {
   "property": "C24",
   "status": "proved",
   "theorems": [
    "Unpy.Props.C24_interleave",
    "Unpy.Props.C24_interleave_no_inputs"
   ],
   "note": ""
  },
  {
   "property": "C25",
   "status": "proved",
   "theorems": [
    "Unpy.Props.C25_unpack"
   ],
   "note": ""
  },
  {
   "property": "C26",
   "status": "proved",
   "theorems": [
    "Unpy.Props.C26_rows",
    "Unpy.Props.C26_scanl",
    "Unpy.Props.C26_scanr",
    "Unpy.Props.C26_rscanl",
    "Unpy.Props.C26_folds",
    "Unpy.Props.C26_foldr_total",
    "Unpy.Props.C26_agree",
    "Unpy.Props.C26_single",
    "Unpy.Props.C26_scanl_prefix",
    "Unpy.Props.C26_prod"
   ],
   "note": ""
  },
  {
   "property": "C27",
   "status": "proved",
   "theorems": [
    "Unpy.Props.C27_unfold1",
    "Unpy.Props.C27_unfold"
   ],
   "note": ""
  },
  {
   "property": "C28",
   "status": "proved",
   "theorems": [
    "Unpy.Props.C28_running",
    "Unpy.Props.C28_minmax",
    "Unpy.Props.C28_minmax_int"
   ],
   "note": ""
  },
  {
   "property": "C29",
   "status": "proved",
   "theorems": [
    "Unpy.Props.C29_build",
    "Unpy.Props.C29_iter",
    "Unpy.Props.C29_copy",
    "Unpy.Props.C29_tails",
    "Unpy.Props.C29_iter_improper",
    "Unpy.Props.C29_lreverse",
    "Unpy.Props.C29_reversed",
    "Unpy.Props.C29_llist_of_iterator_refuted",
    "Unpy.Props.C29_lappend",
    "Unpy.Props.C29_lzip",
    "Unpy.Props.C29_lzip_nothing",
    "Unpy.Props.C29_member",
    "Unpy.Props.C29_accessors"
   ],
   "note": "The refuted theorem is about llist of a partially consumed reverse iterator, which the statement does not cover."
  },
  {
   "property": "C30",
   "status": "proved",
   "theorems": [
    "Unpy.Props.C30_eq",
    "Unpy.Props.C30_refl",
    "Unpy.Props.C30_hash"
   ],
   "note": ""
  },
  {
   "property": "C31",
   "status": "partial",
   "theorems": [
    "Unpy.Props.C31_order_refuted",
    "Unpy.Props.C31_leaves",
    "Unpy.Props.C31_order_partial",
    "Unpy.Props.C31_jack_list"
   ],
   "note": "C31_order_partial: C31 (partial): the walk is depth-first left to right for every tree in which no leaf follows a subtree within one cell. Missing: the other trees, for which it is false (`C31_order_refuted`). The code violates the rest: C31_order_refuted."
  },
  {
   "property": "C32",
   "status": "partial",
   "theorems": [
    "Unpy.Props.C32_composel_partial",
    "Unpy.Props.C32_composer_partial",
    "Unpy.Props.C32_compose1_partial",
    "Unpy.Props.C32_assoc",
    "Unpy.Props.C32_edges_refuted",
    "Unpy.Props.C32_named_f_refuted"
   ],
   "note": "C32_composel_partial: C32: `composel(f, ...)(*args)` calls `f` with the arguments and threads its result through the rest of the functions from left to right. (Missing: no functions, or a single one that is builtin, see `C32_edges_refuted`; and a named argument or named return value called `f`, see `C32_named_f_refuted`.) C32_composer_partial: C32: `composer(..., f)(*args)` calls the last function with the arguments and threads its result through the rest of the functions from right to left. (Missing: no functions, or a single one that is builtin, see `C32_edges_refuted`; and a named argument or named return value called `f`, see `C32_named_f_refuted`.) C32_compose1_partial: C32: the one-argument variants. (Missing: no functions, or a single one that is builtin, see `C32_edges_refuted`.) The code violates the rest: C32_edges_refuted, C32_named_f_refuted."
  },
  {
   "property": "C33",
   "status": "partial",
   "theorems": [
    "Unpy.Props.C33_split_partial",
    "Unpy.Props.C33_passthrough_partial",
    "Unpy.Props.C33_curry_partial",
    "Unpy.Props.C33_names_refuted",
    "Unpy.Props.C33_toplevel_refuted",
    "Unpy.Props.C33_early_kwarg_refuted",
    "Unpy.Props.C33_kwonly_refuted",
    "Unpy.Props.C33_decorated_whole",
    "Unpy.Props.C33_decorated_partial",
    "Unpy.Props.C33_decorated_more_partial",
    "Unpy.Props.C33_decorated_refuted"
   ],
   "note": "C33_split_partial: C33: however the arguments of a call that Python accepts are split over calls of the curried function (positional and named ones, also empty calls), as long as no earlier call completes the parameters, the function is called exactly once, when the last part arrives, with all the arguments. (Missing: a positional-only parameter's name used for a `**kwargs` item, see `C34_posonly_refuted`, and named arguments `f` and `func`, see `C33_names_refuted`.) C33_passthrough_partial: C33: arguments that do not fit are passed on: the function is called without them, and what follows is as the documentation says (`Spec.Curry.passOn`). (Missing: positional overflow in functions with keyword-only parameters or `**kwargs`, and rejected arguments that came in an earlier step; named arguments and results called `f`, and ones to be passed on called `self`; see the `_refuted` theorems.) C33_curry_partial: C33: currying again changes nothing, an object that is not callable is returned as it is, and giving arguments to `curry` itself is the same as giving them to the curried function. (Missing: a named argument `f`, see `C33_names_refuted`.) C33_decorated_partial: C33. However the arguments are split over calls, a curried function does what the direct call does; also if it is made from a decorated function, or from one that is curried already. Partial: not for a function that another decorator has made from a curried one. (Missing: these, see `C33_decorated_refuted`.) C33_decorated_more_partial: C33. One call too many is a TypeError, as for the direct call, where the value is not callable. Partial, and (Missing:) as in `C33_decorated_partial`. The code violates the rest: C33_names_refuted, C33_toplevel_refuted, C33_early_kwarg_refuted, C33_kwonly_refuted, C33_decorated_refuted."
  },
  {
   "property": "C34",
   "status": "partial",
   "theorems": [
    "Unpy.Props.C34_accepted_partial",
    "Unpy.Props.C34_nothing_reported",
    "Unpy.Props.C34_reported_partial",
    "Unpy.Props.C34_overflow_refuted",
    "Unpy.Props.C34_posonly_refuted"
   ],
   "note": "C34_accepted_partial: C34: for a call that Python accepts, the binder reports nothing missing and nothing extra, and gives each parameter what Python gives it. (Missing from the full claim: a name of a positional-only parameter passed by name, see `C34_posonly_refuted`.) C34_reported_partial: C34: what is reported for any call, accepted or not: exactly the required parameters without an argument, exactly the arguments that Python rejects; a parameter given twice is a TypeError. (Missing from the full claim: positional overflow in functions with keyword-only parameters or `**kwargs` but no `*args`, see `C34_overflow_refuted`.) The code violates the rest: C34_overflow_refuted, C34_posonly_refuted."
  },
  {
   "property": "C35",
   "status": "partial",
   "theorems": [
    "Unpy.Props.C35_flip_partial",
    "Unpy.Props.C35_rotate_partial",
    "Unpy.Props.C35_rotate_inverse_partial",
    "Unpy.Props.C35_tokth_partial",
    "Unpy.Props.C35_tokth_refuted",
    "Unpy.Props.C35_named_partial",
    "Unpy.Props.C35_to_partial",
    "Unpy.Props.C35_named_f_refuted",
    "Unpy.Props.C35_named_self_refuted"
   ],
   "note": "C35_flip_partial: C35: `flip(f)` calls `f` with the positional arguments in reverse order; flipping twice is no change. (Missing: a named argument called `f`, see `C35_named_f_refuted`.) C35_rotate_partial: C35: `rotate(k)(f)` calls `f` with the positional arguments cyclically shifted: slot `i` receives argument `(i + k) mod n`; no arguments is a TypeError and `|k| ≥ n` an IndexError. (Missing: a named argument called `f`, see `C35_named_f_refuted`.) C35_rotate_inverse_partial: C35: `rotate(-k)` undoes `rotate(k)`. (Missing: a named argument called `f`, see `C35_named_f_refuted`.) C35_tokth_partial: C35 (partial): `tokth(k, f)` calls `f` once with the `k`-th positional argument (negative `k` counts from the end), replaces that argument by the result and passes everything else through; no arguments is a TypeError, and an index out of range an IndexError. (Missing: `k = -n`, see `C35_tokth_refuted`, and a named argument called `self`, see `C35_named_self_refuted`.) C35_named_partial: C35: `to1st`, `to2nd` and `tolast` address the first, second and last of at least two arguments. (Missing: `tolast` of one argument, see `C35_tokth_refuted`, and a named argument called `self`, see `C35_named_self_refuted`.) C35_to_partial: C35: `to((k1, f1), ...)` applies the specifications one after the other. (Missing: a named argument called `f`, see `C35_named_f_refuted`.) The code violates the rest: C35_tokth_refuted, C35_named_f_refuted, C35_named_self_refuted."
  },
  {
   "property": "C36",
   "status": "partial",
   "theorems": [
    "Unpy.Props.C36_andf_true_partial",
    "Unpy.Props.C36_andf_stop_partial",
    "Unpy.Props.C36_orf_false_partial",
    "Unpy.Props.C36_orf_stop_partial",
    "Unpy.Props.C36_exhaustive",
    "Unpy.Props.C36_notf_partial",
    "Unpy.Props.C36_named_f_refuted"
   ],
   "note": "C36_andf_true_partial: C36: `andf` when all functions return something truthy: each is called once, in order, and the last value is returned (`True` if there are no functions). (Missing: a named argument called `f`, see `C36_named_f_refuted`.) C36_andf_stop_partial: C36: `andf` stops at the first function that returns something falsy, and returns `False`; no later function is called. If a function raises, that exception propagates and no later function is called. (Missing: a named argument called `f`, see `C36_named_f_refuted`.) C36_orf_false_partial: C36: `orf` when all functions return something falsy: each is called once, in order, and the result is `False`. (Missing: a named argument called `f`, see `C36_named_f_refuted`.) C36_orf_stop_partial: C36: `orf` stops at the first function that returns something truthy, and returns that; no later function is called. If a function raises, that exception propagates and no later function is called. (Missing: a named argument called `f`, see `C36_named_f_refuted`.) C36_notf_partial: C36: `notf(f)` calls `f` once and returns the opposite truth value as `True`/`False`. (Missing: a named argument called `f`, see `C36_named_f_refuted`.) The code violates the rest: C36_named_f_refuted."
  },
  {
   "property": "C37",
   "status": "proved",
   "theorems": [
    "Unpy.Props.C37_pipe_partial",
    "Unpy.Props.C37_named_f_refuted",
    "Unpy.Props.C37_piped",
    "Unpy.Props.C37_lazy_piped",
    "Unpy.Props.C37_lazy_build",
    "Unpy.Props.C37_pipe1"
   ],
   "note": "The statement (the pipes give the same result; a lazy pipe runs nothing until exit) is proved without restriction. C37_pipe_partial says in addition which result, for values with no one named f; C37_named_f_refuted says what all pipes do with a value named f."
  },
  {
   "property": "C38",
   "status": "partial",
   "theorems": [
    "Unpy.Props.C38_trampolined_partial",
    "Unpy.Props.C38_outcome_unique",
    "Unpy.Props.C38_trampolined_value_partial",
    "Unpy.Props.C38_jump_enters",
    "Unpy.Props.C38_wraps_refuted"
   ],
   "note": "C38_trampolined_partial: C38. Calling a trampolined function (from stack depth `d`) finishes with a result, exception and world if and only if the program in which each `return jump(g, ...)` reads `return g(...)` does, for any number of jumps; and every function in the chain of tail calls, however long, runs at the same stack depth `d + 2` (the caller, the trampoline, the function). Partial: no jump goes to a function made from a trampolined one by another decorator that uses `functools.wraps`. (Missing: such jumps, see `C38_wraps_refuted`.) C38_trampolined_value_partial: C38. `trampolined` applied to a value that is not callable (what `call_ec` leaves in place of a function) gives that value back; if the value is a jump, the jump is performed, and it is an error if the target is not callable. Partial: no jump goes to a function made from a trampolined one by another decorator that uses `functools.wraps`. (Missing: such jumps, see `C38_wraps_refuted`.) The code violates the rest: C38_wraps_refuted."
  },
  {
   "property": "C39",
   "status": "proved",
   "theorems": [
    "Unpy.Props.C39_looped_over",
    "Unpy.Props.C39_reduce",
    "Unpy.Props.C39_outcome_unique",
    "Unpy.Props.C39_one_item_per_call",
    "Unpy.Props.C39_final_acc_refuted",
    "Unpy.Props.C39_looped"
   ],
   "note": "The refuted theorem is about a sentence of the docstring (the value is always the final accumulator), not about the statement."
  },
  {
   "property": "C40",
   "status": "partial",
   "theorems": [
    "Unpy.Props.C40_prefix",
    "Unpy.Props.C40_chain_partial",
    "Unpy.Props.C40_deterministic",
    "Unpy.Props.C40_typeerror_refuted",
    "Unpy.Props.C40_decorated",
    "Unpy.Props.C40_pieces_refuted"
   ],
   "note": "C40_chain_partial: C40 (part). A chain that ends gives exactly the chain's items and its end, and this is all it can give. What is missing: a TypeError raised by the iterable that ends the chain (see `C40_typeerror_refuted`). The code violates the rest: C40_typeerror_refuted, C40_pieces_refuted."
  },
  {
   "property": "C41",
   "status": "partial",
   "theorems": [
    "Unpy.Props.C41_table",
    "Unpy.Props.C41_throw",
    "Unpy.Props.C41_throw_uncaught",
    "Unpy.Props.C41_no_throw",
    "Unpy.Props.C41_tags_partial",
    "Unpy.Props.C41_tags_no_throw",
    "Unpy.Props.C41_unhashable_refuted"
   ],
   "note": "C41_tags_partial: C41: as long as all tags have a hash value, what a catch point catches is what the table of the documentation says; everything else passes. (Missing: tags without hash value, see `C41_unhashable_refuted`.) The code violates the rest: C41_unhashable_refuted."
  },
  {
   "property": "C42",
   "status": "proved",
   "theorems": [
    "Unpy.Props.C42_ec_escapes",
    "Unpy.Props.C42_ec_expired",
    "Unpy.Props.C42_call_ec"
   ],
   "note": ""
  },
  {
   "property": "C43",
   "status": "partial",
   "theorems": [
    "Unpy.Props.C43_signal_partial",
    "Unpy.Props.C43_nested_handlers_refuted",
    "Unpy.Props.C43_signal_order",
    "Unpy.Props.C43_error",
    "Unpy.Props.C43_cerror",
    "Unpy.Props.C43_cerror_proceed",
    "Unpy.Props.C43_warn",
    "Unpy.Props.C43_warn_muffle"
   ],
   "note": "C43_signal_partial: C43: the outcomes of `signal(c)` (and what follows it): either the matching handlers, innermost block first and in order within a block, all return, and what follows runs; or one of them, after those before it have returned, transfers control or raises, and that is the outcome. Partial: handlers that decline are supposed not to have entered `with handlers` blocks (see `C43_nested_handlers_refuted`). The code violates the rest: C43_nested_handlers_refuted."
  },
  {
   "property": "C44",
   "status": "partial",
   "theorems": [
    "Unpy.Props.C44_invoke_partial",
    "Unpy.Props.C44_invoke_bound_partial",
    "Unpy.Props.C44_find_restart",
    "Unpy.Props.C44_unknown_partial",
    "Unpy.Props.C44_invoke_no_return",
    "Unpy.Props.C44_names_refuted",
    "Unpy.Props.C44_restored",
    "Unpy.Props.C44_own_restart_refuted",
    "Unpy.Props.C44_stale_refuted",
    "Unpy.Props.C44_invoker_partial"
   ],
   "note": "The refuted theorems show what happens outside the statement: restart functions invoking their own block, and stale restart objects."
  },
  {
   "property": "C45",
   "status": "partial",
   "theorems": [
    "Unpy.Props.C45_register",
    "Unpy.Props.C45_append_only",
    "Unpy.Props.C45_typed_closed",
    "Unpy.Props.C45_typed_closes",
    "Unpy.Props.C45_typed_refuted",
    "Unpy.Props.C45_function",
    "Unpy.Props.C45_runs_match",
    "Unpy.Props.C45_method_partial",
    "Unpy.Props.C45_diamond_refuted",
    "Unpy.Props.C45_falsy_refuted",
    "Unpy.Props.C45_super_refuted",
    "Unpy.Props.C45_varargs_refuted",
    "Unpy.Props.C45_default_refuted"
   ],
   "note": "C45_method_partial: A call of a method runs the first multimethod that accepts the arguments, in the documented order: class by class along the MRO of the object's class, most recent first within a class; if there is none, it raises TypeError. `hcons` holds for single inheritance. Missing for the full C45: multiple inheritance where a class of the MRO inherits the method from a class that comes later than another one that defines it (`C45_diamond_refuted`), objects that are false (`C45_falsy_refuted`), and calls through `super()` (`C45_super_refuted`). The code violates the rest: C45_typed_refuted, C45_diamond_refuted, C45_falsy_refuted, C45_super_refuted, C45_varargs_refuted, C45_default_refuted."
  },
  {
   "property": "C46",
   "status": "partial",
   "theorems": [
    "Unpy.Props.C46_sound_partial",
    "Unpy.Props.C46_answers",
    "Unpy.Props.C46_isinstance",
    "Unpy.Props.C46_union_perm",
    "Unpy.Props.C46_str_subclass_refuted",
    "Unpy.Props.C46_tuple_subclass_refuted",
    "Unpy.Props.C46_dict_subclass_refuted",
    "Unpy.Props.C46_empty_builtin_refuted",
    "Unpy.Props.C46_callable_class_refuted",
    "Unpy.Props.C46_sequence_class_refuted",
    "Unpy.Props.C46_bound_refuted",
    "Unpy.Props.C46_empty_tuple_type_refuted",
    "Unpy.Props.C46_newtype_refuted",
    "Unpy.Props.C46_newtype_empty_refuted"
   ],
   "note": "C46_sound_partial: Whenever `isoftype` answers for a type specification built, to any depth, from the covered forms, the answer is True exactly when the value belongs to the set that the specification denotes. Missing for the full C46: subclasses of the classes that `isoftype` treats specially, bounds of type variables and `Tuple[()]`, for which the answers are wrong (see the refutations below). The code violates the rest: C46_str_subclass_refuted, C46_tuple_subclass_refuted, C46_dict_subclass_refuted, C46_empty_builtin_refuted, C46_callable_class_refuted, C46_sequence_class_refuted, C46_bound_refuted, C46_empty_tuple_type_refuted, C46_newtype_refuted, C46_newtype_empty_refuted."
  },
  {
   "property": "C47",
   "status": "partial",
   "theorems": [
    "Unpy.Props.C47_forall_partial",
    "Unpy.Props.C47_forall_pure_partial",
    "Unpy.Props.C47_insist_refuted",
    "Unpy.Props.C47_typeerror_refuted",
    "Unpy.Props.C47_shadowing_refuted",
    "Unpy.Props.C47_nil_refuted"
   ],
   "note": "C47_forall_partial: C47: `forall(*lines)`: if it returns, then the nested loops return the same items in the same order; what it raises was raised by one of the lines. Partial: for lines without effects other than returning or raising, none of which raises TypeError (`C47_typeerror_refuted`) or produces the single item `nil` (`C47_nil_refuted`); the names are distinct (`C47_shadowing_refuted`). That the nested loops return does not imply that `forall` does (`C47_insist_refuted`), unless no line raises (`C47_forall_pure_partial`). C47_forall_pure_partial: C47: if the lines do not raise, `forall` returns exactly what the nested loops return. (Missing: names bound twice, see `C47_shadowing_refuted`, items `nil`, see `C47_nil_refuted`, and lines that raise, see `C47_typeerror_refuted` and `C47_insist_refuted`.) The code violates the rest: C47_insist_refuted, C47_typeerror_refuted, C47_shadowing_refuted, C47_nil_refuted."
  },
  {
   "property": "C48",
   "status": "partial",
   "theorems": [
    "Unpy.Props.C48_left_identity_partial",
    "Unpy.Props.C48_right_identity_partial",
    "Unpy.Props.C48_nil_refuted",
    "Unpy.Props.C48_associativity",
    "Unpy.Props.C48_typeerror_refuted",
    "Unpy.Props.C48_bind_raises",
    "Unpy.Props.C48_fmap_id",
    "Unpy.Props.C48_fmap_comp_partial",
    "Unpy.Props.C48_lift_partial",
    "Unpy.Props.C48_join",
    "Unpy.Props.C48_join_join",
    "Unpy.Props.C48_guard_then",
    "Unpy.Props.C48_then",
    "Unpy.Props.C48_add_copy",
    "Unpy.Props.C48_eq_partial",
    "Unpy.Props.C48_eq_plain",
    "Unpy.Props.C48_eq_refuted"
   ],
   "note": "C48_left_identity_partial: C48: left identity: `MonadicList(x) >> f` is `f(x)`; for `x` other than `nil`, and a call `f(x)` that returns a `MonadicList`. (Missing: `nil`, see `C48_nil_refuted`, and calls that raise TypeError, see `C48_typeerror_refuted`.) C48_right_identity_partial: C48: right identity: `m >> MonadicList` is `m`, if `nil` is not an item of `m`. (Missing: `nil` as an item, see `C48_nil_refuted`.) C48_fmap_comp_partial: C48: `fmap` with a composition; for a function that does not return `nil`. (Missing: functions that return `nil`, see `C48_nil_refuted`.) C48_lift_partial: C48: binding to a lifted function is mapping the function: `m >> MonadicList.lift(f)` is `m.fmap(f)`, also as to effects and exceptions; for a function that does not return `nil`. (Missing: functions that return `nil`, see `C48_nil_refuted`.) C48_eq_partial: C48: whenever comparing two monadic lists, or one with a tuple, gives an answer, it is whether the items are equal, one by one, where monadic lists among them count as tuples. (Missing: items for which the comparison raises TypeError, see `C48_eq_refuted`.) The code violates the rest: C48_nil_refuted, C48_typeerror_refuted, C48_eq_refuted."
  },
  {
   "property": "C49",
   "status": "proved",
   "theorems": [
    "Unpy.Props.C49_unique",
    "Unpy.Props.C49_returns",
    "Unpy.Props.C49_stable",
    "Unpy.Props.C49_found",
    "Unpy.Props.C49_keyerror_refuted"
   ],
   "note": "The refuted theorem shows that sym(name) can raise KeyError in a race with garbage collection; uniqueness holds regardless."
  },
  {
   "property": "C50",
   "status": "proved",
   "theorems": [
    "Unpy.Props.C50_unique",
    "Unpy.Props.C50_construct_again",
    "Unpy.Props.C50_construct_check",
    "Unpy.Props.C50_construct_outcome",
    "Unpy.Props.C50_construct_n",
    "Unpy.Props.C50_unpickle",
    "Unpy.Props.C50_keyerror_refuted"
   ],
   "note": "The refuted theorem shows that unpickling can raise KeyError in a race with garbage collection, when the live instance dies meanwhile; uniqueness holds regardless."
  },
  {
   "property": "C51",
   "status": "partial",
   "theorems": [
    "Unpy.Props.C51_round_trip_partial",
    "Unpy.Props.C51_raw_partial",
    "Unpy.Props.C51_large_message_refuted",
    "Unpy.Props.C51_split_header_refuted",
    "Unpy.Props.C51_socket_partial"
   ],
   "note": "C51_round_trip_partial: C51: decoding a stream of encoded messages gives back exactly the bodies, in order, and then `None`, however the stream is split into chunks, and with junk before, between and after the messages, as long as it does not hold the start of a message. Missing: a chunk and a header (6 bytes and the length of the body in decimal) may together have at most 4096 bytes. C51_raw_partial: C51: after some messages one may go on with raw data of any form, even if it looks like a message: the data in the buffer, followed by what is read from the source from then on, is exactly what was sent after the messages, however the stream is split into chunks. Missing: as in `C51_round_trip_partial`. C51_socket_partial: C51: over a socket, whatever the network does to the stream. Missing: as in `C51_round_trip_partial`. The code violates the rest: C51_large_message_refuted, C51_split_header_refuted."
  },
  {
   "property": "C52",
   "status": "partial",
   "theorems": [
    "Unpy.Props.C52_ends",
    "Unpy.Props.C52_survives_partial",
    "Unpy.Props.C52_bad_length_refuted"
   ],
   "note": "C52_survives_partial: C52: on every stream in which a readable length and a `;` follow within `d` bytes wherever five bytes look like the start of a message (unless the stream ends there), repeated decoding gives some bodies and finally `None`, and never raises. Missing: malformed lengths, and chunks so large that together with a header they exceed 4096 bytes. The code violates the rest: C52_bad_length_refuted."
  },
  {
   "property": "C53",
   "status": "proved",
   "theorems": [
    "Unpy.Props.C53_custom",
    "Unpy.Props.C53_custom_invalid",
    "Unpy.Props.C53_partition_int",
    "Unpy.Props.C53_triangular",
    "Unpy.Props.C53_limits"
   ],
   "note": ""
  },
  {
   "property": "C54",
   "status": "proved",
   "theorems": [
    "Unpy.Props.C54_diagonal_reduce",
    "Unpy.Props.C54_has_term",
    "Unpy.Props.C54_cauchyprod",
    "Unpy.Props.C54_length",
    "Unpy.Props.C54_length_infinite"
   ],
   "note": ""
  },
  {
   "property": "C55",
   "status": "proved",
   "theorems": [
    "Unpy.Props.C55_fibonacci",
    "Unpy.Props.C55_triangular",
    "Unpy.Props.C55_primes_speed",
    "Unpy.Props.C55_primes_memory",
    "Unpy.Props.C55_primes_infinite"
   ],
   "note": ""
  },
  {
   "property": "C56",
   "status": "partial",
   "theorems": [
    "Unpy.Props.C56_enumeration",
    "Unpy.Props.C56_cyclic",
    "Unpy.Props.C56_syntax",
    "Unpy.Props.C56_const",
    "Unpy.Props.C56_arith",
    "Unpy.Props.C56_geom",
    "Unpy.Props.C56_given_terms_partial",
    "Unpy.Props.C56_given_power_refuted",
    "Unpy.Props.C56_given_tolerance_refuted",
    "Unpy.Props.C56_arith_final",
    "Unpy.Props.C56_arith_final_rejected",
    "Unpy.Props.C56_geom_final_partial",
    "Unpy.Props.C56_geom_final_rejected",
    "Unpy.Props.C56_final_first_refuted",
    "Unpy.Props.C56_final_truncates_refuted",
    "Unpy.Props.C56_final_tolerance_refuted",
    "Unpy.Props.C56_errors_refuted",
    "Unpy.Props.C56_errors_partial",
    "Unpy.Props.C56_unrecognized_partial"
   ],
   "note": "C56_given_terms_partial: C56: whatever is given: if `s` accepts it, the sequence begins with the given terms, unless it is taken as a power sequence. (For exact comparison. Missing: power sequences, for which see `C56_given_power_refuted`.) C56_geom_final_partial: C56: a geometric sequence ends exactly at the given final element, provided that `log` and `**` are exact on the powers of its ratio. (Missing: that proviso does not hold for all floats.) C56_errors_partial: C56: terms none of which is 0, and none of which but the first is 1 or -1, either specify a sequence or are a `SyntaxError`. (Missing: 0 and 1, for which see `C56_errors_refuted`.) C56_unrecognized_partial: C56: three terms that are neither arithmetic nor geometric are a `SyntaxError`, if they are no power sequence either: that is so if the first is 1 or -1, the second or third is 0, or the logarithms differ. (For exact comparison. Missing: the logarithms are those of floats.) The code violates the rest: C56_given_power_refuted, C56_given_tolerance_refuted, C56_final_first_refuted, C56_final_truncates_refuted, C56_final_tolerance_refuted, C56_errors_refuted."
  },
  {
   "property": "C57",
   "status": "proved",
   "theorems": [
    "Unpy.Props.C57_binop",
    "Unpy.Props.C57_unop",
    "Unpy.Props.C57_length"
   ],
   "note": ""
  },
  {
   "property": "C58",
   "status": "partial",
   "theorems": [
    "Unpy.Props.C58_tryf_partial",
    "Unpy.Props.C58_deterministic",
    "Unpy.Props.C58_uncaught_refuted",
    "Unpy.Props.C58_invalid",
    "Unpy.Props.C58_finally"
   ],
   "note": "C58_tryf_partial: C58: `tryf` does what the corresponding `try` statement does, unless the body raises an exception that no handler matches. (Missing: in that case it should propagate; see `C58_uncaught_refuted`.) The code violates the rest: C58_uncaught_refuted."
  },
  {
   "property": "C59",
   "status": "partial",
   "theorems": [
    "Unpy.Props.C59_first_match",
    "Unpy.Props.C59_unmatched",
    "Unpy.Props.C59_block_partial",
    "Unpy.Props.C59_block_stopiteration_refuted",
    "Unpy.Props.C59_always_raises"
   ],
   "note": "C59_block_partial: C59: the block form `with reraise(mapping)` does the same as `reraise_in`, unless a `StopIteration` is involved: raised by the body, or raised instead of what the body raised. (Missing: see `C59_block_stopiteration_refuted`.) The code violates the rest: C59_block_stopiteration_refuted."
  },
  {
   "property": "C60",
   "status": "partial",
   "theorems": [
    "Unpy.Props.C60_ordinary",
    "Unpy.Props.C60_sound",
    "Unpy.Props.C60_terminates",
    "Unpy.Props.C60_bottom_exact_partial",
    "Unpy.Props.C60_memo_history_refuted",
    "Unpy.Props.C60_no_trace"
   ],
   "note": "C60_bottom_exact_partial: Without `memo`, a call gives bottom exactly when the same call is already active, and otherwise runs the body: the result is that of recursion with an explicit call stack, after any history. (Missing: `memo`, see `C60_memo_history_refuted`.) The code violates the rest: C60_memo_history_refuted."
  },
  {
   "property": "C61",
   "status": "partial",
   "theorems": [
    "Unpy.Props.C61_letrec_partial",
    "Unpy.Props.C61_let_partial",
    "Unpy.Props.C61_later_reference_partial",
    "Unpy.Props.C61_earlier_reference",
    "Unpy.Props.C61_names_fixed",
    "Unpy.Props.C61_lispy_agrees_partial",
    "Unpy.Props.C61_internal_names_refuted",
    "Unpy.Props.C61_method_names_refuted",
    "Unpy.Props.C61_parameter_names_refuted",
    "Unpy.Props.C61_duplicate",
    "Unpy.Props.C61_arity",
    "Unpy.Props.C61_dlet",
    "Unpy.Props.C61_dlet_counter"
   ],
   "note": "C61_letrec_partial: C61, `letrec`. Each right-hand side is evaluated once, in order, against exactly the bindings before it. If one raises, that is what `letrec` raises (and the body does not run); otherwise the body runs in a finalized environment that has exactly these bindings. (Missing: bindings called `body` or `mode`, see `C61_parameter_names_refuted`.) C61_let_partial: C61, `let`. No right-hand side is called; the body runs in a finalized environment that has exactly the given values. (Missing: bindings called `body` or `mode`, see `C61_parameter_names_refuted`.) C61_later_reference_partial: In `letrec`, a right-hand side that refers to itself or to a later name raises AttributeError. (Missing: bindings called `body` or `mode`, see `C61_parameter_names_refuted`.) C61_lispy_agrees_partial: `lispylet` does what `let` does, for all bindings and bodies, with any side effects on the environment. (Missing: bindings called `body` or `mode`, see `C61_parameter_names_refuted`.) The code violates the rest: C61_internal_names_refuted, C61_method_names_refuted, C61_parameter_names_refuted."
  },
  {
   "property": "C62",
   "status": "partial",
   "theorems": [
    "Unpy.Props.C62_lazy_once_partial",
    "Unpy.Props.C62_lazy_single_threaded_partial",
    "Unpy.Props.C62_lazy_race_runs_twice_refuted",
    "Unpy.Props.C62_lazy_race_returns_exception_refuted",
    "Unpy.Props.C62_lazy_base_exception_not_cached"
   ],
   "note": "C62_lazy_once_partial: C62: under every schedule in which the first `force` runs alone (any further forces may overlap each other), the thunk runs at most once, and every completed force, by any thread, gives the outcome of that one run: the same value returned, or the same exception instance raised. (`hb`: the thunk does not raise a `BaseException` outside `Exception`, see below.) Missing: schedules in which other threads force the promise during its evaluation, refuted below. C62_lazy_single_threaded_partial: C62 in a single-threaded program: any number of forces one after the other meets the condition. (Missing: several threads, see `C62_lazy_race_runs_twice_refuted`.) The code violates the rest: C62_lazy_race_runs_twice_refuted, C62_lazy_race_returns_exception_refuted."
  },
  {
   "property": "C63",
   "status": "proved",
   "theorems": [
    "Unpy.Props.C63_decomposition",
    "Unpy.Props.C63_unique",
    "Unpy.Props.C63_format",
    "Unpy.Props.C63_format_negative_refuted"
   ],
   "note": "The refuted theorem is about format_human_time of negative times, not about seconds_to_human."
  },
  {
   "property": "C64",
   "status": "proved",
   "theorems": [
    "Unpy.Props.C64_exactly_once",
    "Unpy.Props.C64_order",
    "Unpy.Props.C64_left",
    "Unpy.Props.C64_loop",
    "Unpy.Props.C64_plain_loop"
   ],
   "note": ""
  },
  {
   "property": "C65",
   "status": "proved",
   "theorems": [
    "Unpy.Props.C65_index",
    "Unpy.Props.C65_access",
    "Unpy.Props.C65_iter",
    "Unpy.Props.C65_eq",
    "Unpy.Props.C65_valuify"
   ],
   "note": ""
  },
  {
   "property": "C66",
   "status": "proved",
   "theorems": [
    "Unpy.Props.C66_returns",
    "Unpy.Props.C66_fixed_point",
    "Unpy.Props.C66_converges",
    "Unpy.Props.C66_raises"
   ],
   "note": ""
  },
  {
   "property": "C67",
   "status": "proved",
   "theorems": [
    "Unpy.Props.C67_rmap",
    "Unpy.Props.C67_mapr",
    "Unpy.Props.C67_agree",
    "Unpy.Props.C67_map_longest"
   ],
   "note": ""
  },
  {
   "property": "C68",
   "status": "partial",
   "theorems": [
    "Unpy.Props.C68_pad",
    "Unpy.Props.C68_flatmap",
    "Unpy.Props.C68_scons_iterate",
    "Unpy.Props.C68_search",
    "Unpy.Props.C68_subset_iterator_partial",
    "Unpy.Props.C68_subset_refuted",
    "Unpy.Props.C68_iterate",
    "Unpy.Props.C68_iterate_ends"
   ],
   "note": "C68_subset_iterator_partial: C68: `subset(part, whole)` for an iterator `whole`: true exactly if the items of `part` occur in `whole` in the same order, each at a place of its own. (So the answer \"true\" can be relied upon. Missing: the answer \"false\", see `C68_subset_refuted`.) The code violates the rest: C68_subset_refuted."
  },
  {
   "property": "C69",
   "status": "proved",
   "theorems": [
    "Unpy.Props.C69_bytessource",
    "Unpy.Props.C69_recvall",
    "Unpy.Props.C69_socketsource",
    "Unpy.Props.C69_netstringify",
    "Unpy.Props.C69_encodemsg"
   ],
   "note": ""
  },
  {
   "property": "C70",
   "status": "partial",
   "theorems": [
    "Unpy.Props.C70_env_read_back_partial",
    "Unpy.Props.C70_env_is_map_partial",
    "Unpy.Props.C70_env_raises",
    "Unpy.Props.C70_env_removes",
    "Unpy.Props.C70_env_shadowed_by_method_refuted",
    "Unpy.Props.C70_update_self_refuted"
   ],
   "note": "C70_env_read_back_partial: C70 (what holds): after a successful write by any syntax, every way of reading the name gives the value written, for names that are not attributes of the class. Missing: names of methods, refuted below. C70_env_is_map_partial: C70: an env is a finite map from names to values. For every operation that succeeds (and does not write to the internal variables), the bindings afterwards, and the value returned, are those of the operation on that map (and no name is ever bound twice). Missing: reads of names that are attributes of the class. The code violates the rest: C70_env_shadowed_by_method_refuted, C70_update_self_refuted."
  },
  {
   "property": "C71",
   "status": "partial",
   "theorems": [
    "Unpy.Props.C71_env_constructor_partial",
    "Unpy.Props.C71_assignonce_constructor_refuted"
   ],
   "note": "C71_env_constructor_partial: C71 for `env`: a successful construction binds exactly the given names, to the given values, in order; it succeeds iff every name is an identifier and neither reserved nor `self` or `cls`. (Missing: `assignonce`, see `C71_assignonce_constructor_refuted`, and the names `_env` and `_finalized`, see `C08_direct_write_unfinalizes_refuted`.) The code violates the rest: C71_assignonce_constructor_refuted."
  },
  {
   "property": "C72",
   "status": "partial",
   "theorems": [
    "Unpy.Props.C72_fupdate_mapping_partial",
    "Unpy.Props.C72_call_partial",
    "Unpy.Props.C72_names_refuted"
   ],
   "note": "C72_fupdate_mapping_partial: C72: `fupdate(mapping, **bindings)` returns an object of the same kind in which the bindings override the items of the mapping and everything else is as in the mapping; no existing mapping changes. (Missing: keys named like the parameters of `fupdate` are not among the bindings it gets, see `C72_names_refuted`.) C72_call_partial: C72, calls: `fupdate(d, **bindings)` of a dict or frozendict `d`, where no key is named like a parameter of `fupdate`, returns a mapping of the same kind with the new values at these keys and the old ones elsewhere; keys keep their places, new ones come last. (Missing: keys named `target`, `indices` or `values`, and for a frozendict also `self` and `cls`, see `C72_names_refuted`; the identity of the objects is in `C72_fupdate_mapping_partial`.) The code violates the rest: C72_names_refuted."
  },
  {
   "property": "C73",
   "status": "partial",
   "theorems": [
    "Unpy.Props.C73_apply_partial",
    "Unpy.Props.C73_identity_partial",
    "Unpy.Props.C73_const_partial",
    "Unpy.Props.C73_names_refuted"
   ],
   "note": "C73_apply_partial: C73: `apply(f, a1, ..., ak, lst)` calls `f(a1, ..., ak, *lst)`; a last argument that is not iterable is a TypeError and `f` is not called. (Missing: named arguments called `f` or `arg0`, see `C73_names_refuted`.) C73_identity_partial: C73: `identity` returns its argument; several, or named ones, as a `Values`; none as `None`. (Missing: a named argument called `self`, see `C73_names_refuted`.) C73_const_partial: C73: `const(...)` ignores its arguments, has no effects and returns what `identity` returns for the arguments `const` was given, and raises if that raises; and piping into `identity` changes nothing. (Missing: a named argument called `self`, see `C73_names_refuted`.) The code violates the rest: C73_names_refuted."
  },
  {
   "property": "C74",
   "status": "proved",
   "theorems": [
    "Unpy.Props.C74_begin",
    "Unpy.Props.C74_lazy",
    "Unpy.Props.C74_lazy_raise"
   ],
   "note": ""
  },
  {
   "property": "C75",
   "status": "proved",
   "theorems": [
    "Unpy.Props.C75_arity",
    "Unpy.Props.C75_bound"
   ],
   "note": ""
  },
  {
   "property": "C76",
   "status": "proved",
   "theorems": [
    "Unpy.Props.C76_within",
    "Unpy.Props.C76_within_not_converging"
   ],
   "note": ""
  },
  {
   "property": "C77",
   "status": "proved",
   "theorems": [
    "Unpy.Props.C77_estimate",
    "Unpy.Props.C77_keep_none_refuted",
    "Unpy.Props.C77_elapsed"
   ],
   "note": "The refuted theorem is about keep_last=0, which the statement excludes."
  },
  {
   "property": "C78",
   "status": "proved",
   "theorems": [
    "Unpy.Props.C78_counting",
    "Unpy.Props.C78_slurp"
   ],
   "note": ""
  },
  {
   "property": "C79",
   "status": "proved",
   "theorems": [
    "Unpy.Props.C79_getattrrec",
    "Unpy.Props.C79_getattrrec_missing",
    "Unpy.Props.C79_setattrrec"
   ],
   "note": ""
  },
  {
   "property": "C80",
   "status": "partial",
   "theorems": [
    "Unpy.Props.C80_ordinary_partial",
    "Unpy.Props.C80_leak_refuted",
    "Unpy.Props.C80_terminates",
    "Unpy.Props.C80_no_trace",
    "Unpy.Props.C80_documented",
    "Unpy.Props.C80_jump_objects_partial",
    "Unpy.Props.C80_memoized_refuted",
    "Unpy.Props.C80_memoized_cycle_refuted"
   ],
   "note": "C80_ordinary_partial: C80. If the functions do not catch exceptions, then whenever plain recursion terminates (tail calls being calls), `@fixtco` gives the same result, after any history of earlier calls, with or without `memo`. (Missing: functions that catch exceptions, see `C80_leak_refuted`.) C80_jump_objects_partial: C80: with jumps as objects that `fixtco` changes: as long as each jump is a new object, every sequence of calls whose ordinary values exist returns just these values, and nothing is left in `visited`. (Missing: functions that return the same jump object again, see `C80_memoized_refuted`.) The code violates the rest: C80_leak_refuted, C80_memoized_refuted, C80_memoized_cycle_refuted."
  },
  {
   "property": "C81",
   "status": "partial",
   "theorems": [
    "Unpy.Props.C81_do",
    "Unpy.Props.C81_arity",
    "Unpy.Props.C81_do_empty_refuted",
    "Unpy.Props.C81_do0_partial",
    "Unpy.Props.C81_do0_name_clash_refuted",
    "Unpy.Props.C81_do0_empty"
   ],
   "note": "C81_do0_partial: C81, `do0`. The same, but the result is the value of the first item; provided the items do not use the name in which `do0` keeps it. (Missing: items that use this name, see `C81_do0_name_clash_refuted`.) The code violates the rest: C81_do_empty_refuted, C81_do0_name_clash_refuted."
  },
  {
   "property": "C82",
   "status": "partial",
   "theorems": [
    "Unpy.Props.C82_handler",
    "Unpy.Props.C82_block",
    "Unpy.Props.C82_no_match",
    "Unpy.Props.C82_error_partial",
    "Unpy.Props.C82_error_outcome_partial",
    "Unpy.Props.C82_signal_refuted",
    "Unpy.Props.C82_recursion_refuted"
   ],
   "note": "C82_error_partial: C82: `error(c)` inside a `resignal` block is `error` of the value of the first matching entry, with `c` as its cause, at the same place; what other entries match does not matter. Missing: the other protocols, for which it is false (`C82_signal_refuted`). C82_error_outcome_partial: C82: in particular, if the value of that entry is itself not converted: the handlers for it outside the block run, with `c` as its cause; if they decline, ControlError is raised. Missing: the other protocols, and values that are converted in turn (`C82_recursion_refuted`). The code violates the rest: C82_signal_refuted, C82_recursion_refuted."
  },
  {
   "property": "C83",
   "status": "proved",
   "theorems": [
    "Unpy.Props.C83_available_restarts",
    "Unpy.Props.C83_agrees_with_find_restart",
    "Unpy.Props.C83_available_handlers"
   ],
   "note": ""
  },
  {
   "property": "C84",
   "status": "partial",
   "theorems": [
    "Unpy.Props.C84_dyn_keys",
    "Unpy.Props.C84_dyn_items",
    "Unpy.Props.C84_dyn_get_partial",
    "Unpy.Props.C84_method_names_refuted",
    "Unpy.Props.C84_dyn_live_view_partial"
   ],
   "note": "C84_dyn_get_partial: C84: `dyn.get(name, default)` is the value read by attribute, or the default if that fails. (Missing: names of attributes of the class of `dyn`, see `C84_method_names_refuted`.) C84_dyn_live_view_partial: C84: in every interleaving of the threads, each live view shows, at all times, what its thread would read. (Missing: names of attributes of the class of `dyn`, see `C84_method_names_refuted`.) The code violates the rest: C84_method_names_refuted."
  },
  {
   "property": "C85",
   "status": "partial",
   "theorems": [
    "Unpy.Props.C85_mogrify_partial",
    "Unpy.Props.C85_mogrify_raises_partial",
    "Unpy.Props.C85_mogrify_set",
    "Unpy.Props.C85_mogrify_frozenset",
    "Unpy.Props.C85_mogrify_set_unhashable",
    "Unpy.Props.C85_shared_refuted",
    "Unpy.Props.C85_stopiteration_refuted",
    "Unpy.Props.C85_cycle_refuted",
    "Unpy.Props.C85_force_partial",
    "Unpy.Props.C85_force_raises_partial",
    "Unpy.Props.C85_force_shallow"
   ],
   "note": "C85_mogrify_partial: C85 (what holds): in a container in which no mutable container occurs twice, and without sets (for these see below), `mogrify` calls the function once with each atom, in the order of iteration. If all these calls return, it returns the same structure with the results in the places of the atoms: mutable containers are the same objects, with new contents, immutable ones are copies; no other mutable container is changed. (An immutable container is never changed: it is a value in the model.) Missing: mutable containers that occur more than once, and cycles, refuted below. C85_mogrify_raises_partial: C85, when a call raises: `mogrify` raises the same exception (unless it is a StopIteration and there are tuples in the structure, see `C85_stopiteration_refuted`), the function is not called again, and each mutable container in the structure holds the results for all its items if the calls up to its last item have returned (`as₁` are the atoms before the container), and otherwise still holds its old items, never a mixture; the outermost one still holds its old items. (Missing: containers that are shared or in a circle, see `C85_shared_refuted` and `C85_cycle_refuted`, and sets.) C85_force_partial: C85 for `force` (under the same conditions as for `mogrify`, and with promises that do not raise): each promise in the structure is replaced by its value, everything else stays; the thunks that are run are exactly those of the promises in the structure that were pending, each once, however often the promise occurs; afterwards none of them is pending. (Missing: as for `mogrify`. For promises that raise see `C85_force_raises_partial`.) C85_force_raises_partial: C85 for `force` when a promise raises (under the same conditions as for `mogrify`): let `a` be the first promise of the structure, in the order of its atoms, whose thunk raises, or has raised when it was forced before. Then `force` raises that same exception (again, but for a StopIteration); the thunks that are run are exactly those of the pending promises up to `a`, each once: none after `a` is run; no promise changes its value or its exception, and those up to `a` are not pending any more. A mutable container whose items, and everything before them, do not raise holds the values of all its items; every other one holds its old items, and so does the outermost one. (Missing: as for `mogrify`.) The code violates the rest: C85_shared_refuted, C85_stopiteration_refuted, C85_cycle_refuted."
  },
  {
   "property": "C86",
   "status": "partial",
   "theorems": [
    "Unpy.Props.C86_imemoize_partial",
    "Unpy.Props.C86_imemoize_race_refuted",
    "Unpy.Props.C86_fimemoize"
   ],
   "note": "C86_imemoize_partial: C86 for `imemoize`: if the first calls of the returned function do not race, and no instance is used by two threads at once, each instance delivers the items of the iterable from the first on, in order; and no more items have been taken from the iterable than the most advanced instance has delivered. Missing: racing first calls, refuted below. The code violates the rest: C86_imemoize_race_refuted."
  },
  {
   "property": "C87",
   "status": "partial",
   "theorems": [
    "Unpy.Props.C87_scoping_partial",
    "Unpy.Props.C87_expands_iff",
    "Unpy.Props.C87_syntax_error",
    "Unpy.Props.C87_shadow_refuted",
    "Unpy.Props.C87_default_refuted",
    "Unpy.Props.C87_method_name_refuted",
    "Unpy.Props.C87_local_rhs_refuted"
   ],
   "note": "C87_scoping_partial: C87, for programs that keep to the conditions `Wf`. If the macros expand, then running the expansion has the same outcome (result or exception, and side effects, and not ending) as the program has by the rules of lexical scoping. (Missing: programs that do not keep to them, see `C87_shadow_refuted`, `C87_default_refuted`, `C87_method_name_refuted` and `C87_local_rhs_refuted`.) The code violates the rest: C87_shadow_refuted, C87_default_refuted, C87_method_name_refuted, C87_local_rhs_refuted."
  },
  {
   "property": "C88",
   "status": "proved",
   "theorems": [
    "Unpy.Props.C88_cond",
    "Unpy.Props.C88_cond_syntax",
    "Unpy.Props.C88_letseq",
    "Unpy.Props.C88_aif",
    "Unpy.Props.C88_do0",
    "Unpy.Props.C88_scoped",
    "Unpy.Props.C88_scoped_start"
   ],
   "note": ""
  },
  {
   "property": "C89",
   "status": "partial",
   "theorems": [
    "Unpy.Props.C89_one_end",
    "Unpy.Props.C89_result_partial",
    "Unpy.Props.C89_result_without_and_partial",
    "Unpy.Props.C89_and_refuted",
    "Unpy.Props.C89_it_refuted",
    "Unpy.Props.C89_list_refuted",
    "Unpy.Props.C89_try_refuted",
    "Unpy.Props.C89_finally_refuted",
    "Unpy.Props.C89_ec_refuted",
    "Unpy.Props.C89_block_return_refuted",
    "Unpy.Props.C89_not_callable_refuted",
    "Unpy.Props.C89_ec_arity_refuted"
   ],
   "note": "C89_result_partial: C89. A `with tco` block does what the same code does without it: if the program ends, then so does the expanded program, in the same way; and conversely. Partial: for the programs described by `okSs`; and with each `others and last` in tail position read as `last if others else False`. C89_result_without_and_partial: C89. If there is no such `and`, a `with tco` block does what the same code does without it. (Missing: as in `C89_result_partial`; for `and` see `C89_and_refuted`.) The code violates the rest: C89_and_refuted, C89_it_refuted, C89_list_refuted, C89_try_refuted, C89_finally_refuted, C89_ec_refuted, C89_block_return_refuted, C89_not_callable_refuted, C89_ec_arity_refuted."
  },
  {
   "property": "C90",
   "status": "partial",
   "theorems": [
    "Unpy.Props.C90_space_partial",
    "Unpy.Props.C90_countdown",
    "Unpy.Props.C90_countdown_without_tco",
    "Unpy.Props.C90_loop_refuted"
   ],
   "note": "C90_space_partial: C90. In a `with tco` block, calls in tail position take no stack: if the program ends, with proper tail calls and other calls nesting at most `d` deep, then the expanded program ends in the same way in Python, with calls nesting at most `2 * d` deep (a trampoline takes a level of its own); and conversely. `N + 1` bounds the rounds of the loops, both of those in the program and of those that make tail calls. Partial: for the programs described by `okSs` (in particular, see `C90_loop_refuted`); and with each `others and last` in tail position read as `last if others else False`. The code violates the rest: C90_loop_refuted."
  },
  {
   "property": "C91",
   "status": "partial",
   "theorems": [
    "Unpy.Props.C91_value_partial",
    "Unpy.Props.C91_explicit_return",
    "Unpy.Props.C91_branch_def_refuted"
   ],
   "note": "C91_value_partial: C91. In a `with autoreturn` block, a call of a function returns the value of the expression in tail position along the path executed (`valRun`), and does nothing else differently: the expanded program, run by Python, ends if the program does, with the same result or exception, the same values in the variables and the same side effects, within the same bounds on the stack and on loops. Partial: no function definition is in tail position within an `if` or a `try` (`C91_branch_def_refuted`). The code violates the rest: C91_branch_def_refuted."
  },
  {
   "property": "C92",
   "status": "partial",
   "theorems": [
    "Unpy.Props.C92_meaning_partial",
    "Unpy.Props.C92_no_tuples",
    "Unpy.Props.C92_rightmost_wins",
    "Unpy.Props.C92_empty_tuple_refuted",
    "Unpy.Props.C92_double_star_refuted"
   ],
   "note": "C92_meaning_partial: C92. In a `with prefix` block, tuples are calls unless quoted: the expanded expression means in Python what the expression means by the rules of the block (`den`), and the macro raises an exception exactly if it has no meaning. For every meaning of Python's syntax that is built up from parts. Partial: no empty tuple (`C92_empty_tuple_refuted`), and no `**d` in a `kw(...)` (`C92_double_star_refuted`). The code violates the rest: C92_empty_tuple_refuted, C92_double_star_refuted."
  },
  {
   "property": "C93",
   "status": "partial",
   "theorems": [
    "Unpy.Props.C93_registry",
    "Unpy.Props.C93_sorted",
    "Unpy.Props.C93_in_order_partial",
    "Unpy.Props.C93_unknown",
    "Unpy.Props.C93_twice",
    "Unpy.Props.C93_suggest_partial",
    "Unpy.Props.C93_suggest_when",
    "Unpy.Props.C93_same_priority_refuted",
    "Unpy.Props.C93_named_arguments_refuted",
    "Unpy.Props.C93_documented_order_refuted",
    "Unpy.Props.C93_not_in_order_refuted"
   ],
   "note": "C93_in_order_partial: C93. Decorators that are in order are left as they are. Partial: no two of the same priority; those are put in alphabetic order (`C93_same_priority_refuted`). C93_suggest_partial: C93. The index suggested for a decorator in the list of decorators of a function: if the known ones among them are in order, then inserting it there keeps them in order. Partial: when they are not in order, an index is suggested all the same (`C93_not_in_order_refuted`). The code violates the rest: C93_same_priority_refuted, C93_named_arguments_refuted, C93_documented_order_refuted, C93_not_in_order_refuted."
  },
  {
   "property": "C94",
   "status": "partial",
   "theorems": [
    "Unpy.Props.C94_meaning_partial",
    "Unpy.Props.C94_syntax_errors",
    "Unpy.Props.C94_and_refuted",
    "Unpy.Props.C94_two_callcc_refuted",
    "Unpy.Props.C94_skip_refuted",
    "Unpy.Props.C94_composed_refuted",
    "Unpy.Props.C94_call_composed_refuted",
    "Unpy.Props.C94_return_cc_refuted"
   ],
   "note": "C94_meaning_partial: C94. For any block of functions, loops, conditionals and `call_cc`, any external functions, and any limits on the rounds of loops and on the depth of calls: the expanded block does what the documentation says, unless the careful interpreter stops. That is, if the interpreter ends, then the expanded block ends with the same outcome (raises the same exception if any), the same values in all variables, and the same calls of external functions in the same order; and if the interpreter does not end, then the expanded block does not either. Missing: the situations where the careful interpreter stops, in which the macro does something else (C94_two_callcc_refuted and others below); and what is not in the model (exceptions caught by the program, assignment to variables of `let` and variables of `do`, named return values). The code violates the rest: C94_and_refuted, C94_two_callcc_refuted, C94_skip_refuted, C94_composed_refuted, C94_call_composed_refuted, C94_return_cc_refuted."
  },
  {
   "property": "C95",
   "status": "partial",
   "theorems": [
    "Unpy.Props.C95_meaning_partial",
    "Unpy.Props.C95_augassign_refuted",
    "Unpy.Props.C95_star_refuted",
    "Unpy.Props.C95_default_refuted",
    "Unpy.Props.C95_flat_refuted",
    "Unpy.Props.C95_nested_refuted",
    "Unpy.Props.C95_name_refuted"
   ],
   "note": "C95_meaning_partial: C95. For any block of functions, loops and conditionals, any operators and external functions, and any limits on the rounds of loops and on the depth of calls: the expanded block does what call by need does, unless the careful interpreter stops. That is, if the interpreter ends, then the expanded block ends with the same outcome (returns the same or raises the same exception if any), the same values in all variables, the same arguments evaluated, and the same calls of external functions in the same order; and if the interpreter does not end, then the expanded block does not either. Missing: the situations where the careful interpreter stops, in which the macro does something else (C95_augassign_refuted and others below); and what is not in the model (containers other than tuples, attributes, named arguments, `let`, exceptions caught by the program). The code violates the rest: C95_augassign_refuted, C95_star_refuted, C95_default_refuted, C95_flat_refuted, C95_nested_refuted, C95_name_refuted."
  },
  {
   "property": "C96",
   "status": "proved",
   "theorems": [
    "Unpy.Props.C96_conservative"
   ],
   "note": ""
  },
  {
   "property": "C97",
   "status": "partial",
   "theorems": [
    "Unpy.Props.C97_meaning_partial",
    "Unpy.Props.C97_shadow_refuted",
    "Unpy.Props.C97_comprehension_refuted",
    "Unpy.Props.C97_def_refuted",
    "Unpy.Props.C97_default_refuted",
    "Unpy.Props.C97_del_refuted",
    "Unpy.Props.C97_self_refuted",
    "Unpy.Props.C97_reserved_refuted",
    "Unpy.Props.C97_method_refuted"
   ],
   "note": "C97_meaning_partial: C97. For any block of functions (with defaults, keyword-only parameters and `*args`), lambdas, calls with positional and named arguments, `while` and `for` loops, conditionals, `del`, `try` with `except:` and comprehensions, any operators and external functions, and any limits on the rounds of loops and on the depth of calls: the expanded block does what Python does, except that `x := v` for a parameter `x` of a function assigns to that parameter; unless the careful interpreter stops. That is, if the interpreter ends, then the expanded block ends with the same outcome (returns the same or raises the same exception if any), the same values in the variables of the block, and the same calls of external functions in the same order; and if the interpreter does not end, then the expanded block does not either. Missing: the situations where the careful interpreter stops, in which the macro does something else (C97_shadow_refuted and others below); and what is not in the model (`**kwargs`, classes, `with`, handlers for some exceptions only, `break` and `continue`, `let` and `do` in the source). The code violates the rest: C97_shadow_refuted, C97_comprehension_refuted, C97_def_refuted, C97_default_refuted, C97_del_refuted, C97_self_refuted, C97_reserved_refuted, C97_method_refuted."
  },
  {
   "property": "C98",
   "status": "partial",
   "theorems": [
    "Unpy.Props.C98_verdicts_partial",
    "Unpy.Props.C98_every_test",
    "Unpy.Props.C98_summaries",
    "Unpy.Props.C98_terminate_refuted",
    "Unpy.Props.C98_terminate_in_test_refuted",
    "Unpy.Props.C98_stray_signal_refuted",
    "Unpy.Props.C98_testset_in_test_refuted",
    "Unpy.Props.C98_bool_refuted",
    "Unpy.Props.C98_str_refuted"
   ],
   "note": "C98_verdicts_partial: C98 (partial): for all test programs — tests, testsets and sessions nested in any way, that signal, raise, and catch exceptions, with any callbacks — what is printed (reports, the tally of every testset, in order), the side effects of the user's code, the counters and the outcome are those of the specification, in which every test has one verdict and tests that do not pass do not prevent what comes after them. Missing: programs at which the careful interpreter stops: `terminate` in a testset or in a test; plain `signal`s and `error`s outside tests in nested testsets; values whose `bool` or `str` raises (see the refutations). The code violates the rest: C98_terminate_refuted, C98_terminate_in_test_refuted, C98_stray_signal_refuted, C98_testset_in_test_refuted, C98_bool_refuted, C98_str_refuted."
  },
  {
   "property": "C99",
   "status": "partial",
   "theorems": [
    "Unpy.Props.C99_expression_partial",
    "Unpy.Props.C99_block_partial",
    "Unpy.Props.C99_ifones_meaning",
    "Unpy.Props.C99_ifones",
    "Unpy.Props.C99_capture_refuted",
    "Unpy.Props.C99_self_refuted",
    "Unpy.Props.C99_argument_refuted",
    "Unpy.Props.C99_nested_refuted",
    "Unpy.Props.C99_nested_block_refuted",
    "Unpy.Props.C99_duplicate_refuted",
    "Unpy.Props.C99_parameter_refuted",
    "Unpy.Props.C99_empty_refuted"
   ],
   "note": "C99_expression_partial: C99, partial. `let_syntax[definitions][body]`: with room enough on the stack, the result is the body in which first the uses of the templates, then the bare names are replaced, each use of a template by its right hand side with the arguments in the places of the parameters, all at the same time, whatever is in the arguments being expanded as well. It is a SyntaxError exactly if a name is defined twice or a template is used with the wrong number of arguments. What is missing: uses where the careful specification stops, namely when a parameter occurs in an argument, when a right hand side contains what it defines, and when the right hand side is one of the parameters alone; see the refutations. C99_block_partial: C99, partial. `with let_syntax:`: with room enough on the stack, the result is the statements of the block other than definitions, in which what the definitions before them define is replaced, as in the expression; where a block is used as a statement, its statements are put there. Then `if 1:` and the like are replaced by their branch (see `C99_ifones_meaning`). It is a SyntaxError exactly if a template is used with the wrong number of arguments, a block is used in an expression, the body of a `with expr` is not an expression, a name is defined twice, or nothing is left. What is missing: besides the uses named in `C99_expression_partial`, definitions of which the name or a parameter is a bare name defined before, and uses of a block template in its own arguments; see the refutations. The code violates the rest: C99_capture_refuted, C99_self_refuted, C99_argument_refuted, C99_nested_refuted, C99_nested_block_refuted, C99_duplicate_refuted, C99_parameter_refuted, C99_empty_refuted."
  },
  {
   "property": "C100",
   "status": "partial",
   "theorems": [
    "Unpy.Props.C100_autoref_partial",
    "Unpy.Props.C100_plain",
    "Unpy.Props.C100_key_refuted",
    "Unpy.Props.C100_skipped_refuted",
    "Unpy.Props.C100_property_refuted",
    "Unpy.Props.C100_loop_refuted",
    "Unpy.Props.C100_own_name_refuted"
   ],
   "note": "C100_autoref_partial: C100, partial. A program with `with autoref` blocks, nested in any way, does what it does if each name that is read is the attribute of the innermost object around that has one, at the time, and else the variable: it ends in the same way, with the same output, the same variables and the same objects. The expression for the object is evaluated once, and assignments and deletions are not redirected. What is missing: runs where the careful specification stops, namely where an object has an attribute with a name that the macro never looks up, where a name is a property, where a name in the key of a target is an attribute, where a function is called after the variable made for a block around it holds something else, and where the object of an inner block is computed from a name that its as-part gives; see the refutations. The code violates the rest: C100_key_refuted, C100_skipped_refuted, C100_property_refuted, C100_loop_refuted, C100_own_name_refuted."
  },
  {
   "property": "C101",
   "status": "partial",
   "theorems": [
    "Unpy.Props.C101_name",
    "Unpy.Props.C101_qualname_partial",
    "Unpy.Props.C101_errors",
    "Unpy.Props.C101_copy_refuted",
    "Unpy.Props.C101_qualname_refuted"
   ],
   "note": "C101_qualname_partial: C101, partial. After any number of renamings in a row, a function defined in some scope has the last name, its qualified name is that of its scope followed by the last name, and its code is what it was. What is missing: names with dots before the last one; see `C101_qualname_refuted`. The code violates the rest: C101_copy_refuted, C101_qualname_refuted."
  },
  {
   "property": "C102",
   "status": "partial",
   "theorems": [
    "Unpy.Props.C102_only_names",
    "Unpy.Props.C102_names_partial",
    "Unpy.Props.C102_autocurry",
    "Unpy.Props.C102_default_refuted",
    "Unpy.Props.C102_decorator_refuted",
    "Unpy.Props.C102_function_refuted",
    "Unpy.Props.C102_key_refuted"
   ],
   "note": "C102_names_partial: C102, partial. Each lambda of the program is named once: with the name it is bound to, in an assignment, a binding of a `let`, a named argument or an item of a dictionary with a string for a key, with decorators around it or not; with the name the user gave it, if they did; or else with its location. What is missing: programs that are not `Fine`: with lambdas in the defaults of lambdas, in the decorators of a lambda that is bound or named, bound in the function of a call with named arguments, or in items of dictionaries with keys that are literals but no strings; see the refutations. Also those with `namelambda` or `currycall` written by hand other than directly at a lambda. The code violates the rest: C102_default_refuted, C102_decorator_refuted, C102_function_refuted, C102_key_refuted."
  },
  {
   "property": "C103",
   "status": "partial",
   "theorems": [
    "Unpy.Props.C103_fn",
    "Unpy.Props.C103_order_partial",
    "Unpy.Props.C103_parameters",
    "Unpy.Props.C103_conditional_refuted",
    "Unpy.Props.C103_dict_refuted"
   ],
   "note": "C103_order_partial: C103, partial. Underscores are counted from left to right. What is missing: underscores in the condition of a conditional expression and before it, and in a key of a dictionary and in a value before it; see `C103_conditional_refuted` and `C103_dict_refuted`. The code violates the rest: C103_conditional_refuted, C103_dict_refuted."
  },
  {
   "property": "C104",
   "status": "partial",
   "theorems": [
    "Unpy.Props.C104_plain",
    "Unpy.Props.C104_curried_partial",
    "Unpy.Props.C104_callable_refuted",
    "Unpy.Props.C104_leftover_refuted",
    "Unpy.Props.C104_nested_refuted",
    "Unpy.Props.C104_argument_refuted",
    "Unpy.Props.C104_default_refuted"
   ],
   "note": "C104_curried_partial: C104, partial. In a `with autocurry` block all functions that are made and all calls are curried: arguments are taken one at a time, a function with too few arguments waits for more, and those that are too many are given to its result. What is missing: lambdas in a function curried by the user, other than the one curried directly; calls and lambdas in defaults of lambdas; and programs with a TypeError of a call; see the refutations. The code violates the rest: C104_callable_refuted, C104_leftover_refuted, C104_nested_refuted, C104_argument_refuted, C104_default_refuted."
  },
  {
   "property": "C105",
   "status": "partial",
   "theorems": [
    "Unpy.Props.C105_loops_partial",
    "Unpy.Props.C105_typeerror_refuted",
    "Unpy.Props.C105_nil_refuted",
    "Unpy.Props.C105_ignored_refuted"
   ],
   "note": "C105_loops_partial: C105: `forall[...]` does what the nested loops do: the same effects in the same order, and the same results or the same exception. Names of lines may be repeated, and hide variables from outside. Partial: nothing is said if a line other than the first raises TypeError (`C105_typeerror_refuted`) or if a line has just the one item `nil` (`C105_nil_refuted`); the lines do not use a variable called `_ignored` (`C105_ignored_refuted`). The code violates the rest: C105_typeerror_refuted, C105_nil_refuted, C105_ignored_refuted."
  },
  {
   "property": "C106",
   "status": "partial",
   "theorems": [
    "Unpy.Props.C106_scope_partial",
    "Unpy.Props.C106_block_refuted",
    "Unpy.Props.C106_block_local_refuted",
    "Unpy.Props.C106_parameter_refuted",
    "Unpy.Props.C106_default_refuted",
    "Unpy.Props.C106_global_refuted",
    "Unpy.Props.C106_own_default_refuted",
    "Unpy.Props.C106_nested_delete_refuted"
   ],
   "note": "C106_scope_partial: C106: a function decorated by `dlet`, `dletrec`, `blet` or `bletrec` runs as if let variables were a scope around it: each name and each `name := value` in it is the let variable, unless a parameter, a `global` name or a local variable hides it; local variables do so from the next statement on, until they are deleted. The module with the function has the same output and ends in the same way, for all programs and for any number of steps. Partial: the blocks of compound statements do not assign or delete let variables (`C106_block_refuted`, `C106_block_local_refuted`), functions in functions and their parameters have other names than the let variables (`C106_parameter_refuted`, `C106_default_refuted`), they do not delete let variables (`C106_nested_delete_refuted`), a function that declares a let variable `global` has no functions in it (`C106_global_refuted`), and the defaults of the decorated function are simple expressions without let variables (`C106_own_default_refuted`). The code violates the rest: C106_block_refuted, C106_block_local_refuted, C106_parameter_refuted, C106_default_refuted, C106_global_refuted, C106_own_default_refuted, C106_nested_delete_refuted."
  },
  {
   "property": "C107",
   "status": "partial",
   "theorems": [
    "Unpy.Props.C107_tests_partial",
    "Unpy.Props.C107_values_partial",
    "Unpy.Props.C107_shown_partial",
    "Unpy.Props.C107_block_refuted",
    "Unpy.Props.C107_exit_refuted",
    "Unpy.Props.C107_source_refuted",
    "Unpy.Props.C107_literal_refuted"
   ],
   "note": "C107_tests_partial: Running the expansion of a module with tests does what the module says: all code runs as written, once, in order, with the same results; exceptions in tests, and results that are not true, are on the log, with the source, the message, and each value of a marked subexpression, in the order of evaluation, with the source of the subexpression; or, if there are no marks, with the value on the left of the comparison. A `test_raises`, which has no marks, is on the log if its code does not raise, or not an exception of that type. The module has no marks in marks, and no marks in `with test` blocks in such blocks. What the functions of the program do is arbitrary. (Missing: these, see `C107_source_refuted` and `C107_block_refuted`; exceptions that are no `Exception`, see `C107_exit_refuted`.) C107_values_partial: If marks are in other marks of the same test, everything is still as written, but for the sources that are shown. (Missing: the sources, see `C107_source_refuted`; marks in blocks in blocks, see `C107_block_refuted`.) C107_shown_partial: The values of subexpressions are shown in the message, in order, if no source is a literal. (Missing: literals, see `C107_literal_refuted`.) The code violates the rest: C107_block_refuted, C107_exit_refuted, C107_source_refuted, C107_literal_refuted."
  },
  {
   "property": "C108",
   "status": "partial",
   "theorems": [
    "Unpy.Props.C108_bindings",
    "Unpy.Props.C108_unambiguous",
    "Unpy.Props.C108_macro_partial",
    "Unpy.Props.C108_read",
    "Unpy.Props.C108_read_inside",
    "Unpy.Props.C108_read_decorator",
    "Unpy.Props.C108_only",
    "Unpy.Props.C108_write_bindings",
    "Unpy.Props.C108_write_decorator",
    "Unpy.Props.C108_write_body_partial",
    "Unpy.Props.C108_write_inside",
    "Unpy.Props.C108_assign_partial",
    "Unpy.Props.C108_assign_only",
    "Unpy.Props.C108_do",
    "Unpy.Props.C108_do_only",
    "Unpy.Props.C108_write_body_refuted",
    "Unpy.Props.C108_decorator_body_refuted",
    "Unpy.Props.C108_template_refuted",
    "Unpy.Props.C108_nested_marker_refuted"
   ],
   "note": "C108_macro_partial: The macro interface: with the bindings in the macro arguments, or inside of the brackets (there, names only), in any of the ways to write it, `let` gets the bindings, in order, and the body. (Missing: templates inside of the brackets, see `C108_template_refuted`.) C108_write_body_partial: Writing the body: the same. (With Python 3.9 or later, for `let[...][body]`, only if the new body has no attribute `value`.) (Missing: bodies with an attribute `value`, see `C108_write_body_refuted`, and decorators, see `C108_decorator_body_refuted`.) C108_assign_partial: A view of `x := v` or `x << v` has the name and the value; writing one of them changes this one only, and how it is written stays. (For the name: if there is at most one marker around it.) (Missing: markers in markers, see `C108_nested_marker_refuted`.) The code violates the rest: C108_write_body_refuted, C108_decorator_body_refuted, C108_template_refuted, C108_nested_marker_refuted."
  },
  {
   "property": "C109",
   "status": "partial",
   "theorems": [
    "Unpy.Props.C109_equality",
    "Unpy.Props.C109_container",
    "Unpy.Props.C109_content",
    "Unpy.Props.C109_shim_write",
    "Unpy.Props.C109_shim_read_partial",
    "Unpy.Props.C109_shim_roundtrip",
    "Unpy.Props.C109_falsy_fallback_refuted",
    "Unpy.Props.C109_special_names_refuted"
   ],
   "note": "C109_shim_read_partial: Reading an attribute of a shim gives that of the object that is in its primary box now, in this thread, if it has this attribute; otherwise, the fallbacks are tried in order, as they are now. (Not for the names that any object has, and if the fallbacks given without a box do not count as false.) (Missing: these, see `C109_special_names_refuted` and `C109_falsy_fallback_refuted`.) The code violates the rest: C109_falsy_fallback_refuted, C109_special_names_refuted."
  },
  {
   "property": "C110",
   "status": "partial",
   "theorems": [
    "Unpy.Props.C110_answers",
    "Unpy.Props.C110_complete",
    "Unpy.Props.C110_interrupt",
    "Unpy.Props.C110_too_late_partial",
    "Unpy.Props.C110_isolation_partial",
    "Unpy.Props.C110_wrong_session_refuted",
    "Unpy.Props.C110_closed",
    "Unpy.Props.C110_independent",
    "Unpy.Props.C110_one_answer",
    "Unpy.Props.C110_unanswerable",
    "Unpy.Props.C110_no_reply_refuted"
   ],
   "note": "C110_too_late_partial: If the thread of the session has ended in the meantime, and no other one has its ident, then nobody is interrupted, and the client is told so. The full property says: if the thread of the session has ended, nobody is interrupted. It is refuted by `C110_wrong_session_refuted`. C110_isolation_partial: Only what a channel asks for interrupts a session: an interrupt comes from a request for it in a channel that was paired with an open session then, and that has done nothing else since; it hits this session, or one whose thread has the same ident, and then this session's thread has ended. The full property says: it hits this session. It is refuted by `C110_wrong_session_refuted`. The code violates the rest: C110_wrong_session_refuted, C110_no_reply_refuted."
  },
  {
   "property": "C111",
   "status": "partial",
   "theorems": [
    "Unpy.Props.C111_value_partial",
    "Unpy.Props.C111_exception_partial",
    "Unpy.Props.C111_running_partial",
    "Unpy.Props.C111_once_partial",
    "Unpy.Props.C111_thread_refuted",
    "Unpy.Props.C111_wrong_argument",
    "Unpy.Props.C111_results_refuted"
   ],
   "note": "C111_value_partial: `fg` returns the value that the thunk has returned. The full property says this of the thread objects that `bg` returns, for which `C111_thread_refuted` shows that there is no result at all; here, and in the next theorems, it is proved of objects that pass the check of the type. C111_exception_partial: `fg` raises the exception that the thunk has raised. (Missing: the thread objects that `bg` returns, see `C111_thread_refuted`, and idents used again, see `C111_results_refuted`.) C111_running_partial: While the worker runs, `fg` returns the thread. (Missing: the thread objects that `bg` returns, see `C111_thread_refuted`, and a worker that has not begun, see `C111_results_refuted`.) C111_once_partial: A result can be got once: it is popped. (Missing: the thread objects that `bg` returns, see `C111_thread_refuted`, and idents used again, see `C111_results_refuted`.) The code violates the rest: C111_thread_refuted, C111_results_refuted."
  },
  {
   "property": "C112",
   "status": "partial",
   "theorems": [
    "Unpy.Props.C112_transcript_partial",
    "Unpy.Props.C112_sent",
    "Unpy.Props.C112_answer_partial",
    "Unpy.Props.C112_split_prompt_refuted",
    "Unpy.Props.C112_split_character_refuted",
    "Unpy.Props.C112_false_prompt_refuted",
    "Unpy.Props.C112_empty_prompt_refuted",
    "Unpy.Props.C112_after_interrupt",
    "Unpy.Props.C112_pairs_partial",
    "Unpy.Props.C112_first_line_refuted",
    "Unpy.Props.C112_announced"
   ],
   "note": "C112_transcript_partial: The text on the screen is what the server has sent: nothing is lost, added or put in another order. While the client asks for input, all that it has received is on the screen. This holds of clients that have not ended; one ends with an exception if the network splits a character (`C112_split_character_refuted`). Empty prompts are excluded: see `C112_empty_prompt_refuted`. C112_answer_partial: An answer of the server, that is a text and a prompt, is shown, and the user is asked with this prompt, if the answer comes in parts that are texts, no part except for the last one ends with a prompt, and the last part has the whole prompt. The full property says this of all ways to split the answer. See the next three theorems. (Missing: other ways to split the answer, see `C112_split_prompt_refuted`, `C112_split_character_refuted` and `C112_false_prompt_refuted`.) C112_pairs_partial: The client pairs its control channel with the session that the server has opened for it, however the first line is split, if the part with its end does not end within a character. The full property says this of all ways to split it; then `C112_first_line_refuted` applies. The code violates the rest: C112_split_prompt_refuted, C112_split_character_refuted, C112_false_prompt_refuted, C112_empty_prompt_refuted, C112_first_line_refuted."
  },
  {
   "property": "C113",
   "status": "partial",
   "theorems": [
    "Unpy.Props.C113_macro",
    "Unpy.Props.C113_read",
    "Unpy.Props.C113_read_decorator_partial",
    "Unpy.Props.C113_decorator_envname_refuted",
    "Unpy.Props.C113_write_bindings",
    "Unpy.Props.C113_write_decorator",
    "Unpy.Props.C113_write_body",
    "Unpy.Props.C113_refused",
    "Unpy.Props.C113_half_written_refuted",
    "Unpy.Props.C113_reference",
    "Unpy.Props.C113_only_partial",
    "Unpy.Props.C113_own_function_refuted",
    "Unpy.Props.C113_do_macro",
    "Unpy.Props.C113_do_read",
    "Unpy.Props.C113_do_write",
    "Unpy.Props.C113_do_half_written_refuted",
    "Unpy.Props.C113_autocurry_partial",
    "Unpy.Props.C113_manual_curry_refuted",
    "Unpy.Props.C113_autoref",
    "Unpy.Props.C113_lazify",
    "Unpy.Props.C113_decorator_refuted"
   ],
   "note": "C113_read_decorator_partial: **Reading a `let` decorator.** The bindings are there; the body is not, as documented; the name of the environment is there for a `letrec` with bindings only (see `C113_decorator_envname_refuted`). C113_only_partial: Only calls of functions named `letter` are taken for `let` forms, and only calls of functions named `dof` for `do` forms, besides those of `currycall`; all else is a `TypeError`. (Missing: functions of the user with these names are taken for such forms, see `C113_own_function_refuted`.) C113_autocurry_partial: **With `autocurry`.** What `autocurry` makes of an expanded `let` or `do` is the curried format of the same form, with the same names, where the values and the bodies are curried. So the views read what they would read without `autocurry`, up to currying. (Missing: forms curried by hand and decorators, see `C113_manual_curry_refuted` and `C113_decorator_refuted`.) The code violates the rest: C113_decorator_envname_refuted, C113_half_written_refuted, C113_own_function_refuted, C113_do_half_written_refuted, C113_manual_curry_refuted, C113_decorator_refuted."
  },
  {
   "property": "C114",
   "status": "partial",
   "theorems": [
    "Unpy.Props.C114_store_partial",
    "Unpy.Props.C114_bound_refuted",
    "Unpy.Props.C114_pattern_refuted",
    "Unpy.Props.C114_del",
    "Unpy.Props.C114_declarations",
    "Unpy.Props.C114_parameters",
    "Unpy.Props.C114_function_partial",
    "Unpy.Props.C114_shadows_partial",
    "Unpy.Props.C114_everything_else_refuted",
    "Unpy.Props.C114_lambda_partial",
    "Unpy.Props.C114_lambda_refuted",
    "Unpy.Props.C114_comprehension_partial",
    "Unpy.Props.C114_comprehension_refuted",
    "Unpy.Props.C114_class",
    "Unpy.Props.C114_class_refuted",
    "Unpy.Props.C114_scope"
   ],
   "note": "C114_store_partial: **The names that a block binds** are collected: those that it assigns to (with `=`, `:=`, `for`, `with`, …), those of the functions and classes that it defines, of what it imports, of its handlers of exceptions, and those that its patterns capture. Nothing else is, besides what `Mistaken` says. The full property is that the names collected are those that Python binds; missing are those bound by `del`, by `import x.y`, and in the parts of inner scopes that belong to the outer one; also, there is no result if a class pattern or a mapping pattern occurs. C114_function_partial: **The names in a function**: `get_lexical_variables` gives, each once, its own name, its parameters and the names that its body binds, and, in a second list, those that it declares `global` or `nonlocal`. Without `collect_locals` what the body binds is left out, and then there is always a result. What is missing is as in `C114_store_partial`. C114_shadows_partial: The names given are those that mean in the body of the function something else than in the scope around it, if the body binds names only in plain ways: the name of the function, the variables of the function, and the names declared `global` or `nonlocal`. (Missing: names bound in other ways, and patterns, see `C114_bound_refuted` and `C114_pattern_refuted`.) C114_lambda_partial: Of a lambda, the parameters are given. What is missing: `lambda: (x := 1)` has a variable `x`, which is not seen. C114_comprehension_partial: Of a comprehension, the names that its targets assign to are given, if they are names or tuples, and there are no attributes, subscripts or the like in them. (Missing: other targets, see `C114_comprehension_refuted`.) The code violates the rest: C114_bound_refuted, C114_pattern_refuted, C114_everything_else_refuted, C114_lambda_refuted, C114_comprehension_refuted, C114_class_refuted."
  },
  {
   "property": "C115",
   "status": "partial",
   "theorems": [
    "Unpy.Props.C115_forwards_partial",
    "Unpy.Props.C115_order",
    "Unpy.Props.C115_short_write_refuted",
    "Unpy.Props.C115_goes_on",
    "Unpy.Props.C115_disconnect_partial",
    "Unpy.Props.C115_reset",
    "Unpy.Props.C115_once_partial",
    "Unpy.Props.C115_over",
    "Unpy.Props.C115_unset_refuted",
    "Unpy.Props.C115_hangup_refuted",
    "Unpy.Props.C115_twice_refuted",
    "Unpy.Props.C115_closed_once",
    "Unpy.Props.C115_stop_twice",
    "Unpy.Props.C115_start_twice",
    "Unpy.Props.C115_runs_until_stop",
    "Unpy.Props.C115_stop_refuted"
   ],
   "note": "C115_forwards_partial: **C115**: as long as each write takes all the bytes it is given, what is delivered at the slave side of the PTY is what was read from the socket, in order, and what is delivered to the socket is what was read from the PTY: nothing is lost, invented, repeated or reordered, however the two directions are interleaved, up to the stop, the disconnection or the error. Missing: a write that takes only a part (`C115_short_write_refuted`). C115_disconnect_partial: **C115**: when the end of one side is seen, its callback is called, exactly once, the other one is not called, and the thread returns, if the callback is set and returns. Missing: a callback that is not set (`C115_unset_refuted`) and ends that are reported as errors (`C115_hangup_refuted`). C115_once_partial: **C115**: at most one call is made in a session, whatever happens in it, if the callbacks, when they are called, do not raise ConnectionResetError. Missing: a callback that does (`C115_twice_refuted`). The code violates the rest: C115_short_write_refuted, C115_unset_refuted, C115_hangup_refuted, C115_twice_refuted, C115_stop_refuted."
  },
  {
   "property": "C116",
   "status": "partial",
   "theorems": [
    "Unpy.Props.C116_single",
    "Unpy.Props.C116_start",
    "Unpy.Props.C116_stop",
    "Unpy.Props.C116_stop_again",
    "Unpy.Props.C116_exit",
    "Unpy.Props.C116_restores_partial",
    "Unpy.Props.C116_streams_refuted",
    "Unpy.Props.C116_prompts_refuted",
    "Unpy.Props.C116_failed_start_refuted",
    "Unpy.Props.C116_leak_refuted",
    "Unpy.Props.C116_main",
    "Unpy.Props.C116_halt_refuted"
   ],
   "note": "C116_restores_partial: **C116**: `stop` gives back the streams and the prompts: if there were two prompts that are not empty, or none, when the module was imported, and nothing was assigned to them while the server ran, then after `stop` they are as at the import. Missing: streams and prompts assigned between the import and `start` (`C116_streams_refuted`), empty prompts and a single one (`C116_prompts_refuted`). The code violates the rest: C116_streams_refuted, C116_prompts_refuted, C116_failed_start_refuted, C116_leak_refuted, C116_halt_refuted."
  },
  {
   "property": "C117",
   "status": "partial",
   "theorems": [
    "Unpy.Props.C117_bletseq",
    "Unpy.Props.C117_single_partial",
    "Unpy.Props.C117_calm_partial",
    "Unpy.Props.C117_state_refuted",
    "Unpy.Props.C117_once_refuted",
    "Unpy.Props.C117_parameter_refuted",
    "Unpy.Props.C117_assigned_parameter_refuted",
    "Unpy.Props.C117_scope_refuted",
    "Unpy.Props.C117_decorators_refuted"
   ],
   "note": "C117_single_partial: C117: `dletseq` with one binding, for all functions, decorators and sequences of calls: the value is computed once, at the definition, and the variable keeps what is assigned to it from call to call. Missing: a parameter with the name of the variable, `C117_parameter_refuted`; more bindings, `C117_calm_partial`. C117_calm_partial: C117: `dletseq` with more bindings, for all functions and all sequences of calls, if the values of all bindings but the first are calm: they depend on the variables before them only, and computing them does nothing else; if no let variable is assigned to; if no parameter has the name of a let variable, and none is assigned to; and without other decorators. Missing: all else, see the refutations. The code violates the rest: C117_state_refuted, C117_once_refuted, C117_parameter_refuted, C117_assigned_parameter_refuted, C117_scope_refuted, C117_decorators_refuted."
  },
  {
   "property": "C118",
   "status": "partial",
   "theorems": [
    "Unpy.Props.C118_ulp_partial",
    "Unpy.Props.C118_ulp_near_one",
    "Unpy.Props.C118_below_power_refuted",
    "Unpy.Props.C118_largest_refuted",
    "Unpy.Props.C118_subnormal_refuted",
    "Unpy.Props.C118_zero_refuted"
   ],
   "note": "C118_ulp_partial: C118: for every normal float that is not just below a power of two (whose 53 bits do not start with 44 ones), `ulp` returns the value of its least-significant bit. Missing: the floats just below a power of two, and those below the normal range, see the refutations. The code violates the rest: C118_below_power_refuted, C118_largest_refuted, C118_subnormal_refuted, C118_zero_refuted."
  },
  {
   "property": "C119",
   "status": "partial",
   "theorems": [
    "Unpy.Props.C119_repr",
    "Unpy.Props.C119_form",
    "Unpy.Props.C119_lispy_partial",
    "Unpy.Props.C119_nested_refuted",
    "Unpy.Props.C119_work_partial",
    "Unpy.Props.C119_work_refuted"
   ],
   "note": "C119_lispy_partial: C119: `lispyrepr` gives the structure in dot notation, if no linked list in it has an element that is made of cells. Missing: such elements, `C119_nested_refuted`. C119_work_partial: C119: if every cell is part of a linked list (of linked lists, and so on), then each atom is represented once. Missing: other structures, `C119_work_refuted`. The code violates the rest: C119_nested_refuted, C119_work_refuted."
  },
  {
   "property": "C120",
   "status": "partial",
   "theorems": [
    "Unpy.Props.C120_isgeneric",
    "Unpy.Props.C120_list_partial",
    "Unpy.Props.C120_order_partial",
    "Unpy.Props.C120_other",
    "Unpy.Props.C120_doc_partial",
    "Unpy.Props.C120_format",
    "Unpy.Props.C120_no_source_refuted",
    "Unpy.Props.C120_name_refuted"
   ],
   "note": "C120_list_partial: C120: `list_methods` of a generic function gives all multimethods that were registered, the latest first; after any history of decorations of functions whose source code is available. Missing: functions without, `C120_no_source_refuted`. C120_order_partial: C120: a call runs the first multimethod that accepts the arguments, in the order of `list_methods`; if none of these does, it raises TypeError. This holds for functions and bound methods, after any history of decorations, if the first parameter of methods (only) is named self, this, cls or klass, and the type checker raises at most TypeError. Missing: methods with another name for it, `C120_name_refuted`. C120_doc_partial: C120: the docstring of a generic function has the descriptions of all its multimethods, each with its own docstring, in the order of registration, with a line between; after any history of decorations of functions whose source code is available. (Missing: functions without source code, see `C120_no_source_refuted`.) The code violates the rest: C120_no_source_refuted, C120_name_refuted."
  },
  {
   "property": "C121",
   "status": "partial",
   "theorems": [
    "Unpy.Props.C121_text",
    "Unpy.Props.C121_ok",
    "Unpy.Props.C121_colors",
    "Unpy.Props.C121_percentage_partial",
    "Unpy.Props.C121_percentage_refuted",
    "Unpy.Props.C121_empty"
   ],
   "note": "C121_percentage_partial: C121: the percentage shown is that of the tests that passed, rounded down, except that it can be one less if it is a whole number (but not if no test passed, or all of them). Missing: that one, `C121_percentage_refuted`. The code violates the rest: C121_percentage_refuted."
  },
  {
   "property": "C122",
   "status": "partial",
   "theorems": [
    "Unpy.Props.C122_story_partial",
    "Unpy.Props.C122_stories",
    "Unpy.Props.C122_circle_refuted",
    "Unpy.Props.C122_class"
   ],
   "note": "C122_story_partial: C122: the description of an exception is that of all exceptions that led to it, the first one first, with the text for a cause or for a context between two of them, each with its traceback, type and message; if the recursion limit allows for that many. (Missing: exceptions whose causes form a circle, see `C122_circle_refuted`.) The code violates the rest: C122_circle_refuted."
  },
  {
   "property": "C123",
   "status": "partial",
   "theorems": [
    "Unpy.Props.C123_arities_partial",
    "Unpy.Props.C123_calls_partial",
    "Unpy.Props.C123_kwargs_partial",
    "Unpy.Props.C123_kwargs_refuted",
    "Unpy.Props.C123_letters_refuted",
    "Unpy.Props.C123_bound_refuted",
    "Unpy.Props.C123_handler_partial",
    "Unpy.Props.C123_handler_refuted",
    "Unpy.Props.C123_base_refuted",
    "Unpy.Props.C123_negative_refuted",
    "Unpy.Props.C123_builtin_refuted"
   ],
   "note": "C123_arities_partial: C123: for a generic function, `arities` gives the smallest and the largest number of positional arguments, over all its multimethods. (Missing: bound methods and inherited multimethods, see `C123_bound_refuted` and `C123_base_refuted`.) C123_calls_partial: C123: if a call of a generic function goes to one of its own multimethods, and all that is passed by name are keyword-only arguments, then `arity_includes` is true of the number of positional arguments. (Missing: multimethods of a base class and bound methods, see `C123_base_refuted` and `C123_bound_refuted`; positional parameters passed by name.) C123_kwargs_partial: C123: if no multimethod has named arguments of the asked kind, then there are none (but what is returned is an empty dict, not a set). (Missing: multimethods that have such arguments, see `C123_kwargs_refuted` and `C123_letters_refuted`.) C123_handler_partial: C123: a generic function as a handler of conditions gets the condition if any of its multimethods can be called with one positional argument; if none of them takes any positional argument, then it is called without. (Missing: bound methods, see `C123_handler_refuted`, and generic functions of which some multimethods take positional arguments, but none just one.) The code violates the rest: C123_kwargs_refuted, C123_letters_refuted, C123_bound_refuted, C123_handler_refuted, C123_base_refuted, C123_negative_refuted, C123_builtin_refuted."
  },
  {
   "property": "C124",
   "status": "proved",
   "theorems": [
    "Unpy.Props.C124_traceback",
    "Unpy.Props.C124_errors",
    "Unpy.Props.C124_not_exception",
    "Unpy.Props.C124_signal"
   ],
   "note": ""
  },
  {
   "property": "C125",
   "status": "partial",
   "theorems": [
    "Unpy.Props.C125_block_partial",
    "Unpy.Props.C125_custom_partial",
    "Unpy.Props.C125_unchanged",
    "Unpy.Props.C125_expr",
    "Unpy.Props.C125_expr_value",
    "Unpy.Props.C125_text_partial",
    "Unpy.Props.C125_sep_refuted",
    "Unpy.Props.C125_star_refuted",
    "Unpy.Props.C125_nested_refuted"
   ],
   "note": "C125_block_partial: C125: a `with dbg` block does what the program does, with the same effects in the same order, except that each call of `print` prints the source code of its arguments with their values. (Missing: arguments with a star, see `C125_star_refuted`.) C125_custom_partial: C125: with a custom print function, the calls of that function get the source code and the values (and those of `print` are left alone). (Missing: arguments with a star and nested blocks, see `C125_star_refuted` and `C125_nested_refuted`.) C125_text_partial: C125: what is printed by default: file and line, then each source code with its value, with the separator between; if the separator has a line break, file and line are repeated for each. (Missing: `sep=None`, see `C125_sep_refuted`.) The code violates the rest: C125_sep_refuted, C125_star_refuted, C125_nested_refuted."
  },
  {
   "property": "C126",
   "status": "partial",
   "theorems": [
    "Unpy.Props.C126_notebook_partial",
    "Unpy.Props.C126_passthrough",
    "Unpy.Props.C126_theprint_refuted"
   ],
   "note": "C126_notebook_partial: C126: a `with nb` block runs its statements in order, prints the value of each expression statement that is not None, after storing it in `_`, and starts with None in `_`; if neither the program nor the printer assigns to a variable `theprint`. Calling the value `theprint` is `_print_and_passthrough`. (Missing: programs with such a variable, see `C126_theprint_refuted`.) The code violates the rest: C126_theprint_refuted."
  },
  {
   "property": "C127",
   "status": "partial",
   "theorems": [
    "Unpy.Props.C127_calls_partial",
    "Unpy.Props.C127_interrupted_refuted",
    "Unpy.Props.C127_describe",
    "Unpy.Props.C127_pair",
    "Unpy.Props.C127_complete",
    "Unpy.Props.C127_interrupt",
    "Unpy.Props.C127_desync_refuted"
   ],
   "note": "C127_calls_partial: C127: as long as the client is not interrupted while it waits for a reply, the result of each call is the answer of the server to the request of this call, if it is a success; else it is None. Whatever the server does, and whatever happens between the calls. (Missing: interruptions while waiting, see `C127_interrupted_refuted` and `C127_desync_refuted`.) The code violates the rest: C127_interrupted_refuted, C127_desync_refuted."
  },
  {
   "property": "C128",
   "status": "partial",
   "theorems": [
    "Unpy.Props.C128_composelc_partial",
    "Unpy.Props.C128_composerc_partial",
    "Unpy.Props.C128_named_f_refuted",
    "Unpy.Props.C128_pipec_partial",
    "Unpy.Props.C128_pipec_nothing",
    "Unpy.Props.C128_stack",
    "Unpy.Props.C128_left_over",
    "Unpy.Props.C128_composerc_refuted",
    "Unpy.Props.C128_composerc_toplevel_refuted"
   ],
   "note": "C128_composelc_partial: C128: `composelc(f1, ..., fn)` applies the functions in order, curried, all but the last in a curry context. (Missing: a named argument `f`; and a named value `f` on the way is a TypeError. See `C128_named_f_refuted`.) C128_composerc_partial: C128: `composerc(fn, ..., f1)` does the same; inside of a curry context, or for at most two functions. (Missing: three or more functions outside of any curry context, see `C128_composerc_refuted` and `C128_composerc_toplevel_refuted`; values named `f`, see `C128_named_f_refuted`.) C128_pipec_partial: C128: `pipec(values, f1, ..., fn)` does the same with the values; a single value is unpacked in the end (and none at all is an IndexError). (Missing: a named value `f` is a TypeError, see `C128_named_f_refuted`.) The code violates the rest: C128_named_f_refuted, C128_composerc_refuted, C128_composerc_toplevel_refuted."
  },
  {
   "property": "C129",
   "status": "partial",
   "theorems": [
    "Unpy.Props.C129_eq_partial",
    "Unpy.Props.C129_eq_views",
    "Unpy.Props.C129_eq_views_partial",
    "Unpy.Props.C129_refl",
    "Unpy.Props.C129_nan_refuted",
    "Unpy.Props.C129_symm_partial",
    "Unpy.Props.C129_unsized_refuted",
    "Unpy.Props.C129_unordered_refuted",
    "Unpy.Props.C129_shown_partial",
    "Unpy.Props.C129_shown_refuted"
   ],
   "note": "C129_eq_partial: C129: after any history (see C12, also for the condition on nested slices), a view is equal to a list, tuple or other sequence exactly if the part of the data it shows now has the same length and no item differs. Comparing changes nothing. Missing: what is not a sequence (`C129_unsized_refuted`, `C129_unordered_refuted`). C129_eq_views_partial: C129: and if they are the same object, then nothing is compared, but the answer is the same if items are equal to themselves. (Missing: items that are not equal to themselves, see `C129_nan_refuted`.) C129_symm_partial: C129: `v == w` and `w == v` are the same, if this holds of the items. (Missing: objects other than views, see `C129_unsized_refuted` and `C129_unordered_refuted`.) C129_shown_partial: C129: printing a view shows the part of the sequence that is in view now, as a sequence of the same type, except for strings and ranges. (Missing: these, see `C129_shown_refuted`.) The code violates the rest: C129_nan_refuted, C129_unsized_refuted, C129_unordered_refuted, C129_shown_refuted."
  },
  {
   "property": "C130",
   "status": "partial",
   "theorems": [
    "Unpy.Props.C130_apply",
    "Unpy.Props.C130_call_partial",
    "Unpy.Props.C130_wait_partial",
    "Unpy.Props.C130_first_refuted",
    "Unpy.Props.C130_refuse_partial",
    "Unpy.Props.C130_pass_partial",
    "Unpy.Props.C130_split_partial",
    "Unpy.Props.C130_positional_partial",
    "Unpy.Props.C130_conflict_refuted",
    "Unpy.Props.C130_longer_refuted",
    "Unpy.Props.C130_extra_refuted",
    "Unpy.Props.C130_method_refuted"
   ],
   "note": "C130_call_partial: C130: once the arguments so far are all that a multimethod needs, the curried function runs the multimethod that the generic function itself would run with all of them. (Missing: calls in which a multimethod would get an argument twice, see `C130_conflict_refuted`; bound methods, see `C130_method_refuted`; superfluous positional arguments and multimethods with keyword-only parameters, see `C34_overflow_refuted`.) C130_wait_partial: C130: if the arguments so far complete no multimethod, but they are all right for one, then the curried function waits, and nothing runs. (Missing: see `C130_call_partial`; and arguments for which the multimethod that was defined first has no parameter, see `C130_longer_refuted`.) C130_refuse_partial: C130: if the arguments so far are not all right for any multimethod, there is a TypeError at once, and nothing runs. (Missing: as in `C130_call_partial`.) C130_pass_partial: C130: if no multimethod takes all the arguments, but one is complete with some of them, the generic function is called without those that are left over for the most recent such multimethod, and these are passed on. (Missing: as in `C130_call_partial`; and arguments left over of which some came with an earlier call.) C130_split_partial: C130: however the arguments are split over calls, if the parts before the last one are all right for some multimethod but do not complete any, the curried function runs, when the last part arrives, the multimethod that the generic function itself would run with all the arguments. (Missing: as in the theorems before.) C130_positional_partial: C130: for a generic function whose multimethods all have the same number of ordinary parameters, and positional arguments, there are no further conditions: however the arguments are split over calls, the multimethod that runs is that of the direct call. (Missing: other signatures and named arguments, see `C130_split_partial`.) The code violates the rest: C130_first_refuted, C130_conflict_refuted, C130_longer_refuted, C130_extra_refuted, C130_method_refuted."
  },
  {
   "property": "C131",
   "status": "partial",
   "theorems": [
    "Unpy.Props.C131_apply",
    "Unpy.Props.C131_unannotated",
    "Unpy.Props.C131_named_partial",
    "Unpy.Props.C131_shift_refuted",
    "Unpy.Props.C131_half_refuted",
    "Unpy.Props.C131_same_partial",
    "Unpy.Props.C131_curry_partial",
    "Unpy.Props.C131_pass_partial",
    "Unpy.Props.C131_too_many",
    "Unpy.Props.C131_one_by_one_refuted",
    "Unpy.Props.C131_types_refuted",
    "Unpy.Props.C131_flip_refuted",
    "Unpy.Props.C131_flip_types_refuted",
    "Unpy.Props.C131_flip_named"
   ],
   "note": "C131_named_partial: C131: when more arguments are given to a partial application, and all the arguments are given by name, then the check is that of giving all of them at once. (Missing: positional arguments, see `C131_shift_refuted`; functions with `*args`.) C131_same_partial: C131: as long as there are parameters for all of them again, and the annotations of all the parameters are the same type, the check is right. (Missing: as `C131_shift_refuted` shows, any other case.) C131_curry_partial: C131: when the arguments are given in two calls of the curried function, the first of which does not complete them, the function is called with all of them exactly if the arguments of the first call fit the annotations; otherwise there is a TypeError at the first call. (Missing: more than two calls, see `C131_one_by_one_refuted`.) C131_pass_partial: C131: when all parameters that need an argument have one, but there are others left over, the function is called without these, and they are passed on; nothing is checked. (Missing: superfluous positional arguments of functions with keyword-only parameters, see `C34_overflow_refuted`; arguments left over of which some came with an earlier call.) The code violates the rest: C131_shift_refuted, C131_half_refuted, C131_one_by_one_refuted, C131_types_refuted, C131_flip_refuted, C131_flip_types_refuted."
  },
  {
   "property": "C132",
   "status": "partial",
   "theorems": [
    "Unpy.Props.C132_transparent_partial",
    "Unpy.Props.C132_once",
    "Unpy.Props.C132_unhashable",
    "Unpy.Props.C132_named_f_refuted",
    "Unpy.Props.C132_equal_refuted",
    "Unpy.Props.C132_positional_only_refuted"
   ],
   "note": "C132_transparent_partial: C132: whatever calls of the memoized function are made, in whatever order and however the arguments are given, each returns or raises what a call of the function itself does; if the arguments do not fit, that is the TypeError. (Missing: an argument named `f`, see `C132_named_f_refuted`; a named argument for `**kwargs` with the name of a positional-only parameter, see `C132_positional_only_refuted`; functions that distinguish values that are equal, see `C132_equal_refuted`.) The code violates the rest: C132_named_f_refuted, C132_equal_refuted, C132_positional_only_refuted."
  },
  {
   "property": "C133",
   "status": "partial",
   "theorems": [
    "Unpy.Props.C133_call_partial",
    "Unpy.Props.C133_withself_partial",
    "Unpy.Props.C133_passthrough",
    "Unpy.Props.C133_keys",
    "Unpy.Props.C133_views_refuted",
    "Unpy.Props.C133_cycle_refuted",
    "Unpy.Props.C133_sequence_refuted",
    "Unpy.Props.C133_named_f_refuted",
    "Unpy.Props.C133_threads_partial",
    "Unpy.Props.C133_threads_refuted"
   ],
   "note": "C133_call_partial: C133: a function called through the library is called once, with the same arguments, the same objects in them, and all containers as they are, just as if it were called directly; also if containers occur more than once in the arguments. (Missing: views of mappings, see `C133_views_refuted`; containers that contain themselves, see `C133_cycle_refuted`; sequences that cannot be built from their items, see `C133_sequence_refuted`; a named argument `f`, see `C133_named_f_refuted`; other threads, see `C133_threads_refuted`.) C133_withself_partial: C133 for `withself`: the function gets itself before the other arguments, and, through itself, can be called again in the same way. (Missing: as for `C133_call_partial`.) C133_threads_partial: C133 with other threads: what other threads append to a list before or after its items are prepared for the call stays in it, in order. (Missing: in between, see `C133_threads_refuted`.) The code violates the rest: C133_views_refuted, C133_cycle_refuted, C133_sequence_refuted, C133_named_f_refuted, C133_threads_refuted."
  },
  {
   "property": "C134",
   "status": "partial",
   "theorems": [
    "Unpy.Props.C134_name_partial",
    "Unpy.Props.C134_distinct",
    "Unpy.Props.C134_pickle_partial",
    "Unpy.Props.C134_pickle_fresh",
    "Unpy.Props.C134_text",
    "Unpy.Props.C134_text_distinct",
    "Unpy.Props.C134_name_refuted",
    "Unpy.Props.C134_str_refuted",
    "Unpy.Props.C134_attributes_refuted"
   ],
   "note": "C134_name_partial: C134: the symbol that `sym(n)` returns has the name `n`, and keeps it whatever else is done with symbols: calls, pickles, attributes. The same for UUID and label of a gensym. (Missing: different names that are equal, see `C134_name_refuted`.) C134_pickle_partial: C134: a symbol that is pickled at some time and unpickled while it is still alive, with any history between, gives the same object; it has the same name, its attributes are those it had when it was pickled, together with new ones, and no other object changes. (Partial: attributes changed since are changed back, see `C134_attributes_refuted`.) The code violates the rest: C134_name_refuted, C134_str_refuted, C134_attributes_refuted."
  },
  {
   "property": "C135",
   "status": "partial",
   "theorems": [
    "Unpy.Props.C135_inverse_partial",
    "Unpy.Props.C135_delays",
    "Unpy.Props.C135_total_partial",
    "Unpy.Props.C135_leaves",
    "Unpy.Props.C135_star_refuted",
    "Unpy.Props.C135_double_star_refuted",
    "Unpy.Props.C135_several_refuted",
    "Unpy.Props.C135_refused",
    "Unpy.Props.C135_stars_refuted",
    "Unpy.Props.C135_pairs_refuted",
    "Unpy.Props.C135_set_refuted"
   ],
   "note": "C135_inverse_partial: **C135, `force` undoes it.** Of a container literal `e`, nested as deep as may be, with all that `fine` admits: if `e` has a value, then `force(lazyrec[e])` is that value. (Missing: what `fine` leaves out, for most of which there is a refutation below; `lazy[...]` written inside `e`; for the order in which expressions are evaluated, and expressions `e` that raise an exception, see C159.) C135_total_partial: **C135, items that cannot be computed.** If a container literal could be made with the delayed expressions as they are in one world, `lazyrec[e]` makes it also where they raise exceptions, and `force` then finds in it what they are when it is called. (Missing: as for `C135_inverse_partial`.) The code violates the rest: C135_star_refuted, C135_double_star_refuted, C135_several_refuted, C135_stars_refuted, C135_pairs_refuted, C135_set_refuted."
  },
  {
   "property": "C136",
   "status": "partial",
   "theorems": [
    "Unpy.Props.C136_names_partial",
    "Unpy.Props.C136_names_refuted",
    "Unpy.Props.C136_pairs_partial",
    "Unpy.Props.C136_pairs_refuted",
    "Unpy.Props.C136_order",
    "Unpy.Props.C136_eq"
   ],
   "note": "C136_names_partial: C136, names: whatever is done with an env, starting with an empty one, only acceptable names are ever bound, if `update` and `setdefault` are used with acceptable names. So each binding can be deleted (unless the env is finalized), rebound, and read by its name (unless it is the name of a method, see C70). (Missing: `update` and `setdefault`, which do not check names, see `C136_names_refuted`; assignment to `_env` and `_finalized`, see C08.) C136_pairs_partial: C136, `update` with pairs instead of a mapping: in an env that is not finalized it does the same; and so in a finalized one, if there are no pairs. (Missing: pairs in finalized environments, see `C136_pairs_refuted`.) The code violates the rest: C136_names_refuted, C136_pairs_refuted."
  },
  {
   "property": "C137",
   "status": "partial",
   "theorems": [
    "Unpy.Props.C137_index_partial",
    "Unpy.Props.C137_slice_partial",
    "Unpy.Props.C137_whole",
    "Unpy.Props.C137_layers_refuted",
    "Unpy.Props.C137_types_refuted",
    "Unpy.Props.C137_fupdate"
   ],
   "note": "C137_index_partial: C137, indices: a tower of shadowed sequences, on any sequence, is read by an index, positive or negative, as the list with all updates done; an index out of range is an IndexError. It can be read any number of times, in any order: what was read before (`cs`) does not matter. (Missing: replacements which are iterators, which can be read once, in order, see C10; updates that do not fit.) C137_slice_partial: C137, slices: a shadowed sequence on a list or tuple gives, for any slice, the list or tuple that the updated sequence gives (for a named tuple, a tuple); a step of zero is a ValueError. (Missing: several layers, ranges and strings, which are refuted; iterators as replacements, and updates that do not fit, as above.) The code violates the rest: C137_layers_refuted, C137_types_refuted."
  },
  {
   "property": "C138",
   "status": "partial",
   "theorems": [
    "Unpy.Props.C138_copy_partial",
    "Unpy.Props.C138_disjoint",
    "Unpy.Props.C138_self",
    "Unpy.Props.C138_rejected",
    "Unpy.Props.C138_shift_refuted",
    "Unpy.Props.C138_mirror_refuted"
   ],
   "note": "C138_copy_partial: C138: after any history (see C12, also for the condition on nested slices), `v[k] = w`, where `w` is a view of the same sequence or the sequence itself, assigns what `w` showed before the assignment, if no position is written before it is read. (Missing: when the writes run ahead of the reads, where it is refuted.) The code violates the rest: C138_shift_refuted, C138_mirror_refuted."
  },
  {
   "property": "C139",
   "status": "partial",
   "theorems": [
    "Unpy.Props.C139_innermost_partial",
    "Unpy.Props.C139_restored",
    "Unpy.Props.C139_overlap_refuted",
    "Unpy.Props.C139_threads",
    "Unpy.Props.C139_thread_refuted"
   ],
   "note": "C139_innermost_partial: C139. At any time, what the innermost block in effect says is what counts; blocks that have been left have no effect, and what was there before is as it was. Partial: the blocks are nested, as those of ordinary functions always are. (Missing: generators that are suspended inside a block, see `C139_overlap_refuted`.) The code violates the rest: C139_overlap_refuted, C139_thread_refuted."
  },
  {
   "property": "C140",
   "status": "partial",
   "theorems": [
    "Unpy.Props.C140_counts_partial",
    "Unpy.Props.C140_no_deadlock",
    "Unpy.Props.C140_reports_partial",
    "Unpy.Props.C140_report_refuted",
    "Unpy.Props.C140_warning_refuted",
    "Unpy.Props.C140_ends_refuted",
    "Unpy.Props.C140_testset_refuted"
   ],
   "note": "C140_counts_partial: C140: in whatever order the threads run, when they are done, every test that ran has been counted once: as run, unless it is a warning, and as failed, errored or warned if it is. In the main thread, that is every test; another thread ends with its first test that does not pass, and does not get into a testset. (Missing: the tests after that, see `C140_ends_refuted` and `C140_testset_refuted`.) C140_reports_partial: C140: if all tests run in the main thread, then each testset reports the numbers of the tests in it, those in nested testsets included. (Missing: tests in other threads at the same time, see `C140_report_refuted`.) The code violates the rest: C140_report_refuted, C140_warning_refuted, C140_ends_refuted, C140_testset_refuted."
  },
  {
   "property": "C141",
   "status": "partial",
   "theorems": [
    "Unpy.Props.C141_terms_partial",
    "Unpy.Props.C141_restartable",
    "Unpy.Props.C141_twice_refuted",
    "Unpy.Props.C141_later_refuted",
    "Unpy.Props.C141_lost_refuted",
    "Unpy.Props.C141_square_refuted"
   ],
   "note": "C141_terms_partial: C141: if no generator is in the expression twice, and nothing has been taken from them before, then the items are the terms of the expression, up to the end of the shortest sequence. (Missing: a generator that is used twice, see `C141_twice_refuted`, `C141_later_refuted` and `C141_square_refuted`.) The code violates the rest: C141_twice_refuted, C141_later_refuted, C141_lost_refuted, C141_square_refuted."
  },
  {
   "property": "C142",
   "status": "partial",
   "theorems": [
    "Unpy.Props.C142_signal_partial",
    "Unpy.Props.C142_warn_partial",
    "Unpy.Props.C142_warning_partial",
    "Unpy.Props.C142_warning_refuted",
    "Unpy.Props.C142_arguments_refuted",
    "Unpy.Props.C142_raises",
    "Unpy.Props.C142_other",
    "Unpy.Props.C142_none_refuted",
    "Unpy.Props.C142_cause_refuted"
   ],
   "note": "C142_signal_partial: C142: `signal`, `error` and `cerror` of a class, with a class or an instance as the cause, or none: an instance is made of each class, first of that of the condition; then the instance is signalled, with its cause, as if it had been given. (Missing: `warn`, see `C142_warn_partial`; classes that cannot be called without arguments, see `C142_arguments_refuted`.) C142_warn_partial: C142: `warn` of a class signals the new instance; and if a handler does not decline, then the outcome is that of signalling it: if `muffle` is invoked, `warn` returns without a warning. (Missing: a warning that is emitted, see `C142_warning_refuted`.) C142_warning_partial: C142: if an instance is given to `warn`, and all handlers decline, then the warning has the category of the instance, if it is a `Warning`, and its text. (Missing: classes, see `C142_warning_refuted`.) The code violates the rest: C142_warning_refuted, C142_arguments_refuted, C142_none_refuted, C142_cause_refuted."
  },
  {
   "property": "C143",
   "status": "partial",
   "theorems": [
    "Unpy.Props.C143_failure",
    "Unpy.Props.C143_refused",
    "Unpy.Props.C143_own_partial",
    "Unpy.Props.C143_raised_partial",
    "Unpy.Props.C143_ended_partial",
    "Unpy.Props.C143_gone_partial",
    "Unpy.Props.C143_number_refuted",
    "Unpy.Props.C143_during_refuted",
    "Unpy.Props.C143_lost_refuted",
    "Unpy.Props.C143_ended_refuted",
    "Unpy.Props.C143_instance_refuted"
   ],
   "note": "C143_own_partial: C143: what is raised in a thread has been asked for, by calls of `async_raise` for this thread that returned; in this order, and each at most once. This is so as long as no thread gets a number that another one had. (Missing: numbers that are used again, see `C143_number_refuted`; that all of it is raised, see `C143_lost_refuted`.) C143_raised_partial: C143: if the thread is running, and does not end during the call, then `async_raise` returns, after any history; the exception is to be raised in this thread; and when this runs next, it is raised there (a class is instantiated). The other threads are left alone. (Missing: instances, see `C143_instance_refuted`; a thread that ends before it runs again, see `C143_ended_refuted`.) C143_ended_partial: C143: a thread that has ended, whose number no running thread has, is a ValueError, and nothing is done. (Missing: numbers that are used again, see `C143_number_refuted`.) C143_gone_partial: C143: so is a thread that ends during the call; if no running thread has got its number by then, nothing is done besides what the threads do. (Missing: numbers that are used again, see `C143_during_refuted`.) The code violates the rest: C143_number_refuted, C143_during_refuted, C143_lost_refuted, C143_ended_refuted, C143_instance_refuted."
  },
  {
   "property": "C144",
   "status": "proved",
   "theorems": [
    "Unpy.Props.C144_equip",
    "Unpy.Props.C144_refused",
    "Unpy.Props.C144_signal"
   ],
   "note": ""
  },
  {
   "property": "C145",
   "status": "partial",
   "theorems": [
    "Unpy.Props.C145_right_partial",
    "Unpy.Props.C145_left_partial",
    "Unpy.Props.C145_left_forces",
    "Unpy.Props.C145_left_refuted",
    "Unpy.Props.C145_one_refuted",
    "Unpy.Props.C145_let_refuted",
    "Unpy.Props.C145_flip_partial"
   ],
   "note": "C145_right_partial: C145, from right to left, of two or more functions. Calling the composition with any arguments (values and promises) is calling the last function with them (as they are if it has been marked, else their values), and then the others in turn. In lazy code the composition itself is given the promises as they are, and all functions there were before are marked as before. (Missing: functions called `_let`, see `C145_let_refuted`; one function, see `C145_one_refuted`.) C145_left_partial: C145, from left to right, of two functions, or where the first function has not been marked. (Missing: three or more functions of which the first has been marked, see `C145_left_refuted`; functions called `_let`; one function.) C145_flip_partial: C145, `flip`: a function that has been marked is given the arguments as they are, in reverse; others are given their values, which are computed in the order of the call. The flipped function is a new one, and is not any of those that are made later. (Missing: functions called `_let`.) The code violates the rest: C145_left_refuted, C145_one_refuted, C145_let_refuted."
  },
  {
   "property": "C146",
   "status": "partial",
   "theorems": [
    "Unpy.Props.C146_names_partial",
    "Unpy.Props.C146_taken_refuted"
   ],
   "note": "C146_names_partial: C146: by each of the ways through the library the function is called with just the given arguments, positional and named, and what it returns or raises is the result. (Missing: the names of parameters of the library's own functions on the way, see `C146_taken_refuted`.) The code violates the rest: C146_taken_refuted."
  },
  {
   "property": "C147",
   "status": "partial",
   "theorems": [
    "Unpy.Props.C147_self_partial",
    "Unpy.Props.C147_self_unique",
    "Unpy.Props.C147_busy_refuted"
   ],
   "note": "C147_self_partial: C147: a memoized generator may use itself. If a sequence of outcomes is what the generator does when the instances that it uses have these same outcomes, each outcome depending on earlier ones only, then every instance delivers this sequence, in order, however many there are and in whatever order they are used, and the memo is as long as what the most advanced of them has delivered. (Missing: a generator that asks for an item it has not delivered yet, see `C147_busy_refuted`.) The code violates the rest: C147_busy_refuted."
  },
  {
   "property": "C148",
   "status": "partial",
   "theorems": [
    "Unpy.Props.C148_evaluates_at_most_once",
    "Unpy.Props.C148_transparent",
    "Unpy.Props.C148_no_deadlock_partial",
    "Unpy.Props.C148_deadlock_refuted"
   ],
   "note": "C148_no_deadlock_partial: C148: if the functions are in layers, so that each calls only itself and functions in lower layers, then the threads never get into a deadlock: whatever has happened, they can still complete all their calls. (Missing: memoized functions that call each other, as they may deadlock; see `C148_deadlock_refuted`.) The code violates the rest: C148_deadlock_refuted."
  },
  {
   "property": "C149",
   "status": "partial",
   "theorems": [
    "Unpy.Props.C149_meaning_partial",
    "Unpy.Props.C149_shadow_refuted"
   ],
   "note": "C149_meaning_partial: C149: running the block after the expansion of all macros has the outcome that the program has if a lambda with a body in brackets runs the items in order, in the scope of its parameters, with local variables, and returns the value of the last; all other brackets are lists. (Missing: programs that do not keep to the conditions `Wf`, see C87; programs in which an item has a `let`, `do` or lambda that declares a name of the lambda around it again, see `C149_shadow_refuted`.) The code violates the rest: C149_shadow_refuted."
  },
  {
   "property": "C150",
   "status": "partial",
   "theorems": [
    "Unpy.Props.C150_transparent",
    "Unpy.Props.C150_strict_once",
    "Unpy.Props.C150_once_partial",
    "Unpy.Props.C150_once_refuted"
   ],
   "note": "C150_once_partial: C150: the body of any memoized function is run at most once for the same arguments: for the same objects, if they are promises. (Missing: different promises with the same value, see `C150_once_refuted`.) The code violates the rest: C150_once_refuted."
  },
  {
   "property": "C151",
   "status": "partial",
   "theorems": [
    "Unpy.Props.C151_ordinary_partial",
    "Unpy.Props.C151_cycles_refuted"
   ],
   "note": "C151_ordinary_partial: C151: in a `with lazify` block, whenever plain recursion terminates, `@fix` gives the same result, after any history of earlier calls, with or without `memo`. (Missing: cycles are not broken, see below.) The code violates the rest: C151_cycles_refuted."
  },
  {
   "property": "C152",
   "status": "partial",
   "theorems": [
    "Unpy.Props.C152_transparent",
    "Unpy.Props.C152_no_deadlock_partial",
    "Unpy.Props.C152_deadlock_refuted"
   ],
   "note": "C152_no_deadlock_partial: C152: if the generators are in layers, so that each uses only its own earlier items and generators in lower layers, then the threads never get into a deadlock: whatever has happened, they can still complete all their calls of `next`. (Missing: generators that use each other, as they may deadlock; see `C152_deadlock_refuted`.) The code violates the rest: C152_deadlock_refuted."
  },
  {
   "property": "C153",
   "status": "partial",
   "theorems": [
    "Unpy.Props.C153_marked_partial",
    "Unpy.Props.C153_rest_partial",
    "Unpy.Props.C153_strict_partial",
    "Unpy.Props.C153_annotated_refuted",
    "Unpy.Props.C153_rest_refuted",
    "Unpy.Props.C153_annotated_partial",
    "Unpy.Props.C153_annotated_again"
   ],
   "note": "C153_marked_partial: C153: a curried function that is defined in a `with lazify` block (so it is marked) and has no annotations may be given its arguments in any number of calls. It is called with the arguments as they were given: currying does not evaluate any of them. If it is given all the arguments in one call, it may have annotations. (Missing: functions with annotations, see `C153_annotated_refuted`.) C153_rest_partial: C153: if such a function gets more arguments than it has parameters, and returns a function, then that one is curried and gets the arguments that are left, as they were given; if it returns anything else, there is a TypeError. (Missing: functions defined elsewhere, see `C153_rest_refuted`.) C153_strict_partial: C153: any other curried function without annotations is called with the values of its arguments, which are evaluated in their order, those of each call when it is made. (Missing: functions with annotations, see C131, and arguments that are left over, see `C153_rest_refuted`.) C153_annotated_partial: C153: a curried function that is defined in a `with lazify` block and has annotations can get its arguments in two calls if those of the first call that are for parameters with an annotation are values (not promises) of its type. (Missing: the others, see `C153_annotated_refuted` and `C153_annotated_again`.) The code violates the rest: C153_annotated_refuted, C153_rest_refuted."
  },
  {
   "property": "C154",
   "status": "partial",
   "theorems": [
    "Unpy.Props.C154_lazy_partial",
    "Unpy.Props.C154_strict_partial",
    "Unpy.Props.C154_strict_refuted"
   ],
   "note": "C154_lazy_partial: C154, if all the trampolines have been made while a `with lazify` block was running: the program has the same outcome and effects as if the tail calls were other calls. Its functions may be marked or not, and call each other in any order. (Missing: trampolines made elsewhere, see `C154_strict_partial`.) C154_strict_partial: C154: also with trampolines made elsewhere, if the functions that can run in them make no tail calls that give promises to functions that have not been marked. (Missing: other programs, see `C154_strict_refuted`.) The code violates the rest: C154_strict_refuted."
  },
  {
   "property": "C155",
   "status": "partial",
   "theorems": [
    "Unpy.Props.C155_call",
    "Unpy.Props.C155_apply_partial",
    "Unpy.Props.C155_apply_refuted",
    "Unpy.Props.C155_notf",
    "Unpy.Props.C155_andf",
    "Unpy.Props.C155_orf",
    "Unpy.Props.C155_rotate",
    "Unpy.Props.C155_rotate_errors",
    "Unpy.Props.C155_tokth_partial",
    "Unpy.Props.C155_tokth_refuted",
    "Unpy.Props.C155_withself"
   ],
   "note": "C155_apply_partial: C155: `apply(f, *args, lst)`, where the list is written in the call, or is a value: the function gets the arguments and the items of the list, as they are if it is marked, and otherwise their values. (Missing: lists that are promises, see `C155_apply_refuted`.) C155_tokth_partial: C155: `tokth(k, f)` of a function that is not marked evaluates its arguments, in order, and returns them, with the result of the function in the place of one of them. (Missing: marked functions, see `C155_tokth_refuted`.) The code violates the rest: C155_apply_refuted, C155_tokth_refuted."
  },
  {
   "property": "C156",
   "status": "partial",
   "theorems": [
    "Unpy.Props.C156_piped_partial",
    "Unpy.Props.C156_lazy_piped",
    "Unpy.Props.C156_lazy_piped_none",
    "Unpy.Props.C156_pipe_partial",
    "Unpy.Props.C156_pipe_refuted",
    "Unpy.Props.C156_piped_refuted",
    "Unpy.Props.C156_outcome"
   ],
   "note": "C156_piped_partial: C156: `piped(*xs) | f1 | ... | exitpipe`, of one or more functions (and the same with `piped1`), is calling the functions in turn. The first one gets the initial values as they are (none of them evaluated) if it is marked, and otherwise their values. (Missing: no functions, see `C156_piped_refuted`.) C156_pipe_partial: C156: `pipe(values0, f1, ...)`, and the same with `pipe1`, is calling the functions in turn on the initial values, if these are not promises, or if the first function is a value and is not marked. With a promise, this is evaluated first of all. (Missing: promises with a first function that is marked, see `C156_pipe_refuted`.) The code violates the rest: C156_pipe_refuted, C156_piped_refuted."
  },
  {
   "property": "C157",
   "status": "partial",
   "theorems": [
    "Unpy.Props.C157_value_partial",
    "Unpy.Props.C157_depth",
    "Unpy.Props.C157_once_partial",
    "Unpy.Props.C157_strict_partial",
    "Unpy.Props.C157_rebind",
    "Unpy.Props.C157_refuted"
   ],
   "note": "C157_value_partial: C157: the value of an expression with `let` and `letrec`, to any depth, in a `with lazify` block is the one it has by name: each name stands for the expression it is bound to, evaluated where it is used. The same exceptions are raised, those of right-hand sides that are not used are not raised, and the one comes to an end exactly if the other does. (Missing: right-hand sides in a `letrec` that are just the name of a later binding, or of the same one, see `C157_refuted`.) C157_once_partial: C157: each right-hand side is evaluated at most once for each time its `let` is, however often the name is used; also if evaluating it raises, or if other names are bound to the name. (Missing: see `C157_refuted`.) C157_strict_partial: C157: if the expression has a value outside of a `with lazify` block, it has the same value in one. (Missing: see `C157_refuted`.) The code violates the rest: C157_refuted."
  },
  {
   "property": "C158",
   "status": "partial",
   "theorems": [
    "Unpy.Props.C158_value_partial",
    "Unpy.Props.C158_depth",
    "Unpy.Props.C158_once_partial",
    "Unpy.Props.C158_strict_partial",
    "Unpy.Props.C158_refuted"
   ],
   "note": "C158_value_partial: C158: what an expression with functions, calls, `let` and `letrec`, to any depth, comes to in a `with lazify` block is what it comes to by name: each parameter stands for the argument of the call, and each other name for the expression it is bound to, evaluated where it is used. The same exceptions are raised, those of arguments that are not used are not raised, and the one comes to an end exactly if the other does. Functions may be arguments and results, and may be called from anywhere. (Missing: right-hand sides in a `letrec` that are just the name of a later binding, or of the same one, see `C158_refuted`.) C158_once_partial: C158: each argument is evaluated at most once for each call, and each right-hand side at most once for each time its `let` is, however often the name is used and to however many functions it is passed on; also if evaluating it raises. (Missing: see `C158_refuted`.) C158_strict_partial: C158: if the expression has a value outside of a `with lazify` block, where arguments and right-hand sides are evaluated at once, it has the same value in one. (Missing: see `C158_refuted`.) The code violates the rest: C158_refuted."
  },
  {
   "property": "C159",
   "status": "partial",
   "theorems": [
    "Unpy.Props.C159_now",
    "Unpy.Props.C159_same_partial",
    "Unpy.Props.C159_again_raises_partial",
    "Unpy.Props.C159_again_returns",
    "Unpy.Props.C159_in_place",
    "Unpy.Props.C159_keys_refuted",
    "Unpy.Props.C159_equal_refuted",
    "Unpy.Props.C159_stopiteration_refuted",
    "Unpy.Props.C159_exit_refuted"
   ],
   "note": "C159_same_partial: **C159, what holds.** If the keys of the dictionaries in `e` are constants, different from each other, then evaluating `lazyrec[e]` does nothing; and `force`, on what it gives, does what evaluating `e` would do at that time: the same leaves are evaluated, in the same order, each once, until one raises; and the outcome is the same value, or the same exception (if there are no tuples in `e`, or it is not a StopIteration; see `C159_stopiteration_refuted`). (Missing: keys that do something, see `C159_keys_refuted`; equal keys, see `C159_equal_refuted`.) C159_again_raises_partial: **C159, forcing again, if it raised.** When `force` has raised an exception, and mutable containers in the structure may have been updated, forcing the same object again, at once or later (`s2`, in which what has been evaluated is as it was), raises the same exception; no leaf is evaluated again, and nothing changes any more. `hE`: leaves raise instances of `Exception`. (Missing: other exceptions, see `C159_exit_refuted`.) The code violates the rest: C159_keys_refuted, C159_equal_refuted, C159_stopiteration_refuted, C159_exit_refuted."
  },
  {
   "property": "C160",
   "status": "partial",
   "theorems": [
    "Unpy.Props.C160_terms_partial",
    "Unpy.Props.C160_functions",
    "Unpy.Props.C160_mirror_refuted",
    "Unpy.Props.C160_chain",
    "Unpy.Props.C160_chain_refuted",
    "Unpy.Props.C160_truth",
    "Unpy.Props.C160_truth_refuted",
    "Unpy.Props.C160_pow3_refuted"
   ],
   "note": "C160_terms_partial: C160: an expression with infix operators (and function forms such as `sadd`), in which each operation has an operand with math support or two numbers: it is evaluated without an exception; the result has math support if an operand has; its length is that of the shortest sequence; and the numbers in it, at all depths, are those of the operation applied to the numbers that meet there, in the order in which they are written, with numbers repeated for all places of a sequence. (Missing: comparisons whose left operand has no math support, if `x > y` is not the same as `y < x`: `C160_mirror_refuted`; chained comparisons and `not`: `C160_chain_refuted`, `C160_truth_refuted`; and `pow` with three arguments and a number first: `C160_pow3_refuted`.) The code violates the rest: C160_mirror_refuted, C160_chain_refuted, C160_truth_refuted, C160_pow3_refuted."
  },
  {
   "property": "C161",
   "status": "proved",
   "theorems": [
    "Unpy.Props.C161_exact",
    "Unpy.Props.C161_once",
    "Unpy.Props.C161_rules",
    "Unpy.Props.C161_mistakes",
    "Unpy.Props.C161_inert",
    "Unpy.Props.C161_reuse"
   ],
   "note": ""
  },
  {
   "property": "C162",
   "status": "partial",
   "theorems": [
    "Unpy.Props.C162_verdict_partial",
    "Unpy.Props.C162_text_partial",
    "Unpy.Props.C162_trivial_refuted",
    "Unpy.Props.C162_repr_refuted",
    "Unpy.Props.C162_truth_refuted",
    "Unpy.Props.C162_unconditional",
    "Unpy.Props.C162_unexpected",
    "Unpy.Props.C162_expected",
    "Unpy.Props.C162_expected_text"
   ],
   "note": "C162_verdict_partial: C162: what a test counts as, and the type of what is signaled, if the captured values and the result can be shown and the result can be a condition: it passes if the value is true; it fails if it is false, and for `fail[]`; it is an error for an exception, an uncaught signal and `error[]`; `warn[]` counts as a warning and not as a test. (Missing: values that cannot be shown, or cannot be a condition: `C162_repr_refuted`, `C162_truth_refuted`.) C162_text_partial: C162: the text for a test that fails has its source code, all captured values with their source code, in the order in which they were captured, or the result if there are none, and the message of the user. (Missing: trivial ones should be left out: `C162_trivial_refuted`.) The code violates the rest: C162_trivial_refuted, C162_repr_refuted, C162_truth_refuted."
  },
  {
   "property": "C163",
   "status": "partial",
   "theorems": [
    "Unpy.Props.C163_call_partial",
    "Unpy.Props.C163_typed_partial",
    "Unpy.Props.C163_unbound_refuted",
    "Unpy.Props.C163_repr_refuted",
    "Unpy.Props.C163_same",
    "Unpy.Props.C163_application_partial",
    "Unpy.Props.C163_application_typed_partial",
    "Unpy.Props.C163_application_unbound_refuted",
    "Unpy.Props.C163_chain_refuted",
    "Unpy.Props.C163_method_partial",
    "Unpy.Props.C163_method_typed_partial",
    "Unpy.Props.C163_inherited_refuted"
   ],
   "note": "C163_call_partial: C163: after any history of decorations, if no multimethod of a generic function accepts a call, and it has not just one, a TypeError is raised that shows the call with its arguments as they were given, and all its multimethods, the most recent one first: this is the order in which they were tried. (Missing: only one multimethod, see `C163_typed_partial`; arguments that cannot be written, `C163_repr_refuted`.) C163_typed_partial: C163: if a generic function has just one multimethod (as a `@typed` function), to which the arguments of the call can be bound, the error also tells, in the order of the parameters, exactly those whose values are of the wrong type, with these and the types that were expected. There is at least one. (Missing: arguments that cannot be bound, `C163_unbound_refuted`; or cannot be written, `C163_repr_refuted`.) C163_application_partial: C163: the same for a partial application that no multimethod allows (see C130), made at once or in several steps: the error shows all arguments given so far, with dots for those that may follow. (Missing: only one multimethod, see `C163_application_typed_partial`; methods, see `C163_chain_refuted`; arguments that cannot be written, or as nothing.) C163_application_typed_partial: C163: if the function has just one multimethod, and it can take the arguments given so far, the error also tells exactly those parameters whose values are of the wrong type. There is at least one. (Missing: arguments it cannot take, see `C163_application_unbound_refuted`; methods; arguments that cannot be written, or as nothing.) C163_method_partial: C163: the same for a method, called on an object whose class and all its base classes that have the method define it themselves: the multimethods are shown class by class in MRO order, the most recent first within each class. (Missing: classes that inherit the method, see `C163_inherited_refuted`; objects that are false, see `C45_falsy_refuted`; only one multimethod, see `C163_method_typed_partial`; arguments that cannot be written.) C163_method_typed_partial: C163: if such a method has just one multimethod in all of these classes, to which the arguments of the call can be bound, the error also tells exactly those parameters whose values are of the wrong type. There is at least one. (Missing: as for `C163_method_partial`; and arguments that cannot be bound, as in `C163_unbound_refuted`.) The code violates the rest: C163_unbound_refuted, C163_repr_refuted, C163_application_unbound_refuted, C163_chain_refuted, C163_inherited_refuted."
  },
  {
   "property": "C164",
   "status": "partial",
   "theorems": [
    "Unpy.Props.C164_let_partial",
    "Unpy.Props.C164_let_error",
    "Unpy.Props.C164_letseq_partial",
    "Unpy.Props.C164_letseq_split",
    "Unpy.Props.C164_let_letseq",
    "Unpy.Props.C164_malformed",
    "Unpy.Props.C164_class_refuted"
   ],
   "note": "C164_let_partial: C164: `let[[x0, e0], ...][body]` with different names evaluates the values from left to right, each once, in the scope where the expression is, and then the body, where besides the names of that scope those bound are seen, and hide others of the same name; if a value raises, nothing after it is evaluated. (Missing: class bodies, see `C164_class_refuted`.) C164_letseq_partial: C164: `letseq` accepts any bindings; each value is evaluated once, in the order written, where the names bound before are seen, and a name may be bound again; then the body is evaluated. (Missing: class bodies, see `C164_class_refuted`.) The code violates the rest: C164_class_refuted."
  },
  {
   "property": "C165",
   "status": "partial",
   "theorems": [
    "Unpy.Props.C165_site_partial",
    "Unpy.Props.C165_callwith_refuted",
    "Unpy.Props.C165_name_refuted",
    "Unpy.Props.C165_tail_refuted",
    "Unpy.Props.C165_first"
   ],
   "note": "C165_site_partial: C165: called directly, or through any of the helpers for lazy and curried code and `call`, nested in any way, `callsite_filename` returns the file of the function that makes the call. (Missing: `callwith`, see `C165_callwith_refuted`; functions named like one of these helpers, see `C165_name_refuted`; tail calls, see `C165_tail_refuted`.) The code violates the rest: C165_callwith_refuted, C165_name_refuted, C165_tail_refuted."
  },
  {
   "property": "C166",
   "status": "partial",
   "theorems": [
    "Unpy.Props.C166_expr_partial",
    "Unpy.Props.C166_block_partial",
    "Unpy.Props.C166_rename",
    "Unpy.Props.C166_arguments_refuted",
    "Unpy.Props.C166_items_refuted",
    "Unpy.Props.C166_test_refuted"
   ],
   "note": "C166_expr_partial: C166: `m[body]` is recognized as a use of an expression macro, and its body found, exactly if what is before the bracket is bound to the macro, by whatever name, or is a capture of it. (Missing: uses with macro arguments, see `C166_arguments_refuted`.) C166_block_partial: C166: `with m: …`, `with m[args]: …` and `with m(args): …` are recognized as uses of a block macro exactly if `m` is bound to it. (Missing: other items than the first, see `C166_items_refuted`.) The code violates the rest: C166_arguments_refuted, C166_items_refuted, C166_test_refuted."
  },
  {
   "property": "C167",
   "status": "partial",
   "theorems": [
    "Unpy.Props.C167_known",
    "Unpy.Props.C167_instance_partial",
    "Unpy.Props.C167_unknown",
    "Unpy.Props.C167_returns_partial",
    "Unpy.Props.C167_metaclass_refuted",
    "Unpy.Props.C167_docstring_refuted"
   ],
   "note": "C167_instance_partial: C167: if its source is not known, as for instances, the place of its class is printed, if that is known, and then the docstring of the object. (Missing: the place may then be of no use, see `C167_metaclass_refuted`.) C167_returns_partial: C167: `doc` never fails for an object that has a docstring or none, if the source of the object and of its class are known or not known; what it prints last is the docstring, or that there is none, and at most one line, the place, comes before. (Missing: other values of `__doc__`, see `C167_docstring_refuted`.) The code violates the rest: C167_metaclass_refuted, C167_docstring_refuted."
  },
  {
   "property": "C168",
   "status": "partial",
   "theorems": [
    "Unpy.Props.C168_detect_partial",
    "Unpy.Props.C168_own_function_refuted",
    "Unpy.Props.C168_missed_refuted"
   ],
   "note": "C168_detect_partial: C168: of a block in which some `do` expressions have been expanded already, curried or not, and nested in whatever way, exactly the lambdas are found that the user has written, each once, from left to right, and the outer ones first; none that was made for a line of a `do`. (Missing: functions and methods of the user's own that are called `dof` or `currycall`, see `C168_own_function_refuted` and `C168_missed_refuted`.) The code violates the rest: C168_own_function_refuted, C168_missed_refuted."
  }
 ]
}