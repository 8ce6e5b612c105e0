import Verif.Proof.ForceArgs
/-!
# C133: arguments of calls through the library
-/
namespace Unpy.Props
open Unpy Unpy.ForceArgs Unpy.Spec.ForceArgs Unpy.Proof.ForceArgs

variable {α σ R : Type}

/-! ## An example -/

/-- Numbers are hashable, and so are immutable containers; class 7 stands for `memoryview`, whose constructor takes no iterable. -/
def c133Env : ForceArgs.Env Nat where
  eqv | .atom a, .atom b => a == b
      | _, _ => false
  hashable | .ref _ => false
           | _ => true
  ctor cls := cls != 7

/-- At 0, a list with the tuple `(1, [2])` and the list `[2]` in it; the list `[2]` is at 1.  At 2, the dict `{10: 5, 20: 5}`; at 3, the dict `{10: [2]}`.
At 4, a list that contains itself.  At 5, the set `{1, 2}`. -/
def c133Heap : ForceArgs.Heap Nat
  | 0 => some (.list, [.imm .tuple [.atom 1, .ref 1], .ref 1])
  | 1 => some (.list, [.atom 2])
  | 2 => some (.dict [10, 20], [.atom 5, .atom 5])
  | 3 => some (.dict [10], [.ref 1])
  | 4 => some (.list, [.atom 1, .ref 4])
  | 5 => some (.set, [.atom 1, .atom 2])
  | _ => none

/-- A function that returns its positional arguments, in a world that counts calls. -/
def c133Func : ForceArgs.Func Nat Nat (List (Obj Nat)) := ⟨false, fun args _ h s => (.ok args, h, s + 1)⟩

/-- What iterating over an object gives. -/
def c133Iter (h : ForceArgs.Heap Nat) : Obj Nat → List (Obj Nat)
  | .atom _ => []
  | .imm _ xs => xs
  | .ref addr => ((h addr).map Prod.snd).getD []
  | .view w addr => match h addr with
    | some (.dict keys, xs) => viewItems keys xs w
    | _ => []

/-! ## What holds -/

/-- C133: a function called through the library is called once, with the same arguments, the same objects in them, and all containers as they are, just as if it were
called directly; also if containers occur more than once in the arguments.
(Missing: views of mappings, see `C133_views_refuted`; containers that contain themselves, see `C133_cycle_refuted`; sequences that
cannot be built from their items, see `C133_sequence_refuted`; a named argument `f`, see `C133_named_f_refuted`; other threads, see
`C133_threads_refuted`.) -/
theorem C133_call_partial (E : ForceArgs.Env α) (n depth : Nat) (hd : n ≤ depth) (f : ForceArgs.Func α σ R) (args : List (Obj α))
    (kwargs : PyDict String (Obj α)) (h : ForceArgs.Heap α) (hf : PyDict.has kwargs "f" = false)
    (ha : ∀ x ∈ args, Plain E h n x) (hk : ∀ p ∈ kwargs, Plain E h n p.2) (s : σ) :
    ForceArgs.call E depth f args kwargs h s = direct f args kwargs h s ∧
    ForceArgs.callwith E depth args kwargs f h s = direct f args kwargs h s :=
  ⟨maybeForceArgs_plain E n depth hd f args kwargs h s hf ha hk, maybeForceArgs_plain E n depth hd f args kwargs h s hf ha hk⟩

private theorem plain0 : Plain c133Env c133Heap 4 (.ref 0) := by
  have h1 : ∀ n, 2 ≤ n → Plain c133Env c133Heap n (.ref 1) := by
    intro n hn
    obtain ⟨m, rfl⟩ : ∃ m, n = m + 2 := ⟨n - 2, by omega⟩
    exact ⟨.list, [.atom 2], rfl, by simp [Plain], by simp⟩
  refine ⟨.list, [.imm .tuple [.atom 1, .ref 1], .ref 1], rfl, ?_, by simp⟩
  simp only [List.mem_cons, List.not_mem_nil, or_false, forall_eq_or_imp, forall_eq]
  refine ⟨⟨?_, by simp, by simp⟩, h1 3 (by omega)⟩
  simp only [List.mem_cons, List.not_mem_nil, or_false, forall_eq_or_imp, forall_eq]
  exact ⟨trivial, h1 2 (by omega)⟩

example : Plain c133Env c133Heap 4 (.ref 0) := plain0
example : Plain c133Env c133Heap 2 (.ref 5) := ⟨.set, [.atom 1, .atom 2], rfl, by simp [Plain], fun _ => by simp [SetLike, c133Env]⟩
example : ∃ h, ForceArgs.call c133Env 10 c133Func [.ref 0, .ref 1, .ref 0] [("x", .atom 3)] c133Heap 7 = (.ok [.ref 0, .ref 1, .ref 0], h, 8) ∧
    h 0 = c133Heap 0 ∧ h 1 = c133Heap 1 := ⟨_, rfl, rfl, rfl⟩

/-- C133 for `withself`: the function gets itself before the other arguments, and, through itself, can be called again in the same way.
(Missing: as for `C133_call_partial`.) -/
theorem C133_withself_partial (E : ForceArgs.Env α) (n depth : Nat) (hd : n ≤ depth) (hn : 0 < n) (self : α) (f : ForceArgs.Func α σ R)
    (args : List (Obj α)) (kwargs : PyDict String (Obj α)) (h : ForceArgs.Heap α) (hf : PyDict.has kwargs "f" = false)
    (ha : ∀ x ∈ args, Plain E h n x) (hk : ∀ p ∈ kwargs, Plain E h n p.2) (s : σ) :
    (ForceArgs.withself E depth self f).body args kwargs h s = direct f (.atom self :: args) kwargs h s := by
  refine maybeForceArgs_plain E n depth hd f _ kwargs h s hf ?_ hk
  intro x hx
  rcases List.mem_cons.1 hx with rfl | hx
  · obtain ⟨m, rfl⟩ : ∃ m, n = m + 1 := ⟨n - 1, by omega⟩
    trivial
  · exact ha x hx

example : ∃ h, (ForceArgs.withself c133Env 10 99 c133Func).body [.ref 0] [] c133Heap 7 = (.ok [.atom 99, .ref 0], h, 8) := ⟨_, rfl⟩

/-- C133: a function marked by `passthrough_lazy_args` gets whatever it is given, as it is.  (The name of the parameter of `call` remains.) -/
theorem C133_passthrough (E : ForceArgs.Env α) (depth : Nat) (f : ForceArgs.Func α σ R) (hl : f.lazy = true) (args : List (Obj α))
    (kwargs : PyDict String (Obj α)) (hf : PyDict.has kwargs "f" = false) (h : ForceArgs.Heap α) (s : σ) :
    ForceArgs.call E depth f args kwargs h s = direct f args kwargs h s := by
  simp only [ForceArgs.call, maybeForceArgs, hf, hl, Bool.false_eq_true, if_false, if_true, direct]

example : (⟨true, c133Func.body⟩ : ForceArgs.Func Nat Nat _).lazy = true := rfl

/-- C133, keys: for `d.keys()`, the function gets a set, with the same elements.  (`C133_views_refuted` says that this is not so for the values.) -/
theorem C133_keys (E : ForceArgs.Env α) (depth : Nat) (hd : 2 ≤ depth) (f : ForceArgs.Func α σ R) (hl : f.lazy = false) (addr : Nat) (keys : List α)
    (xs : List (Obj α)) (h : ForceArgs.Heap α) (hh : h addr = some (.dict keys, xs)) (hset : SetLike E (keys.map .atom)) (s : σ) :
    ForceArgs.call E depth f [.view .keys addr] [] h s = direct f [.imm .newset (keys.map .atom)] [] h s := by
  obtain ⟨d, rfl⟩ : ∃ m, depth = m + 2 := ⟨depth - 2, by omega⟩
  have hgo : ∀ x ∈ keys.map Obj.atom, doit E (d + 1) x h = (.ok x, h) := by
    intro x hx; obtain ⟨a, _, rfl⟩ := List.mem_map.1 hx; rfl
  have := mapSet_id E (doit E (d + 1)) h (keys.map .atom) [] hgo hset.1 (by simpa using hset.2)
  simp only [List.nil_append] at this
  simp only [ForceArgs.call, maybeForceArgs, hl, mapAll, doit, hh, viewItems, this, direct, PyDict.has, PyDict.get?,
    Option.isSome_none, Bool.false_eq_true, if_false, List.map_nil, List.zip_nil_left]

example : SetLike c133Env ([10, 20].map .atom) := by simp [SetLike, c133Env]

/-! ## Refutations -/

/-- C133 refuted for views of mappings: with `d = {10: 5, 20: 5}`, a function that is given `d.values()` iterates over two items if called directly, but over one item if called through the
library; and if a value is not hashable, the call is a TypeError, and the function is not called. -/
theorem C133_views_refuted : ∃ (E : ForceArgs.Env Nat) (h : ForceArgs.Heap Nat), ∀ s,
    ((direct c133Func [.view .values 2] [] h s).1.map fun args => args.map (c133Iter h)) = .ok [[.atom 5, .atom 5]] ∧
    ((ForceArgs.call E 10 c133Func [.view .values 2] [] h s).1.map fun args => args.map (c133Iter h)) = .ok [[.atom 5]] ∧
    (direct c133Func [.view .values 3] [] h s).2.2 = s + 1 ∧
    ForceArgs.call E 10 c133Func [.view .values 3] [] h s = (.error .TypeError, h, s) := by
  refine ⟨c133Env, c133Heap, fun s => ⟨rfl, rfl, rfl, ?_⟩⟩
  have hst : store c133Heap 1 .list [.atom 2] = c133Heap := store_same _ _ _ _ rfl
  show (_, store c133Heap 1 .list [.atom 2], s) = _
  rw [hst]

private theorem cycle (E : ForceArgs.Env Nat) (n : Nat) : ∃ h, doit E n (.ref 4) c133Heap = (.error .RuntimeError, h) := by
  induction n with
  | zero => exact ⟨_, rfl⟩
  | succ n ih =>
    obtain ⟨h, ih⟩ := ih
    cases n with
    | zero => exact ⟨_, rfl⟩
    | succ n =>
      refine ⟨h, ?_⟩
      rw [doit]
      simp only [show c133Heap 4 = some (.list, [.atom 1, .ref 4]) from rfl, MKind.isSet, Bool.false_eq_true, if_false, mapAll]
      rw [show doit E (n + 1) (.atom 1) c133Heap = (.ok (.atom 1), c133Heap) from rfl]
      simp only [ih]

/-- C133 refuted for a list that contains itself: however large the stack, the call is a RecursionError, and the function is not called. -/
theorem C133_cycle_refuted (E : ForceArgs.Env Nat) (depth : Nat) (s : Nat) :
    (direct c133Func [.ref 4] [] c133Heap s).2.2 = s + 1 ∧
    ∃ h, ForceArgs.call E depth c133Func [.ref 4] [] c133Heap s = (.error .RuntimeError, h, s) := by
  obtain ⟨h, hc⟩ := cycle E depth
  refine ⟨rfl, h, ?_⟩
  simp only [ForceArgs.call, maybeForceArgs, PyDict.has, PyDict.get?, Option.isSome_none, Bool.false_eq_true, if_false, c133Func, mapAll, hc]

/-- C133 refuted for sequences that cannot be built from their items, such as `memoryview`: the call is a TypeError, and the function is not called. -/
theorem C133_sequence_refuted : ∃ (E : ForceArgs.Env Nat) (cls : Nat), ∀ xs h s,
    (direct c133Func [.imm (.seq cls) xs] [] h s).2.2 = s + 1 ∧
    ForceArgs.call E 10 c133Func [.imm (.seq cls) xs] [] h s = (.error .TypeError, h, s) :=
  ⟨c133Env, 7, fun _ _ _ => ⟨rfl, rfl⟩⟩

/-- C133 refuted for a named argument `f`, which clashes with a parameter of the library. -/
theorem C133_named_f_refuted (E : ForceArgs.Env Nat) (s : Nat) :
    (direct c133Func [] [("f", .atom 1)] c133Heap s).2.2 = s + 1 ∧
    ForceArgs.call E 10 c133Func [] [("f", .atom 1)] c133Heap s = (.error .TypeError, c133Heap, s) ∧
    ForceArgs.callwith E 10 [] [("f", .atom 1)] c133Func c133Heap s = (.error .TypeError, c133Heap, s) := ⟨rfl, rfl, rfl⟩

/-! ## Threads -/

private theorem appends (xs : List α) (st : ForceArgs.Stage α) (zs : List α) :
    (zs.map Ev.append).foldl ForceArgs.step (xs, st) = (xs ++ zs, st) := by
  induction zs generalizing xs with
  | nil => simp
  | cons z zs ih =>
    simp only [List.map_cons, List.foldl_cons]
    rw [show ForceArgs.step (xs, st) (.append z) = (xs ++ [z], st) by cases st <;> rfl, ih]
    simp

/-- C133 with other threads: what other threads append to a list before or after its items are prepared for the call stays in it, in order.
(Missing: in between, see `C133_threads_refuted`.) -/
theorem C133_threads_partial (xs before after : List α) :
    interleaved xs (before.map .append ++ [.own, .own, .own] ++ after.map .append) = (xs ++ before ++ after, .done) := by
  simp only [interleaved, List.foldl_append, appends, List.foldl_cons, List.foldl_nil, ForceArgs.step, List.nil_append]

example : interleaved [1] [.append 2, .own, .own, .own, .append 3] = ([1, 2, 3], .done) := rfl

/-- C133 refuted for lists that other threads use at the same time: though nobody takes anything out of the list, another thread finds it empty in between; and an item that is
appended at the wrong time is lost. -/
theorem C133_threads_refuted (xs : List α) (z : α) :
    (interleaved xs [.own, .own]).1 = [] ∧
    interleaved xs [.own, .append z, .own, .own] = (xs, .done) ∧
    interleaved xs [.own, .own, .append z, .own] = (z :: xs, .done) := ⟨rfl, rfl, rfl⟩

end Unpy.Props
