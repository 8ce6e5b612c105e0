import Verif.Proof.Lazyrec
/-!
# C135: `lazyrec[...]` delays the items of a container literal, and `force` undoes it
-/
namespace Unpy.Props
open Unpy (PyErr Res)
open Unpy.Lazyrec

/-- A world for examples: numbers, equal only to themselves, which cannot be iterated over; 101 stands for the string `"a"`. -/
private def lazyrecWorld (f : Nat → Res (Lazyrec.Val Nat)) : World Nat where
  val := f
  hashable := fun _ => true
  iter := fun _ => none
  str := fun x => 100 + x.length
  strOf := fun a => if a = 101 then some "a" else none
  none := 0
  eqv := fun a b =>
    match a, b with
    | .atom x, .atom y => x == y
    | _, _ => false

/-- expression 0 is the number 1, expression 1 is the number 2, expression 2 is the tuple (3, 4), expression 3 is a dictionary,
expression 5 is the string "a", others raise -/
private def lazyrecVals : Nat → Res (Lazyrec.Val Nat)
  | 0 => .ok (.atom 1)
  | 1 => .ok (.atom 2)
  | 2 => .ok (.seq .tuple [.atom 3, .atom 4])
  | 3 => .ok (.map false [.atom 101] [.atom 7])
  | 5 => .ok (.atom 101)
  | _ => .error .ZeroDivisionError

private theorem lazyrecWorld_sane : Sane (lazyrecWorld lazyrecVals) where
  trans := by
    intro a b c h1 h2
    cases a <;> cases b <;> cases c <;> simp_all [lazyrecWorld]
  promises := by
    intro a b h _ _
    cases a <;> cases b <;> simp_all [lazyrecWorld, Ordinary, proper]
  values := by
    intro i v h
    simp only [lazyrecWorld] at h
    unfold lazyrecVals at h
    split at h <;> first | (cases h; rfl) | cases h

/-- **C135, `force` undoes it.**  Of a container literal `e`, nested as deep as may be, with all that `fine` admits: if `e` has a
value, then `force(lazyrec[e])` is that value.  (Missing: what `fine` leaves out, for most of which there is a refutation below;
`lazy[...]` written inside `e`; for the order in which expressions are evaluated, and expressions `e` that raise an exception, see C159.) -/
theorem C135_inverse_partial {A : Type} (W : World A) (hW : Sane W) (e : Ex) (he : fine e = true) (v : Lazyrec.Val A) (h : eval W e = .ok v) :
    forceLazyrec W e = .ok v := by
  obtain ⟨e', l, a, b, c⟩ := main_rel hW e he h
  simp only [forceLazyrec, evalLazyrec, a, b, c]

-- `[e0, {e0: e1, **{e5: e2}}, set([e0, e0, e1]), frozendict(e3, b=e0), ll(*e2, e1), box(e2)]`
example : let e : Ex := .lit .list (itemsOf [.atom 0,
      .dict (.kv (.atom 0) (.atom 1) (.dstar (.dict (.kv (.atom 5) (.atom 2) .nil)) .nil)),
      .call .set (itemsOf [.lit .list (itemsOf [.atom 0, .atom 0, .atom 1])]) .nil,
      .call .frozendict (itemsOf [.atom 3]) (.kw "bc" (.atom 0) .nil),
      .call .ll (.star (.atom 2) (.item (.atom 1) .nil)) .nil,
      .call .box (itemsOf [.atom 2]) .nil])
    fine e = true ∧ Sane (lazyrecWorld lazyrecVals) ∧
    eval (lazyrecWorld lazyrecVals) e = .ok (.seq .list [.atom 1, .map false [.atom 1, .atom 101] [.atom 2, .seq .tuple [.atom 3, .atom 4]],
      .seq .set [.atom 1, .atom 2], .map true [.atom 101, .atom 102] [.atom 7, .atom 1],
      .seq .ll [.atom 3, .atom 4, .atom 2], .seq .box [.seq .tuple [.atom 3, .atom 4]]]) :=
  ⟨rfl, lazyrecWorld_sane, rfl⟩

-- `{e0: e1, e5: e1, e0: e2}`: the last value for a key counts, at the place of the first.
example : let e : Ex := .dict (.kv (.atom 0) (.atom 1) (.kv (.atom 5) (.atom 1) (.kv (.atom 0) (.atom 2) .nil)))
    fine e = true ∧ forceLazyrec (lazyrecWorld lazyrecVals) e = .ok (.map false [.atom 1, .atom 101] [.seq .tuple [.atom 3, .atom 4], .atom 2]) :=
  ⟨rfl, C135_inverse_partial _ lazyrecWorld_sane _ rfl _ rfl⟩

/-- **C135, what is evaluated.**  `lazyrec[e]` evaluates at most the expressions `now e`: keys, and arguments of constructors that
are to be unpacked and are not themselves literals.  Whatever the others would do, such as raise an exception, the container made is the same. -/
theorem C135_delays {A : Type} (W : World A) (e : Ex) (f g : Nat → Res (Lazyrec.Val A)) (h : ∀ i ∈ now e, f i = g i) :
    evalLazyrec { W with val := f } e = evalLazyrec { W with val := g } e := by
  simp only [evalLazyrec]
  cases hl : lazyrec e with
  | error _ => rfl
  | ok e' =>
    refine eval_parts e' fun i hi => h i ?_
    rw [← parts_lazyrec e hl]
    exact hi

-- `{e0: e1, e5: tuple([e2, list(e2)])}`: only the keys and the argument of the inner `list` are evaluated.
example : now (.dict (.kv (.atom 0) (.atom 1) (.kv (.atom 5) (.call .tuple (itemsOf
    [.lit .list (itemsOf [.atom 9, .call .list (itemsOf [.atom 2]) .nil])]) .nil) .nil))) = [0, 5, 2] := rfl

/-- **C135, items that cannot be computed.**  If a container literal could be made with the delayed expressions as they are in one
world, `lazyrec[e]` makes it also where they raise exceptions, and `force` then finds in it what they are when it is called.  (Missing: as for
`C135_inverse_partial`.) -/
theorem C135_total_partial {A : Type} (W : World A) (f g : Nat → Res (Lazyrec.Val A)) (hW : Sane { W with val := g }) (e : Ex)
    (he : fine e = true) (v : Lazyrec.Val A) (hv : eval { W with val := g } e = .ok v) (h : ∀ i ∈ now e, f i = g i) :
    ∃ l, evalLazyrec { W with val := f } e = .ok l ∧ force { W with val := g } l = .ok v := by
  obtain ⟨e', l, a, b, c⟩ := main_rel hW e he hv
  exact ⟨l, by rw [C135_delays W e f g h]; simp only [evalLazyrec, a, b], c⟩

-- `(e0, [e1, e2])`, all of which raise
example : let e : Ex := .lit .tuple (itemsOf [.atom 0, .lit .list (itemsOf [.atom 1, .atom 2])])
    fine e = true ∧ now e = [] ∧ evalLazyrec (lazyrecWorld fun _ => .error .ZeroDivisionError) e =
      .ok (.seq .tuple [.promise (.atom 0), .seq .list [.promise (.atom 1), .promise (.atom 2)]]) := ⟨rfl, rfl, rfl⟩

private theorem evalItems_lazies {A : Type} (W : World A) (es : List Ex) :
    evalItems W (itemsOf (es.map .lazy)) = .ok (es.map .promise) := by
  induction es with
  | nil => rfl
  | cons e es ih => simp [itemsOf, evalItems, eval, ih, Except.map]

private theorem recElts_leaves (es : List Ex) (h : ∀ e ∈ es, isContainer e = false) :
    recElts (itemsOf es) = .ok (itemsOf (es.map fun e => match e with | Ex.lazy e => Ex.lazy e | e => Ex.lazy e)) := by
  induction es with
  | nil => rfl
  | cons e es ih =>
    have h1 := h e (by simp)
    cases e <;> simp_all [itemsOf, recElts, lazyrec, isContainer, Except.map]

/-- **C135, leaves.**  For an expression that is not a container literal, `lazyrec[]` is `lazy[]`; in a list or tuple of those, there is a promise for each one, in the
same order.  What is already `lazy[e]` is not delayed once more. -/
theorem C135_leaves {A : Type} (W : World A) (es : List Ex) (h : ∀ e ∈ es, isContainer e = false) :
    (∀ e ∈ es, evalLazyrec W e = .ok (.promise (delayed e))) ∧
    evalLazyrec W (.lit .list (itemsOf es)) = .ok (.seq .list (es.map fun e => .promise (delayed e))) ∧
    evalLazyrec W (.lit .tuple (itemsOf es)) = .ok (.seq .tuple (es.map fun e => .promise (delayed e))) := by
  have key : (es.map fun e => match e with | Ex.lazy e => Ex.lazy e | e => Ex.lazy e) = (es.map delayed).map .lazy := by
    rw [List.map_map]
    refine List.map_congr_left fun e _ => ?_
    cases e <;> rfl
  have ev := evalItems_lazies W (es.map delayed)
  refine ⟨fun e he => ?_, ?_, ?_⟩
  · have := h e he
    cases e <;> simp_all [evalLazyrec, lazyrec, eval, delayed, isContainer]
  · simp only [evalLazyrec, lazyrec, recElts_leaves es h, key, Except.map, eval, ev, mk]; rw [List.map_map]; rfl
  · simp only [evalLazyrec, lazyrec, recElts_leaves es h, key, Except.map, eval, ev, mk]; rw [List.map_map]; rfl

-- `[e0, lazy[e7]]`
example : (∀ e ∈ [Ex.atom 0, .lazy (.atom 7)], isContainer e = false) ∧
    evalLazyrec (lazyrecWorld lazyrecVals) (.lit .list (itemsOf [.atom 0, .lazy (.atom 7)])) =
      .ok (.seq .list [.promise (.atom 0), .promise (.atom 7)]) := by
  refine ⟨?_, rfl⟩
  intro e he; simp at he; rcases he with rfl | rfl <;> rfl

/-- **C135, refuted for `*e` in a literal.**  `(*xs, 1)` is a tuple, but `lazyrec[(*xs, 1)]` is a SyntaxError. -/
theorem C135_star_refuted :
    (∀ {A : Type} (W : World A) (k : Lit) (e : Ex) (r : Items), evalLazyrec W (.lit k (.star e r)) = .error .SyntaxError) ∧
    eval (lazyrecWorld lazyrecVals) (.lit .tuple (.star (.atom 2) (.item (.atom 0) .nil))) =
      .ok (.seq .tuple [.atom 3, .atom 4, .atom 1]) :=
  ⟨fun _ _ _ _ => rfl, rfl⟩

/-- **C135, refuted for `**e` in a dictionary.**  With a dictionary `d`, `{**d}` has the same entries as `d`, but `lazyrec[{**d}]`
is a TypeError, as `**` is given a promise. -/
theorem C135_double_star_refuted :
    (∀ {A : Type} (W : World A) (i : Nat), evalLazyrec W (.dict (.dstar (.atom i) .nil)) = .error .TypeError) ∧
    eval (lazyrecWorld lazyrecVals) (.dict (.dstar (.atom 3) .nil)) = .ok (.map false [.atom 101] [.atom 7]) :=
  ⟨fun _ _ => rfl, rfl⟩

/-- **C135, refuted for the example in the docstring**, which says that `lazyrec[list(2*21, 1/0)]` becomes
`[lazy[2*21], lazy[1/0]]`: it is a SyntaxError. -/
theorem C135_several_refuted {A : Type} (W : World A) (a b : Ex) :
    evalLazyrec W (.call .list (itemsOf [a, b]) .nil) = .error .SyntaxError ∧
    ¬ ∃ l, evalLazyrec W (.call .list (itemsOf [a, b]) .nil) = .ok l :=
  ⟨rfl, fun ⟨_, h⟩ => nomatch h⟩

/-- **C135, what is refused.**  A constructor that takes one iterable or mapping, and is given more than one positional argument (plain or starred), is a SyntaxError, whatever
the arguments are; no expression is evaluated. -/
theorem C135_refused {A : Type} (W : World A) (c : Ctor) (hc : c ∈ [Ctor.tuple, .list, .set, .dict, .frozenset, .llist]) (a b : Ex) (r : Items) (k : Kws) :
    evalLazyrec W (.call c (.item a (.item b r)) k) = .error .SyntaxError ∧ evalLazyrec W (.call c (.item a (.star b r)) k) = .error .SyntaxError ∧
    evalLazyrec W (.call c (.star a (.item b r)) k) = .error .SyntaxError ∧ evalLazyrec W (.call c (.star a (.star b r)) k) = .error .SyntaxError := by
  simp only [List.mem_cons, List.not_mem_nil, or_false] at hc
  rcases hc with rfl | rfl | rfl | rfl | rfl | rfl <;> simp [evalLazyrec, lazyrec, takesOne, Items.length]

/-- **C135, refuted for several starred arguments.**  `tuple(*[], *[e])` is `tuple(e)`, but `lazyrec[tuple(*[], *[e])]` is a SyntaxError. -/
theorem C135_stars_refuted : ∃ e, eval (lazyrecWorld lazyrecVals) e = eval (lazyrecWorld lazyrecVals) (.call .tuple (itemsOf [.atom 2]) .nil) ∧
    eval (lazyrecWorld lazyrecVals) e = .ok (.seq .tuple [.atom 3, .atom 4]) ∧ ∀ {A : Type} (W : World A), evalLazyrec W e = .error .SyntaxError :=
  ⟨.call .tuple (.star (.lit .list .nil) (.star (.lit .list (itemsOf [.atom 2])) .nil)) .nil, rfl, rfl, fun _ => rfl⟩

/-- **C135, refuted for pairs.**  `dict([(k, v)])` has the key `k`; but what `lazyrec[dict([(k, v)])]` makes has a promise as a key, and
`force` leaves it there, so that the entry is not found. -/
theorem C135_pairs_refuted :
    let e : Ex := .call .dict (itemsOf [.lit .list (itemsOf [.lit .tuple (itemsOf [.atom 5, .atom 0])])]) .nil
    eval (lazyrecWorld lazyrecVals) e = .ok (.map false [.atom 101] [.atom 1]) ∧
    forceLazyrec (lazyrecWorld lazyrecVals) e = .ok (.map false [.promise (.atom 5)] [.atom 1]) :=
  ⟨rfl, rfl⟩

/-- **C135, refuted for sets that are unpacked.**  `tuple({a, b})` with `a == b` has one item, but `force(lazyrec[tuple({a, b})])`
has two. -/
theorem C135_set_refuted :
    let e : Ex := .call .tuple (itemsOf [.lit .set (itemsOf [.atom 0, .atom 0])]) .nil
    eval (lazyrecWorld lazyrecVals) e = .ok (.seq .tuple [.atom 1]) ∧
    forceLazyrec (lazyrecWorld lazyrecVals) e = .ok (.seq .tuple [.atom 1, .atom 1]) :=
  ⟨rfl, rfl⟩

end Unpy.Props
