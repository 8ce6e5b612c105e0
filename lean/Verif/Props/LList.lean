import Verif.Props.Fold
import Verif.Spec.LList
/-!
# Properties of `unpythonic/llist.py` (C29-C31)
-/
namespace Unpy.Props
open Unpy.It Unpy.Fold Unpy.LList Unpy.Spec.LList
open Unpy.LList (Obj)
universe u
variable {α : Type u}

private def build (acc : Obj α) (xs : List (Obj α)) : Obj α := xs.foldr .cons acc

private theorem isList_build (xs : List (Obj α)) : IsList (build .nil xs) xs := by
  induction xs with
  | nil => exact .nil
  | cons x xs ih => exact .cons ih

private theorem isList_eq {l : Obj α} {xs : List (Obj α)} (h : IsList l xs) : l = build .nil xs := by
  induction h with
  | nil => rfl
  | cons _ ih => rw [ih]; rfl

private theorem walk_build (xs : List (Obj α)) : walkList (build .nil xs) = ⟨xs, none⟩ := by
  induction xs with
  | nil => rfl
  | cons x xs ih => simp only [build, List.foldr_cons, walkList] at ih ⊢; rw [ih]

private theorem iter_build (xs : List (Obj α)) : iterObj (build .nil xs) = ⟨xs, none⟩ := by
  match xs with
  | [] => rfl
  | [x] => rfl
  | x :: y :: xs =>
    have := walk_build (y :: xs)
    simp only [build, List.foldr_cons, iterObj] at this ⊢
    rw [this]

private theorem pyzip_one' (xs : List (Obj α)) : pyzip [xs] = xs.map (fun x => [x]) := by
  apply List.ext_getElem?
  intro i
  rw [pyzip_getElem? _ (by simp)]
  simp
  cases xs[i]? <;> rfl

private theorem scanLoop_cons (acc : Obj α) (xs : List (Obj α)) :
    lastG (scanLoop consProc acc (xs.map (fun x => [x]))) = .ok (some (build acc xs.reverse)) := by
  have dq : ∀ ys : List (Obj α), (dequeOf 1 ys).getLast? = ys.getLast? := by
    intro ys
    rw [dequeOf_eq, List.getLast?_drop]
    cases ys <;> simp
    omega
  have key : ∀ (xs : List (Obj α)) acc, (scanLoop consProc acc (xs.map (fun x => [x]))).exc = none ∧
      (scanLoop consProc acc (xs.map (fun x => [x]))).items.getLast? = some (build acc xs.reverse) := by
    intro xs
    induction xs with
    | nil => intro acc; exact ⟨rfl, rfl⟩
    | cons x xs ih =>
      intro acc
      have ⟨h1, h2⟩ := ih (.cons x acc)
      have e : build acc (x :: xs).reverse = build (.cons x acc) xs.reverse := by
        simp [build, List.foldr_append]
      rw [e]
      simp only [List.map_cons, scanLoop, List.cons_append, List.nil_append, consProc]
      refine ⟨h1, ?_⟩
      rw [List.getLast?_cons, h2]; rfl
  have ⟨h1, h2⟩ := key xs acc
  rw [lastG, h1]; simp only; rw [dq, h2]

private theorem foldl_cons_eq (acc : Obj α) (xs : List (Obj α)) (fill : Obj α) :
    noneToErr (foldl consProc acc xs [] false fill) = .ok (build acc xs.reverse) := by
  simp only [foldl, scanl, zipRows, Bool.false_eq_true, if_false, pyzip_one', scanLoop_cons]
  rfl

private theorem foldr_cons_eq (acc : Obj α) (xs : List (Obj α)) (fill : Obj α) :
    noneToErr (foldr consProc acc xs [] false fill) = .ok (build acc xs) := by
  simp only [foldr, scanr, zipRows, Bool.false_eq_true, if_false, pyzip_one', rev, ← List.map_reverse,
    scanLoop_cons, List.reverse_reverse]
  rfl

private theorem lreverse_src (s : Src α) (xs : List (Obj α)) (h : s.iter = ⟨xs, none⟩) :
    lreverse s = .ok (build .nil xs.reverse) := by
  rw [lreverse, h]; exact foldl_cons_eq ..

private theorem reversed_build (xs : List (Obj α)) (hne : xs ≠ []) :
    reversedObj (build .nil xs) =
      .ok (.revIter (build .nil xs.reverse) (build .nil xs.reverse)) := by
  match xs, hne with
  | x :: xs, _ =>
    have := lreverse_src (.obj (build .nil (x :: xs))) (x :: xs) (iter_build _)
    have e : build .nil (x :: xs) = .cons x (build .nil xs) := rfl
    rw [e] at this ⊢
    rw [reversedObj, this]
    have hc : (build (α := α) .nil (x :: xs).reverse).isCons = true := by
      cases h : (x :: xs).reverse with
      | nil => simp at h
      | cons y ys => rfl
    simp only [hc, if_true]

/-! ## C29 round trips -/

/-- C29: `ll(*xs)`, and `llist` of any iterable yielding `xs`, is a linked list of exactly `xs`. -/
theorem C29_build (xs : List (Obj α)) :
    ∃ l, ll xs = .ok l ∧ llist (.items xs) = .ok l ∧ IsList l xs := by
  have : llist (.items xs) = .ok (build .nil xs) := by
    simp only [llist, revSrc, Src.iter]
    rw [lreverse_src (.items xs.reverse) xs.reverse rfl, List.reverse_reverse]
  exact ⟨_, this, this, isList_build xs⟩

/-- C29: iterating a linked list of `xs` yields `xs`, by the default iterator and by
`LinkedListIterator` (which wants at least one cell). -/
theorem C29_iter (l : Obj α) (xs : List (Obj α)) (h : IsList l xs) :
    iterObj l = ⟨xs, none⟩ ∧ (xs ≠ [] → linkedListIterator l = .ok ⟨xs, none⟩) := by
  rw [isList_eq h]
  refine ⟨iter_build xs, ?_⟩
  intro hne
  match xs, hne with
  | x :: xs, _ =>
    rw [linkedListIterator, if_pos (show (build .nil (x :: xs)).isCons = true from rfl), walk_build]

/-- C29: a linked list is determined by its items, so `llist` of a linked list gives it back. -/
theorem C29_copy (l : Obj α) (xs : List (Obj α)) (h : IsList l xs) : llist (.obj l) = .ok l := by
  rw [isList_eq h]
  simp only [llist, revSrc]
  by_cases hne : xs = []
  · subst hne
    show lreverse _ = _
    exact lreverse_src (.items []) [] rfl
  · rw [reversed_build xs hne]
    simp only
    rw [lreverse_src (.revIter _ _) xs.reverse (walk_build _), List.reverse_reverse]

/-- C29: `TailIterator` yields the tails, as many as the list has items; on a chain that is not a linked list, the
tails and then TypeError; on anything that is not a cell, TypeError at once. -/
theorem C29_tails (l : Obj α) :
    (∀ xs, IsList l xs → xs ≠ [] → ∃ ts, AreTails l ts ∧ ts.length = xs.length ∧ tailIterator l = .ok ⟨ts, none⟩) ∧
    (∀ xs t, IsImproper l xs t →
      ∃ ts, AreTails l ts ∧ ts.length = xs.length ∧ tailIterator l = .ok ⟨ts, some .TypeError⟩) ∧
    (l.isCons = false → tailIterator l = .error .TypeError) := by
  have hw : ∀ {l : Obj α} {xs}, IsList l xs → ∃ ts, AreTails l ts ∧ ts.length = xs.length ∧ walkTails l = ⟨ts, none⟩ := by
    intro l xs h
    induction h with
    | nil => exact ⟨[], .stop rfl, rfl, rfl⟩
    | cons _ ih =>
      obtain ⟨ts, h1, h2, h3⟩ := ih
      exact ⟨_, .cons h1, by simp [h2], by simp only [walkTails, h3]⟩
  have hi : ∀ {l : Obj α} {xs t}, IsImproper l xs t →
      ∃ ts, AreTails l ts ∧ ts.length = xs.length ∧ walkTails l = ⟨ts, some .TypeError⟩ := by
    intro l xs t h
    induction h with
    | last => exact ⟨_, .cons (.stop rfl), rfl, rfl⟩
    | cons _ ih =>
      obtain ⟨ts, h1, h2, h3⟩ := ih
      exact ⟨_, .cons h1, by simp [h2], by simp only [walkTails, h3]⟩
  refine ⟨fun xs h hne => ?_, fun xs t h => ?_, fun h => by simp [tailIterator, h]⟩
  · obtain ⟨ts, h1, h2, h3⟩ := hw h
    refine ⟨ts, h1, h2, ?_⟩
    cases h with
    | nil => exact absurd rfl hne
    | cons _ => simp [tailIterator, Obj.isCons, h3]
  · obtain ⟨ts, h1, h2, h3⟩ := hi h
    refine ⟨ts, h1, h2, ?_⟩
    cases h <;> simp [tailIterator, Obj.isCons, h3]

example : tailIterator (.cons (.atom 1) (.cons (.atom 2) .nil) : Obj Nat) =
    .ok ⟨[.cons (.atom 1) (.cons (.atom 2) .nil), .cons (.atom 2) .nil], none⟩ := rfl

/-- C29: a structure that is not a linked list.  A single cell iterates as its two halves; a longer
chain yields its items and then raises TypeError. -/
theorem C29_iter_improper (l : Obj α) (xs : List (Obj α)) (t : α) (h : IsImproper l xs t) :
    (linkedListIterator l = .ok ⟨xs, some .TypeError⟩) ∧
    (xs.length = 1 → iterObj l = ⟨xs ++ [.atom t], none⟩) ∧
    (1 < xs.length → iterObj l = ⟨xs, some .TypeError⟩) := by
  have hw : ∀ {l : Obj α} {xs t}, IsImproper l xs t → walkList l = ⟨xs, some .TypeError⟩ := by
    intro l xs t h
    induction h with
    | last => rfl
    | cons _ ih => simp only [walkList, ih]
  have hc : l.isCons = true := by cases h <;> rfl
  refine ⟨by rw [linkedListIterator, if_pos hc, hw h], ?_, ?_⟩
  · intro hl
    cases h with
    | last => rfl
    | cons h' => cases h' <;> simp at hl
  · intro hl
    cases h with
    | last => simp at hl
    | @cons a d xs t h' =>
      have := hw h'
      cases h' <;> simp only [iterObj, this]

/-- C29: `lreverse` reverses: any iterable, and in particular a linked list. -/
theorem C29_lreverse (xs : List (Obj α)) (l : Obj α) (h : IsList l xs) :
    (∃ r, lreverse (.items xs) = .ok r ∧ IsList r xs.reverse) ∧
    (∃ r, lreverse (.obj l) = .ok r ∧ IsList r xs.reverse) := by
  rw [isList_eq h]
  exact ⟨⟨_, lreverse_src (.items xs) xs rfl, isList_build _⟩,
    ⟨_, lreverse_src (.obj _) xs (iter_build xs), isList_build _⟩⟩

/-- C29: `reversed(l)` iterates a nonempty linked list backwards, and `llist(reversed(l))` is the
reversed list. -/
theorem C29_reversed (xs : List (Obj α)) (l : Obj α) (h : IsList l xs) (hne : xs ≠ []) :
    ∃ it r, reversedObj l = .ok it ∧ it.iter = ⟨xs.reverse, none⟩ ∧
      llist it = .ok r ∧ IsList r xs.reverse := by
  rw [isList_eq h]
  exact ⟨_, _, reversed_build xs hne, walk_build _, rfl, isList_build _⟩

/-- C29 refuted for a reverse iterator that has been advanced: `llist` ignores what was consumed. -/
theorem C29_llist_of_iterator_refuted :
    ∃ (l : Obj Nat) (it it' : Src Nat) (x : Obj Nat) (r : Obj Nat),
      IsList l [.atom 1, .atom 2] ∧ reversedObj l = .ok it ∧ it.next = some (x, it') ∧
      it'.iter = ⟨[.atom 1], none⟩ ∧ llist it' = .ok r ∧ IsList r [.atom 2, .atom 1] :=
  ⟨_, _, _, _, _, isList_build _, reversed_build _ (by simp), rfl, rfl, rfl, isList_build _⟩

/-- C29: `lappend` concatenates any number of linked lists. -/
theorem C29_lappend (ls : List (Obj α)) (xss : List (List (Obj α)))
    (h : AreLists ls xss) : ∃ r, lappend ls = .ok r ∧ IsList r xss.flatten := by
  have key : ∀ (ls : List (Obj α)) xss, AreLists ls xss →
      ls.foldrM (fun l acc => lappendTwo [l, acc]) .nil = .ok (build .nil xss.flatten) := by
    intro ls xss h
    induction h with
    | nil => rfl
    | @cons l xs ls xss hl _ ih =>
      rw [List.foldrM_cons, ih]
      show lappendTwo [l, build .nil xss.flatten] = _
      rw [lappendTwo, isList_eq hl, iter_build]
      simp only
      rw [foldr_cons_eq]
      simp [build, List.foldr_append]
  refine ⟨build .nil xss.flatten, ?_, isList_build _⟩
  obtain ⟨⟨rows, hr, _⟩, ⟨rrows, hrr, _⟩⟩ := C26_rows false (Obj.nil (α := α)) [ls] (by simp)
  have e : rows = ls.map (fun l => [l]) := by
    apply List.ext_getElem?
    intro i
    have := hr i
    simp only [Bool.false_eq_true, if_false, List.mem_cons, List.not_mem_nil, or_false, forall_eq] at this
    by_cases hi : i < ls.length
    · rw [this.1 hi]; simp [List.getElem?_eq_getElem hi]
    · rw [List.getElem?_eq_none (this.2 ⟨ls, rfl, by omega⟩), List.getElem?_eq_none (by simp; omega)]
  rw [lappend, (C26_folds lappendTwo .nil ls [] false .nil rows rrows hr hrr).2.1, e,
    List.foldrM_map]
  have := key ls xss h
  simp only [List.cons_append, List.nil_append]
  rw [this]; rfl

/-- C29: `lzip` of linked lists is a linked list of linked lists; there are as many as the shortest
input has items, and list `i` holds the `i`-th items. -/
theorem C29_lzip (ls : List (Obj α)) (xss : List (List (Obj α))) (m : Nat)
    (h : AreLists ls xss) (hm : Unpy.Spec.It.IsShortest xss m) :
    ∃ r rows, lzip ls = .ok r ∧ IsList r rows ∧ rows.length = m ∧
      ∀ i < m, ∃ l, rows[i]? = some l ∧ IsList l (xss.filterMap (fun xs => xs[i]?)) := by
  have hit : ls.map iterObj = xss.map (fun xs => ⟨xs, none⟩) := by
    clear hm
    induction h with
    | nil => rfl
    | cons hl _ ih => rw [List.map_cons, List.map_cons, ih, (C29_iter _ _ hl).1]
  have hne : xss ≠ [] := by rintro rfl; obtain ⟨_, ⟨xs, hx, _⟩⟩ := hm; simp at hx
  have hne' : ls.isEmpty = false := by
    cases h with
    | nil => exact absurd rfl hne
    | cons _ _ => rfl
  have hz : zipGens (ls.map iterObj) = ⟨pyzip xss, none⟩ := by
    rw [hit, zipGens]
    have e : (xss.map (fun xs => (⟨xs, none⟩ : Gen (Obj α)))).map Gen.items = xss := by
      rw [List.map_map]; simp [Function.comp_def]
    rw [e]
    congr 1
    cases hf : (xss.map (fun xs => (⟨xs, none⟩ : Gen (Obj α)))).find?
        (fun g => decide (g.items.length = (pyzip xss).length)) with
    | none => rfl
    | some g =>
      have := List.mem_of_find?_eq_some hf
      simp only [List.mem_map] at this
      obtain ⟨xs, _, rfl⟩ := this
      rfl
  have hll : ∀ xs : List (Obj α), ll xs = .ok (build .nil xs) := by
    intro xs
    obtain ⟨l, h1, _, h3⟩ := C29_build xs
    rw [h1, isList_eq h3]
  have hmap : ∀ rows : List (List (Obj α)), rows.mapM (ll (α := α)) = .ok (rows.map (build .nil)) := by
    intro rows
    induction rows with
    | nil => rfl
    | cons r rows ih => rw [List.mapM_cons, hll, ih]; rfl
  refine ⟨build .nil ((pyzip xss).map (build .nil)), (pyzip xss).map (build .nil), ?_, isList_build _,
    by simp [pyzip_length xss m hm], ?_⟩
  · rw [lzip, hne', hz]
    simp only [Bool.false_eq_true, if_false, hmap]
    exact hll _
  · intro i hi
    have hrow : (pyzip xss)[i]? = some (xss.filterMap (fun xs => xs[i]?)) := by
      rw [pyzip_getElem? xss hne]
      have hall : ∀ xs ∈ xss, i < xs.length := fun xs hx => Nat.lt_of_lt_of_le hi (hm.1 xs hx)
      clear hm h hit hz hne hne'
      induction xss with
      | nil => rfl
      | cons xs xss ih =>
        have := ih (fun x hx => hall x (by simp [hx]))
        have hx := hall xs (by simp)
        simp [this, List.getElem?_eq_getElem hx]
    exact ⟨_, by rw [List.getElem?_map, hrow]; rfl, isList_build _⟩

/-- C29: `lzip()` without arguments raises TypeError. -/
theorem C29_lzip_nothing : lzip ([] : List (Obj α)) = .error .TypeError := rfl

/-- C29: `member(x, l)` on a nonempty linked list returns the tail that starts at the first item equal
to `x`, or False if there is none; the empty list raises TypeError. -/
theorem C29_member (eqA : α → α → Bool) (x l : Obj α) (xs : List (Obj α)) (h : IsList l xs) :
    (xs = [] → member eqA x l = .error .TypeError) ∧
    (xs ≠ [] → (∀ y ∈ xs, eq eqA y x = false) → member eqA x l = .ok none) ∧
    (∀ pre y post, xs = pre ++ y :: post → (∀ z ∈ pre, eq eqA z x = false) → eq eqA y x = true →
      ∃ t, member eqA x l = .ok (some t) ∧ IsList t (y :: post)) := by
  rw [isList_eq h]
  refine ⟨?_, ?_, ?_⟩
  · rintro rfl; rfl
  · intro hne hall
    have key : ∀ xs : List (Obj α), (∀ y ∈ xs, eq eqA y x = false) →
        member.loop eqA x (build .nil xs) = .ok none := by
      intro xs
      induction xs with
      | nil => intro _; rfl
      | cons a xs ih =>
        intro h
        simp only [build, List.foldr_cons, member.loop]
        rw [h a (by simp)]
        simp only [Bool.false_eq_true, if_false]
        exact ih (fun y hy => h y (by simp [hy]))
    cases xs with
    | nil => exact absurd rfl hne
    | cons a xs => exact key _ hall
  · intro pre y post e hpre hy
    subst e
    refine ⟨build .nil (y :: post), ?_, isList_build _⟩
    have key : ∀ pre : List (Obj α), (∀ y ∈ pre, eq eqA y x = false) →
        member.loop eqA x (build .nil (pre ++ y :: post)) = .ok (some (build .nil (y :: post))) := by
      intro pre
      induction pre with
      | nil => intro _; simp only [List.nil_append, build, List.foldr_cons, member.loop, hy, if_true]
      | cons a xs ih =>
        intro h
        simp only [List.cons_append, build, List.foldr_cons, member.loop]
        rw [h a (by simp)]
        simp only [Bool.false_eq_true, if_false]
        exact ih (fun y hy => h y (by simp [hy]))
    cases pre with
    | nil => exact key [] hpre
    | cons a pre => exact key _ hpre

/-- C29: the accessors `car`, `cadr`, `caddr`, ... return item 0, 1, 2, ... of a linked list, and raise
TypeError beyond its end; `cdr`, `cddr`, ... return the tails. -/
theorem C29_accessors (l : Obj α) (xs : List (Obj α)) (h : IsList l xs) (n : Nat) :
    (accessor ('a' :: List.replicate n 'd') l =
      match xs[n]? with
      | some x => .ok x
      | none => .error .TypeError) ∧
    (n ≤ xs.length → ∃ t, accessor (List.replicate n 'd') l = .ok t ∧ IsList t (xs.drop n)) ∧
    (xs.length < n → accessor (List.replicate n 'd') l = .error .TypeError) := by
  have key : ∀ n, accessor (List.replicate n 'd') (build .nil xs) =
      if n ≤ xs.length then .ok (build .nil (xs.drop n)) else .error .TypeError := by
    intro n
    induction n with
    | zero => rfl
    | succ n ih =>
      rw [List.replicate_succ]
      show (match accessor (List.replicate n 'd') (build .nil xs) with
        | .ok y => step 'd' y | .error e => .error e) = _
      rw [ih]
      by_cases h1 : n + 1 ≤ xs.length
      · rw [if_pos (by omega), if_pos h1, List.drop_eq_getElem_cons (by omega)]; rfl
      · rw [if_neg h1]
        by_cases h2 : n ≤ xs.length
        · rw [if_pos h2, List.drop_eq_nil_of_le (by omega)]; rfl
        · rw [if_neg h2]
  rw [isList_eq h]
  refine ⟨?_, ?_, ?_⟩
  · show (match accessor (List.replicate n 'd') (build .nil xs) with
        | .ok y => step 'a' y | .error e => .error e) = _
    rw [key]
    by_cases h1 : n < xs.length
    · rw [if_pos (by omega), List.drop_eq_getElem_cons h1, List.getElem?_eq_getElem h1]; rfl
    · rw [List.getElem?_eq_none (by omega)]
      by_cases h2 : n ≤ xs.length
      · rw [if_pos h2, List.drop_eq_nil_of_le (by omega)]; rfl
      · rw [if_neg h2]
  · intro hn; rw [key, if_pos hn]; exact ⟨_, rfl, isList_build _⟩
  · intro hn; rw [key, if_neg (by omega)]

example : IsList (.cons (.atom 1) (.cons (.atom 2) .nil)) [Obj.atom 1, .atom 2] := .cons (.cons .nil)
example : IsImproper (.cons (.atom 1) (.cons (.atom 2) (.atom 3))) [Obj.atom 1, .atom 2] 3 := .cons .last
example : iterObj (.cons (.atom 1) (.cons (.atom 2) (.atom 3))) =
    ⟨[Obj.atom 1, .atom 2], some .TypeError⟩ := rfl
example : AreLists [.cons (.atom 1) .nil, .nil] [[Obj.atom 1], []] :=
  .cons (.cons .nil) (.cons .nil .nil)
example : accessor ['a', 'd'] (.cons (.atom 1) (.cons (.atom 2) .nil)) = .ok (Obj.atom 2) := by decide

/-! ## C30 equality and hash -/

private theorem eq_iff (eqA : α → α → Bool) (n : Nat) : ∀ x y : Obj α, sizeOf x ≤ n →
    (eq eqA x y = true ↔ SameStructure eqA x y) ∧
    (∀ b, eqWalk eqA x y = some b → (b = true ↔ SameStructure eqA x y)) := by
  induction n with
  | zero => intro x y h; cases x <;> simp at h
  | succ n ih =>
    intro x y hn
    have walk : ∀ b, eqWalk eqA x y = some b → (b = true ↔ SameStructure eqA x y) := by
      intro b hb
      cases x with
      | atom a => simp [eqWalk] at hb
      | nil =>
        cases y with
        | atom => simp [eqWalk] at hb
        | nil => simp [eqWalk] at hb; subst hb; simp; exact .nil
        | cons => simp [eqWalk] at hb; subst hb; simp; intro h; cases h
      | cons a d =>
        cases y with
        | atom => simp [eqWalk] at hb
        | nil => simp [eqWalk] at hb; subst hb; simp; intro h; cases h
        | cons a' d' =>
          simp at hn
          have i1 := (ih a a' (by omega)).1
          have i2 := (ih d d' (by omega)).2
          rw [eqWalk] at hb
          split at hb
          · rename_i he
            rw [i2 b hb]
            constructor
            · intro h; exact .cons (i1.mp he) h
            · intro h; cases h; assumption
          · rename_i he
            simp at hb; subst hb; simp
            intro h
            cases h with
            | cons h1 h2 => exact he (i1.mpr h1)
    refine ⟨?_, walk⟩
    cases x with
    | atom a =>
      cases y with
      | atom b =>
        simp [eq]
        constructor
        · intro h; exact .atom h
        · intro h; cases h; assumption
      | nil => simp [eq]; intro h; cases h
      | cons => simp [eq]; intro h; cases h
    | nil =>
      cases y with
      | atom => simp [eq]; intro h; cases h
      | nil => simp [eq]; exact .nil
      | cons => simp [eq]; intro h; cases h
    | cons a d =>
      cases y with
      | atom => simp [eq]; intro h; cases h
      | nil => simp [eq]; intro h; cases h
      | cons a' d' =>
        rw [eq]
        cases hw : eqWalk eqA (.cons a d) (.cons a' d') with
        | some b => simpa using walk b hw
        | none =>
          simp at hn
          have i1 := (ih a a' (by omega)).1
          have i2 := (ih d d' (by omega)).1
          simp only [Bool.and_eq_true, i1, i2]
          constructor
          · rintro ⟨h1, h2⟩; exact .cons h1 h2
          · intro h; cases h; exact ⟨by assumption, by assumption⟩

/-- C30: `==` on cons structures holds exactly if they have the same shape and equal atoms at
corresponding places, whether or not they are linked lists. -/
theorem C30_eq (eqA : α → α → Bool) (x y : Obj α) : eq eqA x y = true ↔ SameStructure eqA x y :=
  (eq_iff eqA (sizeOf x) x y (Nat.le_refl _)).1

/-- C30: if `==` on atoms is reflexive, every structure equals itself (so the identity shortcut in
`cons.__eq__` changes nothing). -/
theorem C30_refl (eqA : α → α → Bool) (h : ∀ a, eqA a a = true) (x : Obj α) : eq eqA x x = true := by
  rw [C30_eq]
  induction x with
  | atom a => exact .atom (h a)
  | nil => exact .nil
  | cons a d i1 i2 => exact .cons i1 i2

private theorem hash_same {eqA : α → α → Bool} {hashA : α → Int} (hashNil : Int)
    (hashTuple : List Int → Int) (hc : ∀ a b, eqA a b = true → hashA a = hashA b) {x y : Obj α}
    (h : SameStructure eqA x y) :
    pyhash hashA hashNil hashTuple x = pyhash hashA hashNil hashTuple y ∧
    pyhash.hashItems hashA hashNil hashTuple x = pyhash.hashItems hashA hashNil hashTuple y := by
  induction h with
  | atom h => simp [pyhash, pyhash.hashItems, hc _ _ h]
  | nil => simp
  | cons _ _ i1 i2 => simp [pyhash, pyhash.hashItems, i1.1, i2.1, i2.2]

/-- C30: equal structures have equal hashes, provided equal atoms have equal hashes. -/
theorem C30_hash (eqA : α → α → Bool) (hashA : α → Int) (hashNil : Int) (hashTuple : List Int → Int)
    (hc : ∀ a b, eqA a b = true → hashA a = hashA b) (x y : Obj α) (h : eq eqA x y = true) :
    pyhash hashA hashNil hashTuple x = pyhash hashA hashNil hashTuple y :=
  (hash_same hashNil hashTuple hc ((C30_eq eqA x y).mp h)).1

example : eq (fun a b : Nat => a == b) (.cons (.atom 1) (.cons (.atom 2) (.atom 3)))
    (.cons (.atom 1) (.cons (.atom 2) (.atom 3))) = true := by simp [eq, eqWalk]
example : eq (fun a b : Nat => a == b) (.cons (.atom 1) (.cons (.atom 2) .nil))
    (.cons (.atom 1) (.cons (.atom 2) (.atom 3))) = false := by simp [eq, eqWalk]

/-! ## C31 tree iterators -/

/-- C31 refuted: the walk is not left to right when a leaf follows a subtree. -/
theorem C31_order_refuted :
    binaryTreeIterator (.cons (.cons (.atom 1) (.atom 2)) (.atom 3)) =
      .ok [.atom 3, .atom 1, .atom (2 : Nat)] ∧
    leaves (.cons (.cons (.atom 1) (.atom 2)) (.atom (3 : Nat))) = [.atom 1, .atom 2, .atom 3] := by
  constructor
  · simp [binaryTreeIterator, walkTree, Obj.isCons]
  · rfl

private def one (b : Bool) (a d : Obj α) : List (Obj α) :=
  (if a.isCons then [] else [a]) ++ (if d.isCons then [] else
      match b, d with
      | true, .nil => []
      | _, _ => [d])

private def pre (b : Bool) : Obj α → List (Obj α)
  | .cons a d => one b a d ++ pre b a ++ pre b d
  | _ => []

private theorem walkTree_eq (b : Bool) (s : List (Obj α × Obj α)) :
    walkTree b s = s.flatMap (fun p => pre b (.cons p.1 p.2)) := by
  fun_induction walkTree b s with
  | case1 => rfl
  | case2 a d stack o1 o2 s1 s2 ih =>
    rw [ih]
    show (o1 ++ o2) ++ _ = _
    have h0 : o1 ++ o2 = one b a d := rfl
    rw [h0]
    simp only [List.flatMap_cons, pre]
    cases a <;> cases d <;> simp [s1, s2, pre]

private theorem pre_leaves (x : Obj α) (h : x.isCons = true) (hl : LeafAfterLeaf x) :
    pre false x = leaves x := by
  induction x with
  | atom => simp [Obj.isCons] at h
  | nil => simp [Obj.isCons] at h
  | cons a d ia id =>
    obtain ⟨h1, h2, h3⟩ := hl
    have ia := fun h => ia h h2
    have id := fun h => id h h3
    cases a <;> cases d <;> simp_all [pre, one, leaves, Obj.isCons]

private theorem pre_leavesNoNil (x : Obj α) (h : x.isCons = true) (hl : LeafAfterLeaf x) :
    pre true x = leavesNoNil x := by
  induction x with
  | atom => simp [Obj.isCons] at h
  | nil => simp [Obj.isCons] at h
  | cons a d ia id =>
    obtain ⟨h1, h2, h3⟩ := hl
    have ia := fun h => ia h h2
    have id := fun h => id h h3
    cases a <;> cases d <;> simp_all [pre, one, leavesNoNil, Obj.isCons]

private theorem pre_perm (x : Obj α) (h : x.isCons = true) :
    (pre false x).Perm (leaves x) ∧ (pre true x).Perm (leavesNoNil x) := by
  induction x with
  | atom => simp [Obj.isCons] at h
  | nil => simp [Obj.isCons] at h
  | cons a d ia id =>
    cases a with
    | cons a1 a2 =>
      have ia := ia rfl
      cases d with
      | cons d1 d2 =>
        have id := id rfl
        constructor
        · have e : pre false (.cons (.cons a1 a2) (.cons d1 d2)) =
            pre false (.cons a1 a2) ++ pre false (.cons d1 d2) := by simp [pre, one, Obj.isCons]
          rw [e]; exact ia.1.append id.1
        · have e : pre true (.cons (.cons a1 a2) (.cons d1 d2)) =
            pre true (.cons a1 a2) ++ pre true (.cons d1 d2) := by simp [pre, one, Obj.isCons]
          rw [e]; exact ia.2.append id.2
      | atom t =>
        constructor
        · have e : pre false (.cons (.cons a1 a2) (.atom t)) =
            [.atom t] ++ pre false (.cons a1 a2) := by simp [pre, one, Obj.isCons]
          rw [e]; exact (ia.1.append_left _).trans List.perm_append_comm
        · have e : pre true (.cons (.cons a1 a2) (.atom t)) =
            [.atom t] ++ pre true (.cons a1 a2) := by simp [pre, one, Obj.isCons]
          rw [e]; exact (ia.2.append_left _).trans List.perm_append_comm
      | nil =>
        constructor
        · have e : pre false (.cons (.cons a1 a2) .nil) =
            [.nil] ++ pre false (.cons a1 a2) := by simp [pre, one, Obj.isCons]
          rw [e]; exact (ia.1.append_left _).trans List.perm_append_comm
        · have e : pre true (.cons (.cons a1 a2) .nil) = pre true (.cons a1 a2) := by
            simp [pre, one, Obj.isCons]
          rw [e]; exact ia.2
    | atom t =>
      cases d with
      | cons d1 d2 =>
        have id := id rfl
        constructor
        · have e : pre false (.cons (.atom t) (.cons d1 d2)) = .atom t :: pre false (.cons d1 d2) := by
            simp [pre, one, Obj.isCons]
          rw [e]; exact id.1.cons _
        · have e : pre true (.cons (.atom t) (.cons d1 d2)) = .atom t :: pre true (.cons d1 d2) := by
            simp [pre, one, Obj.isCons]
          rw [e]; exact id.2.cons _
      | atom => simp [pre, one, Obj.isCons, leaves, leavesNoNil]
      | nil => simp [pre, one, Obj.isCons, leaves, leavesNoNil]
    | nil =>
      cases d with
      | cons d1 d2 =>
        have id := id rfl
        constructor
        · have e : pre false (.cons .nil (.cons d1 d2)) = .nil :: pre false (.cons d1 d2) := by
            simp [pre, one, Obj.isCons]
          rw [e]; exact id.1.cons _
        · have e : pre true (.cons .nil (.cons d1 d2)) = .nil :: pre true (.cons d1 d2) := by
            simp [pre, one, Obj.isCons]
          rw [e]; exact id.2.cons _
      | atom => simp [pre, one, Obj.isCons, leaves, leavesNoNil]
      | nil => simp [pre, one, Obj.isCons, leaves, leavesNoNil]

/-- C31: for every tree, `BinaryTreeIterator` yields every leaf exactly as often as it occurs, and
`JackOfAllTradesIterator` every leaf except a `nil` in a cdr half; both reject a non-cons. -/
theorem C31_leaves (x : Obj α) :
    (x.isCons = true → (∃ out, binaryTreeIterator x = .ok out ∧ out.Perm (leaves x)) ∧
      ∃ out, jackIterator x = .ok out ∧ out.Perm (leavesNoNil x)) ∧
    (x.isCons = false → binaryTreeIterator x = .error .TypeError ∧ jackIterator x = .error .TypeError) := by
  cases x with
  | atom => simp [Obj.isCons, binaryTreeIterator, jackIterator]
  | nil => simp [Obj.isCons, binaryTreeIterator, jackIterator]
  | cons a d =>
    refine ⟨fun _ => ?_, by simp [Obj.isCons]⟩
    have := pre_perm (.cons a d) rfl
    exact ⟨⟨_, rfl, by rw [walkTree_eq]; simpa using this.1⟩,
      ⟨_, rfl, by rw [walkTree_eq]; simpa using this.2⟩⟩

/-- C31 (partial): the walk is depth-first left to right for every tree in which no leaf follows a
subtree within one cell.  Missing: the other trees, for which it is false (`C31_order_refuted`). -/
theorem C31_order_partial (a d : Obj α) (h : LeafAfterLeaf (.cons a d)) :
    binaryTreeIterator (.cons a d) = .ok (leaves (.cons a d)) ∧
    jackIterator (.cons a d) = .ok (leavesNoNil (.cons a d)) := by
  constructor
  · rw [binaryTreeIterator, walkTree_eq]
    simpa using pre_leaves (.cons a d) rfl h
  · rw [jackIterator, walkTree_eq]
    simpa using pre_leavesNoNil (.cons a d) rfl h

/-- C31: a nested linked list given to `JackOfAllTradesIterator` is flattened; for a flat list the items
come out in order. -/
theorem C31_jack_list (l : Obj α) (xs : List (Obj α)) (h : IsList l xs) (hne : xs ≠ [])
    (hx : ∀ x ∈ xs, x.isCons = false) : jackIterator l = .ok xs := by
  have hl : ∀ {l : Obj α} {xs}, IsList l xs → (∀ x ∈ xs, x.isCons = false) →
      (xs ≠ [] → leavesNoNil l = xs) ∧ LeafAfterLeaf l := by
    intro l xs h
    induction h with
    | nil => intro _; exact ⟨by simp, trivial⟩
    | @cons a d xs h ih =>
      intro hx
      have ha := hx a (by simp)
      have := ih (fun x h => hx x (by simp [h]))
      refine ⟨fun _ => ?_, ?_⟩
      · cases h with
        | nil => cases a <;> simp_all [leavesNoNil, Obj.isCons]
        | cons h' =>
          have := this.1 (by simp)
          cases a <;> simp_all [leavesNoNil, Obj.isCons]
      · refine ⟨by simp [ha], ?_, this.2⟩
        cases a <;> simp_all [LeafAfterLeaf, Obj.isCons]
  have := hl h hx
  cases h with
  | nil => exact absurd rfl hne
  | cons h' => rw [(C31_order_partial _ _ this.2).2, this.1 hne]

example : LeafAfterLeaf (.cons (.atom 1) (.cons (.cons (.atom 2) (.atom 3)) (.cons (.atom 4) (.atom (5 : Nat))))) := by
  simp [LeafAfterLeaf, Obj.isCons]
example : jackIterator (.cons (.atom 1) (.cons (.atom (2 : Nat)) .nil)) = .ok [.atom 1, .atom 2] := by
  simp [jackIterator, walkTree, Obj.isCons]

end Unpy.Props
