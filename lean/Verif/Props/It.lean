import Verif.Proof.It
import Verif.Proof.ItFlatten
import Verif.Proof.ItLazy
/-!
# Properties of `unpythonic/it.py` (C16-C25, C67, C68)
-/
namespace Unpy.Props
open Unpy.It Unpy.ItLazy Unpy.Spec.It
universe u v
variable {α : Type u} {β : Type v}

/-! ## C16 window -/

/-- C16: `window(n, xs)` yields exactly the contiguous runs of length `n`, in order:
`len - n + 1` of them if `len ≥ n`, none otherwise; `n < 2` raises ValueError. -/
theorem C16_window (n : Int) (xs : List α) :
    window n xs =
      if n < 2 then .error .ValueError
      else .ok ((List.range (xs.length + 1 - n.toNat)).map (fun i => (xs.drop i).take n.toNat)) := by
  unfold window
  split
  · rfl
  · rename_i hn
    rw [fillQ_eq]
    by_cases h : n.toNat ≤ xs.length
    · simp only [h, if_true, List.nil_append]
      rw [windowedLoop_eq _ _ (by
        intro e; have := congrArg List.length e; simp only [List.length_take, List.length_nil] at this; omega)]
      have e1 : (xs.drop n.toNat).length + 1 = xs.length + 1 - n.toNat := by simp; omega
      have e2 : (xs.take n.toNat).length = n.toNat := by simp; omega
      rw [e1, e2]; simp
    · simp only [h, if_false]
      rw [show xs.length + 1 - n.toNat = 0 by omega]; simp

example : window 3 [1, 2, 3, 4, 5] = .ok [[1, 2, 3], [2, 3, 4], [3, 4, 5]] := by decide
example : window 3 [1, 2] = .ok ([] : List (List Nat)) := by decide

/-- C16 (infinite inputs): the windows obtained from a prefix of the input are the first windows
obtained from the whole input. -/
theorem C16_window_prefix (n : Int) (xs ys : List α) (ws : List (List α))
    (h : window n xs = .ok ws) : ∃ vs, window n (xs ++ ys) = .ok (ws ++ vs) := by
  rw [C16_window] at h
  split at h
  · simp at h
  · rename_i hn
    rw [C16_window, if_neg hn]
    simp only [Except.ok.injEq] at h
    subst h
    refine ⟨(List.range ((xs ++ ys).length + 1 - n.toNat - (xs.length + 1 - n.toNat))).map
      (fun i => ((xs ++ ys).drop ((xs.length + 1 - n.toNat) + i)).take n.toNat), ?_⟩
    have e : (xs ++ ys).length + 1 - n.toNat = (xs.length + 1 - n.toNat) +
        ((xs ++ ys).length + 1 - n.toNat - (xs.length + 1 - n.toNat)) := by simp; omega
    rw [e, List.range_add, List.map_append, List.map_map]
    congr 2
    · apply List.map_congr_left
      intro i hi
      simp at hi
      rw [List.drop_append, List.take_append_of_le_length (by simp; omega)]
    · simp [Function.comp_def]

example : window 2 [1, 2, 3] = .ok [[1, 2], [2, 3]] ∧
    window 2 ([1, 2, 3] ++ [4]) = .ok ([[1, 2], [2, 3]] ++ [[3, 4]]) := by decide

/-! ## C17 chunked -/

theorem chunked_aux (n : Nat) (hn : 1 ≤ n) (xs : List α) (fuel : Nat) (hf : xs.length < fuel) :
    ∃ cs, chunkedWith n (List.replicate fuel (n-1)) xs = cs ∧ cs.flatten = xs ∧
      (∀ i c, cs[i]? = some c → i + 1 < cs.length → c.length = n) ∧
      (∀ c, cs.getLast? = some c → 1 ≤ c.length ∧ c.length ≤ n) := by
  induction fuel generalizing xs with
  | zero => omega
  | succ fuel ih =>
    by_cases hx : xs = []
    · subst hx
      refine ⟨[], ?_, rfl, ?_, ?_⟩
      · exact chunkedWith_nil _ _
      · intro i c h; simp at h
      · intro c h; simp at h
    · have hpos : 0 < xs.length := List.length_pos_iff.mpr hx
      obtain ⟨cs, h1, h2, h3, h4⟩ := ih (xs.drop (n - 1 + 1)) (by simp; omega)
      refine ⟨xs.take (n - 1 + 1) :: cs, ?_, ?_, ?_, ?_⟩
      · rw [List.replicate_succ, chunkedWith, chunkStep_eq _ _ _ hx]
        simp [h1]
      · simp [h2]
      · intro i c h hi
        cases i with
        | zero =>
          simp at h hi; subst h
          -- there is a next chunk, so the rest is nonempty
          have : xs.drop (n-1+1) ≠ [] := by
            intro e
            rw [e, chunkedWith_nil] at h1
            subst h1; simp at hi
          have : 0 < (xs.drop (n-1+1)).length := List.length_pos_iff.mpr this
          simp at this ⊢; omega
        | succ i => exact h3 i c (by simpa using h) (by simpa using hi)
      · intro c h
        cases hcs : cs with
        | nil => simp [hcs] at h; subst h; simp; omega
        | cons d ds => rw [hcs] at h; exact h4 c (by rw [hcs]; simpa using h)

/-- C17: the chunks of `chunked(n, xs)` concatenate to `xs`; each but the last has exactly `n`
items; the last has between 1 and `n`; `n < 2` raises ValueError. -/
theorem C17_chunked (n : Int) (xs : List α) :
    (n < 2 ∧ chunked n xs = .error .ValueError) ∨
    (2 ≤ n ∧ ∃ cs, chunked n xs = .ok cs ∧ cs.flatten = xs ∧
      (∀ i c, cs[i]? = some c → i + 1 < cs.length → (c.length : Int) = n) ∧
      (∀ c, cs.getLast? = some c → 1 ≤ c.length ∧ (c.length : Int) ≤ n)) := by
  by_cases hn : n < 2
  · exact .inl ⟨hn, by simp [chunked, hn]⟩
  · refine .inr ⟨by omega, ?_⟩
    obtain ⟨cs, h1, h2, h3, h4⟩ := chunked_aux n.toNat (by omega) xs (xs.length + 1) (by omega)
    refine ⟨cs, by simp [chunked, hn, h1], h2, ?_, ?_⟩
    · intro i c hc hi; have := h3 i c hc hi; omega
    · intro c hc; have := h4 c hc; omega

example : chunked 3 [1, 2, 3, 4, 5, 6, 7] = .ok [[1, 2, 3], [4, 5, 6], [7]] := by decide

/-- C17: also if the consumer abandons chunks early (reads only `1 + c` items of a chunk before
asking for the next one), no item is lost or duplicated: what was read is a prefix of the input and
each piece has at most `n` items. -/
theorem C17_chunked_early (n : Nat) (hn : 1 ≤ n) (cs : List Nat) (xs : List α) :
    (chunkedWith n cs xs).flatten <+: xs ∧
    ∀ piece ∈ chunkedWith n cs xs, 1 ≤ piece.length ∧ piece.length ≤ n := by
  induction cs generalizing xs with
  | nil => simp [chunkedWith]
  | cons c cs ih =>
    by_cases hx : xs = []
    · subst hx; simp [chunkedWith_nil]
    · have hpos : 0 < xs.length := List.length_pos_iff.mpr hx
      rw [chunkedWith, chunkStep_eq _ _ _ hx]
      simp only [List.flatten_cons, List.mem_cons]
      obtain ⟨h1, h2⟩ := ih (xs.drop (min c (n-1) + 1))
      constructor
      · obtain ⟨t, ht⟩ := h1
        exact ⟨t, by rw [List.append_assoc, ht, List.take_append_drop]⟩
      · rintro piece (rfl | h)
        · simp; omega
        · exact h2 piece h

example : chunkedWith 3 [0, 2, 1] [1, 2, 3, 4, 5, 6, 7] = [[1], [2, 3, 4], [5, 6]] := by decide

/-! ## C18 cutting -/

/-- C18: `take`, `drop` and `split_at` cut at `n`; negative `n` raises ValueError. -/
theorem C18_take_drop (n : Int) (xs : List α) :
    (n < 0 → take n xs = .error .ValueError ∧ drop n xs = .error .ValueError ∧
      split_at n xs = .error .ValueError) ∧
    (0 ≤ n → take n xs = .ok (xs.take n.toNat) ∧ drop n xs = .ok (xs.drop n.toNat) ∧
      split_at n xs = .ok (xs.take n.toNat, xs.drop n.toNat)) := by
  constructor
  · intro h; simp [take, drop, split_at, h]
  · intro h
    have h' : ¬ n < 0 := by omega
    simp [take, drop, split_at, h', isliceN_eq]

example : split_at 2 [1, 2, 3] = .ok ([1, 2], [3]) := by decide

/-- C18: `butlastn(n, xs)` yields all but the last `n` items (for `n ≥ 0`) and ends normally. -/
theorem C18_butlastn (n : Nat) (xs : List α) :
    butlastn n xs = ⟨xs.take (xs.length - n), none⟩ := by
  unfold butlastn
  rw [fillQ_eq]
  have e : ((n : Int) + 1).toNat = n + 1 := by omega
  rw [e]
  by_cases h : n + 1 ≤ xs.length
  · simp only [h, if_true, List.nil_append]
    rw [butlastnLoop_eq _ _ (by intro e; have := congrArg List.length e; simp only [List.length_take, List.length_nil] at this; omega)]
    simp only [List.take_append_drop, List.length_drop]
    congr 2; omega
  · simp only [h, if_false]
    rw [show xs.length - n = 0 by omega]; simp

example : butlastn 2 [1, 2, 3, 4, 5] = ⟨[1, 2, 3], none⟩ := by rw [show (2:Int) = (2:Nat) from rfl, C18_butlastn]; rfl
example : butlastn 9 [1, 2, 3] = ⟨[], none⟩ := by rw [show (9:Int) = (9:Nat) from rfl, C18_butlastn]; rfl

/-- C18: negative `n` is not silently accepted by `butlastn`: the generator raises IndexError. -/
theorem C18_butlastn_neg (n : Int) (h : n < 0) (xs : List α) :
    butlastn n xs = ⟨[], some .IndexError⟩ := by
  unfold butlastn
  rw [show (n + 1).toNat = 0 by omega]
  simp [fillQ, butlastnLoop]

example : butlastn (-1) [1, 2] = ⟨[], some .IndexError⟩ := C18_butlastn_neg (-1) (by decide) _

/-- C18: `lastn(n, xs)` yields exactly the last `n` items (all if there are fewer); negative `n`
raises ValueError. -/
theorem C18_lastn (n : Int) (xs : List α) :
    lastn n xs = if n < 0 then ⟨[], some .ValueError⟩
      else ⟨xs.drop (xs.length - n.toNat), none⟩ := by
  unfold lastn; split <;> simp [dequeOf_eq]

example : lastn 2 [1, 2, 3, 4, 5] = ⟨[4, 5], none⟩ := by decide

/-- C18: `butlastn` and `lastn` with the same `n` reassemble the input. -/
theorem C18_reassemble (n : Nat) (xs : List α) :
    (butlastn n xs).items ++ (lastn n xs).items = xs := by
  rw [C18_butlastn, C18_lastn, if_neg (by omega)]; simp

example : (butlastn 2 [1, 2, 3]).items ++ (lastn 2 [1, 2, 3]).items = [1, 2, 3] := C18_reassemble 2 _

/-- C18: `last` is the last item or the default; `nth` the item at position `n` or the default. -/
theorem C18_last_nth (n : Int) (xs : List α) (d : α) :
    last xs d = xs.getLastD d ∧
    nth n xs d = if n < 0 then .error .ValueError else .ok (xs[n.toNat]?.getD d) := by
  constructor
  · unfold last
    rw [dequeOf_eq]
    cases h : xs.getLast? with
    | none =>
      have : xs = [] := by simpa using h
      subst this; simp
    | some y =>
      have hne : xs ≠ [] := by rintro rfl; simp at h
      have hl : 0 < xs.length := List.length_pos_iff.mpr hne
      rw [List.getLast?_drop, if_neg (by omega), h]
      simp [List.getLastD_eq_getLast?, h]
  · unfold nth
    split
    · rfl
    · rename_i hn
      by_cases h0 : n = 0
      · subst h0; cases xs <;> simp
      · simp only [h0, if_false]
        rw [((C18_take_drop n xs).2 (by omega)).2.1]
        cases h : xs.drop n.toNat with
        | nil =>
          have : xs.length ≤ n.toNat := by simpa using h
          simp [List.getElem?_eq_none this]
        | cons y ys =>
          have : xs[n.toNat]? = (xs.drop n.toNat)[0]? := by simp
          rw [this, h]; simp

example : last [1, 2, 3] 0 = 3 ∧ nth 1 [5, 6] 0 = .ok 6 ∧ nth 7 [5, 6] 0 = .ok 0 := by decide

/-- C18: `butlast` yields all items but the last, `tail` all but the first; `first` and `second` return the item at that place, or
the default if there is none. -/
theorem C18_ends (xs : List α) (d : α) :
    butlast xs = ⟨xs.dropLast, none⟩ ∧ tail xs = .ok xs.tail ∧ first xs d = .ok (xs.head?.getD d) ∧
    second xs d = .ok (xs.tail.head?.getD d) := by
  refine ⟨?_, ?_, ?_, ?_⟩
  · have := C18_butlastn 1 xs
    rw [butlast, show (1 : Int) = ((1 : Nat) : Int) from rfl, this, List.dropLast_eq_take]
  · rw [tail, ((C18_take_drop 1 xs).2 (by omega)).2.1, List.drop_one.symm]; rfl
  · cases xs <;> simp [first, nth]
  · rw [second, nth, ((C18_take_drop 1 xs).2 (by omega)).2.1]
    match xs with
    | [] => rfl
    | [_] => rfl
    | _ :: _ :: _ => rfl

example : butlast [1, 2, 3] = ⟨[1, 2], none⟩ ∧ tail [1, 2, 3] = .ok [2, 3] ∧ first [1, 2] 9 = .ok 1 ∧ second [1] 9 = .ok 9 :=
  ⟨(C18_ends _ 0).1, (C18_ends _ 0).2.1, (C18_ends _ 9).2.2.1, (C18_ends [1] 9).2.2.2⟩

/-! ## C19 uniqify, uniq -/

/-- C19: `uniqify` keeps exactly the items at positions whose key occurs at no earlier position. -/
theorem C19_uniqify [DecidableEq β] (key : α → β) (xs : List α) :
    uniqify key xs = atPositions (isFirstOcc key xs) xs := by
  rw [uniqify, uniqifyLoop_eq]
  apply atPositions_congr
  intro i _
  cases xs[i]?.map key <;> simp

example : uniqify (fun x => x % 3) [1, 2, 4, 5, 3, 1] = [1, 2, 3] := by decide

/-- C19: `uniq` keeps exactly the items at positions starting a run of equal keys. -/
theorem C19_uniq [DecidableEq β] (key : α → β) (xs : List α) :
    uniq key xs = atPositions (isRunStart key xs) xs := by
  rw [uniq, uniqLoop_eq]
  apply atPositions_congr
  intro i hi
  cases i with
  | zero => cases xs <;> simp [isRunStart] at hi ⊢
  | succ i => simp

example : uniq id [1, 1, 2, 2, 1, 3] = [1, 2, 1, 3] := by decide

/-- C19 (infinite inputs): output for a prefix of the input is a prefix of the output. -/
theorem C19_prefix [DecidableEq β] (key : α → β) (xs ys : List α) :
    uniqify key xs <+: uniqify key (xs ++ ys) ∧ uniq key xs <+: uniq key (xs ++ ys) := by
  constructor
  · unfold uniqify
    generalize ([] : List β) = seen
    induction xs generalizing seen with
    | nil => exact List.nil_prefix
    | cons x xs ih =>
      simp only [List.cons_append, uniqifyLoop]
      split
      · exact ih _
      · exact List.prefix_cons_inj _ |>.mpr (ih _)
  · unfold uniq
    generalize (none : Option β) = cur
    induction xs generalizing cur with
    | nil => exact List.nil_prefix
    | cons x xs ih =>
      simp only [List.cons_append, uniqLoop]
      split
      · exact ih _
      · exact List.prefix_cons_inj _ |>.mpr (ih _)

example : uniqify id [1, 1, 2] <+: uniqify id ([1, 1, 2] ++ [3]) := (C19_prefix id _ _).1

/-! ## C20 powerset -/

/-- C20: for an input with distinct items, `powerset` yields exactly the nonempty sublists (items in
input order), each once. -/
theorem C20_powerset_distinct (xs : List α) (h : xs.Nodup) :
    (powerset xs).Nodup ∧ ∀ c, c ∈ powerset xs ↔ c ≠ [] ∧ c.Sublist xs :=
  ⟨powerset_nodup xs h, mem_powerset xs⟩

example : powerset [0, 1, 2] = [[0], [1], [0, 1], [2], [0, 2], [1, 2], [0, 1, 2]] := by decide

/-- C20, for any input (duplicates allowed): the output is obtained by reading off the input the
nonempty selections of positions `0 .. n-1`, each selection exactly once, in increasing order of
position. -/
theorem C20_powerset (xs : List α) :
    ∃ sels : List (List Nat), sels.Nodup ∧
      (∀ sel, sel ∈ sels ↔ sel ≠ [] ∧ sel.Sublist (List.range xs.length)) ∧
      (powerset xs).map (List.map some) = sels.map (fun sel => sel.map (fun i => xs[i]?)) := by
  refine ⟨powerset (List.range xs.length), powerset_nodup _ List.nodup_range, mem_powerset _, ?_⟩
  have e : xs.map some = (List.range xs.length).map (fun i => xs[i]?) := by
    apply List.ext_getElem?
    intro i
    by_cases h : i < xs.length
    · simp [h]
    · have h1 : xs.length ≤ i := by omega
      rw [List.getElem?_eq_none (by simpa using h1), List.getElem?_eq_none (by simpa using h1)]
  have h1 := powersetLoop_map (some : α → Option α) [] xs
  have h2 := powersetLoop_map (fun i => xs[i]?) [] (List.range xs.length)
  simp only [List.map_nil] at h1 h2
  unfold powerset
  rw [← h1, ← h2, e]

/-- C20: the number of subsets is 2^n - 1. -/
theorem C20_powerset_length (xs : List α) : (powerset xs).length = 2 ^ xs.length - 1 := by
  have := powerset_length xs; omega

example : (powerset [7, 7, 7]).length = 7 := by decide

/-- C20: subsets of a prefix of the input come out before any subset using later items, and every
later subset uses a later item. -/
theorem C20_powerset_prefix (xs : List α) (y : α) :
    powerset (xs ++ [y]) = powerset xs ++ [y] :: (powerset xs).map (· ++ [y]) :=
  powerset_snoc xs y

example : powerset ([1] ++ [2]) = powerset [1] ++ [2] :: (powerset [1]).map (· ++ [2]) := C20_powerset_prefix _ _

/-! ## C21 flatten, flatten_in -/

/-- C21: the output of `flatten(xs, pred)` lists, in left-to-right (lexicographic path) order and each
exactly once, the items reachable by entering only accepted lists/tuples that are not to be
entered themselves. -/
theorem C21_flatten (pred : Bool → List (Val α) → Bool) (xs : List (Val α)) :
    ∃ L : List (List Nat × Val α), L.map Prod.snd = flatten pred xs ∧
      L.Pairwise (fun a b => a.1 < b.1) ∧
      ∀ p v, (p, v) ∈ L ↔ Reach pred xs p v ∧ Final pred v := by
  refine ⟨addrL pred 0 xs, addrL_snd pred 0 xs, addrL_sorted pred 0 xs, ?_⟩
  intro p v
  rw [mem_addrL, reach_cons]
  constructor
  · rintro ⟨j, q, e, rfl, h1, h2, h3⟩
    exact ⟨⟨_, q, e, rfl, by simpa using h1, h2⟩, h3⟩
  · rintro ⟨⟨i, q, e, rfl, h1, h2⟩, h3⟩
    exact ⟨i, q, e, by simp, h1, h2, h3⟩

example : flatten (fun _ _ => true) [.atom 1, .seq true [.atom 2, .seq false [.atom 3]], .seq false []]
    = [.atom 1, .atom 2, .atom (3:Nat)] := by simp [flatten, flattenL, flattenE]

/-- C21: without a predicate only atoms remain, and they are all there in order; with any predicate
no atom is lost, duplicated or moved. -/
theorem C21_flatten_atoms (pred : Bool → List (Val α) → Bool) (xs : List (Val α)) :
    atomsL (flatten pred xs) = atomsL xs ∧
    flatten (fun _ _ => true) xs = (atomsL xs).map Val.atom := by
  refine ⟨atomsL_flattenL pred xs, ?_⟩
  obtain ⟨L, h1, _, h3⟩ := C21_flatten (fun _ _ => true) xs
  have hat : ∀ v ∈ flatten (fun _ _ => true) xs, ∃ a, v = Val.atom a := by
    intro v hv
    rw [← h1] at hv
    simp only [List.mem_map, Prod.exists] at hv
    obtain ⟨p, w, hm, rfl⟩ := hv
    have hf := ((h3 p w).mp hm).2
    cases w with
    | atom a => exact ⟨a, rfl⟩
    | seq t es => have := hf t es rfl; simp at this
  have key : ∀ ys : List (Val α), (∀ v ∈ ys, ∃ a, v = Val.atom a) → ys = (atomsL ys).map Val.atom := by
    intro ys
    induction ys with
    | nil => simp [atomsL]
    | cons y ys ih =>
      intro h
      obtain ⟨a, rfl⟩ := h y (by simp)
      have := ih (fun v hv => h v (by simp [hv]))
      simp only [atomsL, atoms, List.singleton_append, List.map_cons]
      rw [← this]
  rw [key _ hat, show flatten (fun _ _ => true) xs = flattenL (fun _ _ => true) xs from rfl,
    atomsL_flattenL]

example : atomsL [.seq true [.atom 1, .seq false [.atom (2:Nat)]]] = [1, 2] := by simp [atomsL, atoms]

/-- C21: `flatten_in` yields the same items as `flatten`, except that the lists/tuples passed through
have had `flatten_in` applied inside them.  (Missing: named tuples among those passed through, see `C21_named_refuted`.) -/
theorem C21_flatten_in_partial (pred : Bool → List (Val α) → Bool) (xs : List (Val α)) :
    flatten_in pred xs = (flatten pred xs).map (fun v => match v with
      | .atom a => .atom a
      | .seq t es => .seq t (flatten_in pred es)) ∧
    atomsL (flatten_in pred xs) = atomsL xs :=
  ⟨flattenInL_eq pred xs, atomsL_flattenInL pred xs⟩

/-- the docstring example of `flatten_in`: rejected sequences are kept, but flattened inside -/
example : flatten_in (fun _ es => es.all (fun e => match e with | .atom _ => false | .seq _ _ => true))
      [.seq true [.seq true [.seq true [.seq true [.atom 1]]], .atom (7:Nat)]]
    = [.seq true [.seq true [.atom 1], .atom 7]] := by
  simp [flatten_in, flattenInL, flattenInE]

/-- C21: `flatten1(xs, pred)`, with a predicate (without one, see `C21_nopred_partial`), replaces each accepted list/tuple by its items, one level only: its output is,
in order, the items whose path has length 1 and are not to be entered, or has length 2. -/
theorem C21_flatten1 (pred : Bool → List (Val α) → Bool) (xs : List (Val α)) :
    flatten1p pred xs = xs.flatMap (fun v => match v with
      | .atom a => [.atom a]
      | .seq t es => if pred t es then es else [.seq t es]) := by
  induction xs with
  | nil => rfl
  | cons v xs ih => cases v <;> simp [flatten1p, ih]

example : flatten1p (fun _ _ => true) [.atom 1, .seq true [.atom 2, .seq false [.atom 3]]]
    = [.atom 1, .atom 2, .seq false [.atom (3:Nat)]] := by simp [flatten1p]

/-! ## C22 partition -/

/-- C22: however the `next` calls on the two outputs of `partition(pred, xs)` are interleaved
(`ops`: `true` = next on the true-items), call number `t` on one side returns the item of that kind
with index the number of earlier calls on that side (`none` = StopIteration past the end). -/
theorem C22_partition (pred : α → Bool) (xs : List α) (ops : List Bool) (t : Nat) (side : Bool)
    (h : ops[t]? = some side) :
    (partRun pred ops (partition pred xs))[t]? =
      some ((xs.filter (fun x => pred x = side))[(ops.take t).count side]?) := by
  rw [partRun_eq pred ops _ t side h]
  cases side <;> simp [partition, Tee.pending, Tee.buf]

example : ([true, false, true, true] : List Bool)[2]? = some true ∧
    partRun (fun x => x % 2 = 0) [true, false, true, true] (partition (fun x => x % 2 = 0) [1, 2, 3, 4])
      = [some 2, some 1, some 4, none] := by
  refine ⟨rfl, ?_⟩
  simp [partRun, partition, partNext, teeNext]

/-! ## C23 inn -/

/-- C23: on a monotonic input that is finite or diverges, `inn(x, it)` terminates, and returns
whether `x` occurs in it.  `src i` is the outcome of the i-th `next` (none: StopIteration). -/
theorem C23_inn (src : Nat → Option Int) (x : Int)
    (hstop : ∀ i, src i = none → src (i+1) = none)
    (hmono : (∀ i j a b, i ≤ j → src i = some a → src j = some b → a ≤ b) ∧
        ((∃ i, src i = none) ∨ ∀ B, ∃ i a, src i = some a ∧ B < a) ∨
      (∀ i j a b, i ≤ j → src i = some a → src j = some b → b ≤ a) ∧
        ((∃ i, src i = none) ∨ ∀ B, ∃ i a, src i = some a ∧ a < B)) :
    ∃ N b, (∀ fuel, N ≤ fuel → inn fuel x src = some b) ∧ (b = true ↔ ∃ j, src j = some x) := by
  have main : ∃ N, ∀ fuel, N ≤ fuel → ∃ b, inn fuel x src = some b ∧ (b = true ↔ ∃ j, src j = some x) := by
    rcases hmono with ⟨h1, h2⟩ | ⟨h1, h2⟩
    · exact inn_incr src h1 hstop h2 x
    · obtain ⟨N, hN⟩ := inn_incr (fun i => (src i).map (fun e => -e)) (by
        intro i j a b hij ha hb
        simp only [Option.map_eq_some_iff] at ha hb
        obtain ⟨a', ha, rfl⟩ := ha
        obtain ⟨b', hb, rfl⟩ := hb
        have := h1 i j a' b' hij ha hb; omega)
        (by intro i h; simp at h ⊢; exact hstop i h)
        (by
          rcases h2 with ⟨i, h⟩ | h
          · exact .inl ⟨i, by simp [h]⟩
          · refine .inr fun B => ?_
            obtain ⟨i, a, ha, hlt⟩ := h (-B)
            exact ⟨i, -a, by simp [ha], by omega⟩) (-x)
      refine ⟨N, fun fuel hf => ?_⟩
      obtain ⟨b, hb, hb'⟩ := hN fuel hf
      rw [inn_neg] at hb
      refine ⟨b, hb, ?_⟩
      rw [hb']
      constructor
      · rintro ⟨j, hj⟩
        simp only [Option.map_eq_some_iff] at hj
        obtain ⟨a, ha, he⟩ := hj
        exact ⟨j, by rw [ha]; congr 1; omega⟩
      · rintro ⟨j, hj⟩; exact ⟨j, by simp [hj]⟩
  obtain ⟨N, hN⟩ := main
  by_cases hx : ∃ j, src j = some x
  · refine ⟨N, true, fun fuel hf => ?_, by simp [hx]⟩
    obtain ⟨b, hb, hb'⟩ := hN fuel hf
    rw [hb, hb'.mpr hx]
  · refine ⟨N, false, fun fuel hf => ?_, by simp [hx]⟩
    obtain ⟨b, hb, hb'⟩ := hN fuel hf
    rw [hb]; cases b
    · rfl
    · exact absurd (hb'.mp rfl) hx

/-- the even numbers are such an input -/
example : ∃ N b, (∀ fuel, N ≤ fuel → inn fuel 41 (fun i => some (2 * (i : Int))) = some b) ∧
    (b = true ↔ ∃ j : Nat, some (2 * (j : Int)) = some 41) :=
  C23_inn _ 41 (by simp) (.inl ⟨by intro i j a b h ha hb; simp at ha hb; omega,
    .inr fun B => ⟨(B + 1).toNat, 2 * ((B+1).toNat : Int), rfl, by omega⟩⟩)

/-! ## C24 interleave -/

/-- C24: with at least one input, `interleave` yields complete rounds for as long as all inputs have
an item, and then the items of the next round up to the first exhausted input. -/
theorem C24_interleave (its : List (List α)) (m : Nat) (h : IsShortest its m) :
    interleave its = some (roundRobin its m) := interleave_eq its m h

example : IsShortest [[1, 4, 6], [2, 5], [3]] 1 ∧ interleave [[1, 4, 6], [2, 5], [3]] = some [1, 2, 3, 4, 5] := by
  have h : IsShortest [[1, 4, 6], [2, 5], [3]] 1 := by constructor <;> simp
  exact ⟨h, by rw [C24_interleave _ 1 h]; rfl⟩

/-- C24, no inputs at all: the generator never yields and never ends. -/
theorem C24_interleave_no_inputs : interleave ([] : List (List α)) = none := by rw [interleave]; simp

example : interleave ([] : List (List Nat)) = none := C24_interleave_no_inputs

/-! ## C25 unpack -/

/-- C25: negative `n` or `k` raise ValueError.  If the input has at least `n` items, `unpack` returns
them and the tail from item `k` on; if it has fewer, the missing items are the fill value and the
tail is empty. -/
theorem C25_unpack (n : Int) (xs : List α) (k : Option Int) (fill : α) :
    unpack n xs k fill =
      if n < 0 ∨ k.getD n < 0 then .error .ValueError
      else if n.toNat ≤ xs.length then .ok (xs.take n.toNat, xs.drop (k.getD n).toNat)
      else .ok (xs ++ List.replicate (n.toNat - xs.length) fill, []) := by
  unfold unpack
  by_cases hn : n < 0
  · simp [hn]
  by_cases hk : k.getD n < 0
  · simp [hn, hk]
  simp only [hn, hk, if_false, or_self]
  rw [unpackLoop_eq _ _ _ _ 0 [] xs none rfl (by omega)]
  generalize hK : k.getD n = K at hk
  by_cases hlen : n.toNat ≤ xs.length
  · simp only [hlen, if_true, List.nil_append]
    by_cases hkn : K < n
    · have : (0 ≤ K.toNat ∧ K.toNat < n.toNat) := by omega
      simp [this]
    · have : ¬ (0 ≤ K.toNat ∧ K.toNat < n.toNat) := by omega
      simp only [this, if_false]
      by_cases e : K = n
      · simp [e]
      · simp only [e, if_false]
        rw [if_pos (by omega), ((C18_take_drop (K - n) (xs.drop n.toNat)).2 (by omega)).2.1]
        simp only [List.drop_drop]
        congr 3; omega
  · simp [hlen]

example : unpack 2 [1, 2, 3, 4] none 0 = .ok ([1, 2], [3, 4]) ∧
    unpack 2 [1, 2, 3, 4] (some 1) 0 = .ok ([1, 2], [2, 3, 4]) ∧
    unpack 2 [1, 2, 3, 4] (some 3) 0 = .ok ([1, 2], [4]) ∧
    unpack 3 [1] none 0 = .ok ([1, 0, 0], []) := by decide

/-! ## C67 maps and zips -/

/-- C67: item `i` of `rmap(f, ...)` is `f` of the i-th items counted from the right ends; it ends when
one of the inputs (at least one is required) has no such item.  `rzip` likewise. -/
theorem C67_rmap (f : List α → β) (its : List (List α)) (hne : its ≠ []) (i : Nat) :
    (rmap f its)[i]? = (its.mapM (fun xs => fromRight xs i)).map f ∧
    (rzip its)[i]? = its.mapM (fun xs => fromRight xs i) := by
  have e : (its.map rev).mapM (fun xs => xs[i]?) = its.mapM (fun xs => fromRight xs i) := by
    clear hne
    induction its with
    | nil => simp
    | cons x xs ih =>
      simp only [List.map_cons, List.mapM_cons, ih]
      congr 1
      unfold rev fromRight
      split
      · rename_i h; rw [List.getElem?_reverse h]
      · rename_i h; rw [List.getElem?_eq_none (by simp; omega)]
  have hne' : its.map rev ≠ [] := by simpa using hne
  constructor
  · rw [rmap, pymap, List.getElem?_map, pyzip_getElem? _ hne', e]
  · rw [rzip, pyzip_getElem? _ hne', e]

example : rzip [[1, 2, 3], [4, 5]] = [[3, 5], [2, 4]] := by
  simp [rzip, rev, pyzip, nextAll]

theorem pyzip_length (its : List (List α)) (m : Nat) (h : IsShortest its m) : (pyzip its).length = m := by
  have hne : its ≠ [] := by rintro rfl; obtain ⟨_, ⟨xs, hx, _⟩⟩ := h; simp at hx
  have key : ∀ i, (pyzip its)[i]? = none ↔ m ≤ i := by
    intro i
    rw [pyzip_getElem? its hne]
    obtain ⟨h1, xs, hx, hm⟩ := h
    have hnone : ∀ l : List (List α), l.mapM (fun xs => xs[i]?) = none ↔ ∃ xs ∈ l, xs.length ≤ i := by
      intro l
      induction l with
      | nil => simp
      | cons a l ih =>
        cases ha : a[i]? with
        | none => simp [ha]; left; simpa using ha
        | some v =>
          have hlt : i < a.length := by
            rcases Nat.lt_or_ge i a.length with h | h
            · exact h
            · rw [List.getElem?_eq_none h] at ha; simp at ha
          cases hl : l.mapM (fun xs => xs[i]?) with
          | none =>
            have := ih.mp hl
            simp [ha, hl]; right; simpa using this
          | some ws =>
            have : ¬ ∃ xs ∈ l, xs.length ≤ i := fun h => by rw [ih.mpr h] at hl; simp at hl
            have hn : ¬ a.length ≤ i := by omega
            simp only [List.mapM_cons, ha, hl]
            simp [hn]
            intro x hx
            rcases Nat.lt_or_ge i x.length with h | h
            · exact h
            · exact absurd ⟨x, hx, h⟩ this
    rw [hnone]
    constructor
    · rintro ⟨ys, hy, hi⟩; have := h1 ys hy; omega
    · intro h; exact ⟨xs, hx, by omega⟩
  have a := (key (pyzip its).length).mp (by simp)
  have b := (key m).mpr (Nat.le_refl _)
  have c : (pyzip its).length ≤ m := by simpa using b
  omega

/-- C67: item `i` of `mapr(f, ...)` is `f` of the items at position `m - 1 - i`, where `m` is the
length of the shortest input.  `zipr` likewise. -/
theorem C67_mapr (f : List α → β) (its : List (List α)) (m : Nat) (h : IsShortest its m) (i : Nat) :
    (mapr f its)[i]? = (if i < m then (its.mapM (fun xs => xs[m - 1 - i]?)).map f else none) ∧
    (zipr its)[i]? = (if i < m then its.mapM (fun xs => xs[m - 1 - i]?) else none) := by
  have hne : its ≠ [] := by rintro rfl; obtain ⟨_, ⟨xs, hx, _⟩⟩ := h; simp at hx
  have hl := pyzip_length its m h
  constructor
  · unfold mapr rev pymap
    split
    · rename_i hi
      rw [List.getElem?_reverse (by simpa [hl] using hi)]
      simp only [List.length_map, hl, List.getElem?_map]
      rw [pyzip_getElem? its hne]
    · rename_i hi
      rw [List.getElem?_eq_none (by simp [hl]; omega)]
  · unfold zipr rev
    split
    · rename_i hi
      rw [List.getElem?_reverse (by simpa [hl] using hi), hl, pyzip_getElem? its hne]
    · rename_i hi
      rw [List.getElem?_eq_none (by simp [hl]; omega)]

example : IsShortest [[1, 2, 3], [4, 5]] 2 ∧ zipr [[1, 2, 3], [4, 5]] = [[2, 5], [1, 4]] := by
  refine ⟨by constructor <;> simp, ?_⟩
  simp [zipr, rev, pyzip, nextAll]

/-- C67: for inputs of equal length the two variants agree. -/
theorem C67_agree (f : List α → β) (its : List (List α)) (m : Nat) (hne : its ≠ [])
    (h : ∀ xs ∈ its, xs.length = m) : rmap f its = mapr f its := by
  have hs : IsShortest its m := by
    refine ⟨fun xs hx => by rw [h xs hx]; exact Nat.le_refl _, ?_⟩
    cases its with
    | nil => exact absurd rfl hne
    | cons a l => exact ⟨a, by simp, h a (by simp)⟩
  apply List.ext_getElem?
  intro i
  rw [(C67_rmap f its hne i).1, (C67_mapr f its m hs i).1]
  have e : ∀ l : List (List α), (∀ xs ∈ l, xs.length = m) →
      l.mapM (fun xs => fromRight xs i) = if i < m ∨ l = [] then l.mapM (fun xs => xs[m-1-i]?) else none := by
    intro l
    induction l with
    | nil => simp
    | cons a l ih =>
      intro hl
      have ha := hl a (by simp)
      have := ih (fun xs hx => hl xs (by simp [hx]))
      by_cases hi : i < m
      · simp only [hi, true_or, if_true] at this ⊢
        rw [List.mapM_cons, List.mapM_cons, this]; simp [fromRight, ha, hi]
      · simp [hi, fromRight, ha]
  rw [e its h]
  by_cases hi : i < m <;> simp [hi, hne]

example : rmap List.sum [[1, 2], [10, 20]] = mapr List.sum [[1, 2], [10, 20]] :=
  C67_agree _ _ 2 (by simp) (by simp)

/-- C67: `map_longest` runs until the longest input ends, with the fill value for missing items; and
`rmap_longest` / `mapr_longest` are it on reversed inputs / reversed. -/
theorem C67_map_longest (f : List α → β) (fill : α) (its : List (List α)) (i : Nat) :
    (map_longest f fill its)[i]? =
      (if ∃ xs ∈ its, i < xs.length then some (f (its.map (fun xs => xs[i]?.getD fill))) else none) ∧
    (rmap_longest f fill its)[i]? =
      (if ∃ xs ∈ its, i < xs.length then some (f (its.map (fun xs => (fromRight xs i).getD fill))) else none) ∧
    mapr_longest f fill its = (map_longest f fill its).reverse := by
  have e : ∀ l : List (List α), (map_longest f fill l)[i]? =
      if ∃ xs ∈ l, i < xs.length then some (f (l.map (fun xs => xs[i]?.getD fill))) else none := by
    intro l
    unfold map_longest
    rw [List.getElem?_map, pyzipLongest_getElem?]
    simp only [List.any_eq_true, decide_eq_true_eq]
    split <;> simp
  refine ⟨e its, ?_, rfl⟩
  rw [rmap_longest, e]
  have e1 : (∃ xs ∈ its.map rev, i < xs.length) ↔ ∃ xs ∈ its, i < xs.length := by
    constructor
    · rintro ⟨xs, hx, h⟩
      obtain ⟨ys, hy, rfl⟩ := List.mem_map.mp hx
      exact ⟨ys, hy, by simpa [rev] using h⟩
    · rintro ⟨xs, hx, h⟩
      exact ⟨_, List.mem_map.mpr ⟨xs, hx, rfl⟩, by simpa [rev] using h⟩
  have e2 : (its.map rev).map (fun xs => xs[i]?.getD fill) = its.map (fun xs => (fromRight xs i).getD fill) := by
    rw [List.map_map]
    apply List.map_congr_left
    intro xs _
    simp only [Function.comp, rev, fromRight]
    split
    · rename_i h; rw [List.getElem?_reverse h]
    · rename_i h; rw [List.getElem?_eq_none (by simp; omega)]
  rw [e2]
  simp only [e1]

example : map_longest List.sum 0 [[1, 2], [10]] = [11, 2] := by
  simp [map_longest, pyzipLongest, nextAllFill]

/-! ## C68 pad, flatmap, scons, iterate -/

/-- C68: `pad` -/
theorem C68_pad (n : Int) (fill : α) (xs : List α) :
    pad n fill xs = xs ++ List.replicate (n.toNat - xs.length) fill := by
  rw [pad, pad_loop_eq]
  congr 2; omega

example : pad 5 0 [1, 2, 3] = [1, 2, 3, 0, 0] ∧ pad 2 0 [1, 2, 3] = [1, 2, 3] := by decide

/-- C68: `flatmap` concatenates the images in order (one input; several inputs are zipped first). -/
theorem C68_flatmap (f : List α → List β) (its : List (List α)) :
    flatmap f its = ((pyzip its).map f).flatten ∧
    (∀ xs : List α, flatmap f [xs] = xs.flatMap (fun x => f [x])) := by
  have e : ∀ l : List (List β), flatmap.chainFromIterable l = l.flatten := by
    intro l; induction l with
    | nil => rfl
    | cons a l ih => simp [flatmap.chainFromIterable, ih]
  refine ⟨by rw [flatmap, e]; rfl, fun xs => ?_⟩
  rw [flatmap, e, pymap]
  have : pyzip [xs] = xs.map (fun x => [x]) := by
    apply List.ext_getElem?
    intro i
    rw [pyzip_getElem? _ (by simp)]
    cases h : xs[i]? <;> simp [h]
  rw [this, List.flatMap_def, List.map_map]; rfl

example : flatmap (fun l => [l.sum, 0]) [[1, 2], [10, 20]] = [11, 0, 22, 0] := by
  simp [flatmap, flatmap.chainFromIterable, pymap, pyzip, nextAll]

/-- C68: `scons` and `iterate1` -/
theorem C68_scons_iterate (x : α) (xs : List α) (f : α → α) (i : Nat) :
    scons x xs = x :: xs ∧ iterate1 f x 0 = x ∧ iterate1 f x (i+1) = f (iterate1 f x i) :=
  ⟨rfl, rfl, iterate1_succ f x i⟩

example : iterate1 (· * 2) 1 5 = 32 := by decide

/-- C68: `iindex`, `find`, `subset`, `allsame` -/
theorem C68_search [DecidableEq α] (x d : α) (p : α → Bool) (xs ys : List α) :
    (iindex x xs = if x ∈ xs then .ok (xs.findIdx (· == x)) else .error .ValueError) ∧
    find p d xs = (xs.find? p).getD d ∧
    (subset xs ys = true ↔ ∀ e ∈ xs, e ∈ ys) ∧
    (allsame xs = true ↔ ∀ a ∈ xs, ∀ b ∈ xs, a = b) := by
  refine ⟨?_, ?_, ?_, ?_⟩
  · rw [iindex, iindex_loop_eq]; simp
  · induction xs with
    | nil => simp [find]
    | cons y ys ih => rw [find, ih]; by_cases h : p y <;> simp [h]
  · simp [subset]
  · cases xs with
    | nil => simp [allsame]
    | cons x0 it =>
      have : allsame.loop x0 it = true ↔ ∀ b ∈ it, b = x0 := by
        induction it with
        | nil => simp [allsame.loop]
        | cons y it ih => by_cases h : y = x0 <;> simp [allsame.loop, h, ih]
      rw [allsame, this]
      constructor
      · intro h a ha b hb
        simp at ha hb
        have ha' : a = x0 := by
          rcases ha with ha | ha
          · exact ha
          · exact h a ha
        have hb' : b = x0 := by
          rcases hb with hb | hb
          · exact hb
          · exact h b hb
        rw [ha', hb']
      · intro h b hb
        exact h b (by simp [hb]) x0 (by simp)

example : iindex 3 [1, 3, 3] = .ok 1 ∧ find (· > 1) 0 [1, 2, 3] = 2 ∧ subset [1, 3] [3, 2, 1] = true
    ∧ allsame [1, 1, 2] = false := by decide

/-! ## C76 within -/

private theorem within_cons2 (close : α → α → Bool) (x y : α) (r : List α) :
    within close (x :: y :: r) = if close x y then [x, y] else x :: within close (y :: r) := by
  have e : ∀ z (q : List α), windowedLoop [z] q = windowedLoop [z] q := fun _ _ => rfl
  cases r with
  | nil => simp [within, window, fillQ, windowedLoop, withinLoop]
  | cons z r => simp [within, window, fillQ, windowedLoop, withinLoop]

/-- C76: if the items at `i` and `i + 1` are the first two successive items that are close, `within` yields
exactly the items up to and including both, and does not look further (`xs` may continue in any way). -/
theorem C76_within (close : α → α → Bool) (xs : List α) (i : Nat) (a b : α)
    (ha : xs[i]? = some a) (hb : xs[i + 1]? = some b) (hc : close a b = true)
    (hfirst : ∀ j a' b', j < i → xs[j]? = some a' → xs[j + 1]? = some b' → close a' b' = false) :
    within close xs = xs.take (i + 2) := by
  induction i generalizing xs with
  | zero =>
    match xs, ha, hb with
    | x :: y :: r, ha, hb =>
      simp at ha hb; subst ha; subst hb
      simp [within_cons2, hc]
  | succ i ih =>
    match xs, ha, hb with
    | x :: y :: r, ha, hb =>
      rw [within_cons2, hfirst 0 x y (by omega) rfl rfl]
      simp only [Bool.false_eq_true, if_false]
      rw [ih (y :: r) (by simpa using ha) (by simpa using hb)
        (fun j a' b' hj h1 h2 => hfirst (j + 1) a' b' (by omega) (by simpa using h1) (by simpa using h2))]
      simp

/-- C76: if no two successive items are close, everything is yielded except the last item, which is lost. -/
theorem C76_within_not_converging (close : α → α → Bool) (xs : List α)
    (h : ∀ j a b, xs[j]? = some a → xs[j + 1]? = some b → close a b = false) :
    within close xs = xs.dropLast := by
  induction xs with
  | nil => simp [within, window, fillQ, withinLoop]
  | cons x xs ih =>
    cases xs with
    | nil => simp [within, window, fillQ, withinLoop]
    | cons y r =>
      rw [within_cons2, h 0 x y rfl rfl]
      simp only [Bool.false_eq_true, if_false]
      rw [ih (fun j a b h1 h2 => h (j + 1) a b (by simpa using h1) (by simpa using h2))]
      simp

example : within (fun a b : Int => (a - b).natAbs ≤ 1) [9, 5, 3, 2, 7, 7] = [9, 5, 3, 2] := by decide
example : within (fun a b : Int => (a - b).natAbs ≤ 1) [9, 5, 3] = [9, 5] := by decide

end Unpy.Props
