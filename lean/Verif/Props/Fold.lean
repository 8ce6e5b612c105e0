import Verif.Model.Fold
import Verif.Spec.Fold
import Verif.Proof.It
import Verif.Props.It
/-!
# Properties of `unpythonic/fold.py` (C26-C28)
-/
namespace Unpy.Props
open Unpy.It Unpy.Fold Unpy.Spec.Fold
universe u w
variable {V : Type u} {ε : Type w}

private theorem mapM_all (its : List (List V)) (i : Nat) (fill : V) (h : ∀ xs ∈ its, i < xs.length) :
    its.mapM (fun xs => xs[i]?) = some (its.map (fun xs => xs[i]?.getD fill)) := by
  induction its with
  | nil => rfl
  | cons a l ih =>
    have ha : i < a.length := h a (by simp)
    have := ih (fun x hx => h x (by simp [hx]))
    simp [this, List.getElem?_eq_getElem ha]

private theorem mapM_some_all (its : List (List V)) (i : Nat) (h : ∃ xs ∈ its, xs.length ≤ i) :
    its.mapM (fun xs => xs[i]?) = none := by
  induction its with
  | nil => simp at h
  | cons a l ih =>
    by_cases ha : a.length ≤ i
    · simp [List.getElem?_eq_none ha]
    · have : ∃ xs ∈ l, xs.length ≤ i := by
        obtain ⟨xs, hx, h⟩ := h
        simp only [List.mem_cons] at hx
        rcases hx with rfl | hx
        · exact absurd h ha
        · exact ⟨xs, hx, h⟩
      rw [List.mapM_cons, ih this]
      cases a[i]? <;> rfl

private theorem rows_exist (longest : Bool) (fill : V) (its : List (List V)) (hne : its ≠ []) :
    IsRows longest fill its (zipRows longest fill its) := by
  intro i
  cases longest with
  | false =>
    simp only [Bool.false_eq_true, if_false, zipRows]
    constructor
    · intro h; rw [pyzip_getElem? its hne, mapM_all its i fill h]
    · intro h
      have := pyzip_getElem? its hne i
      rw [mapM_some_all its i h] at this
      simpa using this
  | true =>
    simp only [if_true, zipRows]
    have := pyzipLongest_getElem? fill its i
    constructor
    · rintro ⟨xs, hx, h⟩
      rw [this, if_pos]
      simp only [List.any_eq_true, decide_eq_true_eq]; exact ⟨xs, hx, h⟩
    · intro h
      rw [if_neg] at this
      · simpa using this
      · simp only [List.any_eq_true, decide_eq_true_eq, not_exists, not_and]
        intro xs hx hi; have := h xs hx; omega

private theorem rows_unique (longest : Bool) (fill : V) (its : List (List V))
    (r1 r2 : List (List V)) (h1 : IsRows longest fill its r1) (h2 : IsRows longest fill its r2) :
    r1 = r2 := by
  apply List.ext_getElem?
  intro i
  have a := h1 i
  have b := h2 i
  have tot : (∃ xs ∈ its, i < xs.length) ∨ (∀ xs ∈ its, xs.length ≤ i) := by
    by_cases h : ∃ xs ∈ its, i < xs.length
    · exact .inl h
    · right; intro xs hx; exact Nat.le_of_not_lt (fun hh => h ⟨xs, hx, hh⟩)
  have tot' : (∀ xs ∈ its, i < xs.length) ∨ (∃ xs ∈ its, xs.length ≤ i) := by
    by_cases h : ∃ xs ∈ its, xs.length ≤ i
    · exact .inr h
    · left; intro xs hx; exact Nat.lt_of_not_le (fun hh => h ⟨xs, hx, hh⟩)
  cases longest with
  | true =>
    simp only [if_true] at a b
    rcases tot with h | h
    · rw [a.1 h, b.1 h]
    · rw [List.getElem?_eq_none (a.2 h), List.getElem?_eq_none (b.2 h)]
  | false =>
    simp only [Bool.false_eq_true, if_false] at a b
    rcases tot' with h | h
    · rw [a.1 h, b.1 h]
    · rw [List.getElem?_eq_none (a.2 h), List.getElem?_eq_none (b.2 h)]

private theorem zipRows_eq {longest : Bool} {fill : V} {its rows : List (List V)} (hne : its ≠ [])
    (h : IsRows longest fill its rows) : zipRows longest fill its = rows :=
  rows_unique _ _ _ _ _ (rows_exist longest fill its hne) h

private theorem rowsR_rows {longest : Bool} {fill : V} {its rows : List (List V)}
    (h : IsRowsR longest fill its rows) : IsRows longest fill (its.map rev) rows := by
  intro i
  have a := h i
  have e : (its.map rev).map (fun xs => xs[i]?.getD fill) = its.map (fun xs =>
      if i < xs.length then xs[xs.length - 1 - i]?.getD fill else fill) := by
    rw [List.map_map]
    apply List.map_congr_left
    intro xs _
    simp only [Function.comp_apply, rev]
    split
    · rename_i hi; rw [List.getElem?_reverse hi]
    · rename_i hi; rw [List.getElem?_eq_none (by simp; omega)]; rfl
  rw [e]
  have e1 : (∃ xs ∈ its.map rev, i < xs.length) ↔ ∃ xs ∈ its, i < xs.length := by
    simp only [List.mem_map]
    constructor
    · rintro ⟨_, ⟨y, hy, rfl⟩, h⟩; exact ⟨y, hy, by simpa [rev] using h⟩
    · rintro ⟨y, hy, h⟩; exact ⟨_, ⟨y, hy, rfl⟩, by simpa [rev] using h⟩
  have e2 : (∀ xs ∈ its.map rev, i < xs.length) ↔ ∀ xs ∈ its, i < xs.length := by
    simp [rev]
  have e3 : (∃ xs ∈ its.map rev, xs.length ≤ i) ↔ ∃ xs ∈ its, xs.length ≤ i := by
    simp only [List.mem_map]
    constructor
    · rintro ⟨_, ⟨y, hy, rfl⟩, h⟩; exact ⟨y, hy, by simpa [rev] using h⟩
    · rintro ⟨y, hy, h⟩; exact ⟨_, ⟨y, hy, rfl⟩, by simpa [rev] using h⟩
  have e4 : (∀ xs ∈ its.map rev, xs.length ≤ i) ↔ ∀ xs ∈ its, xs.length ≤ i := by
    simp [rev]
  rw [e1, e2, e3, e4]
  exact a

private theorem scanLoop_traces (proc : List V → Except ε V) (init : V) (rows : List (List V)) :
    Traces proc init rows (scanLoop proc init rows).items (scanLoop proc init rows).exc := by
  induction rows generalizing init with
  | nil =>
    refine ⟨by simp [scanLoop], ?_, by simp [scanLoop], by simp [scanLoop]⟩
    intro k v h
    cases k with
    | zero => simp [scanLoop] at h; simp [partialResult, h]; rfl
    | succ k => simp [scanLoop] at h
  | cons xs rest ih =>
    rw [scanLoop]
    cases hp : proc (xs ++ [init]) with
    | error e =>
      refine ⟨by simp, ?_, by simp, ?_⟩
      · intro k v h
        cases k with
        | zero => simp at h; simp [partialResult, h]; rfl
        | succ k => simp at h
      · intro e' h
        simp only [Option.some.injEq] at h; subst h
        refine ⟨by simp, ?_⟩
        simp [partialResult, hp]
    | ok acc =>
      have r := ih acc
      refine ⟨by simp, ?_, ?_, ?_⟩
      · intro k v h
        cases k with
        | zero => simp at h; simp [partialResult, h]; rfl
        | succ k =>
          have := r.item k v (by simpa using h)
          simp only [partialResult, List.take_succ_cons, List.foldlM_cons, hp]
          exact this
      · intro h
        have := r.complete h
        simp [this]
      · intro e h
        have := r.failed e h
        refine ⟨by simp; exact this.1, ?_⟩
        simp only [partialResult, List.length_cons, List.take_succ_cons, List.foldlM_cons, hp]
        exact this.2

private theorem dequeOf_last (xs : List V) : (dequeOf 1 xs).getLast? = xs.getLast? := by
  rw [dequeOf_eq, List.getLast?_drop]
  cases xs <;> simp
  omega

private theorem lastG_traces {proc : List V → Except ε V} {init : V} {rows : List (List V)}
    {g : GenE ε V} (h : Traces proc init rows g.items g.exc) :
    lastG g = (rows.foldlM (fun acc row => proc (row ++ [acc])) init).map some := by
  unfold lastG
  cases he : g.exc with
  | none =>
    have hl := h.complete he
    simp only [dequeOf_last]
    rw [List.getLast?_eq_getElem?, hl]
    have hlt : rows.length + 1 - 1 < g.items.length := by omega
    rw [List.getElem?_eq_getElem hlt]
    have := h.item _ _ (List.getElem?_eq_getElem hlt)
    rw [partialResult, List.take_of_length_le (by simp)] at this
    rw [this]; rfl
  | some e =>
    have ⟨h1, h2⟩ := h.failed e he
    rw [partialResult] at h2
    have : rows = rows.take g.items.length ++ rows.drop g.items.length := by simp
    rw [this, List.foldlM_append, h2]; rfl

/-! ## C26 scans and folds -/

/-- C26: there is exactly one way to line up the inputs, so the `IsRows` hypotheses below are always
met (one input at least is required by the signature). -/
theorem C26_rows (longest : Bool) (fill : V) (its : List (List V)) (hne : its ≠ []) :
    (∃ rows, IsRows longest fill its rows ∧ ∀ rows', IsRows longest fill its rows' → rows' = rows) ∧
    (∃ rows, IsRowsR longest fill its rows ∧ ∀ rows', IsRowsR longest fill its rows' → rows' = rows) := by
  have key : ∀ rows, IsRows longest fill (its.map rev) rows → IsRowsR longest fill its rows := by
    intro rows h i
    have a := h i
    have e : (its.map rev).map (fun xs => xs[i]?.getD fill) = its.map (fun xs =>
        if i < xs.length then xs[xs.length - 1 - i]?.getD fill else fill) := by
      rw [List.map_map]
      apply List.map_congr_left
      intro xs _
      simp only [Function.comp_apply, rev]
      split
      · rename_i hi; rw [List.getElem?_reverse hi]
      · rename_i hi; rw [List.getElem?_eq_none (by simp; omega)]; rfl
    rw [e] at a
    simpa [rev] using a
  refine ⟨⟨_, rows_exist longest fill its hne, fun r hr => (zipRows_eq hne hr).symm⟩,
    ⟨zipRows longest fill (its.map rev), key _ (rows_exist longest fill _ (by simpa using hne)), ?_⟩⟩
  intro r hr
  exact (zipRows_eq (by simpa using hne) (rowsR_rows hr)).symm

/-- C26: `scanl` yields the successive partial results over the rows of left-aligned items, first row
first. -/
theorem C26_scanl (proc : List V → Except ε V) (init : V) (it0 : List V) (its : List (List V))
    (longest : Bool) (fill : V) (rows : List (List V)) (h : IsRows longest fill (it0 :: its) rows) :
    Traces proc init rows (scanl proc init it0 its longest fill).items
      (scanl proc init it0 its longest fill).exc := by
  rw [scanl, zipRows_eq (by simp) h]; exact scanLoop_traces ..

/-- C26: `scanr` yields the successive partial results over the same (left-aligned) rows, last row
first. -/
theorem C26_scanr (proc : List V → Except ε V) (init : V) (it0 : List V) (its : List (List V))
    (longest : Bool) (fill : V) (rows : List (List V)) (h : IsRows longest fill (it0 :: its) rows) :
    Traces proc init rows.reverse (scanr proc init it0 its longest fill).items
      (scanr proc init it0 its longest fill).exc := by
  rw [scanr, zipRows_eq (by simp) h]; exact scanLoop_traces ..

/-- C26: `rscanl` yields the successive partial results over the rows of right-aligned items,
rightmost row first. -/
theorem C26_rscanl (proc : List V → Except ε V) (init : V) (it0 : List V) (its : List (List V))
    (longest : Bool) (fill : V) (rows : List (List V)) (h : IsRowsR longest fill (it0 :: its) rows) :
    Traces proc init rows (rscanl proc init it0 its longest fill).items
      (rscanl proc init it0 its longest fill).exc :=
  C26_scanl proc init (rev it0) (its.map rev) longest fill rows (rowsR_rows h)

/-- C26: the folds.  `foldl` folds the left-aligned rows from the left, `foldr` the same rows from the
right, `rfoldl` the right-aligned rows from the right end; an exception of `proc` propagates. -/
theorem C26_folds (proc : List V → Except ε V) (init : V) (it0 : List V) (its : List (List V))
    (longest : Bool) (fill : V) (rows rrows : List (List V))
    (h : IsRows longest fill (it0 :: its) rows) (hr : IsRowsR longest fill (it0 :: its) rrows) :
    foldl proc init it0 its longest fill =
      (rows.foldlM (fun acc row => proc (row ++ [acc])) init).map some ∧
    foldr proc init it0 its longest fill =
      (rows.foldrM (fun row acc => proc (row ++ [acc])) init).map some ∧
    rfoldl proc init it0 its longest fill =
      (rrows.foldlM (fun acc row => proc (row ++ [acc])) init).map some := by
  refine ⟨lastG_traces (C26_scanl proc init it0 its longest fill rows h), ?_, ?_⟩
  · rw [foldr, lastG_traces (C26_scanr proc init it0 its longest fill rows h),
      List.foldlM_reverse]
  · exact lastG_traces (C26_rscanl proc init it0 its longest fill rrows hr)

/-- C26: for a `proc` that does not raise, `foldr` is the mathematical right fold. -/
theorem C26_foldr_total (f : List V → V) (init : V) (it0 : List V) (its : List (List V))
    (longest : Bool) (fill : V) (rows : List (List V)) (h : IsRows longest fill (it0 :: its) rows) :
    foldr (fun a => (.ok (f a) : Except ε V)) init it0 its longest fill =
      .ok (some (rows.foldr (fun row acc => f (row ++ [acc])) init)) := by
  obtain ⟨_, hr, _⟩ := (C26_rows longest fill (it0 :: its) (by simp)).2
  rw [(C26_folds _ init it0 its longest fill rows _ h hr).2.1]
  have : ∀ rows : List (List V), rows.foldrM (fun row acc => (.ok (f (row ++ [acc])) : Except ε V)) init =
      .ok (rows.foldr (fun row acc => f (row ++ [acc])) init) := by
    intro rows
    induction rows with
    | nil => rfl
    | cons x xs ih => rw [List.foldrM_cons, ih]; rfl
  rw [this]; rfl

/-- C26: every fold returns the last value its scan yields, and raises exactly if the scan raises. -/
theorem C26_agree (proc : List V → Except ε V) (init : V) (it0 : List V) (its : List (List V))
    (longest : Bool) (fill : V) (it : List V) (oinit : Option V) :
    (∀ g r, (g, r) ∈ [
        (scanl proc init it0 its longest fill, foldl proc init it0 its longest fill),
        (scanr proc init it0 its longest fill, foldr proc init it0 its longest fill),
        (rscanl proc init it0 its longest fill, rfoldl proc init it0 its longest fill),
        (scanl1 proc it oinit, reducel proc it oinit),
        (scanr1 proc it oinit, reducer proc it oinit),
        (rscanl1 proc it oinit, rreducel proc it oinit)] →
      r = match g.exc with
        | some e => .error e
        | none => .ok g.items.getLast?) := by
  intro g r hm
  have : r = lastG g := by
    simp only [List.mem_cons, Prod.mk.injEq, List.not_mem_nil, or_false] at hm
    rcases hm with ⟨rfl, rfl⟩ | ⟨rfl, rfl⟩ | ⟨rfl, rfl⟩ | ⟨rfl, rfl⟩ | ⟨rfl, rfl⟩ | ⟨rfl, rfl⟩ <;> rfl
  rw [this, lastG]
  cases g.exc <;> simp [dequeOf_last]

private theorem pyzip_one (xs : List V) : pyzip [xs] = xs.map (fun x => [x]) := by
  apply List.ext_getElem?
  intro i
  rw [pyzip_getElem? _ (by simp)]
  simp
  cases xs[i]? <;> rfl

/-- C26: the single-input variants.  With an initial value they scan the items; without one
(`init=None`) the first (for `scanl1`) or last (for `scanr1`) item serves as the initial value, and an
empty input yields nothing; the corresponding reductions then return `None`. -/
theorem C26_single (proc : List V → Except ε V) (xs : List V) (x v : V) :
    Traces proc v (xs.map (fun a => [a])) (scanl1 proc xs (some v)).items (scanl1 proc xs (some v)).exc ∧
    Traces proc x (xs.map (fun a => [a])) (scanl1 proc (x :: xs) none).items
      (scanl1 proc (x :: xs) none).exc ∧
    Traces proc v (xs.reverse.map (fun a => [a])) (scanr1 proc xs (some v)).items
      (scanr1 proc xs (some v)).exc ∧
    Traces proc x (xs.reverse.map (fun a => [a])) (scanr1 proc (xs ++ [x]) none).items
      (scanr1 proc (xs ++ [x]) none).exc ∧
    Traces proc x (xs.reverse.map (fun a => [a])) (rscanl1 proc (xs ++ [x]) none).items
      (rscanl1 proc (xs ++ [x]) none).exc ∧
    scanl1 proc [] none = ⟨[], none⟩ ∧ scanr1 proc [] none = ⟨[], none⟩ ∧
    rscanl1 proc [] none = ⟨[], none⟩ ∧
    reducel proc [] none = .ok none ∧ reducer proc [] none = .ok none ∧
    rreducel proc [] none = .ok none := by
  have e1 : rev (pyzip [xs]) = xs.reverse.map (fun a => [a]) := by
    rw [pyzip_one, rev, List.map_reverse]
  have e2 : scanr1 proc (xs ++ [x]) none = scanLoop proc x (xs.reverse.map (fun a => [a])) := by
    simp only [scanr1, scanrOne, pyzip_one, rev, List.map_append, List.map_cons, List.map_nil,
      List.reverse_append, List.reverse_cons, List.reverse_nil, List.nil_append, List.cons_append,
      List.map_reverse]
  have e3 : rscanl1 proc (xs ++ [x]) none = scanLoop proc x (xs.reverse.map (fun a => [a])) := by
    simp only [rscanl1, rev, List.reverse_append, List.reverse_cons, List.reverse_nil,
      List.nil_append, List.cons_append, scanl1, pyzip_one]
  have e4 : pyzip [([] : List V)] = [] := by rw [pyzip_one]; rfl
  refine ⟨?_, ?_, ?_, ?_, ?_, rfl, ?_, rfl, rfl, ?_, rfl⟩
  · rw [scanl1, pyzip_one]; exact scanLoop_traces ..
  · rw [scanl1, pyzip_one]; exact scanLoop_traces ..
  · show Traces proc v _ (scanLoop proc v (rev (pyzip [xs]))).items (scanLoop proc v (rev (pyzip [xs]))).exc
    rw [e1]; exact scanLoop_traces ..
  · rw [e2]; exact scanLoop_traces ..
  · rw [e3]; exact scanLoop_traces ..
  · simp [scanr1, scanrOne, e4, rev]
  · simp [reducer, scanr1, scanrOne, e4, rev, lastG, dequeOf]

/-- `reducel` over a nonempty input, as a monadic left fold (used by other files). -/
theorem reducel_cons (proc : List V → Except ε V) (x : V) (xs : List V) :
    reducel proc (x :: xs) none = (xs.foldlM (fun acc y => proc [y, acc]) x).map some := by
  rw [reducel, lastG_traces (C26_single proc xs x x).2.1, List.foldlM_map]
  rfl

/-- C26 (infinite inputs): feeding longer inputs only extends what `scanl` yields, provided no call has
raised; here one input, so that the rows are just the items. -/
theorem C26_scanl_prefix (proc : List V → Except ε V) (init : V) (xs ys : List V) (fill : V) :
    (scanl proc init xs [] false fill).items <+: (scanl proc init (xs ++ ys) [] false fill).items ∧
    ∀ e, (scanl proc init xs [] false fill).exc = some e →
      scanl proc init (xs ++ ys) [] false fill = scanl proc init xs [] false fill := by
  simp only [scanl, zipRows, Bool.false_eq_true, if_false, pyzip_one]
  induction xs generalizing init with
  | nil =>
    refine ⟨?_, by simp [scanLoop]⟩
    simp only [List.map_nil, scanLoop, List.nil_append]
    cases ys with
    | nil => simp [scanLoop]
    | cons y ys => simp only [List.map_cons, scanLoop]; split <;> simp
  | cons x xs ih =>
    simp only [List.cons_append, List.map_cons, scanLoop, List.nil_append]
    cases hp : proc [x, init] with
    | error e => simp
    | ok acc =>
      have r := ih acc
      refine ⟨by simpa using r.1, ?_⟩
      intro e h
      dsimp only at h ⊢
      rw [r.2 e h]

/-- C26: `prod` is the product of all items and the start value. -/
theorem C26_prod (xs : List Int) (start : Int) :
    prod xs start = .ok (some (xs.foldl (fun a x => x * a) start)) := by
  have t := (C26_single (ε := Empty) mulProc xs 0 start).1
  have := lastG_traces t
  unfold prod reducel
  rw [this]
  have : ∀ (xs : List Int) (s : Int), (xs.map (fun a => [a])).foldlM
      (fun acc row => (mulProc (row ++ [acc]) : Except Empty Int)) s =
        .ok (xs.foldl (fun a x => x * a) s) := by
    intro xs
    induction xs with
    | nil => intro s; rfl
    | cons x xs ih => intro s; rw [List.map_cons, List.foldlM_cons]; exact ih (x * s)
  rw [this]; rfl

private def sub2 : List Int → Except String Int
  | [x, a] => if x = 99 then .error "boom" else .ok (x - a)
  | [x, y, a] => .ok (10 * x + y - a)
  | _ => .error "arity"

example : scanl sub2 0 [1, 2, 3] [] false 0 = ⟨[0, 1, 1, 2], none⟩ ∧
    scanl sub2 0 [1, 99, 3] [] false 0 = ⟨[0, 1], some "boom"⟩ ∧
    scanr sub2 0 [1, 2, 3] [] false 0 = ⟨[0, 3, -1, 2], none⟩ := by
  simp [scanl, scanr, zipRows, pyzip_one, scanLoop, sub2, rev]

example : foldr sub2 0 [1, 2, 3] [[4, 5]] false 0 = .ok (some (-11)) ∧
    rfoldl sub2 0 [1, 2, 4] [[4, 5]] false 0 = .ok (some (-21)) ∧
    foldl sub2 0 [1, 2, 3] [[4, 5]] true 7 = .ok (some 26) := by
  simp [foldr, rfoldl, foldl, scanr, scanl, zipRows, rev, pyzip, nextAll, pyzipLongest, nextAllFill, scanLoop,
    sub2, lastG, dequeOf_last]

example : IsRows false 0 [[1, 2, 3], [4, 5]] [[1, 4], [2, 5]] := by
  intro i
  match i with
  | 0 => simp
  | 1 => simp
  | i + 2 => simp

/-! ## C27 unfold -/

private theorem unfold1_go (proc : V → Ret1 ε V) (n : Nat) (st : Option V) (k : Nat) (hk : k < n) :
    (unfold1.go proc n st)[k]? = some (unfold1Next proc
      (match st with | none => none | some s => stateAt1 proc s k)).1 := by
  have sh : ∀ (s s' v : V), proc s = .seq [v, s'] → ∀ k, stateAt1 proc s (k + 1) = stateAt1 proc s' k := by
    intro s s' v h k
    induction k with
    | zero => simp [stateAt1, h]
    | succ k ih => rw [stateAt1, ih]; rfl
  have sh0 : ∀ s, (∀ v s', proc s ≠ .seq [v, s']) → ∀ k, stateAt1 proc s (k + 1) = none := by
    intro s h k
    induction k with
    | zero =>
      simp [stateAt1]
    | succ k ih => rw [stateAt1, ih]
  induction n generalizing st k with
  | zero => omega
  | succ n ih =>
    cases k with
    | zero => cases st <;> simp [unfold1.go, stateAt1]
    | succ k =>
      rw [unfold1.go]
      simp only [List.getElem?_cons_succ]
      rw [ih _ k (by omega)]
      cases st with
      | none => rfl
      | some s =>
        simp only [unfold1Next]
        cases hp : proc s with
        | none => simp only; rw [sh0 s (by simp [hp]) k]
        | scalar v => simp only; rw [sh0 s (by simp [hp]) k]
        | raise e => simp only; rw [sh0 s (by simp [hp]) k]
        | seq vs =>
          match vs, hp with
          | [v, s'], hp => simp only; rw [sh s s' v hp k]
          | [], hp => simp only; rw [sh0 s (by simp [hp]) k]
          | [a], hp => simp only; rw [sh0 s (by simp [hp]) k]
          | a :: b :: c :: r, hp => simp only; rw [sh0 s (by simp [hp]) k]

/-- C27: the outcome of the `k`-th `next()` on `unfold1(proc, init)`, for every `k`: if iterating `proc`
from `init` reaches a `k`-th state, it is the value `proc` returns there, or the end if `proc` returns
`None`, or the exception if it raises (a result that is not a pair is an error); once ended, it stays
ended. -/
theorem C27_unfold1 (proc : V → Ret1 ε V) (init : V) (n k : Nat) (hk : k < n) :
    (unfold1 proc init n)[k]? = some (
      match stateAt1 proc init k with
      | none => .stop
      | some s => match proc s with
        | .none => .stop
        | .seq [value, _] => .item value
        | .seq _ => .raised (.py .ValueError)
        | .scalar _ => .raised (.py .TypeError)
        | .raise e => .raised (.user e)) := by
  rw [unfold1, unfold1_go proc n (some init) k hk]
  simp only
  cases stateAt1 proc init k with
  | none => rfl
  | some s =>
    simp only [unfold1Next]
    cases proc s with
    | seq vs =>
      match vs with
      | [v, s'] => rfl
      | [] => rfl
      | [a] => rfl
      | a :: b :: c :: r => rfl
    | none => rfl
    | scalar v => rfl
    | raise e => rfl

private theorem unfold_go (proc : List V → List (String × V) → RetN ε V) (n : Nat)
    (st : Option (Vals V)) (k : Nat) (hk : k < n) :
    (unfold.go proc n st)[k]? = some (unfoldNext proc
      (match st with | none => none | some s => stateAtN proc s k)).1 := by
  have sh : ∀ (s : Vals V) v rets kw, proc s.rets s.kwrets = .values ⟨v :: rets, kw⟩ →
      ∀ k, stateAtN proc s (k + 1) = stateAtN proc ⟨rets, kw⟩ k := by
    intro s v rets kw h k
    induction k with
    | zero => simp [stateAtN, h]
    | succ k ih => rw [stateAtN, ih]; rfl
  have sh0 : ∀ s : Vals V, (∀ v rets kw, proc s.rets s.kwrets ≠ .values ⟨v :: rets, kw⟩) →
      ∀ k, stateAtN proc s (k + 1) = none := by
    intro s h k
    induction k with
    | zero =>
      simp [stateAtN]
    | succ k ih => rw [stateAtN, ih]
  induction n generalizing st k with
  | zero => omega
  | succ n ih =>
    cases k with
    | zero => cases st <;> simp [unfold.go, stateAtN]
    | succ k =>
      rw [unfold.go]
      simp only [List.getElem?_cons_succ]
      rw [ih _ k (by omega)]
      cases st with
      | none => rfl
      | some s =>
        simp only [unfoldNext]
        cases hp : proc s.rets s.kwrets with
        | none => simp only; rw [sh0 s (by simp [hp]) k]
        | other v => simp only; rw [sh0 s (by simp [hp]) k]
        | raise e => simp only; rw [sh0 s (by simp [hp]) k]
        | values r =>
          match r, hp with
          | ⟨v :: rets, kw⟩, hp => simp only; rw [sh s v rets kw hp k]
          | ⟨[], kw⟩, hp => simp only; rw [sh0 s (by simp [hp]) k]

/-- C27: the same for `unfold(proc, *inits, **kwinits)`, whose state is a whole set of arguments. -/
theorem C27_unfold (proc : List V → List (String × V) → RetN ε V) (inits : List V)
    (kwinits : List (String × V)) (n k : Nat) (hk : k < n) :
    (unfold proc inits kwinits n)[k]? = some (
      match stateAtN proc ⟨inits, kwinits⟩ k with
      | none => .stop
      | some s => match proc s.rets s.kwrets with
        | .none => .stop
        | .values ⟨value :: _, _⟩ => .item value
        | .values ⟨[], _⟩ => .raised (.py .ValueError)
        | .other _ => .raised (.py .TypeError)
        | .raise e => .raised (.user e)) := by
  rw [unfold, unfold_go proc n _ k hk]
  simp only
  cases stateAtN proc ⟨inits, kwinits⟩ k with
  | none => rfl
  | some s =>
    simp only [unfoldNext]
    cases proc s.rets s.kwrets with
    | values r => match r with
      | ⟨v :: rets, kw⟩ => rfl
      | ⟨[], kw⟩ => rfl
    | none => rfl
    | other v => rfl
    | raise e => rfl

private def countdown : Int → Ret1 String Int
  | k => if k = 0 then .none else .seq [k * k, k - 1]
private def fibo : List Int → List (String × Int) → RetN String Int
  | [a, b], [] => .values ⟨[a, b, a + b], []⟩
  | _, _ => .raise "arity"

example : unfold1 countdown 3 5 = [.item 9, .item 4, .item 1, .stop, .stop] := by decide
example : unfold fibo [1, 1] [] 5 = [.item 1, .item 1, .item 2, .item 3, .item 5] := by decide
example : stateAt1 countdown 3 2 = some 1 ∧ stateAt1 countdown 3 4 = none := by decide

/-! ## C28 minmax -/

private theorem firstMin_snoc {lt : V → V → Bool} (s : StrictWeak lt) (xs : List V) (m x : V)
    (h : IsFirstMin lt xs m) : IsFirstMin lt (xs ++ [x]) (if lt x m then x else m) := by
  obtain ⟨i, hi, h1, h2⟩ := h
  have hil : i < xs.length := by
    rcases Nat.lt_or_ge i xs.length with h | h
    · exact h
    · rw [List.getElem?_eq_none h] at hi; simp at hi
  split
  · rename_i hx
    have key : ∀ y ∈ xs, lt x y = true := by
      intro y hy
      rcases s.cotrans x y m hx with h | h
      · exact h
      · rw [h1 y hy] at h; simp at h
    refine ⟨xs.length, by simp, ?_, ?_⟩
    · intro y hy
      simp only [List.mem_append, List.mem_singleton] at hy
      rcases hy with hy | rfl
      · cases hh : lt y x with
        | false => rfl
        | true =>
          have := s.trans _ _ _ hh (key y hy)
          rw [s.irrefl] at this; simp at this
      · exact s.irrefl _
    · intro j y hj hy
      rw [List.getElem?_append_left hj] at hy
      exact key y (List.mem_of_getElem? hy)
  · rename_i hx
    refine ⟨i, by rw [List.getElem?_append_left hil]; exact hi, ?_, ?_⟩
    · intro y hy
      simp only [List.mem_append, List.mem_singleton] at hy
      rcases hy with hy | rfl
      · exact h1 y hy
      · simpa using hx
    · intro j y hj hy
      rw [List.getElem?_append_left (by omega)] at hy
      exact h2 j y hj hy

private theorem strictWeak_flip {lt : V → V → Bool} (s : StrictWeak lt) :
    StrictWeak (fun a b => lt b a) where
  irrefl := s.irrefl
  trans a b c h1 h2 := s.trans _ _ _ h2 h1
  cotrans a b c h := (s.cotrans c b a h).symm

private theorem running_go {lt : V → V → Bool} (s : StrictWeak lt) (rest pre : List V) (acc : V × V)
    (h1 : IsFirstMin lt pre acc.1) (h2 : IsFirstMin (fun a b => lt b a) pre acc.2) :
    (running_minmax.go lt acc rest).length = rest.length + 1 ∧
    ∀ (k : Nat) r, (running_minmax.go lt acc rest)[k]? = some r →
      IsFirstMin lt (pre ++ rest.take k) r.1 ∧
      IsFirstMin (fun a b => lt b a) (pre ++ rest.take k) r.2 := by
  induction rest generalizing pre acc with
  | nil =>
    refine ⟨by simp [running_minmax.go], ?_⟩
    intro k r h
    cases k with
    | zero => simp [running_minmax.go] at h; subst h; simpa using ⟨h1, h2⟩
    | succ k => simp [running_minmax.go] at h
  | cons x xs ih =>
    have a1 := firstMin_snoc s pre acc.1 x h1
    have a2 := firstMin_snoc (strictWeak_flip s) pre acc.2 x h2
    have r := ih (pre ++ [x]) (mm lt x acc) a1 a2
    rw [running_minmax.go]
    refine ⟨by simp [r.1], ?_⟩
    intro k q h
    cases k with
    | zero => simp at h; subst h; simpa using ⟨h1, h2⟩
    | succ k => simpa using r.2 k q (by simpa using h)

/-- C28: `running_minmax(xs)` yields one pair per item; the `k`-th pair consists of the least and the
greatest of the first `k + 1` items (the earliest one if several tie). -/
theorem C28_running {lt : V → V → Bool} (s : StrictWeak lt) (xs : List V) :
    (running_minmax lt xs).length = xs.length ∧
    ∀ (k : Nat) r, (running_minmax lt xs)[k]? = some r →
      IsFirstMin lt (xs.take (k + 1)) r.1 ∧ IsFirstMin (fun a b => lt b a) (xs.take (k + 1)) r.2 := by
  cases xs with
  | nil => simp [running_minmax]
  | cons x xs =>
    have b : ∀ lt : V → V → Bool, StrictWeak lt → IsFirstMin lt [x] x := fun lt s =>
      ⟨0, by simp, by simp [s.irrefl], by omega⟩
    have := running_go s xs [x] (x, x) (b lt s) (b _ (strictWeak_flip s))
    refine ⟨by simpa [running_minmax] using this.1, ?_⟩
    intro k r h
    simpa using this.2 k r (by simpa [running_minmax] using h)

/-- C28: `minmax(xs)` returns the least and the greatest item; `(None, None)` exactly for an empty
input. -/
theorem C28_minmax {lt : V → V → Bool} (s : StrictWeak lt) (xs : List V) :
    (minmax lt xs = none ↔ xs = []) ∧
    ∀ r, minmax lt xs = some r → IsFirstMin lt xs r.1 ∧ IsFirstMin (fun a b => lt b a) xs r.2 := by
  have ⟨hl, hk⟩ := C28_running s xs
  rw [minmax, dequeOf_last]
  constructor
  · rw [List.getLast?_eq_none_iff]
    constructor
    · intro h; rw [h] at hl; simpa using hl.symm
    · rintro rfl; rfl
  · intro r h
    rw [List.getLast?_eq_getElem?, hl] at h
    cases xs with
    | nil => simp [running_minmax] at h
    | cons x xs => simpa using hk _ r h

/-- C28: for a total order, "least" and "greatest" are the usual ones. -/
theorem C28_minmax_int (xs : List Int) (a b : Int)
    (h : minmax (fun x y : Int => decide (x < y)) xs = some (a, b)) :
    a ∈ xs ∧ b ∈ xs ∧ ∀ x ∈ xs, a ≤ x ∧ x ≤ b := by
  have s : StrictWeak (fun x y : Int => decide (x < y)) := by
    constructor <;> simp <;> omega
  have ⟨⟨i, h1, h2, _⟩, ⟨j, h3, h4, _⟩⟩ := (C28_minmax s xs).2 _ h
  refine ⟨List.mem_of_getElem? h1, List.mem_of_getElem? h3, ?_⟩
  intro x hx
  have := h2 x hx
  have := h4 x hx
  simp at *; omega

example : minmax (fun x y : Int => decide (x < y)) [3, 1, 4, 1, 5] = some (1, 5) := by decide
example : running_minmax (fun x y : Int => decide (x < y)) [3, 1, 4] = [(3, 3), (1, 3), (1, 4)] := by decide

end Unpy.Props
