import Verif.Model.Py
/-!
# Model of `unpythonic/it.py`

A finite iterator is the `List` of the items it has still to deliver; `next` on `[]` is
`StopIteration`.  A generator function is modelled by the list of items it yields, following the loop
of the Python code step by step.  Infinite inputs are covered by prefix theorems (what has been
yielded after reading a prefix does not depend on the rest) or, for `inn`, `iterate1`, by a model
over index functions.
-/

namespace Unpy.It

universe u v
variable {α : Type u} {β : Type v}

/-! ## Python builtins used by it.py -/

/-- One round of `next` over all iterators, left to right, as done by builtin `zip`/`map`:
`none` as soon as one of them is exhausted. -/
def nextAll : List (List α) → Option (List α × List (List α))
  | [] => some ([], [])
  | [] :: _ => none
  | (x :: xs) :: rest =>
    match nextAll rest with
    | none => none
    | some (ys, rest') => some (x :: ys, xs :: rest')

def totalLen (its : List (List α)) : Nat := (its.map List.length).sum

theorem nextAll_lt {its : List (List α)} {ys its'} (hne : its ≠ [])
    (h : nextAll its = some (ys, its')) : totalLen its' < totalLen its := by
  suffices H : ∀ (its : List (List α)) ys its', nextAll its = some (ys, its') →
      totalLen its' + its.length = totalLen its by
    have := H its ys its' h
    have : 0 < its.length := by cases its with | nil => exact absurd rfl hne | cons => simp
    omega
  intro its
  induction its with
  | nil => intro ys its' h; simp [nextAll] at h; simp [h, totalLen]
  | cons it rest ih =>
    intro ys its' h
    match it with
    | [] => simp [nextAll] at h
    | x :: xs =>
      rw [nextAll] at h
      split at h
      · simp at h
      · rename_i ys' rest' heq
        have := ih _ _ heq
        simp only [Option.some.injEq, Prod.mk.injEq] at h
        obtain ⟨rfl, rfl⟩ := h
        simp [totalLen] at this ⊢
        omega

/-- Builtin `zip(*iterables)`: tuples (as lists) until the shortest input ends; `zip()` is empty. -/
def pyzip (its : List (List α)) : List (List α) :=
  if hne : its = [] then [] else
  match h : nextAll its with
  | none => []
  | some (ys, its') => ys :: pyzip its'
  termination_by totalLen its
  decreasing_by exact nextAll_lt hne h

/-- One round of `itertools.zip_longest`: exhausted inputs give the fill value. -/
def nextAllFill (fill : α) : List (List α) → List α × List (List α)
  | [] => ([], [])
  | [] :: rest => let r := nextAllFill fill rest; (fill :: r.1, [] :: r.2)
  | (x :: xs) :: rest => let r := nextAllFill fill rest; (x :: r.1, xs :: r.2)

theorem nextAllFill_le (fill : α) (its : List (List α)) :
    totalLen (nextAllFill fill its).2 ≤ totalLen its := by
  induction its with
  | nil => simp [nextAllFill, totalLen]
  | cons it rest ih =>
    cases it <;> simp [nextAllFill, totalLen] at ih ⊢ <;> omega

theorem nextAllFill_lt (fill : α) (its : List (List α)) (h : ¬ its.all List.isEmpty = true) :
    totalLen (nextAllFill fill its).2 < totalLen its := by
  induction its with
  | nil => simp at h
  | cons it rest ih =>
    cases it with
    | nil =>
      have := ih (by simpa using h)
      simp [nextAllFill, totalLen] at this ⊢; omega
    | cons x xs =>
      have := nextAllFill_le fill rest
      simp [nextAllFill, totalLen] at this ⊢; omega

/-- `itertools.zip_longest(*iterables, fillvalue=fill)`. -/
def pyzipLongest (fill : α) (its : List (List α)) : List (List α) :=
  if h : its.all List.isEmpty then [] else
  let r := nextAllFill fill its
  r.1 :: pyzipLongest fill r.2
  termination_by totalLen its
  decreasing_by exact nextAllFill_lt fill its h

/-- Builtin `map(f, *iterables)` (`f` receives the tuple of arguments). -/
def pymap (f : List α → β) (its : List (List α)) : List β := (pyzip its).map f

/-! ## it.py -/

/-- `rev` (it.py:40-58). -/
def rev (xs : List α) : List α := xs.reverse

/-- `map_longest` (it.py:78-88). -/
def map_longest (f : List α → β) (fill : α) (its : List (List α)) : List β :=
  (pyzipLongest fill its).map f

/-- `rmap` (it.py:90-112). -/
def rmap (f : List α → β) (its : List (List α)) : List β := pymap f (its.map rev)

/-- `rzip` (it.py:115-136). -/
def rzip (its : List (List α)) : List (List α) := pyzip (its.map rev)

/-- `rmap_longest` (it.py:138-140). -/
def rmap_longest (f : List α → β) (fill : α) (its : List (List α)) : List β :=
  map_longest f fill (its.map rev)

/-- `rzip_longest` (it.py:142-144). -/
def rzip_longest (fill : α) (its : List (List α)) : List (List α) :=
  pyzipLongest fill (its.map rev)

/-- `mapr` (it.py:146-152). -/
def mapr (f : List α → β) (its : List (List α)) : List β := rev (pymap f its)

/-- `zipr` (it.py:154-160). -/
def zipr (its : List (List α)) : List (List α) := rev (pyzip its)

/-- `mapr_longest` (it.py:162-164). -/
def mapr_longest (f : List α → β) (fill : α) (its : List (List α)) : List β :=
  rev (map_longest f fill its)

/-- `zipr_longest` (it.py:166-168). -/
def zipr_longest (fill : α) (its : List (List α)) : List (List α) :=
  rev (pyzipLongest fill its)

/-- `flatmap` (it.py:190-221): `chain.from_iterable(map(f, iterable0, *iterables))`. -/
def flatmap (f : List α → List β) (its : List (List α)) : List β :=
  let rec chainFromIterable : List (List β) → List β
    | [] => []
    | xs :: rest => xs ++ chainFromIterable rest
  chainFromIterable (pymap f its)

/-- The loop of `uniqify` (it.py:236-248): `seen` is the set of keys seen.  With `key=None` the key
is the item itself. -/
def uniqifyLoop [DecidableEq β] (key : α → β) (seen : List β) : List α → List α
  | [] => []
  | e :: it =>
    let k := key e
    if k ∈ seen then uniqifyLoop key seen it
    else e :: uniqifyLoop key (k :: seen) it

/-- `uniqify` (it.py:225-248). -/
def uniqify [DecidableEq β] (key : α → β) (xs : List α) : List α := uniqifyLoop key [] xs

/-- The `groupby` walk of `uniq` (it.py:258): a new group starts when the key differs from the
current group's key; `next` of the group's subiterator is the item that started it. -/
def uniqLoop [DecidableEq β] (key : α → β) (cur : Option β) : List α → List α
  | [] => []
  | e :: it =>
    let k := key e
    if cur = some k then uniqLoop key cur it
    else e :: uniqLoop key (some k) it

/-- `uniq` (it.py:250-258). -/
def uniq [DecidableEq β] (key : α → β) (xs : List α) : List α := uniqLoop key none xs

/-- `itertools.islice(it, n)`, also returning what is left in the shared iterator. -/
def isliceN : Nat → List α → List α × List α
  | 0, it => ([], it)
  | _ + 1, [] => ([], [])
  | n + 1, x :: it => let r := isliceN n it; (x :: r.1, r.2)

/-- `take` (it.py:260-271); `n` is an int, negative is rejected. -/
def take (n : Int) (xs : List α) : Res (List α) :=
  if n < 0 then .error .ValueError else .ok (isliceN n.toNat xs).1

/-- `drop` (it.py:273-290) with an int `n` (`n=None` consumes everything, see `dropAll`). -/
def drop (n : Int) (xs : List α) : Res (List α) :=
  if n < 0 then .error .ValueError else .ok (isliceN n.toNat xs).2

/-- `drop(None, xs)` (it.py:280-283). -/
def dropAll (_ : List α) : List α := []

/-- `split_at` (it.py:292-314). -/
def split_at (n : Int) (xs : List α) : Res (List α × List α) :=
  if n < 0 then .error .ValueError
  else match take n xs, drop n xs with
    | .ok a, .ok b => .ok (a, b)
    | .error e, _ => .error e
    | _, .error e => .error e

/-- State after the extraction loop of `unpack` (it.py:355-369). -/
structure UnpackSt (α : Type u) where
  out : List α
  it : List α
  tl : Option (List α)

/-- The `for j in range(n)` loop of `unpack` (it.py:358-369). `steps` is how many iterations remain. -/
def unpackLoop (n k : Nat) (fill : α) : Nat → Nat → UnpackSt α → UnpackSt α
  | 0, _, st => st
  | steps + 1, j, st =>
    let tl := if j = k then some st.it else st.tl   -- it, tl = tee(it)
    match st.it with
    | x :: it => unpackLoop n k fill steps (j + 1) ⟨st.out ++ [x], it, tl⟩
    | [] => ⟨st.out ++ List.replicate (n - st.out.length) fill, [], some []⟩

/-- `unpack` (it.py:316-376).  `k = none` is Python's `k=None`.  The result is the `n` extracted
items and the tail.  (In Python the two are packed in one tuple.)  `if not tl` tests for `None`: tee
objects and generators are always true. -/
def unpack (n : Int) (xs : List α) (k : Option Int) (fill : α) : Res (List α × List α) :=
  if n < 0 then .error .ValueError else
  let k := k.getD n
  if k < 0 then .error .ValueError else
  let st := unpackLoop n.toNat k.toNat fill n.toNat 0 ⟨[], xs, none⟩
  match st.tl with
  | some tl => .ok (st.out, tl)
  | none =>
    if k = n then .ok (st.out, st.it)
    else if k > n then
      match drop (k - n) st.it with
      | .ok tl => .ok (st.out, tl)
      | .error e => .error e
    else .error .TypeError  -- tl would stay None: unreachable (theorem `C25_unpack`)

/-- `for _ in range(n + 1): q.append(next(it))` of `butlastn` (it.py:402-406). -/
def fillQ : Nat → List α → List α → Option (List α × List α)
  | 0, q, it => some (q, it)
  | _ + 1, _, [] => none
  | n + 1, q, x :: it => fillQ n (q ++ [x]) it

/-- `while True: yield q.popleft(); q.append(next(it))` of `butlastn` (it.py:407-412).  Popping an
empty deque raises IndexError. -/
def butlastnLoop : List α → List α → Gen α
  | [], _ => ⟨[], some .IndexError⟩
  | y :: _, [] => ⟨[y], none⟩
  | y :: q, x :: it => let r := butlastnLoop (q ++ [x]) it; ⟨y :: r.items, r.exc⟩
  termination_by _ it => it.length

/-- `butlastn` (it.py:393-413). -/
def butlastn (n : Int) (xs : List α) : Gen α :=
  match fillQ (n + 1).toNat [] xs with
  | none => ⟨[], none⟩
  | some (q, it) => butlastnLoop q it

/-- `butlast` (it.py:383-391). -/
def butlast (xs : List α) : Gen α := butlastn 1 xs

/-- `tail` (it.py:377-381). -/
def tail (xs : List α) : Res (List α) := drop 1 xs

/-- `nth` (it.py:423-436). -/
def nth (n : Int) (xs : List α) (default : α) : Res α :=
  if n < 0 then .error .ValueError else
  match (if n = 0 then .ok xs else drop n xs : Res (List α)) with
  | .error e => .error e
  | .ok [] => .ok default
  | .ok (x :: _) => .ok x

/-- `first` (it.py:415-417). -/
def first (xs : List α) (default : α) : Res α := nth 0 xs default

/-- `second` (it.py:419-421). -/
def second (xs : List α) (default : α) : Res α := nth 1 xs default

/-- Appending to a `deque(maxlen=n)`: when full, the leftmost item falls out. -/
def dequePush (maxlen : Nat) (q : List α) (x : α) : List α :=
  let q' := q ++ [x]
  if q'.length > maxlen then q'.drop 1 else q'

/-- `deque(iterable, maxlen=n)`. -/
def dequeOf (maxlen : Nat) (xs : List α) : List α := xs.foldl (dequePush maxlen) []

/-- `last` (it.py:438-449): `d = deque(iterable, maxlen=1); d.pop() if d else default`. -/
def last (xs : List α) (default : α) : α :=
  match (dequeOf 1 xs).getLast? with
  | some x => x
  | none => default

/-- `lastn` (it.py:451-463); a negative `maxlen` makes `deque` raise ValueError. -/
def lastn (n : Int) (xs : List α) : Gen α :=
  if n < 0 then ⟨[], some .ValueError⟩ else ⟨dequeOf n.toNat xs, none⟩

/-- `scons` (it.py:465-474). -/
def scons (x : α) (xs : List α) : List α := [x] ++ xs

/-- `pad` (it.py:476-489). `k` counts the items seen; `range(k, n)` is empty if `n ≤ k`. -/
def pad (n : Int) (fill : α) (xs : List α) : List α :=
  let rec loop (k : Nat) : List α → List α
    | [] => List.replicate (n - (k : Int)).toNat fill
    | x :: it => x :: loop (k + 1) it
  loop 0 xs

mutual
/-- `_flatten(iterable, pred, recursive=True)` (it.py:523-532), the `for e in it` loop. `pred` is
called on sequences only. -/
def flattenL (pred : Bool → List (Val α) → Bool) : List (Val α) → List (Val α)
  | [] => []
  | e :: it => flattenE pred e ++ flattenL pred it
/-- The loop body of `_flatten` (it.py:527-532). -/
def flattenE (pred : Bool → List (Val α) → Bool) : Val α → List (Val α)
  | .atom a => [.atom a]
  | .seq t es => if pred t es then flattenL pred es else [.seq t es]
end

/-- `flatten` (it.py:491-515); `pred=None` means always true. -/
def flatten (pred : Bool → List (Val α) → Bool) (xs : List (Val α)) : List (Val α) :=
  flattenL pred xs

/-- `_flatten(iterable, pred, recursive=False)` (it.py:523-532), i.e. `flatten1` with a predicate. -/
def flatten1p (pred : Bool → List (Val α) → Bool) : List (Val α) → List (Val α)
  | [] => []
  | .atom a :: it => .atom a :: flatten1p pred it
  | .seq t es :: it => (if pred t es then es else [.seq t es]) ++ flatten1p pred it

mutual
/-- `flatten_in` (it.py:534-559), the loop. -/
def flattenInL (pred : Bool → List (Val α) → Bool) : List (Val α) → List (Val α)
  | [] => []
  | e :: it => flattenInE pred e ++ flattenInL pred it
/-- The loop body of `flatten_in` (it.py:550-559); `t(flatten_in(e, pred))` rebuilds a list or
tuple. -/
def flattenInE (pred : Bool → List (Val α) → Bool) : Val α → List (Val α)
  | .atom a => [.atom a]
  | .seq t es => if pred t es then flattenInL pred es else [.seq t (flattenInL pred es)]
end

/-- `flatten_in` (it.py:534-559). -/
def flatten_in (pred : Bool → List (Val α) → Bool) (xs : List (Val α)) : List (Val α) :=
  flattenInL pred xs

/-- `iterate1` (it.py:561-565): the value of `x` at the i-th `yield`. -/
def iterate1 (f : α → α) (x : α) : Nat → α
  | 0 => x
  | i + 1 => iterate1 f (f x) i

/-- `iindex` (it.py:681-694). -/
def iindex [DecidableEq α] (x : α) (xs : List α) : Res Nat :=
  let rec loop (j : Nat) : List α → Res Nat
    | [] => .error .ValueError
    | elt :: it => if elt = x then .ok j else loop (j + 1) it
  loop 0 xs

/-- `find` (it.py:696-702). -/
def find (p : α → Bool) (default : α) : List α → α
  | [] => default
  | x :: it => if p x then x else find p default it

/-- `windowed()` inside `window` (it.py:728-735).  `xs` is the deque. -/
def windowedLoop : List α → List α → List (List α)
  | xs, [] => [xs]
  | xs, y :: it => xs :: windowedLoop (xs.drop 1 ++ [y]) it

/-- `window` (it.py:704-736). -/
def window (n : Int) (xs : List α) : Res (List (List α)) :=
  if n < 2 then .error .ValueError else
  match fillQ n.toNat [] xs with
  | none => .ok []
  | some (q, it) => .ok (windowedLoop q it)

/-- One step of `chunker()` inside `chunked` (it.py:762-771) and the consumption of its chunk: `cit =
islice(it, n)`, the chunk is `scons(next(cit), cit)`; the consumer then reads `1 + c` items of the
chunk (or to its end) before asking for the next chunk.  `none`: StopIteration. -/
def chunkStep (n c : Nat) (it : List α) : Option (List α × List α) :=
  match isliceN 1 it with
  | ([], _) => none
  | (x, it') =>
    let r := isliceN (min c (n - 1)) it'
    some (x ++ r.1, r.2)

/-- The items a consumer sees who reads (up to) `1 + c` items from each chunk in turn, one entry of
the list per chunk requested. -/
def chunkedWith (n : Nat) : List Nat → List α → List (List α)
  | [], _ => []
  | c :: cs, it =>
    match chunkStep n c it with
    | none => []
    | some (chunk, it') => chunk :: chunkedWith n cs it'

/-- `chunked` (it.py:738-772) when each chunk is read to its end before the next one is requested
(as in the docstring). -/
def chunked (n : Int) (xs : List α) : Res (List (List α)) :=
  if n < 2 then .error .ValueError
  else .ok (chunkedWith n.toNat (List.replicate (xs.length + 1) (n.toNat - 1)) xs)

/-- The loop of `within` (it.py:788-792) over the pairs of `window(2, iterable)`. `close a b` is
`abs(a - b) <= tol`. -/
def withinLoop (close : α → α → Bool) : List (List α) → List α
  | [] => []
  | [a, b] :: ws => if close a b then [a, b] else a :: withinLoop close ws
  | _ :: ws => withinLoop close ws   -- windows of length 2 only: unreachable

/-- `within` (it.py:774-792) on a finite input. -/
def within (close : α → α → Bool) (xs : List α) : List α :=
  match window 2 xs with
  | .ok ws => withinLoop close ws
  | .error _ => []   -- window(2, ..) never raises

/-- One `roundrobin()` pass of `interleave` (it.py:806-812): items yielded, the iterators afterwards,
and whether ShortestInputEnded was raised. -/
def roundrobin : List (List α) → List α × List (List α) × Bool
  | [] => ([], [], false)
  | [] :: rest => ([], [] :: rest, true)
  | (x :: xs) :: rest =>
    let r := roundrobin rest
    (x :: r.1, xs :: r.2.1, r.2.2)

theorem roundrobin_lt {its : List (List α)} (hne : its ≠ [])
    (h : (roundrobin its).2.2 = false) : totalLen (roundrobin its).2.1 < totalLen its := by
  suffices H : ∀ (its : List (List α)), (roundrobin its).2.2 = false →
      totalLen (roundrobin its).2.1 + its.length = totalLen its by
    have := H its h
    have : 0 < its.length := by cases its with | nil => exact absurd rfl hne | cons => simp
    omega
  intro its
  induction its with
  | nil => simp [roundrobin, totalLen]
  | cons it rest ih =>
    cases it with
    | nil => simp [roundrobin]
    | cons x xs =>
      intro h
      simp only [roundrobin] at h
      have := ih h
      simp [roundrobin, totalLen] at this ⊢
      omega

/-- `interleave` (it.py:794-817).  `none`: it loops forever without yielding (no inputs at all). -/
def interleave (its : List (List α)) : Option (List α) :=
  if hne : its = [] then none else
  let r := roundrobin its
  if hr : r.2.2 = true then some r.1
  else match interleave r.2.1 with
    | some ys => some (r.1 ++ ys)
    | none => none
  termination_by totalLen its
  decreasing_by exact roundrobin_lt hne (by simpa using hr)

/-- `subset` (it.py:819-832). -/
def subset [DecidableEq α] (part whole : List α) : Bool := part.all (fun e => whole.contains e)

/-- The `while True` loop of `powerset` (it.py:905-917). -/
def powersetLoop (bag : List (List α)) : List α → List (List α)
  | [] => []
  | a :: it =>
    let x := [a]
    let t := bag.map (fun c => c ++ x)
    [x] ++ t ++ powersetLoop (bag ++ [x] ++ t) it

/-- `powerset` (it.py:834-917). -/
def powerset (xs : List α) : List (List α) := powersetLoop [] xs

/-- `allsame` (it.py:919-939). -/
def allsame [DecidableEq α] : List α → Bool
  | [] => true
  | x0 :: it =>
    let rec loop : List α → Bool
      | [] => true
      | x :: it => if x ≠ x0 then false else loop it
    loop it

end Unpy.It
