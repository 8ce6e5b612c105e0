import Verif.Proof.TcoSim
/-!
# C89, C90: the block macro `tco`
-/
namespace Unpy.Props
open Unpy.Tail Unpy.Tail.Spec
open Unpy.PyExpr (M ret raise bind Err)
variable {β ω ε : Type}

section
open Unpy.Tail.Full Unpy.Tail.Sim Unpy.Tail.Order

private theorem ends_le {run : Nat → Nat → M (State β ω) ε (Flow (Tail.Val β))}
    (h : ∀ N N' d d', N ≤ N' → d ≤ d' → Le (run N d) (run N' d')) {s r r'} (h₁ : Ends run s r) (h₂ : Ends run s r') : r = r' := by
  obtain ⟨N, d, h₁⟩ := h₁
  obtain ⟨N', d', h₂⟩ := h₂
  have a := h N (max N N') d (max d d') (by omega) (by omega) s r h₁
  have b := h N' (max N N') d' (max d d') (by omega) (by omega) s r' h₂
  exact Option.some.inj (a.symm.trans b)

private theorem plain_le (P : World β ω ε) {N N' : Nat} (hN : N ≤ N') : ∀ (d d' : Nat), d ≤ d' →
    ApLe (plain P N d) (plain P N' d')
  | 0, _, _ => fun _ _ => Le.none
  | d + 1, 0, h => absurd h (by omega)
  | d + 1, d' + 1, h => fun f args => callEntry_le (plain_le P hN d d' (by omega)) hN f args

/-- C89.  There is only one way for a program to end, whatever the stack and the number of rounds. -/
theorem C89_one_end (P : World β ω ε) (ρ : Env β) (b : List (St β)) (s : State β ω)
    {r r' : Except (Err ε) (Flow (Tail.Val β)) × State β ω} :
    (Ends (fun N d => plainRun P N d ρ b) s r → Ends (fun N d => plainRun P N d ρ b) s r' → r = r') ∧
    (Ends (fun N d => run P N d ρ b) s r → Ends (fun N d => run P N d ρ b) s r' → r = r') :=
  ⟨ends_le fun _ _ d d' hN hd => execs_le (plain_le P hN d d' hd) hN b ρ, ends_le fun _ _ _ _ hN hd => run_le P hN hd ρ b⟩

private theorem same_of_sim {P : World β ω ε} {ecs : List String} {n : Nat} {b : List (St β)} (hb : okSs ecs .block b = true)
    (hn : nestSs b ≤ n) {ρ : Env β} {s : State β ω} (hs : Start ρ s) (N d : Nat) :
    match properRun P (N + 1) d ρ (andSs b) s, run P (N + 1) (2 * d) ρ (tco ecs n b) s with
    | none, none => True
    | some r, some r' => Same r r'
    | _, _ => False := by
  rw [tco_full hb hn]
  have h := run_sim (ecs := ecs) P N d (start_rel (ecs := ecs) hs).1 hb s s (start_rel hs).2
  rcases hm : properRun P (N + 1) d ρ (andSs b) s with _ | ⟨_ | a, t⟩ <;>
    rcases hm' : run P (N + 1) (2 * d) ρ (fullSs b) s with _ | ⟨_ | a', t'⟩ <;> simp only [hm, hm'] at h ⊢
  · exact ⟨h.1, heap_sim h.2.1, h.2.2⟩
  · obtain ⟨⟨rfl, rfl⟩, h⟩ := h
    exact ⟨trivial, heap_sim h.1, h.2⟩

/-- C90.  In a `with tco` block, calls in tail position take no stack: if the program ends, with proper tail calls and other
calls nesting at most `d` deep, then the expanded program ends in the same way in Python, with calls nesting at most `2 * d`
deep (a trampoline takes a level of its own); and conversely.  `N + 1` bounds the rounds of the loops, both of those in the
program and of those that make tail calls.  Partial: for the programs described by `okSs` (in particular, see `C90_loop_refuted`); and with each `others and last` in
tail position read as `last if others else False`. -/
theorem C90_space_partial (P : World β ω ε) (ecs : List String) (n : Nat) (b : List (St β)) (hb : okSs ecs .block b = true)
    (hn : nestSs b ≤ n) (ρ : Env β) (s : State β ω) (hs : Start ρ s) (N d : Nat) :
    (∀ r, properRun P (N + 1) d ρ (andSs b) s = some r →
      ∃ r', run P (N + 1) (2 * d) ρ (tco ecs n b) s = some r' ∧ Same r r') ∧
    (∀ r', run P (N + 1) (2 * d) ρ (tco ecs n b) s = some r' →
      ∃ r, properRun P (N + 1) d ρ (andSs b) s = some r ∧ Same r r') := by
  have key := same_of_sim (P := P) hb hn hs N d
  constructor
  · intro r hr
    rw [hr] at key
    rcases h : run P (N + 1) (2 * d) ρ (tco ecs n b) s with _ | r'
    · simp only [h] at key
    · simp only [h] at key; exact ⟨r', rfl, key⟩
  · intro r' hr
    rw [hr] at key
    rcases h : properRun P (N + 1) d ρ (andSs b) s with _ | r
    · simp only [h] at key
    · simp only [h] at key; exact ⟨r, rfl, key⟩

/-- C89.  A `with tco` block does what the same code does without it: if the program ends, then so does the expanded
program, in the same way; and conversely.  Partial: for the programs described by `okSs`; and with each `others and last` in
tail position read as `last if others else False`. -/
theorem C89_result_partial (P : World β ω ε) (ecs : List String) (n : Nat) (b : List (St β)) (hb : okSs ecs .block b = true)
    (hn : nestSs b ≤ n) (ρ : Env β) (s : State β ω) (hs : Start ρ s) :
    (∀ r, Ends (fun N d => plainRun P N d ρ (andSs b)) s r →
      ∃ r', Ends (fun N d => run P N d ρ (tco ecs n b)) s r' ∧ Same r r') ∧
    (∀ r', Ends (fun N d => run P N d ρ (tco ecs n b)) s r' →
      ∃ r, Ends (fun N d => plainRun P N d ρ (andSs b)) s r ∧ Same r r') := by
  constructor
  · rintro r ⟨N, d, hr⟩
    have h := execs_le (P := P) (plain_proper P (N := N) (N' := N + d + 1) (d := d) (D := d) (by omega) (by omega)
      (Nat.le_refl _)) (by omega : N ≤ N + d + 1) (andSs b) ρ s r hr
    obtain ⟨r', h', hsame⟩ := (C90_space_partial P ecs n b hb hn ρ s hs (N + d) d).1 r h
    exact ⟨r', ⟨_, _, h'⟩, hsame⟩
  · rintro r' ⟨N, d, hr⟩
    have h := run_le P (N := N) (N' := N + 1) (d := d) (d' := 2 * d) (by omega) (by omega) ρ (tco ecs n b) s r' hr
    obtain ⟨r, h', hsame⟩ := (C90_space_partial P ecs n b hb hn ρ s hs N d).2 r' h
    exact ⟨r, ⟨_, _, execs_le (P := P) (proper_plain P (N + 1) d _ (Nat.le_refl _)) (Nat.le_refl _) (andSs b) ρ s r h'⟩, hsame⟩

/-- C89.  If there is no such `and`, a `with tco` block does what the same code does without it.
(Missing: as in `C89_result_partial`; for `and` see `C89_and_refuted`.) -/
theorem C89_result_without_and_partial (P : World β ω ε) (ecs : List String) (n : Nat) (b : List (St β))
    (hb : okSs ecs .block b = true) (hn : nestSs b ≤ n) (hand : andSs b = b) (ρ : Env β) (s : State β ω) (hs : Start ρ s) :
    (∀ r, Ends (fun N d => plainRun P N d ρ b) s r → ∃ r', Ends (fun N d => run P N d ρ (tco ecs n b)) s r' ∧ Same r r') ∧
    (∀ r', Ends (fun N d => run P N d ρ (tco ecs n b)) s r' → ∃ r, Ends (fun N d => plainRun P N d ρ b) s r ∧ Same r r') := by
  have := C89_result_partial P ecs n b hb hn ρ s hs
  rwa [hand] at this

end

/-! ## An example: counting down -/

/-- Numbers; two external functions, `iszero` and `pred`. -/
def countWorld : World Nat Unit Unit where
  truthy b := b != 0
  call k bs w := match k, bs with
    | 0, [b] => (.ok (if b = 0 then 1 else 0), w)
    | _, [b] => (.ok (b - 1), w)
    | _, _ => (.error (.py .TypeError), w)

/-- The variables `down`, `iszero`, `pred`, `r`. -/
def countEnv : Env Nat := fun x =>
  if x = "down" then some (.inl 0) else if x = "iszero" then some (.inl 1) else
  if x = "pred" then some (.inl 2) else if x = "r" then some (.inl 3) else none

def countState : State Nat Unit := { heap := [none, some (.ext 0), some (.ext 1), none], world := () }

/-- ```
def down(n):
    if iszero(n):
        return n
    return down(pred(n))
r = down(k)
``` -/
def countProg (k : Nat) : List (St Nat) :=
  [.defn false "down" ["n"] []
    [.ite (.call (.name "iszero") [.name "n"]) [.ret (some (.name "n"))] [],
     .ret (some (.call (.name "down") [.call (.name "pred") [.name "n"]]))],
   .assign "r" (.call (.name "down") [.cst k])]

example : okSs fallbacks .block (countProg 3) = true := by decide
example : andSs (countProg 3) = countProg 3 := rfl
example : nestSs (countProg 3) ≤ 0 := by decide

/-- `evenp = lambda n: iszero(n) or oddp(pred(n))`, and the like: also these programs are covered. -/
example : okSs fallbacks .block
    [.assign "evenp" (.lam false ["n"] (.bool true (.call (.name "iszero") [.name "n"]) (.call (.name "oddp") [.name "n"]))),
     .defn false "f" ["n"] ["x"] [.tryx [.assign "x" (.call (.name "g") [.name "n"])] true
       [.ret (some (.letx "y" (.cst 1) (.call (.name "h") [.name "y"])))] [] [],
       .ret (some (.ife (.name "x") (.call (.name "f") [.name "x"]) (.doe (.call (.name "g") []) (.name "x"))))]] = true := by
  decide

private theorem count_start : Start countEnv countState := by
  constructor
  · intro x v
    unfold countEnv
    repeat' split
    all_goals simp
  · intro c hc v hv
    simp only [countState, List.mem_cons, List.not_mem_nil, or_false] at hc
    rcases hc with rfl | rfl | rfl | rfl <;> simp_all [Simple]
    all_goals (subst hv; trivial)

/-- The function `down`. -/
private def downFun : Tail.Val Nat := .clo false ["n"] []
    [.ite (.call (.name "iszero") [.name "n"]) [.ret (some (.name "n"))] [],
     .ret (some (.call (.name "down") [.call (.name "pred") [.name "n"]]))] countEnv

private def downHeap (c : Option (Tail.Val Nat)) (rest : List (Option (Tail.Val Nat))) : List (Option (Tail.Val Nat)) :=
  some downFun :: some (.ext 0) :: some (.ext 1) :: c :: rest

private theorem ext_proper (N j b : Nat) (s : State Nat Unit) :
    proper countWorld (N + 1) 1 (.ext j) [.base b] s =
      some (.ok (.base (match j with | 0 => if b = 0 then 1 else 0 | _ => b - 1)), s) := by
  cases j <;> rfl

private theorem truthy_count (b : Nat) : Tail.truthy countWorld (.base b) = (b != 0) := rfl

private theorem down_call (N k : Nat) (c : Option (Tail.Val Nat)) (rest : List (Option (Tail.Val Nat))) :
    tailCall countWorld (N + 1) (proper countWorld (N + 1) 1) downFun [.base k] ⟨downHeap c rest, ()⟩ =
      some (.ok (if k = 0 then .val (.base 0) else .tail downFun [.base (k - 1)]),
        ⟨downHeap c (rest ++ [some (.base k)]), ()⟩) := by
  cases k with
  | zero =>
    simp [tailCall, downFun, downHeap, alloc, PyExpr.bind, PyExpr.ret, frame, tailExecs, tailExec, tailEval, eval, evals, load,
      countEnv, ext_proper, truthy_count]
  | succ k =>
    simp [tailCall, downFun, downHeap, alloc, PyExpr.bind, PyExpr.ret, frame, tailExecs, tailExec, tailEval, eval, evals, load,
      countEnv, ext_proper, truthy_count]

private theorem down_loop (N : Nat) (c : Option (Tail.Val Nat)) : ∀ (k n : Nat), k < n → ∀ rest, ∃ rest',
    tailLoop countWorld (N + 1) (proper countWorld (N + 1) 1) n downFun [.base k] ⟨downHeap c rest, ()⟩ =
      some (.ok (.base 0), ⟨downHeap c rest', ()⟩)
  | _, 0, h, _ => absurd h (by omega)
  | 0, n + 1, _, rest => ⟨rest ++ [some (.base 0)], by simp [tailLoop, PyExpr.bind, down_call, PyExpr.ret]⟩
  | k + 1, n + 1, h, rest => by
    obtain ⟨rest', ih⟩ := down_loop N c k n (by omega) (rest ++ [some (.base (k + 1))])
    refine ⟨rest', ?_⟩
    have hc : callable downFun = true := rfl
    simp only [tailLoop, PyExpr.bind, down_call]
    simpa [hc] using ih

private theorem count_proper (N k : Nat) (h : k ≤ N) : ∃ rest,
    properRun countWorld (N + 1) 2 countEnv (countProg k) countState =
      some (.ok .next, ⟨downHeap (some (.base 0)) rest, ()⟩) := by
  obtain ⟨rest, hl⟩ := down_loop N none k (N + 1) (by omega) []
  refine ⟨rest, ?_⟩
  have hp : proper countWorld (N + 1) 2 downFun [.base k] ⟨downHeap none [], ()⟩ = some (.ok (.base 0), ⟨downHeap none rest, ()⟩) := hl
  simp [downHeap, downFun] at hp
  simp [properRun, countProg, countState, execs, exec, PyExpr.bind, PyExpr.ret, store, countEnv, eval, evals, load, hp,
    downHeap, downFun]

/-- C90.  For example, in a `with tco` block a function that counts down by calling itself in tail position needs the same
stack for every number, and the result is 0. -/
theorem C90_countdown (k : Nat) : ∃ t, run countWorld (k + 1) 4 countEnv (tco fallbacks 0 (countProg k)) countState =
      some (.ok .next, t) ∧ t.heap[3]?.map (Option.map obs) = some (some (.base 0)) := by
  obtain ⟨rest, h⟩ := count_proper k k (Nat.le_refl k)
  have hb : okSs fallbacks .block (countProg k) = true := by
    simp [countProg, okSs, okS, okE, okEs, fallbacks, hasTailCall]
  have hn : nestSs (countProg k) ≤ 0 := by simp [countProg, nestSs, nestS, nestE, nestEs]
  obtain ⟨⟨o, t⟩, hr, hsame⟩ := (C90_space_partial countWorld fallbacks 0 (countProg k) hb hn countEnv countState count_start
    k 2).1 _ h
  have ho : o = .ok .next := by
    have := hsame.1
    rcases o with e | (_ | v)
    · exact this.elim
    · rfl
    · exact this.elim
  subst ho
  refine ⟨t, hr, ?_⟩
  have := hsame.2.1
  rw [← List.getElem?_map, ← this]; rfl

private theorem ext_plain (N d j b : Nat) (s : State Nat Unit) :
    plain countWorld N (d + 1) (.ext j) [.base b] s =
      some (.ok (.base (match j with | 0 => if b = 0 then 1 else 0 | _ => b - 1)), s) := by
  cases j <;> rfl

private theorem down_plain (N : Nat) (c : Option (Tail.Val Nat)) : ∀ (d k : Nat), d ≤ k → ∀ rest,
    plain countWorld N d downFun [.base k] ⟨downHeap c rest, ()⟩ = none
  | 0, _, _, _ => rfl
  | d + 1, 0, h, _ => absurd h (by omega)
  | d + 1, k + 1, h, rest => by
    have ih := down_plain N c d k (by omega) (rest ++ [some (.base (k + 1))])
    simp only [downFun, downHeap] at ih
    cases d with
    | zero =>
      simp [plain, callEntry, enter, downFun, downHeap, alloc, PyExpr.bind, PyExpr.ret, frame, execs, exec, eval, evals, load,
        countEnv]
    | succ d =>
      rw [plain]
      simp [callEntry, enter, downFun, downHeap, alloc, PyExpr.bind, PyExpr.ret, frame, execs, exec, eval, evals, load,
        countEnv, ext_plain, truthy_count, ih]

/-- C90.  Without `with tco`, the same function needs a stack deeper than the number it counts down from. -/
theorem C90_countdown_without_tco (N d k : Nat) (h : d ≤ k) :
    plainRun countWorld N d countEnv (countProg k) countState = none := by
  have hp := down_plain N none d k h []
  simp only [downHeap, downFun] at hp
  simp [plainRun, countProg, countState, execs, exec, PyExpr.bind, PyExpr.ret, store, countEnv, eval, evals, load, hp]

/-! ## What the conditions are for

A world for the counterexamples: `ident` returns its argument, `boom` raises, `log1` and `log2` leave a trace. -/

def tcoWorld : World Nat (List Nat) Unit where
  truthy b := b != 0
  call k bs w := match k, bs with
    | 0, [b] => (.ok b, w)
    | 1, [] => (.error (.user ()), w)
    | 2, [] => (.ok 1, w ++ [1])
    | 3, [] => (.ok 2, w ++ [2])
    | _, _ => (.error (.py .TypeError), w)

def tcoEnv : Env Nat := fun x =>
  if x = "f" then some (.inl 0) else if x = "r" then some (.inl 1) else if x = "ident" then some (.inl 2) else
  if x = "boom" then some (.inl 3) else if x = "log1" then some (.inl 4) else if x = "log2" then some (.inl 5) else
  if x = "ec" then some (.inl 2) else none

def tcoState : State Nat (List Nat) :=
  { heap := [none, none, some (.ext 0), some (.ext 1), some (.ext 2), some (.ext 3)], world := [] }

private theorem demo_start : Start tcoEnv tcoState := by
  constructor
  · intro x v
    unfold tcoEnv
    repeat' split
    all_goals simp
  · intro c hc v hv
    simp only [tcoState, List.mem_cons, List.not_mem_nil, or_false] at hc
    rcases hc with rfl | rfl | rfl | rfl | rfl | rfl <;> simp_all [Simple]
    all_goals (subst hv; trivial)

/-- With and without `with tco`, this program does not end in the same way. -/
def TcoChanged (b : List (St Nat)) : Prop :=
  ∃ n, nestSs b ≤ n ∧ ∃ r r', Ends (fun N d => plainRun tcoWorld N d tcoEnv b) tcoState r ∧
    Ends (fun N d => run tcoWorld N d tcoEnv (tco fallbacks n b)) tcoState r' ∧ ¬ Same r r'

/-- `def f(): return e; r = f()` -/
def tcoCallF (ps : List String) (body : List (St Nat)) (args : List (Ex Nat)) : List (St Nat) :=
  [.defn false "f" ps [] body, .assign "r" (.call (.name "f") args)]

/-- What is seen of the variable `r`. -/
private def seen (l : List (Option (Tail.Spec.Obs Nat))) : Nat :=
  match l with
  | _ :: some (.base b) :: _ => b
  | _ :: some .ff :: _ => 100
  | _ :: some .non :: _ => 101
  | _ :: some (.lst _) :: _ => 102
  | _ => 103

/-- C89.  `return 0 and ident(1)` returns 0 in Python, but False in a `with tco` block. -/
theorem C89_and_refuted : okSs fallbacks .block (tcoCallF [] [.ret (some (.bool false (.cst 0) (.call (.name "ident") [.cst 1])))]
      []) = true ∧
    TcoChanged (tcoCallF [] [.ret (some (.bool false (.cst 0) (.call (.name "ident") [.cst 1])))] []) := by
  refine ⟨by decide, 5, by decide, _, _, ⟨5, 5, rfl⟩, ⟨5, 5, rfl⟩, fun h => ?_⟩
  have : (0 : Nat) = 100 := congrArg seen h.2.1
  omega

/-- C89.  A variable named `it`: `def f(it): return 0 or ident(it)` returns its argument in Python; in a `with tco` block the
variable is taken for the value of the first operand. -/
theorem C89_it_refuted : TcoChanged (tcoCallF ["it"] [.ret (some (.bool true (.cst 0) (.call (.name "ident") [.name "it"])))]
    [.cst 5]) := by
  refine ⟨5, by decide, _, _, ⟨5, 5, rfl⟩, ⟨5, 5, rfl⟩, fun h => ?_⟩
  have : (5 : Nat) = 0 := congrArg seen h.2.1
  omega

/-- C89.  A list: `return [1, 2] or ident(3)` returns the list in Python; in a `with tco` block the list is taken for a
`do`, and 2 is returned. -/
theorem C89_list_refuted : TcoChanged (tcoCallF [] [.ret (some (.bool true (.lst [.cst 1, .cst 2])
    (.call (.name "ident") [.cst 3])))] []) := by
  refine ⟨5, by decide, _, _, ⟨5, 5, rfl⟩, ⟨5, 5, rfl⟩, fun h => ?_⟩
  have : (102 : Nat) = 2 := congrArg seen h.2.1
  omega

/-- C89.  `try: return boom() / except: return 7`: in Python, the exception is caught; in a `with tco` block, it is not: the
call is made after the `try` has been left. -/
theorem C89_try_refuted : TcoChanged (tcoCallF [] [.tryx [.ret (some (.call (.name "boom") []))] true [.ret (some (.cst 7))] [] []]
    []) := by
  refine ⟨5, by decide, _, _, ⟨5, 5, rfl⟩, ⟨5, 5, rfl⟩, fun h => ?_⟩
  exact h.1

/-- C89.  `try: return log1() / finally: log2()`: in a `with tco` block, the `finally` clause comes first. -/
theorem C89_finally_refuted : TcoChanged (tcoCallF [] [.tryx [.ret (some (.call (.name "log1") []))] false [] []
    [.expr (.call (.name "log2") [])]] []) := by
  refine ⟨5, by decide, _, _, ⟨5, 5, rfl⟩, ⟨5, 5, rfl⟩, fun h => ?_⟩
  have : [1, 2] = [2, 1] := h.2.2
  simp at this

/-- C89.  A function named `ec` that returns normally: `def f(): return ec(5)`.  In a `with tco` block the result is lost. -/
theorem C89_ec_refuted : TcoChanged (tcoCallF [] [.ret (some (.call (.name "ec") [.cst 5]))] []) := by
  refine ⟨5, by decide, _, _, ⟨5, 5, rfl⟩, ⟨5, 5, rfl⟩, fun h => ?_⟩
  have : (5 : Nat) = 101 := congrArg seen h.2.1
  omega

/-- C89.  A `with tco` block in a function, with `return ident(5)` directly in the block: the function returns a jump
object instead of 5. -/
theorem C89_block_return_refuted : (∃ t, plainRun tcoWorld 5 5 tcoEnv [.ret (some (.call (.name "ident") [.cst 5]))] tcoState =
      some (.ok (.ret (.base 5)), t)) ∧
    (∃ t, run tcoWorld 5 5 tcoEnv (tco fallbacks 5 [.ret (some (.call (.name "ident") [.cst 5]))]) tcoState =
      some (.ok (.ret (.jmp (.ext 0) [.base 5])), t)) :=
  ⟨⟨_, rfl⟩, ⟨_, rfl⟩⟩

/-- C89.  Calling something that cannot be called, as in `def f(): return 5()`: a TypeError in Python, but a RuntimeError in a `with tco` block (which is why
`Same` admits this). -/
theorem C89_not_callable_refuted : okSs fallbacks .block (tcoCallF [] [.ret (some (.call (.cst 5) []))] []) = true ∧
    (∃ t, Ends (fun N d => plainRun tcoWorld N d tcoEnv (tcoCallF [] [.ret (some (.call (.cst 5) []))] [])) tcoState (.error (.py .TypeError), t)) ∧
    (∃ t, Ends (fun N d => run tcoWorld N d tcoEnv (tco fallbacks 5 (tcoCallF [] [.ret (some (.call (.cst 5) []))] []))) tcoState
      (.error (.py .RuntimeError), t)) :=
  ⟨by decide, ⟨_, 5, 5, rfl⟩, ⟨_, 5, 5, rfl⟩⟩

/-- C89.  Calling an escape continuation with no argument, or with two (as in `throw(value, tag)`), breaks the expansion of
the block. -/
theorem C89_ec_arity_refuted (a b : Ex Nat) :
    tco (β := Nat) fallbacks 5 [.expr (.call (.name "brk") [])] = [.expr (.call (.name "brk") [.bad])] ∧
    tco fallbacks 5 [.expr (.call (.name "throw") [a, b])] = [.expr (.call (.name "throw") [.bad])] :=
  ⟨rfl, rfl⟩

end Unpy.Props
