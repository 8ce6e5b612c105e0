import Verif.Proof.Tco
/-! # C38: tail calls; C40: tail-chained generators -/
namespace Unpy.Props
open Unpy
open Unpy.Fold (Err Vals)

section tco
open Unpy.Tco Unpy.Eff Unpy.Spec.Tco
variable {σ ε V : Type}

/-- C38.  Calling a trampolined function (from stack depth `d`) finishes with a result, exception and world if
and only if the program in which each `return jump(g, ...)` reads `return g(...)` does, for any number of
jumps; and every function in the chain of tail calls, however long, runs at the same stack depth `d + 2`
(the caller, the trampoline, the function).  Partial: no jump goes to a function made from a trampolined one by another decorator that uses
`functools.wraps`.  (Missing: such jumps, see `C38_wraps_refuted`.) -/
theorem C38_trampolined_partial (P : Prog σ ε V) (hP : ∀ f e, P f = .trampolined e → ∃ body, Own P e body)
    (hJ : ∀ v t a, P v = .jump t a → ∀ b e, P t ≠ .wrapper b e)
    (d : Nat) (f entry : V) (hf : P f = .trampolined entry) (args : Args V) (s : σ)
    (r : Except (Err ε) V) (s' : σ) :
    (∃ n, callTrampolined P n d entry args s = some (r, s')) ↔ Direct P (d + 2) f args s r s' := by
  obtain ⟨body, he⟩ := hP f entry hf
  constructor
  · rintro ⟨n, h⟩
    exact .decorated hf (trampoline_sound hP hJ n (d + 1) entry body he args s r s' h)
  · intro h
    obtain ⟨n, h⟩ := trampoline_complete hP hJ (d + 1) h
    exact ⟨n, by simpa [callTrampolined, land, hf] using h 0⟩

private theorem tramp_mono (P : Prog σ ε V) : ∀ (n : Nat) (d : Nat) (f : V) (args : Args V) (s : σ) r,
    trampoline P n d f args s = some r → trampoline P (n + 1) d f args s = some r := by
  intro n
  induction n with
  | zero => intro d f args s r h; simp [trampoline] at h
  | succ n ih =>
    intro d f args s r h
    have own : ∀ body, Own P f body → trampoline P (n + 1 + 1) d f args s = some r := by
      intro b hf
      rw [own_call hf] at h ⊢
      rcases hb : b (d + 1) args s with ⟨(e | v), s'⟩
      · simpa [hb] using h
      · simp only [hb] at h ⊢
        cases hv : P v with
        | jump t a =>
          simp only [hv] at h ⊢
          split
          · rename_i hc; rw [if_pos hc] at h; exact h
          · rename_i hc; rw [if_neg hc] at h; exact ih _ _ _ _ _ h
        | data | func _ | trampolined _ | wrapper _ _ => simp only [hv] at h ⊢; exact h
    cases hf : P f with
    | func b => exact own b (.inl hf)
    | wrapper b e => exact own b (.inr ⟨e, hf⟩)
    | trampolined e =>
      rw [trampoline] at h ⊢
      simp only [hf] at h ⊢
      cases ho : trampoline P n (d + 1) e args s with
      | none => simp [ho] at h
      | some o =>
        rw [ih _ _ _ _ _ ho]
        simp only [ho] at h
        rcases o with ⟨(e | v), s'⟩
        · exact h
        · cases hv : P v with
          | jump t a =>
            simp only [hv] at h ⊢
            split
            · rename_i hc; rw [if_pos hc] at h; exact h
            · rename_i hc; rw [if_neg hc] at h; exact ih _ _ _ _ _ h
          | data | func _ | trampolined _ | wrapper _ _ => simp only [hv] at h ⊢; exact h
    | data | jump _ _ =>
      rw [trampoline] at h ⊢
      simp only [hf] at h ⊢
      first
      | exact h
      | (split
         · rename_i hc; rw [if_pos hc] at h; exact h
         · rename_i hc; rw [if_neg hc] at h; exact ih _ _ _ _ _ h)

/-- C38.  The outcome does not depend on how many rounds the trampoline is given, once it has finished. -/
theorem C38_outcome_unique (P : Prog σ ε V) (d : Nat) (entry : V) (args : Args V) (s : σ)
    (n : Nat) (r : Except (Err ε) V × σ) (h : callTrampolined P n d entry args s = some r) :
    ∀ m, callTrampolined P (n + m) d entry args s = some r ∧
      ∀ r', callTrampolined P m d entry args s = some r' → r' = r := by
  have more : ∀ k r1, callTrampolined P k d entry args s = some r1 →
      ∀ m, callTrampolined P (k + m) d entry args s = some r1 := by
    intro k r1 hk m
    induction m with
    | zero => exact hk
    | succ m ih => exact tramp_mono P _ _ _ _ _ _ ih
  intro m
  refine ⟨more n r h m, fun r' hr' => ?_⟩
  have a := more n r h m
  have b := more m r' hr' n
  rw [Nat.add_comm] at b
  rw [a] at b; exact (Option.some.inj b).symm

/-- C38.  `trampolined` applied to a value that is not callable (what `call_ec` leaves in place of a function)
gives that value back; if the value is a jump, the jump is performed, and it is an error if the target is not
callable.  Partial: no jump goes to a function made from a trampolined one by another decorator that uses
`functools.wraps`.  (Missing: such jumps, see `C38_wraps_refuted`.) -/
theorem C38_trampolined_value_partial (P : Prog σ ε V) (hP : ∀ f e, P f = .trampolined e → ∃ body, Own P e body)
    (hJ : ∀ v t a, P v = .jump t a → ∀ b e, P t ≠ .wrapper b e)
    (d : Nat) (x : V) (s : σ) :
    (P x = .data → ∀ n, trampolinedValue P (n + 1) d x s = some (.ok x, s)) ∧
    (∀ t a, P x = .jump t a → callable P t = false →
      ∀ n, trampolinedValue P (n + 1) d x s = some (.error (.py .RuntimeError), s)) ∧
    (∀ t a r s', P x = .jump t a → callable P t = true → Direct P (d + 2) t a s r s' →
      ∃ n, trampolinedValue P n d x s = some (r, s')) := by
  refine ⟨fun h n => by simp [trampolinedValue, trampoline, h], ?_, ?_⟩
  · intro t a h ht n
    have : strip P t = t := by
      cases h' : P t <;> simp [strip, h', callable] at ht ⊢
    simp [trampolinedValue, trampoline, h, this, ht]
  · intro t a r s' h ht hd
    obtain ⟨n, hn⟩ := trampoline_complete hP hJ (d + 1) hd
    refine ⟨n + 1, ?_⟩
    have e : strip P t = land P t := by
      cases h' : P t with
      | wrapper b e => exact absurd h' (hJ x t a h b e)
      | _ => simp [strip, land, h']
    have : callable P (land P t) = true := by
      cases h' : P t with
      | trampolined e => obtain ⟨b, hb⟩ := hP _ _ h'; simpa [land, h'] using own_callable hb
      | func b => simp [land, h', callable]
      | wrapper b e => exact absurd h' (hJ x t a h b e)
      | data | jump _ _ => simp [h', callable] at ht
    simpa [trampolinedValue, trampoline, h, e, this] using hn 0

/-- C38.  What a jump to a decorated function does in general: it goes on as the function that `trampolined` was given, past that function's
trampoline and also past every decorator applied after `trampolined`, whatever these do with the arguments, the result or the world. -/
theorem C38_jump_enters (P : Prog σ ε V) (d n : Nat) (f v t entry : V) (body) (a args : Args V) (s s' : σ)
    (hf : Own P f body) (hb : body (d + 1) args s = (.ok v, s')) (hv : P v = .jump t a)
    (ht : P t = .trampolined entry ∨ ∃ b, P t = .wrapper b entry) (hc : callable P entry = true) :
    trampoline P (n + 1) d f args s = trampoline P n d entry a s' := by
  rw [own_call hf, hb]
  rcases ht with ht | ⟨b, ht⟩ <;> simp [hv, strip, ht, hc]

/-- `sub` (value 0) is trampolined, with body 1; `flip(sub)` is 2; `rsub` (value 3, with body 4) is trampolined and returns
`jump(flip(sub), ...)` of its arguments (the values from 100 on, for two arguments below 10); all others are numbers. -/
private def flipSub : Prog Unit Unit Nat := fun v =>
  let sub : Nat → Args Nat → Eff Unit (Err Unit) Nat := fun _ a w =>
    match a.rets with
    | [x, y] => (.ok (10 + (x - y)), w)
    | _ => (.error (.py .TypeError), w)
  let flipped : Nat → Args Nat → Eff Unit (Err Unit) Nat := fun d a w => sub d ⟨a.rets.reverse, a.kwrets⟩ w
  let rsub : Nat → Args Nat → Eff Unit (Err Unit) Nat := fun _ a w =>
    match a.rets with
    | [x, y] => (.ok (100 + 10 * x + y), w)
    | _ => (.error (.py .TypeError), w)
  if v = 0 then .trampolined 1 else if v = 1 then .func sub
  else if v = 2 then .wrapper flipped 1
  else if v = 3 then .trampolined 4 else if v = 4 then .func rsub
  else if v < 100 then .data
  else .jump 2 ⟨[(v - 100) / 10, (v - 100) % 10], []⟩

/-- C38 refuted in one case: for a trampolined function, `return jump(flip(f), x, y)` computes `f(x, y)`, where `return flip(f)(x, y)` computes
`f(y, x)`.  (`flip` is made with `functools.wraps`, which also copies the attribute by which `jump` finds the function to enter.) -/
theorem C38_wraps_refuted :
    ∃ (P : Prog Unit Unit Nat) (f e : Nat) (args : Args Nat), P f = .trampolined e ∧
      (∀ f e, P f = .trampolined e → ∃ body, P e = .func body) ∧
      (∃ r, Direct P 2 f args () r () ∧ r = .ok 10) ∧
      ∀ n, callTrampolined P (n + 2) 0 e args () = some (.ok 15, ()) := by
  refine ⟨flipSub, 3, 4, ⟨[7, 2], []⟩, rfl, ?_, ⟨.ok 10, ?_, rfl⟩, fun n => ?_⟩
  · intro f e h
    by_cases h0 : f = 0
    · subst h0; simp [flipSub] at h; subst h; exact ⟨_, rfl⟩
    by_cases h3 : f = 3
    · subst h3; simp [flipSub] at h; subst h; exact ⟨_, rfl⟩
    exfalso
    by_cases h1 : f = 1
    · subst h1; simp [flipSub] at h
    by_cases h2 : f = 2
    · subst h2; simp [flipSub] at h
    by_cases h4 : f = 4
    · subst h4; simp [flipSub] at h
    simp [flipSub, h0, h1, h2, h3, h4] at h
    split at h <;> cases h
  · exact .decorated (e := 4) rfl (.tailCall (v := 172) (s' := ()) (t := 2) (a := ⟨[7, 2], []⟩) (.inl rfl) rfl rfl
      (.returns (.inr ⟨1, rfl⟩) rfl (by intro t a h; simp [flipSub] at h)))
  · simp [callTrampolined, trampoline, flipSub, strip, callable]

/-- even/odd by mutual tail calls, as values: 0 and 1 are the decorated functions, 2 and 3 their bodies,
`4 + 2 * k` the number k, `5 + 2 * k` the object `jump(k even? .., k)`. -/
private def evenOdd : Prog (List Nat) Unit Nat := fun v =>
  let body (r target : Nat) : Nat → Args Nat → Eff (List Nat) (Err Unit) Nat := fun d a w =>
    match a.rets with
    | [0] => (.ok (4 + 2 * r), d :: w)
    | [k + 1] => (.ok (5 + 2 * (2 * k + target)), d :: w)
    | _ => (.error (.py .TypeError), w)
  if v = 0 then .trampolined 2 else if v = 1 then .trampolined 3
  else if v = 2 then .func (body 1 1) else if v = 3 then .func (body 0 0)
  else if v % 2 = 0 then .data
  else let k := (v - 5) / 2; .jump (k % 2) ⟨[k / 2], []⟩

example : ∀ f e, evenOdd f = .trampolined e → ∃ body, evenOdd e = .func body := by
  intro f e h
  by_cases h0 : f = 0
  · subst h0; simp [evenOdd] at h; subst h; exact ⟨_, rfl⟩
  by_cases h1 : f = 1
  · subst h1; simp [evenOdd] at h; subst h; exact ⟨_, rfl⟩
  exfalso
  by_cases h2 : f = 2
  · subst h2; simp [evenOdd] at h
  by_cases h3 : f = 3
  · subst h3; simp [evenOdd] at h
  simp [evenOdd, h0, h1, h2, h3] at h
  split at h <;> cases h

example : ∀ v t a, evenOdd v = .jump t a → ∀ b e, evenOdd t ≠ .wrapper b e := by
  intro v t a _ b e h
  simp only [evenOdd] at h
  repeat' split at h
  all_goals cases h

/-- `even(3)` is false; all four functions of the chain ran at depth 2. -/
example : callTrampolined evenOdd 4 0 2 ⟨[3], []⟩ [] = some (.ok 4, [2, 2, 2, 2]) := by
  simp [callTrampolined, trampoline, evenOdd, strip, callable]

end tco

section gtco
open Unpy.Gtco Unpy.Spec.Gtco
variable {ε V G : Type}

/-- C40.  However long the chain of generators (finite or infinite), everything yielded along it is delivered,
in order: after the chain has gone from `g` to `g'` yielding `xs`, the items so far are `xs` and what
follows is what the chain from `g'` gives. -/
theorem C40_prefix (next : G → GOut ε V G) (g g' : G) (xs : List V) (h : Reaches next g xs g') :
    ∃ n, ∀ m, gtco next (n + m) g = (xs ++ (gtco next m g').1, (gtco next m g').2) := runN_reaches h

/-- C40 (part).  A chain that ends gives exactly the chain's items and its end, and this is all it can give.
What is missing: a TypeError raised by the iterable that ends the chain (see `C40_typeerror_refuted`). -/
theorem C40_chain_partial (next : G → GOut ε V G) (g : G)
    (hT : ∀ g' xs, next g' ≠ .ret (.iter xs (some (.py .TypeError)))) (xs : List V) (e : End ε V) :
    (∃ n, gtco next n g = (xs, some e)) ↔ Chain next g xs e := by
  have hbe : ∀ g' zs exc, next g' = .ret (.iter zs exc) →
      Final (next g') zs (batchEnd (V := V) exc) := by
    intro g' zs exc h
    rw [h]
    match exc, h with
    | none, _ => exact .batch
    | some (.user e), _ => exact .batchRaise
    | some (.py e), h =>
      cases e <;> first | exact absurd h (hT g' zs) | exact .batchRaise
  constructor
  · rintro ⟨n, h⟩
    unfold gtco at h
    induction n generalizing g xs with
    | zero => simp [runN] at h
    | succ n ih =>
      rw [runN] at h
      cases hn : next g with
      | yield v g1 =>
        simp only [step, hn, Prod.mk.injEq] at h
        obtain ⟨ys, zs, g', h1, h2, h3⟩ := ih g1 (runN next n (.run g1)).1 (by rw [← h.2])
        exact ⟨v :: ys, zs, g', .yield hn h1, h2, by rw [← h.1, h3]; rfl⟩
      | raise e' =>
        simp only [step, hn, Prod.mk.injEq, Option.some.injEq] at h
        obtain ⟨rfl, rfl⟩ := h
        exact ⟨[], [], g, .refl, by rw [hn]; exact .raise, rfl⟩
      | ret r =>
        cases r with
        | gen g1 =>
          simp only [step, hn] at h
          obtain ⟨ys, zs, g', h1, h2, h3⟩ := ih g1 xs h
          exact ⟨ys, zs, g', .tail (.inl hn) h1, h2, h3⟩
        | tramp g1 =>
          simp only [step, hn] at h
          obtain ⟨ys, zs, g', h1, h2, h3⟩ := ih g1 xs h
          exact ⟨ys, zs, g', .tail (.inr hn) h1, h2, h3⟩
        | other v =>
          simp only [step, hn, Prod.mk.injEq, Option.some.injEq] at h
          obtain ⟨rfl, rfl⟩ := h
          exact ⟨[], [], g, .refl, by rw [hn]; exact .value, rfl⟩
        | iter zs exc =>
          simp only [step, hn] at h
          obtain ⟨rfl, rfl⟩ := runN_final_inv next n zs xs exc e h
          exact ⟨[], xs, g, .refl, hbe g xs exc hn, rfl⟩
  · rintro ⟨ys, zs, g', h1, h2, rfl⟩
    obtain ⟨n, h⟩ := runN_reaches h1
    cases hn : next g' with
    | yield v g1 => rw [hn] at h2; cases h2
    | raise e' =>
      rw [hn] at h2; cases h2
      exact ⟨n + 1, by rw [gtco, h 1]; simp [runN, step, hn]⟩
    | ret r =>
      cases r with
      | gen g1 => rw [hn] at h2; cases h2
      | tramp g1 => rw [hn] at h2; cases h2
      | other v =>
        rw [hn] at h2; cases h2
        exact ⟨n + 1, by rw [gtco, h 1]; simp [runN, step, hn]⟩
      | iter ws exc =>
        have := hbe g' ws exc hn
        rw [hn] at h2 this
        have hf := runN_final next ws exc 0
        refine ⟨n + (ws.length + 1 + 0 + 1), ?_⟩
        rw [gtco, h, runN]
        simp only [step, hn]
        rw [hf]
        generalize batchEnd (V := V) exc = q at this ⊢
        cases h2 <;> cases this <;> rfl

/-- C40.  The chain's outcome is unique: two runs that both end agree. -/
theorem C40_deterministic (next : G → GOut ε V G) (g : G) (n m : Nat) (xs ys : List V) (e e' : End ε V)
    (h : gtco next n g = (xs, some e)) (h' : gtco next m g = (ys, some e')) : xs = ys ∧ e = e' := by
  have mono : ∀ (n : Nat) (st : St ε V G) xs e, runN next n st = (xs, some e) →
      ∀ k, runN next (n + k) st = (xs, some e) := by
    intro n
    induction n with
    | zero => intro st xs e h; simp [runN] at h
    | succ n ih =>
      intro st xs e h k
      rw [show n + 1 + k = (n + k) + 1 by omega, runN]
      rw [runN] at h
      cases hs : step next st with
      | emit v st' =>
        simp only [hs, Prod.mk.injEq] at h ⊢
        have := ih st' (runN next n st').1 e (by rw [← h.2]) k
        rw [this]; exact ⟨h.1, rfl⟩
      | silent st' => simp only [hs] at h ⊢; exact ih _ _ _ h k
      | stop e' => simp only [hs] at h ⊢; exact h
  have a := mono n _ _ _ h m
  have b := mono m _ _ _ h' n
  rw [Nat.add_comm m n] at b
  rw [a] at b
  simpa using b

/-- C40 refuted in one case: when the iterable returned last raises TypeError while it is iterated, the error is
lost and the generator just ends, handing back the iterable. -/
theorem C40_typeerror_refuted :
    ∃ (next : Bool → GOut Unit Nat Bool) (g : Bool), Chain next g [1, 2] (.raise (.py .TypeError)) ∧
      ∀ n, gtco next (n + 4) g = ([1, 2], some .retIter) := by
  refine ⟨fun b => if b then .yield 1 false else .ret (.iter [2] (some (.py .TypeError))), true, ?_, ?_⟩
  · exact ⟨[1], [2], false, .yield rfl .refl, .batchRaise, rfl⟩
  · intro n; rfl

private theorem takeN_runN (next : G → GOut ε V G) : ∀ (n k : Nat) (st : St ε V G),
    (takeN next n k st).1.length ≤ k ∧ (takeN next n k st).1 <+: (runN next n st).1
  | n, 0, st => by cases n <;> simp [takeN]
  | 0, k + 1, st => by simp [takeN]
  | n + 1, k + 1, st => by
    rw [takeN, runN]
    cases hs : step next st with
    | emit v st' =>
      obtain ⟨h1, h2⟩ := takeN_runN next n k st'
      exact ⟨by simpa using h1, by simpa using h2⟩
    | silent st' => exact takeN_runN next n (k + 1) st'
    | stop e => simp

/-- C40.  One loop over what a `gtrampolined` function returns gives what a loop over `gtco` of the undecorated generator gives: the items of the chain,
from the first, at most as many as the loop takes. -/
theorem C40_decorated (next : G → GOut ε V G) (n k : Nat) (g : G) :
    decoratedPieces next n (some g) [k] = pieces next n (some (.run g)) [k] ∧
    ∃ xs, decoratedPieces next n (some g) [k] = [xs] ∧ xs.length ≤ k ∧ xs <+: (gtco next n g).1 := by
  refine ⟨rfl, _, rfl, takeN_runN next n k (.run g)⟩

/-- C40 refuted for a second loop: a generator made by `gtco` goes on where the first loop left it, but what a `gtrampolined` function returns has ended then,
also in the middle of a generator without any tail call. -/
theorem C40_pieces_refuted :
    ∃ (next : Nat → GOut Unit Nat Nat) (g : Nat), ∀ n,
      pieces next (n + 2) (some (.run g)) [1, 2] = [[0], [1, 2]] ∧ decoratedPieces next (n + 2) (some g) [1, 2] = [[0], []] := by
  refine ⟨fun k => .yield k (k + 1), 0, fun n => ?_⟩
  simp [pieces, decoratedPieces, takeN, step]

/-- `march()` of the docstring: 1, 2, 1, 2, ... without end. -/
private def march : Nat → GOut Unit Nat Nat := fun
  | 0 => .yield 1 1
  | 1 => .yield 2 2
  | _ => .ret (.gen 0)
example : Reaches march 0 [1, 2, 1, 2] 2 :=
  .yield rfl (.yield rfl (.tail (.inl rfl) (.yield rfl (.yield rfl .refl))))
example : gtco march 8 0 = ([1, 2, 1, 2, 1, 2], none) := rfl
example : Chain (fun b : Bool => if b then GOut.yield 1 false else .ret (.iter [2] (none : Option (Err Unit))))
    true [1, 2] .retNone := ⟨[1], [2], false, .yield rfl .refl, .batch, rfl⟩

end gtco
end Unpy.Props
