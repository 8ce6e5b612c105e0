import Verif.Spec.Misc
import Mathlib.Tactic.Linarith
import Mathlib.Tactic.Ring
import Mathlib.Tactic.NormNum
import Mathlib.Tactic.FieldSimp
import Mathlib.Data.Rat.Floor
import Mathlib.Data.List.Induction
/-!
# Properties C63, C64, C77, C78, C79: time, Popper, and small utilities
-/
namespace Unpy.Props
open Unpy Unpy.Misc Unpy.Misc.Spec

variable {α : Type}

/-! ## C63 -/

private theorem floor_div (s : Rat) (b : Rat) (hb : 0 < b) :
    0 ≤ s - (s / b).floor * b ∧ s - (s / b).floor * b < b := by
  have h1 := Rat.floor_le (s / b)
  have h2 := Rat.lt_floor_add_one (s / b)
  rw [le_div_iff₀ hb] at h1
  rw [div_lt_iff₀ hb] at h2
  push_cast at h2
  constructor <;> linarith

private theorem floor_div_range (s : Rat) (b : Rat) (n : Int) (hb : 0 < b) (h0 : 0 ≤ s) (hs : s < n * b) :
    0 ≤ (s / b).floor ∧ (s / b).floor < n := by
  constructor
  · rw [Rat.le_floor_iff]; push_cast; exact div_nonneg h0 hb.le
  · rw [Rat.floor_lt_iff, div_lt_iff₀ hb]; exact hs

/-- C63: days, hours, minutes and seconds add up, and each but the days is in its range. -/
theorem C63_decomposition (s : Rat) (d h m : Int) (s' : Rat) (hs : secondsToHuman s = (d, h, m, s')) :
    (d * 86400 + h * 3600 + m * 60 + s' : Rat) = s ∧ 0 ≤ h ∧ h < 24 ∧ 0 ≤ m ∧ m < 60 ∧ 0 ≤ s' ∧ s' < 60 := by
  unfold secondsToHuman at hs
  simp only [Prod.mk.injEq] at hs
  obtain ⟨h1, h2, h3, h4⟩ := hs
  obtain ⟨a1, a2⟩ := floor_div s 86400 (by norm_num)
  rw [h1] at a1 a2 h2 h3 h4
  obtain ⟨b1, b2⟩ := floor_div (s - d * 86400) 3600 (by norm_num)
  obtain ⟨b3, b4⟩ := floor_div_range (s - d * 86400) 3600 24 (by norm_num) a1 (by norm_num; linarith)
  rw [h2] at b1 b2 b3 b4 h3 h4
  obtain ⟨c1, c2⟩ := floor_div (s - d * 86400 - h * 3600) 60 (by norm_num)
  obtain ⟨c3, c4⟩ := floor_div_range (s - d * 86400 - h * 3600) 60 60 (by norm_num) b1 (by norm_num; linarith)
  rw [h3] at c1 c2 c3 c4 h4
  rw [h4] at c1 c2
  exact ⟨by linarith, b3, b4, c3, c4, c1, c2⟩

example : secondsToHuman 100000 = (1, 3, 46, 40) := by decide +kernel
/-- A negative time: one day less, and the rest forward. -/
example : secondsToHuman (-30) = (-1, 23, 59, 30) := by decide +kernel

/-- C63: no other numbers do. -/
theorem C63_unique (d h m : Int) (s' : Rat) (h0 : 0 ≤ h) (h1 : h < 24) (m0 : 0 ≤ m) (m1 : m < 60) (s0 : 0 ≤ s')
    (s1 : s' < 60) : secondsToHuman (d * 86400 + h * 3600 + m * 60 + s') = (d, h, m, s') := by
  rcases hr : secondsToHuman (d * 86400 + h * 3600 + m * 60 + s') with ⟨D, H, M, S⟩
  obtain ⟨e1, a1, a2, a3, a4, a5, a6⟩ := C63_decomposition _ _ _ _ _ hr
  have e2 : (D * 86400 + H * 3600 + M * 60 - (d * 86400 + h * 3600 + m * 60) : Rat) = s' - S := by linarith
  have lo : (-60 : Rat) < ((D * 86400 + H * 3600 + M * 60 - (d * 86400 + h * 3600 + m * 60) : Int) : Rat) := by
    push_cast; linarith
  have hi : ((D * 86400 + H * 3600 + M * 60 - (d * 86400 + h * 3600 + m * 60) : Int) : Rat) < 60 := by
    push_cast; linarith
  have lo' : (-60 : Int) < D * 86400 + H * 3600 + M * 60 - (d * 86400 + h * 3600 + m * 60) := by exact_mod_cast lo
  have hi' : D * 86400 + H * 3600 + M * 60 - (d * 86400 + h * 3600 + m * 60) < (60 : Int) := by exact_mod_cast hi
  obtain rfl : D = d := by omega
  obtain rfl : H = h := by omega
  obtain rfl : M = m := by omega
  have : S = s' := by linarith
  rw [this]

example : secondsToHuman ((2 : Int) * 86400 + (23 : Int) * 3600 + (59 : Int) * 60 + 1 / 2) = (2, 23, 59, 1 / 2) :=
  C63_unique 2 23 59 (1 / 2) (by decide) (by decide) (by decide) (by decide) (by norm_num) (by norm_num)

private theorem pad2_digits : ∀ n : Nat, n < 60 → pad2 n = twoDigits n := by decide +kernel

/-- C63: `format_human_time` shows a time as days, hours, minutes and whole seconds, leaving out the leading parts that
are zero. -/
theorem C63_format (d h m k : Nat) (f : Rat) (hh : h < 24) (hm : m < 60) (hk : k < 60) (f0 : 0 ≤ f) (f1 : f < 1) :
    formatHumanTime (d * 86400 + h * 3600 + m * 60 + (k + f)) = humanTime d h m k := by
  have hk0 : (0 : Rat) ≤ k := by exact_mod_cast Nat.zero_le k
  have hk1 : (k : Rat) ≤ 59 := by exact_mod_cast Nat.le_of_lt_succ hk
  have key := C63_unique d h m (k + f) (by omega) (by omega) (by omega) (by omega) (by linarith) (by linarith)
  have tr : truncate (k + f) = k := by
    rw [truncate, if_neg (by linarith)]
    apply Int.le_antisymm
    · have := (Rat.floor_lt_iff (a := (k : Rat) + f) (x := (k : Int) + 1)).mpr (by push_cast; linarith)
      omega
    · rw [Rat.le_floor_iff]; push_cast; linarith
  push_cast at key
  unfold formatHumanTime
  rw [key]
  simp only [tr, pad2_digits h (by omega), pad2_digits m hm, pad2_digits k hk]
  have ts : ∀ n : Nat, toString (n : Int) = toString n := fun n => rfl
  match d, h, m, k with
  | 0, 0, 0, 0 => rfl
  | 0, 0, 0, 1 => rfl
  | 0, 0, 0, k + 2 =>
    rw [if_pos (by simp), if_pos (by omega), ts, String.append_assoc]
    rfl
  | 0, 0, m + 1, k =>
    rw [if_neg (by omega), if_neg (by simp), if_neg (by simp), String.empty_append, String.empty_append]
    rfl
  | 0, h + 1, m, k =>
    rw [if_neg (by omega), if_neg (by simp), if_pos (by omega), String.empty_append]
    simp [humanTime, String.append_assoc]
  | 1, h, m, k =>
    rw [if_neg (by simp), if_pos (by simp), if_neg (by simp), if_pos (by simp), String.append_empty]
    simp only [humanTime, ← String.append_assoc]
    rfl
  | d + 2, h, m, k =>
    rw [if_neg (by omega), if_pos (by omega), if_pos (by omega), if_pos (by omega), ts]
    have e : toString (d + 2) ++ " day" ++ "s" ++ " " = toString (d + 2) ++ " days " := by
      rw [String.append_assoc, String.append_assoc]; rfl
    rw [e]
    simp [humanTime, String.append_assoc]

example : formatHumanTime 3690 = "01:01:30" ∧ formatHumanTime (2 * 86400 + 3690) = "2 days 01:01:30" ∧
    formatHumanTime (3 / 2) = "1 second" := by decide +kernel
example : formatHumanTime ((1 : Nat) * 86400 + (3 : Nat) * 3600 + (46 : Nat) * 60 + ((9 : Nat) + 1 / 2)) = "1 day 03:46:09" :=
  C63_format 1 3 46 9 (1 / 2) (by decide) (by decide) (by decide) (by norm_num) (by norm_num)

/-- C63: negative times are not told apart from positive ones by `format_human_time`: minus half a minute is shown
as almost a day. -/
theorem C63_format_negative_refuted :
    formatHumanTime (-30) = "23:59:30" ∧ formatHumanTime 86370 = "23:59:30" := by decide +kernel

/-! ## C64 -/

/-- C64: each item ever in the container is either returned, exactly once, or still there. -/
theorem C64_exactly_once (ops : List (PopOp α)) (seq : List α) :
    (((popRun ops seq).1.filterMap id) ++ (popRun ops seq).2).Perm (seq ++ added ops) := by
  induction ops generalizing seq with
  | nil => simp [popRun, added]
  | cons op ops ih =>
    cases op with
    | next =>
      cases seq with
      | nil => simpa [popRun, popNext, added] using ih []
      | cons x rest => simpa [popRun, popNext, added] using ih rest
    | append x =>
      have := ih (seq ++ [x])
      simpa [popRun, added] using this
    | appendleft x =>
      have := ih (x :: seq)
      simp only [popRun, added]
      refine this.trans ?_
      simpa using (List.perm_middle (a := x) (l₁ := seq) (l₂ := added ops)).symm

/-- C64: without additions at the left, the items come out in order: first those in the container, then those
appended. -/
theorem C64_order (ops : List (PopOp α)) (seq : List α) (h : NoLeft ops) :
    ((popRun ops seq).1.filterMap id) ++ (popRun ops seq).2 = seq ++ added ops := by
  induction ops generalizing seq with
  | nil => simp [popRun, added]
  | cons op ops ih =>
    have h' : NoLeft ops := fun x hx => h x (by simp [hx])
    cases op with
    | next =>
      cases seq with
      | nil => simpa [popRun, popNext, added] using ih [] h'
      | cons x rest => simpa [popRun, popNext, added] using ih rest h'
    | append x =>
      have := ih (seq ++ [x]) h'
      simpa [popRun, added] using this
    | appendleft x => exact absurd (by simp) (h x)

example : popRun [.next, .append 7, .next, .next, .next, .append 8, .next] [1, 2] =
    ([some 1, some 2, some 7, none, some 8], []) := by decide

/-- C64: an item put in at the left is the next one. -/
theorem C64_left (x : α) (ops : List (PopOp α)) (seq : List α) :
    popRun (.appendleft x :: .next :: ops) seq = (some x :: (popRun ops seq).1, (popRun ops seq).2) := rfl

/-- C64: a loop over the container: whatever the body does to it, each iteration gets the item that is leftmost at the
time, and the loop ends when, and only when, it finds the container empty. -/
theorem C64_loop (body : α → List α → List α) (fuel : Nat) (seq : List α) :
    (popLoop body (fuel + 1) [] = ([], [], true)) ∧
    (∀ x rest, seq = x :: rest → popLoop body (fuel + 1) seq =
      (x :: (popLoop body fuel (body x rest)).1, (popLoop body fuel (body x rest)).2)) ∧
    ((popLoop body fuel seq).2.2 = true → (popLoop body fuel seq).2.1 = []) := by
  refine ⟨rfl, by rintro x rest rfl; rfl, ?_⟩
  induction fuel generalizing seq with
  | zero => intro h; cases h
  | succ n ih =>
    cases seq with
    | nil => intro _; rfl
    | cons x rest => exact ih (body x rest)

/-- C64: if the body leaves the container alone, the loop goes over its items in order, once each. -/
theorem C64_plain_loop (seq : List α) (fuel : Nat) (h : seq.length < fuel) :
    popLoop (fun _ s => s) fuel seq = (seq, [], true) := by
  induction fuel generalizing seq with
  | zero => omega
  | succ n ih =>
    cases seq with
    | nil => rfl
    | cons x rest =>
      have := ih rest (by simpa using h)
      simp only [popLoop, popNext, this]

/-- The example in the docstring of `Popper`. -/
example : popLoop (fun x s => if x < 10 then (x + 10) :: s else s) 10 [0, 1, 2] = ([0, 10, 1, 11, 2, 12], [], true) := by
  decide

/-! ## C77: ETAEstimator -/

private theorem lastN_concat (n : Nat) (l : List Rat) (x : Rat) :
    ((lastN (some n) l ++ [x]).drop ((lastN (some n) l ++ [x]).length - n)) = lastN (some n) (l ++ [x]) := by
  have : ∀ l : List Rat, lastN (some n) l = l.drop (l.length - n) := by
    intro l
    simp [lastN, List.reverse_take]
  rw [this, this]
  simp only [List.length_append, List.length_drop, List.length_singleton]
  rw [List.drop_append, List.drop_append, List.drop_drop, List.length_drop]
  congr 1
  · congr 1; omega
  · congr 1; omega

private theorem eta_run (total : Int) (k : Option Nat) (t : Rat) (ts : List Rat) :
    let e := ts.foldl Eta.tick (Eta.init total k t)
    e.t0 = t ∧ e.t1 = ts.getLastD t ∧ e.total = total ∧ e.maxlen = k ∧ e.completed = ts.length ∧
      e.que = lastN k (durations t ts) := by
  have dur : ∀ (ts : List Rat) (t x : Rat), durations t (ts ++ [x]) = durations t ts ++ [x - ts.getLastD t] := by
    intro ts
    induction ts with
    | nil => intro t x; simp [durations]
    | cons a ts ih =>
      intro t x
      rw [List.cons_append, durations, ih, durations]
      cases ts <;> simp [List.getLastD]
  induction ts using List.reverseRecOn with
  | nil => cases k <;> simp [Eta.init, durations, lastN]
  | append_singleton ts x ih =>
    simp only at ih ⊢
    rw [List.foldl_append]
    generalize ts.foldl Eta.tick (Eta.init total k t) = e at ih ⊢
    obtain ⟨h1, h2, h3, h4, h5, h6⟩ := ih
    refine ⟨h1, by simp [Eta.tick], h3, h4, by simp [Eta.tick, h5], ?_⟩
    rw [dur]
    cases k with
    | none => simp [Eta.tick, h4, h6, lastN, h2]
    | some n =>
      rw [← lastN_concat]
      simp [Eta.tick, h4, h6, h2]

/-- C77: after ticks at times `ts`, the estimate is: nothing, if there was no tick; 0, if as many tasks are completed as
there are; otherwise, the number of remaining tasks times the mean duration of the last `keep_last` tasks. -/
theorem C77_estimate (total : Int) (k : Option Nat) (hk : k ≠ some 0) (t : Rat) (ts : List Rat) :
    (ts.foldl Eta.tick (Eta.init total k t)).estimate =
      .ok (if ts = [] then none
        else if total ≤ ts.length then some 0
        else some ((total - ts.length) * ((lastN k (durations t ts)).sum / (lastN k (durations t ts)).length))) := by
  obtain ⟨_, _, h3, _, h5, h6⟩ := eta_run total k t ts
  unfold Eta.estimate
  rw [h3, h5, h6]
  have hl : ∀ (ts : List Rat) (t : Rat), (durations t ts).length = ts.length := by
    intro ts
    induction ts with
    | nil => intro t; rfl
    | cons a ts ih => intro t; simp [durations, ih]
  by_cases h0 : ts = []
  · simp [h0]
  · have hpos : 0 < ts.length := List.length_pos_iff.mpr h0
    rw [if_neg (by omega), if_neg h0]
    simp only
    by_cases ht : total ≤ ts.length
    · rw [if_pos (by omega), if_pos ht]
    · rw [if_neg (by omega), if_neg ht, if_neg]
      · push_cast; rfl
      · have := hl ts t
        cases k with
        | none => simp only [lastN]; omega
        | some n =>
          have : n ≠ 0 := fun h => hk (by rw [h])
          simp only [lastN, List.length_reverse, List.length_take, hl]
          omega

/-- Ten tasks; ticks after 2 and another 4 seconds. -/
example : ([2, 6].foldl Eta.tick (Eta.init 10 none 0)).estimate = .ok (some 24) := by decide +kernel
example : ([2, 6].foldl Eta.tick (Eta.init 10 (some 1) 0)).estimate = .ok (some 32) := by decide +kernel

/-- C77 fails for `keep_last=0`: it raises `ZeroDivisionError` after the first tick. -/
theorem C77_keep_none_refuted : ([2].foldl Eta.tick (Eta.init 10 (some 0) 0)).estimate = .error .ZeroDivisionError := by
  decide +kernel

/-- C77: `elapsed` counts from the beginning. -/
theorem C77_elapsed (total : Int) (k : Option Nat) (t now : Rat) (ts : List Rat) :
    (ts.foldl Eta.tick (Eta.init total k t)).elapsed now = now - t := by
  unfold Eta.elapsed
  rw [(eta_run total k t ts).1]

/-! ## C78: CountingIterator, slurp -/

/-- C78: a `CountingIterator` yields the items of the original, and its count is the number of items yielded so far. -/
theorem C78_counting (l : List α) (n : Nat) :
    ((Counting.mk l 0).nexts n).1 = (l.take n).map some ++ List.replicate (n - l.length) none ∧
    ((Counting.mk l 0).nexts n).2 = ⟨l.drop n, min n l.length⟩ := by
  have : ∀ (n k : Nat) (l : List α), ((Counting.mk l k).nexts n).1 = (l.take n).map some ++ List.replicate (n - l.length) none ∧
      ((Counting.mk l k).nexts n).2 = ⟨l.drop n, k + min n l.length⟩ := by
    intro n
    induction n with
    | zero => intro k l; simp [Counting.nexts]
    | succ n ih =>
      intro k l
      cases l with
      | nil =>
        obtain ⟨h1, h2⟩ := ih k []
        simp only [Counting.nexts, Counting.next]
        rw [h1, h2]
        simp [List.replicate_succ]
      | cons x l =>
        obtain ⟨h1, h2⟩ := ih (k + 1) l
        simp only [Counting.nexts, Counting.next]
        rw [h1, h2]
        simp
        omega
  simpa using this n 0 l

example : ((Counting.mk [5, 6] 0).nexts 3).2.count = 2 ∧ ((Counting.mk [5, 6] 0).nexts 1).2.count = 1 := by decide

/-- C78: `slurp` returns the items on the queue, in order, and leaves it empty. -/
theorem C78_slurp (queue : List α) (fuel : Nat) (h : queue.length < fuel) : slurp fuel [] queue = some (queue, []) := by
  have : ∀ (fuel : Nat) (out queue : List α), queue.length < fuel → slurp fuel out queue = some (out ++ queue, []) := by
    intro fuel
    induction fuel with
    | zero => intro _ _ h; omega
    | succ n ih =>
      intro out queue h
      cases queue with
      | nil => simp [slurp]
      | cons x q => rw [slurp, ih _ _ (by simpa using h)]; simp
  simpa using this fuel [] queue h

example : slurp 10 [] [1, 2, 3] = some ([1, 2, 3], []) := by decide

/-! ## C79: getattrrec, setattrrec -/

private theorem followAttr_onion {h : Heap} {l : List Nat} (hl : Onion h l) (o : Nat) (ho : l.head? = some o)
    (fuel : Nat) (hf : l.length ≤ fuel) : followAttr h fuel o = l.getLast? := by
  induction hl generalizing o fuel with
  | core hc =>
    cases ho
    cases fuel with
    | zero => simp at hf
    | succ n => simp [followAttr, hc]
  | layer hc _ ih =>
    cases ho
    cases fuel with
    | zero => simp at hf
    | succ n =>
      rw [followAttr, hc]
      simp only
      rw [ih _ rfl n (by simpa using hf)]
      simp

/-- C79: `getattrrec` returns the core of an onion. -/
theorem C79_getattrrec (h : Heap) (o o' : Nat) (l : List Nat) (hl : Onion h (o :: o' :: l)) (default : Option Nat)
    (fuel : Nat) (hf : l.length < fuel) :
    getattrrec h fuel o default = some (.ok ((o' :: l).getLast (by simp))) := by
  cases hl with
  | layer hc hl =>
    unfold getattrrec
    rw [hc]
    simp only
    rw [followAttr_onion hl o' rfl fuel (by simp; omega), List.getLast?_eq_some_getLast (by simp)]
    rfl

/-- C79: with no attribute at all, it raises `AttributeError`, or unwraps the default. -/
theorem C79_getattrrec_missing (h : Heap) (o : Nat) (ho : h o = none) (fuel : Nat) :
    getattrrec h fuel o none = some (.error .AttributeError) ∧
    ∀ d, h d = none → getattrrec h (fuel + 1) o (some d) = some (.ok d) := by
  unfold getattrrec
  rw [ho]
  refine ⟨rfl, fun d hd => ?_⟩
  simp [followAttr, hd]

private theorem innermost_onion {h : Heap} {l : List Nat} (hl : Onion h l) (o : Nat) (ho : l.head? = some o)
    (fuel : Nat) (hf : l.length ≤ fuel) :
    ∃ x, innermost h fuel o = some x ∧ (l = [o] → x = o) ∧ (∀ p a b, l = p ++ [a, b] → x = a) := by
  induction hl generalizing o fuel with
  | core hc =>
    cases ho
    cases fuel with
    | zero => simp at hf
    | succ n =>
      refine ⟨_, by simp only [innermost, hc], fun _ => rfl, ?_⟩
      intro p a b h
      have := congrArg List.length h
      simp at this
  | @layer o1 o2 l1 hc hl ih =>
    cases ho
    cases fuel with
    | zero => simp at hf
    | succ n =>
      cases hl with
      | core hc' =>
        refine ⟨_, by simp [innermost, hc, hc'], fun _ => rfl, ?_⟩
        intro p a b h
        cases p with
        | nil => simp at h; exact h.1
        | cons y p =>
          have := congrArg List.length h
          simp at this
      | layer hc' hl' =>
        obtain ⟨x, h1, _, h3⟩ := ih _ rfl n (by simpa using hf)
        refine ⟨x, by rw [innermost, hc]; simp [hc', h1], by simp, ?_⟩
        intro p a b h
        cases p with
        | nil =>
          have := congrArg List.length h
          simp at this
        | cons y p => exact h3 p a b (by simp at h; exact h.2)

/-- C79: `setattrrec` puts the value in place of the core of an onion and changes nothing else; so `getattrrec` then
returns it (if it does not have the attribute itself). -/
theorem C79_setattrrec (h : Heap) (p : List Nat) (a b v : Nat) (hl : Onion h (p ++ [a, b])) (hn : (p ++ [a, b]).Nodup)
    (fuel : Nat) (hf : p.length + 2 ≤ fuel) (o : Nat) (ho : (p ++ [a, b]).head? = some o) :
    setattrrec h fuel o v = some (fun x => if x = a then some v else h x) ∧
    (h v = none → v ≠ a → getattrrec (fun x => if x = a then some v else h x) fuel o none = some (.ok v)) := by
  constructor
  · obtain ⟨x, h1, _, h3⟩ := innermost_onion hl o ho fuel (by simpa using hf)
    rw [setattrrec, h1, h3 p a b rfl]
    rfl
  · intro hv hva
    have on : ∀ p, Onion h (p ++ [a, b]) → (p ++ [a, b]).Nodup → Onion (fun x => if x = a then some v else h x) (p ++ [a, v]) := by
      intro p
      induction p with
      | nil =>
        intro hl _
        exact .layer (by simp) (.core (by simp [hva, hv]))
      | cons y p ih =>
        intro hl hn
        have hya : y ≠ a := by
          rintro rfl
          simp at hn
        have hn' : (p ++ [a, b]).Nodup := by rw [List.cons_append] at hn; exact (List.nodup_cons.mp hn).2
        cases p with
        | nil =>
          cases hl with
          | layer hc hl' => exact .layer (by simp [hya, hc]) (ih hl' hn')
        | cons z p =>
          cases hl with
          | layer hc hl' => exact .layer (by simp [hya, hc]) (ih hl' hn')
    have := on p hl hn
    cases p with
    | nil =>
      cases ho
      have := C79_getattrrec _ _ _ _ this none fuel (by simp; simp at hf; omega)
      simpa using this
    | cons y p =>
      cases ho
      cases p with
      | nil =>
        have := C79_getattrrec _ _ _ _ this none fuel (by simp; simp at hf; omega)
        simpa using this
      | cons z p =>
        have := C79_getattrrec _ _ _ _ this none fuel (by simp; simp at hf; omega)
        simpa using this

/-- Two layers around the core 9. -/
example : Onion (fun x => if x = 1 then some 2 else if x = 2 then some 9 else none) [1, 2, 9] :=
  .layer rfl (.layer rfl (.core rfl))

end Unpy.Props
