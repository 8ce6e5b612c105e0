import Verif.Proof.GMemo
import Verif.Proof.PySlice
/-!
# C01, C02: gmemoize
-/
namespace Unpy.Props
open Unpy.GMemo
universe u v
variable {K : Type u} {Out : Type v} [DecidableEq K]

/-- In no state on the way are two threads inside `next` of the same generator instance. -/
def NeverShared (g : K → Nat → Nat → Out) (evs : List (Event K)) : Prop :=
  ∀ pre suf, evs = pre ++ suf → ∀ t₁ t₂ i j₁ j₂,
    (run g pre).pend t₁ = .reading i j₁ → (run g pre).pend t₂ = .reading i j₂ → t₁ = t₂

/-- In no state on the way are two threads both creating the first generator for the same
arguments. -/
def NeverRaced (g : K → Nat → Nat → Out) (evs : List (Event K)) : Prop :=
  ∀ pre suf, evs = pre ++ suf → ∀ t₁ t₂ k,
    (run g pre).pend t₁ = .missed k → (run g pre).pend t₂ = .missed k → t₁ = t₂

/-- All events are of one thread. -/
def SingleThreaded (evs : List (Event K)) : Prop := ∃ t, ∀ e ∈ evs, match e with
  | .call th _ => th = t
  | .next th _ => th = t
  | .go th => th = t

/-- C01: for every generator function, any number of instances and threads and every interleaving in
which no instance is used by two threads at once: what instance `i` has delivered are the first
outcomes, in order, of one run `r` of the underlying generator with the arguments the instance was
made with, and the memo it shares is what that run has produced. -/
theorem C01_gmemoize_replays (g : K → Nat → Nat → Out) (evs : List (Event K)) (hx : NeverShared g evs)
    (i : Nat) (k : K) (hk : (run g evs).made[i]? = some k) :
    ∃ r calls, (∃ cell, (run g evs).cells[r]? = some cell ∧ cell.key = k ∧ cell.calls = calls ∧
        cell.memo = (List.range calls).map (g k r)) ∧
      ∃ n, n ≤ calls ∧ (run g evs).delivered i = (List.range n).map (g k r) := by
  have inv := run_inv (g := g) evs
  have invx := run_invX (g := g) evs hx
  have invm := run_invM (g := g) evs
  have hi : i < (run g evs).insts.length := by rw [← invm.1]; exact lt_of_getElem? hk
  obtain ⟨x, hxi⟩ : ∃ x, (run g evs).insts[i]? = some x := ⟨(run g evs).insts[i], by simp [hi]⟩
  have hlt := inv.instCell i x hxi
  obtain ⟨y, hy⟩ : ∃ y, (run g evs).cells[x.cell]? = some y := ⟨(run g evs).cells[x.cell], by simp [hlt]⟩
  have hkey : y.key = k := by
    have := invm.2 i x y hxi hy
    rw [hk] at this; simpa using this.symm
  obtain ⟨hd, hle⟩ := invx.delivered i x hxi y hy
  have hm := inv.cell x.cell y hy
  rw [hkey] at hd hm
  exact ⟨x.cell, y.calls, ⟨y, hy, hkey, rfl, hm⟩, x.j, hle, hd⟩

/-- C01: if moreover first calls with equal arguments do not race, there is only one run of the
underlying generator for each set of arguments: all instances made with the same arguments replay
the same run, and it has been advanced exactly as far as the most advanced of them. -/
theorem C01_gmemoize_one_run (g : K → Nat → Nat → Out) (evs : List (Event K)) (hx : NeverShared g evs)
    (hr : NeverRaced g evs) (k : K) :
    (∀ (r₁ r₂ : Nat) (c₁ c₂ : Cell K Out), (run g evs).cells[r₁]? = some c₁ → (run g evs).cells[r₂]? = some c₂ →
      c₁.key = k → c₂.key = k → r₁ = r₂) ∧
    (∀ (r : Nat) (c : Cell K Out), (run g evs).cells[r]? = some c → c.key = k →
      (∀ i, (run g evs).made[i]? = some k →
        ∃ n, n ≤ c.calls ∧ (run g evs).delivered i = (List.range n).map (g k r)) ∧
      (c.calls = 0 ∨ ∃ i, (run g evs).made[i]? = some k ∧
        (run g evs).delivered i = (List.range c.calls).map (g k r))) := by
  have inv := run_inv (g := g) evs
  have invx := run_invX (g := g) evs hx
  have invm := run_invM (g := g) evs
  have invc := run_invC (g := g) evs hr
  have uniq : ∀ (r₁ r₂ : Nat) (c₁ c₂ : Cell K Out), (run g evs).cells[r₁]? = some c₁ → (run g evs).cells[r₂]? = some c₂ →
      c₁.key = k → c₂.key = k → r₁ = r₂ := by
    intro r₁ r₂ c₁ c₂ h1 h2 h3 h4
    exact getElem?_nodup_map invc.nodup h1 h2 (by rw [h3, h4])
  refine ⟨uniq, ?_⟩
  intro r c hc hck
  refine ⟨?_, ?_⟩
  · intro i hi
    obtain ⟨r', calls, ⟨cell, h1, h2, h3, _⟩, n, h4, h5⟩ := C01_gmemoize_replays g evs hx i k hi
    have := uniq _ _ _ _ h1 hc h2 hck
    subst this
    rw [h1] at hc; simp at hc; subst hc
    exact ⟨n, by omega, h5⟩
  · rcases invx.most r c hc with h | ⟨i, h⟩
    · exact .inl h
    · refine .inr ⟨i, ?_, ?_⟩
      · rw [invm.2 i _ c h hc, hck]
      · have := (invx.delivered i _ h c hc).1
        rw [this, hck]; rfl

/-- C01 in a single-threaded program: both conditions hold by themselves. -/
theorem C01_gmemoize_single_threaded (g : K → Nat → Nat → Out) (evs : List (Event K))
    (h : SingleThreaded evs) : NeverShared g evs ∧ NeverRaced g evs := by
  obtain ⟨t, ht⟩ := h
  have key : ∀ (evs : List (Event K)) (st : St K Out), (∀ e ∈ evs, match e with
      | .call th _ => th = t | .next th _ => th = t | .go th => th = t) →
      (∀ t', t' ≠ t → st.pend t' = .idle) → ∀ t', t' ≠ t → (evs.foldl (step g) st).pend t' = .idle := by
    intro evs
    induction evs with
    | nil => intro st _ h; exact h
    | cons e evs ih =>
      intro st he hst
      apply ih _ (fun e' h' => he e' (List.mem_cons_of_mem _ h'))
      intro t' hne
      have h0 := he e (by simp)
      have h1 := hst t' hne
      cases e with
      | call th k =>
        simp only at h0; subst h0
        simp only [step]
        split
        · split <;> simp [St.setPend, hne, h1]
        · exact h1
      | next th i =>
        simp only at h0; subst h0
        simp only [step]
        split
        · simp [St.setPend, hne, h1]
        · exact h1
      | go th =>
        simp only at h0; subst h0
        simp only [step]
        split
        · exact h1
        · simp [St.setPend, hne, h1]
        · split
          · simp [St.setPend, hne, h1]
          · exact h1
        · split
          · exact h1
          · split
            · exact h1
            · simp [St.setPend, hne, h1]
  have hp : ∀ pre suf, evs = pre ++ suf → ∀ t', t' ≠ t → (run g pre).pend t' = .idle := by
    intro pre suf e
    exact key pre init (fun e' h' => ht e' (by rw [e]; simp [h'])) (fun _ _ => rfl)
  have tid : ∀ pre suf, evs = pre ++ suf → ∀ t', (run g pre).pend t' ≠ .idle → t' = t := by
    intro pre suf e t' h1
    exact Classical.byContradiction (fun hn => h1 (hp pre suf e t' hn))
  constructor
  · intro pre suf e t₁ t₂ i j₁ j₂ h1 h2
    rw [tid pre suf e t₁ (by rw [h1]; simp), tid pre suf e t₂ (by rw [h2]; simp)]
  · intro pre suf e t₁ t₂ k h1 h2
    rw [tid pre suf e t₁ (by rw [h1]; simp), tid pre suf e t₂ (by rw [h2]; simp)]

/-- C01: `len` and integer subscripts of an instance show the outcomes produced so far (by whichever
instance); out of range raises IndexError.  This needs no assumption on the schedule. -/
theorem C01_gmemoize_getitem (g : K → Nat → Nat → Out) (evs : List (Event K))
    (i : Nat) (k : K) (hk : (run g evs).made[i]? = some k) (n : Int) :
    ∃ r, (run g evs).getitem i n =
      if 0 ≤ n ∧ n < (run g evs).len i then .ok (g k r n.toNat)
      else if n < 0 ∧ -n ≤ (run g evs).len i then .ok (g k r ((run g evs).len i - (-n).toNat))
      else .error .IndexError := by
  have inv := run_inv (g := g) evs
  have invm := run_invM (g := g) evs
  have hi : i < (run g evs).insts.length := by rw [← invm.1]; exact lt_of_getElem? hk
  obtain ⟨x, hxi⟩ : ∃ x, (run g evs).insts[i]? = some x := ⟨(run g evs).insts[i], by simp [hi]⟩
  have hlt := inv.instCell i x hxi
  obtain ⟨y, hy⟩ : ∃ y, (run g evs).cells[x.cell]? = some y := ⟨(run g evs).cells[x.cell], by simp [hlt]⟩
  have hkey : y.key = k := by
    have := invm.2 i x y hxi hy
    rw [hk] at this; simpa using this.symm
  have hm := inv.cell x.cell y hy
  rw [hkey] at hm
  refine ⟨x.cell, ?_⟩
  have hlen : (run g evs).len i = y.calls := by simp [St.len, hxi, hy, hm, firsts]
  rw [hlen]
  simp only [St.getitem, hxi, hy, hm, firsts_getElem?]
  have hl : (firsts (g k x.cell) y.calls).length = y.calls := by simp [firsts]
  rw [hl]
  by_cases h1 : 0 ≤ n ∧ n < y.calls
  · rw [if_neg (by omega), if_pos h1, if_neg (show ¬ n < 0 by omega), if_pos (by omega)]
  · rw [if_neg h1]
    by_cases h2 : n < 0 ∧ -n ≤ y.calls
    · rw [if_neg (by omega), if_pos h2, if_pos h2.1, if_pos (by omega)]
      simp only
      congr 2; omega
    · rw [if_pos (by omega), if_neg h2]

private theorem filterMap_eq {α β : Type _} {f : α → Option β} {f' : α → β} (l : List α) (h : ∀ x ∈ l, f x = some (f' x)) : l.filterMap f = l.map f' := by
  induction l with
  | nil => rfl
  | cons x l ih => simp [List.filterMap_cons, h x (by simp), ih (fun y hy => h y (by simp [hy]))]

private theorem walk_eq (fail : Out → Bool) (rs lst : List Out) :
    walk fail rs lst = match rs.find? fail with | some e => .error e | none => .ok (lst ++ rs) := by
  induction rs generalizing lst with
  | nil => simp [walk]
  | cons r rs ih =>
    cases h : fail r
    · simp [walk, h, ih]
    · simp [walk, h]

/-- C01: a slice of an instance is the list of the outcomes at the positions that the slice selects from those produced so far, in order; if any of them is an exception, the first of these is raised instead.  A zero
step raises ValueError.  This needs no assumption on the schedule. -/
theorem C01_gmemoize_slice (g : K → Nat → Nat → Out) (evs : List (Event K)) (fail : Out → Bool)
    (i : Nat) (k : K) (hk : (run g evs).made[i]? = some k) (s : Slice) :
    ∃ r, (run g evs).getslice fail i s =
      if s.step = some 0 then .error .ValueError
      else
        match ((s.indices ((run g evs).len i)).map (fun n => g k r n.toNat)).find? fail with
        | some e => .ok (.error e)
        | none => .ok (.ok ((s.indices ((run g evs).len i)).map (fun n => g k r n.toNat))) := by
  have inv := run_inv (g := g) evs
  have invm := run_invM (g := g) evs
  have hi : i < (run g evs).insts.length := by rw [← invm.1]; exact lt_of_getElem? hk
  obtain ⟨x, hxi⟩ : ∃ x, (run g evs).insts[i]? = some x := ⟨(run g evs).insts[i], by simp [hi]⟩
  have hlt := inv.instCell i x hxi
  obtain ⟨y, hy⟩ : ∃ y, (run g evs).cells[x.cell]? = some y := ⟨(run g evs).cells[x.cell], by simp [hlt]⟩
  have hkey : y.key = k := by
    have := invm.2 i x y hxi hy
    rw [hk] at this; simpa using this.symm
  have hm := inv.cell x.cell y hy
  rw [hkey] at hm
  refine ⟨x.cell, ?_⟩
  have hlen : (run g evs).len i = y.calls := by simp [St.len, hxi, hy, hm, firsts]
  have hl : (firsts (g k x.cell) y.calls).length = y.calls := by simp [firsts]
  have hs : pySlice y.memo s = (s.indices y.calls).map (fun n => g k x.cell n.toNat) := by
    rw [hm, pySlice, hl]
    apply filterMap_eq
    intro n hn
    have := s.indices_range _ hn
    rw [firsts_getElem?, if_pos (by omega)]
  rw [hlen]
  simp only [St.getslice, hxi, hy, hs, walk_eq]
  split
  · rfl
  · split <;> simp

/-! Concrete case: items 0, 10, 20, ...; two instances, advanced in turns by two threads. -/

def demoGen (k : Nat) (_run n : Nat) : Nat := k + 10 * n
def demoEvs : List (Event Nat) :=
  [.call 0 5, .go 0, .go 0, .call 1 5, .go 1,                      -- instances 0 and 1
   .next 0 0, .next 1 1, .go 1, .go 0, .next 0 0, .go 0, .next 1 1, .go 1, .next 1 1, .go 1]

example : (run demoGen demoEvs).delivered 0 = [5, 15] ∧ (run demoGen demoEvs).delivered 1 = [5, 15, 25] ∧
    (run demoGen demoEvs).made = [5, 5] ∧
    (run demoGen demoEvs).cells.map (fun c => (c.key, c.memo, c.calls)) = [(5, [5, 15, 25], 3)] := by decide
example : (run demoGen demoEvs).getslice (fun _ => false) 0 ⟨some (-2), none, none⟩ = .ok (.ok [15, 25]) ∧
    (run demoGen demoEvs).getslice (fun n => n % 2 = 1) 0 ⟨none, none, some (-1)⟩ = .ok (.error 25) ∧
    (run demoGen demoEvs).getslice (fun _ => false) 0 ⟨none, none, some 0⟩ = .error .ValueError := by decide
example : SingleThreaded [Event.call 0 5, .go 0, .go 0, .next 0 0, .go 0] := ⟨0, by simp⟩

/-! ## C02: several threads calling `next` on the same instance

The property as stated is false of the code: `j = self.j` (gmemo.py:119) is read outside the lock. -/

/-- C02 is violated (duplicate): two threads call `next` on one and the same instance; both get the
first item, although one serialization of the two calls would deliver the first and the second. -/
theorem C02_shared_instance_duplicates_refuted :
    (run demoGen [.call 0 5, .go 0, .go 0, .next 0 0, .next 1 0, .go 0, .go 1]).log = [(0, 5), (0, 5)] := by
  decide

/-- C02 is violated (skip): if another instance has already filled the memo, the race makes the shared
instance skip an item: 15 is never delivered by instance 1. -/
theorem C02_shared_instance_skips_refuted :
    (run demoGen [.call 0 5, .go 0, .go 0, .next 0 0, .go 0, .next 0 0, .go 0, .next 0 0, .go 0,
      .call 0 5, .go 0, .next 0 1, .next 1 1, .go 0, .go 1, .next 0 1, .go 0]).delivered 1 = [5, 5, 25] := by
  decide

/-- C02 (related): two threads racing on the very first call with some arguments can start two runs of
the underlying generator (gmemo.py:98-100 is not locked). -/
theorem C02_racing_first_calls_refuted :
    (run demoGen [.call 0 5, .call 1 5, .go 0, .go 0, .go 1, .go 1, .next 0 0, .go 0, .next 1 1, .go 1]).cells.map
      (fun c => (c.key, c.calls)) = [(5, 1), (5, 1)] := by decide

/-- C02, the part that does hold for every schedule without any exclusion: calls into the underlying
generator are serialized (each of its outcomes is produced once, in order, and stored); every delivery
is one of the outcomes produced by the instance's own underlying generator; and no outcome is lost:
each one produced has been delivered through some instance of that run.
Missing with respect to C02: exactly-once delivery per instance, refuted above. -/
theorem C02_shared_instance_partial (g : K → Nat → Nat → Out) (evs : List (Event K)) :
    (∀ (r : Nat) (c : Cell K Out), (run g evs).cells[r]? = some c →
      c.memo = (List.range c.calls).map (g c.key r) ∧
      ∀ n, n < c.calls → ∃ i x, (run g evs).insts[i]? = some x ∧ x.cell = r ∧
        g c.key r n ∈ (run g evs).delivered i) ∧
    (∀ i out, out ∈ (run g evs).delivered i → ∃ x c n, (run g evs).insts[i]? = some x ∧
      (run g evs).cells[x.cell]? = some c ∧ n < c.calls ∧ out = g c.key x.cell n) := by
  have inv := run_inv (g := g) evs
  refine ⟨?_, ?_⟩
  · intro r c hc
    refine ⟨inv.cell r c hc, ?_⟩
    intro n hn
    obtain ⟨i, x, h1, h2, h3⟩ := inv.produced r c hc n hn
    exact ⟨i, x, h1, h2, by simp [St.delivered]; exact h3⟩
  · intro i out h
    simp [St.delivered] at h
    obtain ⟨x, y, n, h1, h2, h3, h4⟩ := inv.logOK (i, out) h
    exact ⟨x, y, n, h1, h2, h3, h4⟩

/-- C02, the part that holds: calls on one instance that do not overlap in time deliver, in order, every
item exactly once (whichever threads make them).
(Missing: calls that overlap, see `C02_shared_instance_duplicates_refuted` and `C02_shared_instance_skips_refuted`.) -/
theorem C02_shared_instance_serial_partial (g : K → Nat → Nat → Out) (evs : List (Event K))
    (hx : NeverShared g evs) (i : Nat) (k : K) (hk : (run g evs).made[i]? = some k) :
    ∃ r n, (run g evs).delivered i = (List.range n).map (g k r) := by
  obtain ⟨r, _, _, n, _, h⟩ := C01_gmemoize_replays g evs hx i k hk
  exact ⟨r, n, h⟩

end Unpy.Props
