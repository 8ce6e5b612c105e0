import Verif.Props.GMemo
import Verif.Model.IMemo
/-!
# `imemoize` and `fimemoize` (C86)
-/
namespace Unpy.Props
open Unpy.GMemo
universe u v
variable {K : Type u} {Out : Type v} [DecidableEq K]

private theorem irun_snoc (items : Nat → Out) (evs e) : irun items (evs ++ [e]) = istep items (irun items evs) e := by
  simp [irun]

private theorem run_snoc (g : K → Nat → Nat → Out) (evs e) : run g (evs ++ [e]) = step g (run g evs) e := by
  simp [run]

private theorem step_one (items : Nat → Out) (st : St Unit Out) (e) (h : st.cells.length ≤ 1) :
    istep items st e = step (fun _ _ n => items n) st e := by
  cases e with
  | call th k => rfl
  | next th i => rfl
  | go th =>
    simp only [istep, step]
    cases hp : st.pend th with
    | idle => rfl
    | missed k => rfl
    | ready k => rfl
    | reading i j =>
      simp only
      cases hi : st.insts[i]? with
      | none => rfl
      | some inst =>
        simp only
        cases hc : st.cells[inst.cell]? with
        | none => rfl
        | some c =>
          have ht : st.taken = c.calls := by
            have h1 := lt_of_getElem? hc
            match hcs : st.cells, h with
            | [], _ => rw [hcs] at h1; simp at h1
            | [d], _ =>
              rw [hcs] at hc h1
              have : inst.cell = 0 := by simpa using h1
              rw [this] at hc
              simp at hc
              subst hc
              simp [St.taken, hcs]
          simp only [advance, ht]

private theorem irun_eq (items : Nat → Out) (evs : List (Event Unit))
    (hr : ∀ pre suf, evs = pre ++ suf → ∀ t₁ t₂,
      (irun items pre).pend t₁ = .missed () → (irun items pre).pend t₂ = .missed () → t₁ = t₂) :
    ∀ suf pre, evs = pre ++ suf → irun items pre = run (fun _ _ n => items n) pre ∧ InvC (irun items pre) := by
  have key : ∀ m pre suf, pre.length = m → evs = pre ++ suf →
      irun items pre = run (fun _ _ n => items n) pre ∧ InvC (irun items pre) := by
    intro m
    induction m with
    | zero =>
      intro pre suf h _
      rw [List.length_eq_zero_iff.mp h]
      exact ⟨rfl, by simp [irun, init], by simp [irun, init], by simp [irun, init]⟩
    | succ m ih =>
      intro pre suf hl he
      obtain ⟨p, e, rfl⟩ : ∃ p e, pre = p ++ [e] :=
        ⟨pre.dropLast, pre.getLast (by rintro rfl; simp at hl), (List.dropLast_concat_getLast _).symm⟩
      obtain ⟨h1, h2⟩ := ih p ([e] ++ suf) (by simpa using hl) (by simp [he])
      have hc : (irun items p).cells.length ≤ 1 := by
        have hn := h2.nodup
        match h : (irun items p).cells with
        | [] => simp
        | [_] => simp
        | a :: b :: _ => rw [h] at hn; simp at hn
      have hs : istep items (irun items p) e = step (fun _ _ n => items n) (irun items p) e := step_one items _ e hc
      refine ⟨by rw [irun_snoc, run_snoc, hs, h1], ?_⟩
      rw [irun_snoc, hs]
      exact step_invC h2 (fun t₁ t₂ k a b => hr p ([e] ++ suf) (by simp [he]) t₁ t₂ a b) e
  exact fun suf pre h => key _ pre suf rfl h

/-- C86 for `imemoize`: if the first calls of the returned function do not race, and no instance is used by two threads
at once, each instance delivers the items of the iterable from the first on, in order; and no more items have been
taken from the iterable than the most advanced instance has delivered.  Missing: racing first calls, refuted below. -/
theorem C86_imemoize_partial (items : Nat → Out) (evs : List (Event Unit))
    (hr : ∀ pre suf, evs = pre ++ suf → ∀ t₁ t₂,
      (irun items pre).pend t₁ = .missed () → (irun items pre).pend t₂ = .missed () → t₁ = t₂)
    (hx : ∀ pre suf, evs = pre ++ suf → ∀ t₁ t₂ i j₁ j₂,
      (irun items pre).pend t₁ = .reading i j₁ → (irun items pre).pend t₂ = .reading i j₂ → t₁ = t₂) :
    (∀ i, i < (irun items evs).insts.length → ∃ n, n ≤ (irun items evs).taken ∧
      (irun items evs).delivered i = (List.range n).map items) ∧
    ((irun items evs).taken = 0 ∨ ∃ i, i < (irun items evs).insts.length ∧
      (irun items evs).delivered i = (List.range (irun items evs).taken).map items) := by
  have he := fun pre suf h => (irun_eq items evs hr suf pre h).1
  have hX : NeverShared (fun _ _ n => items n) evs := fun pre suf h => by rw [← he pre suf h]; exact hx pre suf h
  have hR : NeverRaced (fun _ _ n => items n) evs := fun pre suf h => by
    rw [← he pre suf h]; exact fun t₁ t₂ _ => hr pre suf h t₁ t₂
  have h0 := he evs [] (by simp)
  have hcl := (irun_eq items evs hr [] evs (by simp)).2.nodup
  obtain ⟨_, hone⟩ := C01_gmemoize_one_run _ evs hX hR ()
  have hm := run_invM (g := fun (_ : Unit) (_ : Nat) n => items n) evs
  have hmade : ∀ i, i < (irun items evs).insts.length → (run (fun _ _ n => items n) evs).made[i]? = some () := by
    intro i hi
    rw [h0] at hi
    have hi' : i < (run (fun _ _ n => items n) evs).made.length := by rw [hm.1]; exact hi
    rw [List.getElem?_eq_getElem hi']
  match hcs : (irun items evs).cells with
  | [] =>
    have ht : (irun items evs).taken = 0 := by simp [St.taken, hcs]
    refine ⟨fun i hi => ?_, .inl ht⟩
    obtain ⟨r, _, ⟨cell, hc, _⟩, _⟩ := C01_gmemoize_replays _ evs hX i () (hmade i hi)
    rw [← h0, hcs] at hc
    simp at hc
  | [c] =>
    have ht : (irun items evs).taken = c.calls := by simp [St.taken, hcs]
    have hc0 : (run (fun _ _ n => items n) evs).cells[0]? = some c := by rw [← h0, hcs]; rfl
    obtain ⟨h1, h2⟩ := hone 0 c hc0 rfl
    refine ⟨fun i hi => ?_, ?_⟩
    · rw [ht, h0]; exact h1 i (hmade i hi)
    · rw [ht, h0]
      rcases h2 with h | ⟨i, hi, hd⟩
      · exact .inl h
      · exact .inr ⟨i, by rw [← hm.1]; exact lt_of_getElem? hi, hd⟩
  | a :: b :: _ => rw [hcs] at hcl; simp at hcl

/-- two instances over one iterable, one thread -/
example : let st := irun (fun n => 10 * n) [.call 0 (), .go 0, .go 0, .next 0 0, .go 0, .next 0 0, .go 0, .call 0 (), .go 0,
    .next 0 1, .go 0]; st.delivered 0 = [0, 10] ∧ st.delivered 1 = [0] ∧ st.taken = 2 := by decide

/-- C86 fails for `imemoize` when two threads race on its first call: each gets a generator of its own over the same
iterator, so that each misses the items that the other one takes. -/
theorem C86_imemoize_race_refuted :
    let st := irun (fun n => 10 * n) [.call 0 (), .call 1 (), .go 0, .go 0, .go 1, .go 1, .next 0 0, .go 0, .next 1 1, .go 1,
      .next 0 0, .go 0]
    st.delivered 0 = [0, 20] ∧ st.delivered 1 = [10] := by decide

/-- C86 for `fimemoize`: each instance replays one run of one iterable, made by the factory with the arguments that the
instance was made with. -/
theorem C86_fimemoize (ifactory : K → Nat → Nat → Out) (evs : List (Event K)) (hx : NeverShared ifactory evs)
    (i : Nat) (k : K) (hk : (firun ifactory evs).made[i]? = some k) :
    ∃ r n, (firun ifactory evs).delivered i = (List.range n).map (ifactory k r) := by
  obtain ⟨r, _, _, n, _, h⟩ := C01_gmemoize_replays ifactory evs hx i k hk
  exact ⟨r, n, h⟩

end Unpy.Props
