import Verif.Proof.Shadowed
/-!
# C137: reading a `ShadowedSequence`
-/
namespace Unpy.Props
open Unpy Unpy.Slices Unpy.Shadowed Unpy.Spec.Slices Unpy.Spec.Shadowed
universe u
variable {α : Type u}

/-- C137, indices: a tower of shadowed sequences, on any sequence, is read by an index, positive or negative, as the list with all updates done;
an index out of range is an IndexError.  It can be read any number of times, in any order: what was read before (`cs`) does not matter.
(Missing: replacements which are iterators, which can be read once, in order, see C10; updates that do not fit.) -/
theorem C137_index_partial (l : List α) (us : List (Upd α)) (hf : ∀ u ∈ us, Fits l.length u) (hs : ∀ u ∈ us, Steady u) :
    ∃ s, shadows (.base l) us = .ok s ∧ s.len = l.length ∧ ∀ k cs, (item s k cs).1 = pyItem (us.foldl Spec.Slices.apply l) k := by
  obtain ⟨s, e, ok, hl, hd⟩ := shadows_spec (.base l) trivial us hf
  have hst := shadows_steady (.base l) s trivial us hs e
  have hdl := den_length s
  have hd : den s = us.foldl Spec.Slices.apply l := hd
  refine ⟨s, e, hl, fun k cs => ?_⟩
  rw [← hd]
  simp only [item, pyItem, hdl]
  by_cases h : -(s.len : Int) ≤ k ∧ k < s.len
  · rw [if_neg (by simp; omega), if_pos h]
    obtain ⟨a, e1, e2⟩ := getone_steady s ok hst k h.1 h.2 cs
    rw [e1]
    simp only [normIdx] at e2
    rw [e2]
  · rw [if_neg h, if_pos (by simp; omega)]

example : (item (.shadowSlice (.shadowInt (.base [10, 20, 30, 40]) (-1) 99) ⟨none, none, some 2⟩ (.seq [1, 2, 3])) (-2) [] : Res Nat × List Nat).1 = .ok 2 ∧
    (item (.shadowSlice (.shadowInt (.base [10, 20, 30, 40]) (-1) 99) ⟨none, none, some 2⟩ (.seq [1, 2, 3])) 4 []).1 = .error .IndexError ∧
    (∀ u ∈ ([.int (-1) 99, .slice ⟨none, none, some 2⟩ (.seq [1, 2, 3])] : List (Upd Nat)), Fits 4 u ∧ Steady u) := by
  refine ⟨by decide, by decide, ?_⟩
  simp only [List.mem_cons, List.not_mem_nil, or_false, forall_eq_or_imp, forall_eq, Fits, Enough, Steady]
  decide

/-- C137, slices: a shadowed sequence on a list or tuple gives, for any slice, the list or tuple that the updated sequence gives (for a named
tuple, a tuple); a step of zero is a ValueError.
(Missing: several layers, ranges and strings, which are refuted; iterators as replacements, and updates that do not fit, as above.) -/
theorem C137_slice_partial (l : List α) (u : Upd α) (hf : Fits l.length u) (hs : Steady u) (c : Nat) :
    ∃ s, shadows (.base l) [u] = .ok s ∧ ∀ (k : Slice) cs,
      (k.by = 0 → ∀ b, (Shadowed.slice b s k cs).1 = .error .ValueError) ∧
      (k.by ≠ 0 → (Shadowed.slice .list s k cs).1 = .ok (.seq .list (pySlice (Spec.Slices.apply l u) k)) ∧
        (Shadowed.slice .tuple s k cs).1 = .ok (.seq .tuple (pySlice (Spec.Slices.apply l u) k)) ∧
        (Shadowed.slice (.named c) s k cs).1 = .ok (.seq .tuple (pySlice (Spec.Slices.apply l u) k))) := by
  obtain ⟨s, e, ok, hl, hd⟩ := shadows_spec (.base l) trivial [u] (by intro v hv; rw [List.mem_singleton.mp hv]; exact hf)
  have hst := shadows_steady (.base l) s trivial [u] (by simpa using hs) e
  have hd : den s = Spec.Slices.apply l u := hd
  refine ⟨s, e, fun k cs => ⟨fun h b => by simp [Shadowed.slice, h], fun h => ?_⟩⟩
  have hi := itemsAt_steady s ok hst (k.indices s.len) (fun j hj => k.indices_range _ hj) cs
  have hp : (k.indices s.len).filterMap (fun j => (den s)[j.toNat]?) = pySlice (Spec.Slices.apply l u) k := by
    rw [← hd]; simp only [pySlice, den_length]
  rw [hp] at hi
  have hu : ∀ b, under b s = some b := by
    intro b
    simp only [shadows] at e
    cases u with
    | int i a => simp only [shadow, Except.ok.injEq] at e; rw [← e]; rfl
    | slice sl v => cases v with
      | seq vs => simp only [shadow, Except.ok.injEq] at e; rw [← e]; rfl
      | item a => exact hs.elim
      | iter m f => exact hs.elim
  simp only [Shadowed.slice, h, if_false, hu, hi, and_self]

example : (Shadowed.slice .tuple (.shadowInt (.base [10, 20, 30, 40]) 1 99) ⟨none, none, some (-1)⟩ [] : Res (Made Nat) × List Nat).1 =
    .ok (.seq .tuple [40, 30, 99, 10]) := by decide

/-- C137, the first reading: `s[:]` of a fresh shadowed sequence on a list or tuple gives what `fupdate` makes, items or exception, whatever
the update: also with an iterator as the replacement, and with updates that do not fit.  So a replacement which is too short is never just cut off. -/
theorem C137_whole (l : List α) (u : Upd α) (s : Seq α) (h : shadows (.base l) [u] = .ok s) (b : Base) (hb : b = .list ∨ b = .tuple) :
    (Shadowed.slice b s ⟨none, none, none⟩ []).1 = match Slices.fupdate l [u] with
      | .ok r => .ok (.seq b r)
      | .error e => .error e := by
  have hu : under b s = some b := by
    simp only [shadows] at h
    cases u with
    | int i a => simp only [shadow, Except.ok.injEq] at h; rw [← h]; rfl
    | slice sl v => cases v <;> simp only [shadow, Except.ok.injEq, reduceCtorEq] at h <;> rw [← h] <;> rfl
  have hi : (Slice.mk none none none).indices s.len = (List.range' 0 s.len).map (fun k : Nat => (k : Int)) := by
    apply List.ext_getElem?
    intro k
    unfold Slice.indices
    rw [pyRange_getElem?]
    have hk := rangeLen_pos (a := 0) (b := (s.len : Int)) (s := 1) (by decide) k
    have h1 : Slice.startIn ⟨none, none, none⟩ s.len = 0 := rfl
    have h2 : Slice.stopIn ⟨none, none, none⟩ s.len = s.len := rfl
    have h3 : Slice.by ⟨none, none, none⟩ = 1 := rfl
    rw [h1, h2, h3]
    simp only [List.getElem?_map]
    by_cases hlt : k < s.len
    · rw [if_pos (hk.mpr (by omega)), List.getElem?_range' hlt]; simp
    · rw [if_neg (by rw [hk]; omega), List.getElem?_eq_none (by simp; omega)]; simp
  have key : ∀ m j cs, (itemsAt s ((List.range' j m).map (fun k : Nat => (k : Int))) cs).1 = s.collect j m cs := by
    intro m
    induction m with
    | zero => intro j cs; rfl
    | succ m ih =>
      intro j cs
      simp only [List.range'_succ, List.map_cons, itemsAt, Seq.collect]
      rcases hg : s.getone (j : Int) cs with ⟨r, cs'⟩
      cases r with
      | error e => cases e <;> rfl
      | ok a =>
        have := ih (j + 1) cs'
        simp only
        rw [← this]
        rcases itemsAt s ((List.range' (j + 1) m).map (fun k : Nat => (k : Int))) cs' with ⟨r2, cs2⟩
        cases r2 <;> rfl
  have hby : Slice.by ⟨none, none, none⟩ = 1 := rfl
  rw [Slices.fupdate, h]
  simp only
  rw [← key]
  simp only [Shadowed.slice, hby, hu, hi]
  rcases hb with rfl | rfl <;>
  · simp only [Int.one_ne_zero, if_false]
    cases (itemsAt s ((List.range' 0 s.len).map (fun k : Nat => (k : Int))) []).1 <;> rfl

/-- an iterator which is too short, for the first two of three items -/
example : ∃ s, shadows (.base [1, 2, 3]) [.slice ⟨some 0, some 2, none⟩ (.iter false (fun i => if i = 0 then some 9 else none))] = .ok s ∧
    (Shadowed.slice .list s ⟨none, none, none⟩ []).1 = .error .RuntimeError := ⟨_, rfl, by decide⟩

/-- C137: refuted for slices of a shadowed sequence on top of another one: TypeError, whatever the slice and the layers. -/
theorem C137_layers_refuted (b : Base) (s t : Seq α) (u v : Upd α) (h1 : shadows s [u, v] = .ok t) (k : Slice) (hk : k.by ≠ 0)
    (cs : List Nat) : (Shadowed.slice b t k cs).1 = .error .TypeError := by
  have : under b t = none := by
    simp only [shadows] at h1
    cases u with
    | int i a =>
      simp only [shadow] at h1
      cases v with
      | int j a' => simp only [Except.ok.injEq] at h1; rw [← h1]; rfl
      | slice sl w => cases w <;> simp only [Except.ok.injEq, reduceCtorEq] at h1 <;> rw [← h1] <;> rfl
    | slice sl w =>
      cases w <;> simp only [shadow, reduceCtorEq] at h1 <;>
      · cases v with
        | int j a' => simp only [Except.ok.injEq] at h1; rw [← h1]; rfl
        | slice sl w => cases w <;> simp only [Except.ok.injEq, reduceCtorEq] at h1 <;> rw [← h1] <;> rfl
  simp [Shadowed.slice, hk, this]

example : shadows (.base [10, 20, 30]) [.int 0 1, .int 1 2] = .ok (.shadowInt (.shadowInt (.base [10, 20, 30]) 0 1) 1 2) := rfl

/-- C137: refuted for strings and ranges: a slice of a shadowed string is a string that describes a generator, and a slice of a shadowed range
is a TypeError.  And so for `fupdate` on a string or range (C10): the one returns the description, even if the update is impossible; the other raises. -/
theorem C137_types_refuted (l : List α) (u : Upd α) (s : Seq α) (h : shadows (.base l) [u] = .ok s) (k : Slice) (hk : k.by ≠ 0) (cs : List Nat) :
    (Shadowed.slice .str s k cs).1 = .ok .description ∧ (Shadowed.slice .range s k cs).1 = .error .TypeError ∧
    fupdateAs .str l [u] = .ok .description ∧ fupdateAs .range l [u] = .error .TypeError := by
  have hu : ∀ b, under b s = some b := by
    intro b
    simp only [shadows] at h
    cases u with
    | int i a => simp only [shadow, Except.ok.injEq] at h; rw [← h]; rfl
    | slice sl v => cases v <;> simp only [shadow, Except.ok.injEq, reduceCtorEq] at h <;> rw [← h] <;> rfl
  refine ⟨by simp [Shadowed.slice, hk, hu], by simp [Shadowed.slice, hk, hu], ?_, ?_⟩ <;> simp only [fupdateAs, h, construct]

/-- On lists, tuples and named tuples `fupdate` makes a sequence of the same type (as in C10). -/
theorem C137_fupdate (l : List α) (us : List (Upd α)) (b : Base) (hb : b ≠ .str ∧ b ≠ .range) :
    fupdateAs b l us = match Slices.fupdate l us with
      | .ok r => .ok (.seq b r)
      | .error e => .error e := by
  simp only [fupdateAs, Slices.fupdate]
  cases shadows (.base l) us with
  | error e => rfl
  | ok s =>
    simp only [construct]
    cases b with
    | str => exact absurd rfl hb.1
    | range => exact absurd rfl hb.2
    | list => rfl
    | tuple => rfl
    | named c => rfl

example : fupdateAs .tuple [1, 2, 3] [.int 1 9] = .ok (.seq .tuple [1, 9, 3]) := by decide

end Unpy.Props
