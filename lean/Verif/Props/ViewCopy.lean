import Verif.Proof.ViewCopy
/-! # C138: assigning to a slice of a view from a view -/
namespace Unpy.Props
open Unpy Unpy.View Unpy.Spec.View
universe u
variable {α : Type u}

private theorem hist (ro₀ : Bool) (l₀ : List α) (ops : List (Op α)) (hops : NonzeroSteps ops) :
    ∃ cs, Hist Determined (fun _ => True) (run (init ro₀ l₀) ops) ro₀ (made ro₀ ops) cs :=
  Hist.run ⟨fun _ _ h => det_pre h, fun c s n n' h _ _ hl => h c s (List.prefix_refl _) n n' hl⟩ ops (Hist.init ro₀ l₀ trivial) hops (fun _ _ => trivial)

/-- C138: after any history (see C12, also for the condition on nested slices), `v[k] = w`, where `w` is a view of the same sequence or the sequence
itself, assigns what `w` showed before the assignment, if no position is written before it is read.
(Missing: when the writes run ahead of the reads, where it is refuted.) -/
theorem C138_copy_partial (ro₀ : Bool) (l₀ : List α) (ops : List (Op α)) (hops : NonzeroSteps ops) (v : Nat) (c : List Slice)
    (hv : (made ro₀ ops)[v]? = some (false, c)) (hc : Determined c) (src : Live) (c' : List Slice) (hs : through (made ro₀ ops) src = some c')
    (hc' : Determined c') (k : Slice) (hk : k.by ≠ 0) :
    let st := run (init ro₀ l₀) ops
    let ps := positions st.data.length (c ++ [k])
    NotAhead ps (positions st.data.length c') →
    (copySlice st v k src).1 = .ok .unit ∧ (copySlice st v k src).2.data = assignAt st.data ps (contents st.data c') := by
  intro st ps hn
  obtain ⟨cs, h⟩ := hist ro₀ l₀ ops hops
  obtain ⟨h1, h2⟩ := (copySlice_spec h v c hv hc src c' hs hc' k).2 hk
  have e := copyAll_eq ps (positions st.data.length c') st.data (contents st.data c') (positions_range _ _) (positions_range _ _)
    (contents_length _ _) (fun m q _ hq => by rw [contents_getElem?, hq]; rfl) hn
  rw [e] at h1 h2
  exact ⟨h1, h2⟩

/-- C138, views with nothing in common: the condition of the previous theorem is met if `w` shows no position that is assigned. -/
theorem C138_disjoint (ro₀ : Bool) (l₀ : List α) (ops : List (Op α)) (hops : NonzeroSteps ops) (v : Nat) (c : List Slice)
    (hv : (made ro₀ ops)[v]? = some (false, c)) (hc : Determined c) (src : Live) (c' : List Slice) (hs : through (made ro₀ ops) src = some c')
    (hc' : Determined c') (k : Slice) (hk : k.by ≠ 0) :
    let st := run (init ro₀ l₀) ops
    let ps := positions st.data.length (c ++ [k])
    (∀ x ∈ ps, x ∉ positions st.data.length c') →
    (copySlice st v k src).1 = .ok .unit ∧ (copySlice st v k src).2.data = assignAt st.data ps (contents st.data c') := fun hd =>
  C138_copy_partial ro₀ l₀ ops hops v c hv hc src c' hs hc' k hk
    (fun _ _ x _ _ h1 h2 => hd x (List.mem_of_getElem? h1) (List.mem_of_getElem? h2))

private theorem assignAt_self (data : List α) (ps : List Int) (items : List α)
    (h : ∀ (m : Nat) (x : Int) (a : α), ps[m]? = some x → items[m]? = some a → data[x.toNat]? = some a) : assignAt data ps items = data := by
  induction ps generalizing items with
  | nil => simp [assignAt]
  | cons p ps ih =>
    cases items with
    | nil => simp [assignAt]
    | cons a items =>
      have h0 := h 0 p a rfl rfl
      have e : assignAt data (p :: ps) (a :: items) = assignAt (data.set p.toNat a) ps items := rfl
      have : data.set p.toNat a = data := by
        apply List.ext_getElem?
        intro i
        by_cases hi : p.toNat = i
        · subst hi; rw [List.getElem?_set_self (List.getElem?_eq_some_iff.mp h0).1, h0]
        · rw [List.getElem?_set_ne hi]
      rw [e, this]
      exact ih items (fun m x b h1 h2 => h (m + 1) x b (by simpa using h1) (by simpa using h2))

/-- C138, a view assigned to itself: `v[k] = w` changes nothing if `w` shows exactly the positions that are assigned, such as `v[k] = v[k]`. -/
theorem C138_self (ro₀ : Bool) (l₀ : List α) (ops : List (Op α)) (hops : NonzeroSteps ops) (v : Nat) (c : List Slice)
    (hv : (made ro₀ ops)[v]? = some (false, c)) (hc : Determined c) (src : Live) (c' : List Slice) (hs : through (made ro₀ ops) src = some c')
    (hc' : Determined c') (k : Slice) (hk : k.by ≠ 0) :
    let st := run (init ro₀ l₀) ops
    positions st.data.length c' = positions st.data.length (c ++ [k]) →
    (copySlice st v k src).1 = .ok .unit ∧ (copySlice st v k src).2.data = st.data := by
  intro st he
  have hnd : ∀ (a b : Nat) (x : Int), (positions st.data.length (c ++ [k]))[a]? = some x → (positions st.data.length (c ++ [k]))[b]? = some x → a = b := by
    have hz : ∀ s ∈ c ++ [k], s.by ≠ 0 := by
      intro s hs'
      rcases List.mem_append.mp hs' with hm | hm
      · exact made_steps ro₀ ops hops v false c hv s hm
      · rw [List.mem_singleton.mp hm]; exact hk
    intro a b x h1 h2
    obtain ⟨ha, h1'⟩ := List.getElem?_eq_some_iff.mp h1
    obtain ⟨hb, h2'⟩ := List.getElem?_eq_some_iff.mp h2
    have hp := List.pairwise_iff_getElem.mp (positions_nodup st.data.length (c ++ [k]) hz)
    rcases Nat.lt_trichotomy a b with hl | hl | hl
    · exact absurd (h1'.trans h2'.symm) (hp a b ha hb hl)
    · exact hl
    · exact absurd (h2'.trans h1'.symm) (hp b a hb ha hl)
  obtain ⟨h1, h2⟩ := C138_copy_partial ro₀ l₀ ops hops v c hv hc src c' hs hc' k hk
    (fun a b x hab _ h1 h2 => by
      have h2 : (positions st.data.length c')[b]? = some x := h2
      rw [he] at h2
      have := hnd a b x h1 h2
      omega)
  refine ⟨h1, h2.trans (assignAt_self _ _ _ ?_)⟩
  intro m x a hx ha
  have ha : (contents st.data c')[m]? = some a := ha
  have hx : (positions st.data.length (c ++ [k]))[m]? = some x := hx
  rw [contents_getElem?, he, hx] at ha
  exact ha

/-- C138, what is rejected, with nothing written: assigning through a read-only view (TypeError), and a slice with step zero (ValueError). -/
theorem C138_rejected (ro₀ : Bool) (l₀ : List α) (ops : List (Op α)) (hops : NonzeroSteps ops) (v : Nat) (ro : Bool) (c : List Slice)
    (hv : (made ro₀ ops)[v]? = some (ro, c)) (src : Live) (k : Slice) :
    let st := run (init ro₀ l₀) ops
    (ro = true → copySlice st v k src = (.error .TypeError, st)) ∧
    (ro = false → Determined c → ∀ c', through (made ro₀ ops) src = some c' → Determined c' → k.by = 0 →
      (copySlice st v k src).1 = .error .ValueError ∧ (copySlice st v k src).2.data = st.data) := by
  intro st
  obtain ⟨cs, h⟩ := hist ro₀ l₀ ops hops
  refine ⟨fun hr => ?_, fun hr hc c' hs hc' hk => ?_⟩
  · subst hr
    have hlt : v < st.vars.length := by rw [h.vars.1]; exact (List.getElem?_eq_some_iff.mp hv).1
    obtain ⟨o, ac, sc, a1, a2, a3, -, -⟩ := h.vars.2 v _ (List.getElem?_eq_getElem hlt)
    rw [hv] at a3
    simp only [Option.some.injEq, Prod.mk.injEq] at a3
    have a1 : st.heap[st.vars[v]]? = some o := a1
    simp only [copySlice, List.getElem?_eq_getElem hlt, a1, ← a3.1, if_true]
  · subst hr
    exact (copySlice_spec h v c hv hc src c' hs hc' k).1 hk

/-- C138: refuted.  With `v = view(lst)`, the assignment `v[1:] = v` does not move the items by one, but fills the sequence with its first item.
(Assigning a copy, `v[1:] = list(v)`, does move them: `C12_write_exact`.) -/
theorem C138_shift_refuted (a : α) (l : List α) :
    let st := run (init false (a :: l)) [.mk false none noop]
    (copySlice st 0 ⟨some 1, none, none⟩ (.var 0)).1 = .ok .unit ∧
    (copySlice st 0 ⟨some 1, none, none⟩ (.var 0)).2.data = List.replicate (l.length + 1) a := by
  intro st
  have hops : NonzeroSteps ([.mk false none noop] : List (Op α)) := by intro op hop; rw [List.mem_singleton.mp hop]; show noop.by ≠ 0; decide
  obtain ⟨cs, h⟩ := hist false (a :: l) [.mk false none noop] hops
  have hd : Determined [noop] := stable_determined _ (by intro s hs; simp at hs)
  obtain ⟨h1, h2⟩ := (copySlice_spec h 0 [noop] rfl hd (.var 0) [noop] rfl hd ⟨some 1, none, none⟩).2 (by decide)
  have hdata : (run (init false (a :: l)) [.mk false none noop]).data = a :: l := rfl
  rw [hdata] at h1 h2
  have e1 : positions (a :: l).length ([noop] ++ [⟨some 1, none, none⟩]) = (List.range' 1 l.length).map (fun k : Nat => (k : Int)) := positions_tail _
  have e2 : positions (a :: l).length [noop] = (List.range' 0 (l.length + 1)).map (fun k : Nat => (k : Int)) := by
    have : positions (a :: l).length [noop] = pySlice (rng (a :: l).length) noop := rfl
    rw [this, pySlice_noop, rng, List.range_eq_range']; rfl
  obtain ⟨r, h3, h4⟩ := copyAll_smear l.length 0 (a :: l) a rfl (by simp)
  rw [e1, e2, h3] at h1 h2
  refine ⟨h1, h2.trans ?_⟩
  apply List.ext_getElem?
  intro i
  rw [h4]
  by_cases hi : i < l.length + 1
  · rw [List.getElem?_replicate, if_pos hi]
    by_cases h0 : 0 < i ∧ i ≤ 0 + l.length
    · rw [if_pos h0]
    · rw [if_neg h0, show i = 0 from by omega]; rfl
  · rw [List.getElem?_replicate, if_neg hi, if_neg (by omega), List.getElem?_eq_none (by simp; omega)]

/-- C138: refuted.  With `v = view(lst)`, the assignment `v[::-1] = v` does not reverse the sequence, but mirrors its first half. -/
theorem C138_mirror_refuted (l : List α) :
    let st := run (init false l) [.mk false none noop]
    (copySlice st 0 ⟨none, none, some (-1)⟩ (.var 0)).1 = .ok .unit ∧
    (copySlice st 0 ⟨none, none, some (-1)⟩ (.var 0)).2.data.length = l.length ∧
    ∀ i : Nat, i < l.length → (copySlice st 0 ⟨none, none, some (-1)⟩ (.var 0)).2.data[i]? = l[min i (l.length - 1 - i)]? := by
  intro st
  have hops : NonzeroSteps ([.mk false none noop] : List (Op α)) := by intro op hop; rw [List.mem_singleton.mp hop]; show noop.by ≠ 0; decide
  obtain ⟨cs, h⟩ := hist false l [.mk false none noop] hops
  have hd : Determined [noop] := stable_determined _ (by intro s hs; simp at hs)
  obtain ⟨h1, h2⟩ := (copySlice_spec h 0 [noop] rfl hd (.var 0) [noop] rfl hd ⟨none, none, some (-1)⟩).2 (by decide)
  have hdata : (run (init false l) [.mk false none noop]).data = l := rfl
  rw [hdata] at h1 h2
  have e2 : positions l.length [noop] = rng l.length := by
    have : positions l.length [noop] = pySlice (rng l.length) noop := rfl
    rw [this, pySlice_noop]
  have e1 : positions l.length ([noop] ++ [⟨none, none, some (-1)⟩]) = ((List.range l.length).reverse).map (fun k : Nat => (k : Int)) := by
    rw [positions_snoc, e2, pySlice_rev, rng, List.map_reverse]
  have e3 : rng l.length = (List.range' 0 l.length).map (fun k : Nat => (k : Int)) := by rw [rng, List.range_eq_range']
  obtain ⟨r, h3, h4, h5⟩ := copyAll_mirror l 0 l.length l (by omega) rfl (fun i hi => by rw [if_neg (by omega)])
  rw [e1, e2, e3, h3] at h1 h2
  refine ⟨h1, ?_, fun i hi => ?_⟩
  · rw [h2]; exact h4
  · rw [h2]; exact h5 i hi

/-- moving down by one is fine: the reads stay ahead; moving up is not -/
example :
    let st := run (init false [1, 2, 3, 4]) [.mk false none noop, .slice 0 ⟨some 1, none, none⟩]
    NotAhead (positions 4 [noop, ⟨none, some (-1), none⟩]) (positions 4 [noop, ⟨some 1, none, none⟩]) ∧
    (copySlice st 0 ⟨none, some (-1), none⟩ (.var 1)).2.data = [2, 3, 4, 4] ∧
    (copySlice st 0 ⟨some 1, none, none⟩ (.var 0)).2.data = [1, 1, 1, 1] ∧
    (copySlice st 0 ⟨none, none, some (-1)⟩ .seq).2.data = [1, 2, 2, 1] := by
  refine ⟨?_, by decide, by decide, by decide⟩
  have e1 : positions 4 [noop, ⟨none, some (-1), none⟩] = [0, 1, 2] := by decide
  have e2 : positions 4 [noop, ⟨some 1, none, none⟩] = [1, 2, 3] := by decide
  rw [e1, e2]
  intro a b x hab hb h1 h2
  simp only [List.length_cons, List.length_nil] at hb
  have ha : a = 0 ∨ a = 1 := by omega
  have hb' : b = 1 ∨ b = 2 := by omega
  rcases ha with rfl | rfl <;> rcases hb' with rfl | rfl <;> simp_all <;> omega

end Unpy.Props
