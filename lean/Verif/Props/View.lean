import Verif.Proof.View
/-!
# C12: `view` and `roview`
-/
namespace Unpy.Props
open Unpy Unpy.View Unpy.Spec.View
universe u
variable {α : Type u}

/-- C12 (what holds): after any history of direct changes of the sequence (also of its length), creations of views (from the
sequence or from views, by constructor or by subscripting) and uses of views, using the view in variable `v`, made through
the slices `c`, gives the value and has the effect on the sequence which the specification `Spec.View.use` gives for the
*current* contents — provided that at every level of nesting, the length of what is sliced determines what the slice selects.
Missing: the other nestings, for which the property is false (`C12_stale_refuted`), and slices with step zero. -/
theorem C12_live_partial (ro₀ : Bool) (l₀ : List α) (ops : List (Op α)) (hops : NonzeroSteps ops) (v : Nat) (ro : Bool)
    (c : List Slice) (hv : (made ro₀ ops)[v]? = some (ro, c)) (hc : Determined c) (u : Use α) :
    let st := run (init ro₀ l₀) ops
    (step st (.use v u)).1 = (Spec.View.use st.data ro c u).1 ∧
    (step st (.use v u)).2.data = (Spec.View.use st.data ro c u).2 := by
  have hPN : Cond Determined (fun _ => True) :=
    ⟨fun c s h => det_pre h, fun c s n n' h _ _ hl => h c s (List.prefix_refl _) n n' hl⟩
  obtain ⟨cs, h⟩ := Hist.run hPN ops (Hist.init ro₀ l₀ trivial) hops (fun _ _ => trivial)
  exact h.use hPN v ro c hv (fun ac hac => hac hc) u

/-- C12 for every view whose slices, except possibly the last one, begin at a fixed position and go forward.  This covers every view
made with a single slice of any kind, such as `view(lst)[-3:]` or `view(lst)[::-1]`. -/
theorem C12_live_anchored (ro₀ : Bool) (l₀ : List α) (ops : List (Op α)) (hops : NonzeroSteps ops) (v : Nat) (ro : Bool)
    (c : List Slice) (hv : (made ro₀ ops)[v]? = some (ro, c)) (hc : Stable c) (u : Use α) :
    let st := run (init ro₀ l₀) ops
    (step st (.use v u)).1 = (Spec.View.use st.data ro c u).1 ∧
    (step st (.use v u)).2.data = (Spec.View.use st.data ro c u).2 :=
  C12_live_partial ro₀ l₀ ops hops v ro c hv (stable_determined c hc) u

/-- C12 for every nesting of views whatsoever, in histories in which the sequence keeps its length. -/
theorem C12_live_constant_length (ro₀ : Bool) (l₀ : List α) (ops : List (Op α)) (hops : NonzeroSteps ops)
    (hlen : ∀ l, .mutate l ∈ ops → l.length = l₀.length) (v : Nat) (ro : Bool) (c : List Slice)
    (hv : (made ro₀ ops)[v]? = some (ro, c)) (u : Use α) :
    let st := run (init ro₀ l₀) ops
    (step st (.use v u)).1 = (Spec.View.use st.data ro c u).1 ∧
    (step st (.use v u)).2.data = (Spec.View.use st.data ro c u).2 := by
  have hPN : Cond (fun _ => True) (fun n => n = l₀.length) :=
    ⟨fun c s h => trivial, fun c s n n' _ h h' _ => by rw [h, h']⟩
  obtain ⟨cs, h⟩ := Hist.run hPN ops (Hist.init ro₀ l₀ rfl) hops hlen
  exact h.use hPN v ro c hv (fun _ _ => trivial) u

/-- C12, writing: `v[k] = items` through a writable view changes exactly the positions selected: the `m`-th selected position gets
the `m`-th item (and is unchanged if there are fewer items), every other position and the length stay. -/
theorem C12_write_exact (ro₀ : Bool) (l₀ : List α) (ops : List (Op α)) (hops : NonzeroSteps ops) (v : Nat)
    (c : List Slice) (hv : (made ro₀ ops)[v]? = some (false, c)) (hc : Determined c) (k : Slice) (hk : k.by ≠ 0) (items : List α) :
    let data := (run (init ro₀ l₀) ops).data
    let data' := (step (run (init ro₀ l₀) ops) (.use v (.setSlice k (.items items)))).2.data
    let ps := positions data.length (c ++ [k])
    data'.length = data.length ∧
    (∀ j : Nat, (j : Int) ∉ ps → data'[j]? = data[j]?) ∧
    (∀ (m : Nat) x, ps[m]? = some x → data'[x.toNat]? = match items[m]? with
      | some a => some a
      | none => data[x.toNat]?) := by
  have h := (C12_live_partial ro₀ l₀ ops hops v false c hv hc (.setSlice k (.items items))).2
  simp only [Spec.View.use, Bool.false_eq_true, if_false, if_neg hk] at h
  simp only [h]
  refine ⟨assignAt_length _ _ _, ?_, ?_⟩
  · intro j hj
    exact assignAt_frame _ _ _ (fun x hx => (positions_range _ _ x hx).1) j hj
  · intro m x hx
    refine assignAt_get _ _ _ (positions_range _ _) (positions_nodup _ _ ?_) m x hx
    intro s hs
    rcases List.mem_append.mp hs with hs | hs
    · exact made_steps ro₀ ops hops v false c hv s hs
    · simp only [List.mem_singleton] at hs; subst hs; exact hk

/-- C12: `v.reverse()` reverses what the view shows, and changes nothing else. -/
theorem C12_reverse (ro₀ : Bool) (l₀ : List α) (ops : List (Op α)) (hops : NonzeroSteps ops) (v : Nat)
    (c : List Slice) (hv : (made ro₀ ops)[v]? = some (false, c)) (hc : Determined c) :
    let data := (run (init ro₀ l₀) ops).data
    let data' := (step (run (init ro₀ l₀) ops) (.use v .reverse)).2.data
    contents data' c = (contents data c).reverse ∧ data'.length = data.length ∧
    (∀ j : Nat, (j : Int) ∉ positions data.length c → data'[j]? = data[j]?) := by
  have h := (C12_live_partial ro₀ l₀ ops hops v false c hv hc .reverse).2
  simp only [Spec.View.use, Bool.false_eq_true, if_false] at h
  simp only [h]
  generalize (run (init ro₀ l₀) ops).data = data
  refine ⟨?_, assignAt_length _ _ _, fun j hj => assignAt_frame _ _ _ (fun x hx => (positions_range data.length c x (by simpa using hx)).1)
    j (by simpa using hj)⟩
  have hnz := made_steps ro₀ ops hops v false c hv
  have hcl := contents_length data c
  apply List.ext_getElem?
  intro m
  rw [contents_getElem?, assignAt_length]
  by_cases hm : m < (positions data.length c).length
  · rw [List.getElem?_eq_getElem hm]
    simp only [Option.bind_some]
    have hi : (positions data.length c).reverse[(positions data.length c).length - 1 - m]? = some (positions data.length c)[m] := by
      rw [List.getElem?_reverse (by omega)]
      rw [List.getElem?_eq_getElem (by omega)]
      congr 2; omega
    have hnd : (positions data.length c).reverse.Nodup := by
      unfold List.Nodup
      rw [List.pairwise_reverse]
      exact (positions_nodup _ _ hnz).imp (fun h e => h e.symm)
    rw [assignAt_get _ _ _ (fun x hx => positions_range _ _ x (by simpa using hx)) hnd _ _ hi]
    rw [List.getElem?_reverse (l := contents data c) (by omega), hcl,
      List.getElem?_eq_getElem (l := contents data c) (by omega)]
  · rw [List.getElem?_eq_none (by omega), List.getElem?_eq_none (by simp; omega)]; rfl

/-- C12: nothing can be written through a read-only view, and there is no writable view of something read-only. -/
theorem C12_readonly (st : St α) (v i : Nat) (o : Obj) (h : st.vars[v]? = some i) (ho : st.heap[i]? = some o)
    (hro : o.ro = true) (k : Int) (s : Slice) (a : α) (vs : Src α) :
    (step st (.use v (.set k a))) = (.error .TypeError, st) ∧ (step st (.use v (.setSlice s vs))) = (.error .TypeError, st) ∧
    (step st (.use v .reverse)) = (.error .AttributeError, st) ∧ (step st (.mk false (some v) s)) = (.error .TypeError, st) ∧
    (st.roData = true → step st (.mk false none s) = (.error .TypeError, st)) := by
  refine ⟨?_, ?_, ?_, ?_, ?_⟩ <;> simp_all [step, useObj]

/-- a view of a view, with the sequence growing and being written to in between:
`v = view(lst)[1:]; w = v[::-2]; len(w); lst = [0..9]; w[0:2] = ...` -/
example :
    let ops : List (Op Nat) := [.mk false none noop, .slice 0 ⟨some 1, none, none⟩, .slice 1 ⟨none, none, some (-2)⟩, .use 2 .len,
      .mutate [0, 1, 2, 3, 4, 5, 6, 7, 8, 9], .use 2 (.setSlice ⟨some 0, some 2, none⟩ (.items [70, 90]))]
    NonzeroSteps ops ∧ (made false ops)[2]? = some (false, [noop, ⟨some 1, none, none⟩, ⟨none, none, some (-2)⟩]) ∧
    Stable [noop, ⟨some 1, none, none⟩, ⟨none, none, some (-2)⟩] ∧
    (run (init false [0, 1, 2]) ops).data = [0, 1, 2, 3, 4, 5, 6, 90, 8, 70] ∧
    (step (run (init false [0, 1, 2]) ops) (.use 2 .iter)).1 = .ok (.items [70, 90, 5, 3, 1]) := by
  refine ⟨by simp [NonzeroSteps]; decide, by decide, ?_, by decide, by decide⟩
  simp [Stable, Anchored, noop]; decide

/-- C12 is violated: a view of the last three items, viewed again, does not notice that an item was appended, since its length stayed
three: `v = view(lst)[-3:]; w = v[0:2]; list(w); lst.append(4)` leaves `w` at the old place, while `v` itself is right. -/
theorem C12_stale_refuted :
    let ops : List (Op Nat) := [.mk false none noop, .slice 0 ⟨some (-3), none, none⟩, .slice 1 ⟨some 0, some 2, none⟩, .use 2 .iter,
      .mutate [0, 1, 2, 3, 4]]
    let st := run (init false [0, 1, 2, 3]) ops
    (step st (.use 1 .iter)).1 = .ok (.items [2, 3, 4]) ∧
    contents st.data [⟨some (-3), none, none⟩, ⟨some 0, some 2, none⟩] = [2, 3] ∧
    (step st (.use 2 .iter)).1 = .ok (.items [1, 2]) ∧
    (step st (.use 2 (.set 0 99))).2.data = [0, 99, 2, 3, 4] := by decide

/-- C12 is violated in the same way when the sequence shrinks: the positions remembered may not exist any more.  With `lst = [0, 1, 2, 3]` and
`w` as before, after `lst.pop()` `w` is at the places 1 and 2 instead of 0 and 1; when `lst` had five items before, at 2 and 3, so that reading and
writing raise IndexError, after having written to the first place. -/
theorem C12_stale_shrunk_refuted :
    let ops : List Nat → List (Op Nat) := fun l => [.mk false none noop, .slice 0 ⟨some (-3), none, none⟩, .slice 1 ⟨some 0, some 2, none⟩, .use 2 .iter,
      .mutate l]
    let st := run (init false [0, 1, 2, 3, 4]) (ops [0, 1, 2])
    contents st.data [⟨some (-3), none, none⟩, ⟨some 0, some 2, none⟩] = [0, 1] ∧
    (step (run (init false [0, 1, 2, 3]) (ops [0, 1, 2])) (.use 2 .iter)).1 = .ok (.items [1, 2]) ∧
    (step st (.use 2 .iter)).1 = .error .IndexError ∧
    (step st (.use 2 (.set 1 99))).1 = .error .IndexError ∧ (step st (.use 2 (.set 1 99))).2.data = [0, 1, 2] ∧
    (step st (.use 2 (.setSlice noop (.scalar 99)))).1 = .error .IndexError ∧
    (step st (.use 2 (.setSlice noop (.scalar 99)))).2.data = [0, 1, 99] := by decide

/-- C12, step zero: the first use raises ValueError, but the second one AttributeError (the cache was marked as filled before the
exception). -/
theorem C12_step_zero :
    let st := run (init false [0, 1, 2]) [.mk false none ⟨none, none, some 0⟩]
    (step st (.use 0 .len)).1 = .error .ValueError ∧
    (step (step st (.use 0 .len)).2 (.use 0 .len)).1 = .error .AttributeError := by decide

end Unpy.Props
