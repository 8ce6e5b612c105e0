import Verif.Model.ViewEq
import Verif.Spec.ViewEq
import Verif.Props.View
/-! # C129: views compare and print like the sequences they show -/
namespace Unpy.Props
open Unpy Unpy.View Unpy.Spec.View
universe u
variable {α : Type u}

private theorem eqLoop_eq (ne : α → α → Res Bool) (ps : List (α × α)) :
    eqLoop ne ps = match ps.find? (fun p => ne p.1 p.2 ≠ .ok false) with
      | none => .ok true
      | some p => match ne p.1 p.2 with
        | .ok _ => .ok false
        | .error e => .error e := by
  induction ps with
  | nil => rfl
  | cons p ps ih =>
    obtain ⟨a, b⟩ := p
    simp only [eqLoop, List.find?_cons]
    rcases h : ne a b with e | _ | _
    · simp [h]
    · simpa using ih
    · simp [h]

private theorem run_snoc (st : St α) (ops : List (Op α)) (op : Op α) : run st (ops ++ [op]) = (step (run st ops) op).2 := by
  simp [run]

private theorem made_snoc (ro₀ : Bool) (ops : List (Op α)) (v : Nat) (u : Use α) : made ro₀ (ops ++ [.use v u]) = made ro₀ ops := by
  simp [made, track]

private theorem nonzero_snoc {ops : List (Op α)} (h : NonzeroSteps ops) (v : Nat) (u : Use α) : NonzeroSteps (ops ++ [.use v u]) := by
  intro op hop
  rcases List.mem_append.1 hop with hop | hop
  · exact h op hop
  · rw [List.mem_singleton] at hop; subst hop; trivial

private theorem lenOf_run (ro₀ : Bool) (l₀ : List α) (ops : List (Op α)) (hops : NonzeroSteps ops) (v : Nat) (ro : Bool) (c : List Slice) (hv : (made ro₀ ops)[v]? = some (ro, c)) (hc : Determined c) :
    lenOf (run (init ro₀ l₀) ops) v = (.ok (contents (run (init ro₀ l₀) ops).data c).length, run (init ro₀ l₀) (ops ++ [.use v .len])) ∧
      (run (init ro₀ l₀) (ops ++ [.use v .len])).data = (run (init ro₀ l₀) ops).data := by
  obtain ⟨h1, h2⟩ := C12_live_partial ro₀ l₀ ops hops v ro c hv hc .len
  simp only [Spec.View.use] at h1 h2
  rw [run_snoc]
  refine ⟨?_, h2⟩
  rcases hs : step (run (init ro₀ l₀) ops) (.use v .len) with ⟨r, st⟩
  rw [hs] at h1
  simp only at h1
  subst h1
  simp [lenOf, hs]

private theorem itemsOf_run (ro₀ : Bool) (l₀ : List α) (ops : List (Op α)) (hops : NonzeroSteps ops) (v : Nat) (ro : Bool) (c : List Slice) (hv : (made ro₀ ops)[v]? = some (ro, c)) (hc : Determined c) :
    itemsOf (run (init ro₀ l₀) ops) v = (.ok (contents (run (init ro₀ l₀) ops).data c), run (init ro₀ l₀) (ops ++ [.use v .iter])) ∧
      (run (init ro₀ l₀) (ops ++ [.use v .iter])).data = (run (init ro₀ l₀) ops).data := by
  obtain ⟨h1, h2⟩ := C12_live_partial ro₀ l₀ ops hops v ro c hv hc .iter
  simp only [Spec.View.use] at h1 h2
  rw [run_snoc]
  refine ⟨?_, h2⟩
  rcases hs : step (run (init ro₀ l₀) ops) (.use v .iter) with ⟨r, st⟩
  rw [hs] at h1
  simp only at h1
  subst h1
  simp [itemsOf, hs]

private theorem sameItems_eq (ne : α → α → Res Bool) (l l' : List α) : sameItems ne l l' = if l.length ≠ l'.length then .ok false else eqLoop ne (l.zip l') := by
  rw [sameItems, eqLoop_eq]
  by_cases h : l.length = l'.length
  · simp only [h, if_true, ne_eq, not_true, if_false]; rfl
  · simp [h]

/-- C129: after any history (see C12, also for the condition on nested slices), a view is equal to a list, tuple or other sequence exactly if the part of the data it shows now has the same length and no item differs.  Comparing changes nothing.  Missing: what is not a sequence (`C129_unsized_refuted`, `C129_unordered_refuted`). -/
theorem C129_eq_partial (ne : α → α → Res Bool) (ro₀ : Bool) (l₀ : List α) (ops : List (Op α)) (hops : NonzeroSteps ops) (v : Nat) (ro : Bool) (c : List Slice) (hv : (made ro₀ ops)[v]? = some (ro, c)) (hc : Determined c) (l : List α) :
    let st := run (init ro₀ l₀) ops
    (View.eq ne st v (.seq l)).1 = sameItems ne (contents st.data c) l ∧ (View.eq ne st v (.seq l)).2.data = st.data := by
  obtain ⟨h1, h2⟩ := lenOf_run ro₀ l₀ ops hops v ro c hv hc
  obtain ⟨h3, h4⟩ := itemsOf_run ro₀ l₀ _ (nonzero_snoc hops v .len) v ro c (by rw [made_snoc]; exact hv) hc
  simp only [View.eq, isSame, Other.seq, Bool.false_eq_true, if_false, h1, lenOther, sameItems_eq]
  by_cases h : (contents (run (init ro₀ l₀) ops).data c).length = l.length
  · simp only [h, ne_eq, not_true, if_false, h3, itemsOther]
    exact ⟨by rw [h2], h4.trans h2⟩
  · simp only [ne_eq, h, not_false_eq_true, if_true]
    exact ⟨trivial, h2⟩

/-- C129: likewise two views (of the same data), which are not the same object. -/
theorem C129_eq_views (ne : α → α → Res Bool) (ro₀ : Bool) (l₀ : List α) (ops : List (Op α)) (hops : NonzeroSteps ops) (v w : Nat) (ro ro' : Bool) (c c' : List Slice)
    (hv : (made ro₀ ops)[v]? = some (ro, c)) (hw : (made ro₀ ops)[w]? = some (ro', c')) (hc : Determined c) (hc' : Determined c') :
    let st := run (init ro₀ l₀) ops
    st.vars[v]? ≠ st.vars[w]? →
    (View.eq ne st v (.var w)).1 = sameItems ne (contents st.data c) (contents st.data c') ∧ (View.eq ne st v (.var w)).2.data = st.data := by
  intro st hvw
  obtain ⟨h1, h2⟩ := lenOf_run ro₀ l₀ ops hops v ro c hv hc
  have o1 := nonzero_snoc hops v .len
  obtain ⟨h3, h4⟩ := lenOf_run ro₀ l₀ _ o1 w ro' c' (by rw [made_snoc]; exact hw) hc'
  have o2 := nonzero_snoc o1 w .len
  obtain ⟨h5, h6⟩ := itemsOf_run ro₀ l₀ _ o2 v ro c (by rw [made_snoc, made_snoc]; exact hv) hc
  have o3 := nonzero_snoc o2 v .iter
  obtain ⟨h7, h8⟩ := itemsOf_run ro₀ l₀ _ o3 w ro' c' (by rw [made_snoc, made_snoc, made_snoc]; exact hw) hc'
  simp only [View.eq]
  split
  · rename_i h
    exact absurd (eq_of_beq (by simpa only [isSame] using h)) hvw
  · simp only [st, h1, lenOther, h3, h2, sameItems_eq]
    split
    · exact ⟨rfl, h4.trans h2⟩
    · simp only [h5, itemsOther, h7]
      rw [h6, h4, h2]
      exact ⟨rfl, by rw [h8, h6, h4, h2]⟩

/-- C129: and if they are the same object, then nothing is compared, but the answer is the same if items are equal to themselves.
(Missing: items that are not equal to themselves, see `C129_nan_refuted`.) -/
theorem C129_eq_views_partial (ne : α → α → Res Bool) (hne : ∀ x, ne x x = .ok false) (ro₀ : Bool) (l₀ : List α) (ops : List (Op α)) (hops : NonzeroSteps ops) (v w : Nat) (ro ro' : Bool) (c c' : List Slice)
    (hv : (made ro₀ ops)[v]? = some (ro, c)) (hw : (made ro₀ ops)[w]? = some (ro', c')) (hc : Determined c) (hc' : Determined c') :
    let st := run (init ro₀ l₀) ops
    (View.eq ne st v (.var w)).1 = sameItems ne (contents st.data c) (contents st.data c') ∧ (View.eq ne st v (.var w)).2.data = st.data := by
  intro st
  by_cases hvw : st.vars[v]? = st.vars[w]?
  · have e1 := (C12_live_partial ro₀ l₀ ops hops v ro c hv hc .iter).1
    have e2 := (C12_live_partial ro₀ l₀ ops hops w ro' c' hw hc' .iter).1
    have : step (run (init ro₀ l₀) ops) (.use v .iter) = step (run (init ro₀ l₀) ops) (.use w .iter) := by
      have : (run (init ro₀ l₀) ops).vars[v]? = (run (init ro₀ l₀) ops).vars[w]? := hvw
      simp only [step, this]
    rw [this, e2] at e1
    simp only [Spec.View.use, Except.ok.injEq, Out.items.injEq] at e1
    have hs : isSame st v (.var w) = true := by simp only [isSame, hvw, beq_self_eq_true]
    simp only [View.eq, hs, if_true]
    refine ⟨?_, trivial⟩
    show _ = sameItems ne (contents (run (init ro₀ l₀) ops).data c) (contents (run (init ro₀ l₀) ops).data c')
    rw [e1, sameItems_eq]
    simp only [ne_eq, not_true, if_false]
    generalize contents (run (init ro₀ l₀) ops).data c = l
    induction l with
    | nil => rfl
    | cons a l ih => simp [eqLoop, hne, ← ih]
  · exact C129_eq_views ne ro₀ l₀ ops hops v w ro ro' c c' hv hw hc hc' hvw

/-- C129: a view is equal to itself, whatever the items are. -/
theorem C129_refl (ne : α → α → Res Bool) (st : St α) (v : Nat) : View.eq ne st v (.var v) = (.ok true, st) := by
  simp [View.eq, isSame]

/-- C129 is violated by items that are not equal to themselves, such as `nan`: a view that begins with one is equal to itself, although it is not equal to a list of the same items. -/
theorem C129_nan_refuted (ne : α → α → Res Bool) (ro₀ : Bool) (l₀ : List α) (ops : List (Op α)) (hops : NonzeroSteps ops) (v : Nat) (ro : Bool) (c : List Slice) (hv : (made ro₀ ops)[v]? = some (ro, c)) (hc : Determined c)
    (x : α) (l : List α) (hx : ne x x = .ok true) (hl : contents (run (init ro₀ l₀) ops).data c = x :: l) :
    (View.eq ne (run (init ro₀ l₀) ops) v (.var v)).1 = .ok true ∧ (View.eq ne (run (init ro₀ l₀) ops) v (.seq (x :: l))).1 = .ok false := by
  refine ⟨by rw [C129_refl], ?_⟩
  rw [(C129_eq_partial ne ro₀ l₀ ops hops v ro c hv hc (x :: l)).1, hl, sameItems_eq]
  simp [eqLoop, hx]

/-- C129: `v == w` and `w == v` are the same, if this holds of the items.
(Missing: objects other than views, see `C129_unsized_refuted` and `C129_unordered_refuted`.) -/
theorem C129_symm_partial (ne : α → α → Res Bool) (hne : ∀ x, ne x x = .ok false) (hs : ∀ x y, ne x y = ne y x) (ro₀ : Bool) (l₀ : List α) (ops : List (Op α)) (hops : NonzeroSteps ops) (v w : Nat) (ro ro' : Bool) (c c' : List Slice)
    (hv : (made ro₀ ops)[v]? = some (ro, c)) (hw : (made ro₀ ops)[w]? = some (ro', c')) (hc : Determined c) (hc' : Determined c') :
    let st := run (init ro₀ l₀) ops
    (View.eq ne st v (.var w)).1 = (View.eq ne st w (.var v)).1 := by
  intro st
  rw [(C129_eq_views_partial ne hne ro₀ l₀ ops hops v w ro ro' c c' hv hw hc hc').1, (C129_eq_views_partial ne hne ro₀ l₀ ops hops w v ro' ro c' c hw hv hc' hc).1, sameItems_eq, sameItems_eq]
  generalize contents (run (init ro₀ l₀) ops).data c = l
  generalize contents (run (init ro₀ l₀) ops).data c' = l'
  have key : ∀ l l' : List α, eqLoop ne (l.zip l') = eqLoop ne (l'.zip l) := by
    intro l
    induction l with
    | nil => intro l'; simp
    | cons a l ih => intro l'; cases l' with
      | nil => simp
      | cons b l' => simp [eqLoop, hs a b, ih]
  rw [key]
  simp only [ne_eq, eq_comm (a := l.length)]

/-- C129 is violated: comparing a view with something that has no length, for example a number or None, raises TypeError instead of being False. -/
theorem C129_unsized_refuted (ne : α → α → Res Bool) (ro₀ : Bool) (l₀ : List α) (ops : List (Op α)) (hops : NonzeroSteps ops) (v : Nat) (ro : Bool) (c : List Slice) (hv : (made ro₀ ops)[v]? = some (ro, c)) (hc : Determined c) (items : Option (List α)) :
    (View.eq ne (run (init ro₀ l₀) ops) v (.obj none items)).1 = .error .TypeError := by
  obtain ⟨h1, h2⟩ := lenOf_run ro₀ l₀ ops hops v ro c hv hc
  simp [View.eq, isSame, h1, lenOther]

/-- C129 is violated: a view is equal also to what is not a sequence at all, but a set or dictionary, if iterating over this gives the same items. -/
theorem C129_unordered_refuted (ne : α → α → Res Bool) (hne : ∀ x, ne x x = .ok false) (ro₀ : Bool) (l₀ : List α) (ops : List (Op α)) (hops : NonzeroSteps ops) (v : Nat) (ro : Bool) (c : List Slice) (hv : (made ro₀ ops)[v]? = some (ro, c)) (hc : Determined c)
    (keys : List α) (hk : keys = contents (run (init ro₀ l₀) ops).data c) :
    (View.eq ne (run (init ro₀ l₀) ops) v (.obj (some keys.length) (some keys))).1 = .ok true := by
  have := (C129_eq_partial ne ro₀ l₀ ops hops v ro c hv hc keys).1
  rw [Other.seq] at this
  rw [this, ← hk, sameItems_eq]
  simp only [ne_eq, not_true, if_false]
  clear this hk
  induction keys with
  | nil => rfl
  | cons a l ih => simp [eqLoop, hne, ← ih]

/-- C129: printing a view shows the part of the sequence that is in view now, as a sequence of the same type, except for strings and ranges.
(Missing: these, see `C129_shown_refuted`.) -/
theorem C129_shown_partial (generator : List α) (kind : Kind) (hk : kind ≠ .str ∧ kind ≠ .range) (ro₀ : Bool) (l₀ : List α) (ops : List (Op α)) (hops : NonzeroSteps ops) (v : Nat) (ro : Bool) (c : List Slice)
    (hv : (made ro₀ ops)[v]? = some (ro, c)) (hc : Determined c) :
    let st := run (init ro₀ l₀) ops
    (shown generator kind st v).1 = .ok (part kind (contents st.data c)) ∧ (shown generator kind st v).2.data = st.data := by
  obtain ⟨h1, h2⟩ := itemsOf_run ro₀ l₀ ops hops v ro c hv hc
  simp only [shown, h1]
  refine ⟨?_, h2⟩
  cases kind <;> simp_all [lowlevelRepr, part]

/-- C129 is violated for views of strings and ranges: of a string, a view shows the text `<generator object ...>`, and for a range, even printing it is a TypeError. -/
theorem C129_shown_refuted (generator : List α) (ro₀ : Bool) (l₀ : List α) (ops : List (Op α)) (hops : NonzeroSteps ops) (v : Nat) (ro : Bool) (c : List Slice) (hv : (made ro₀ ops)[v]? = some (ro, c)) (hc : Determined c) :
    let st := run (init ro₀ l₀) ops
    (shown generator .str st v).1 = .ok ⟨.str, generator⟩ ∧ (shown generator .range st v).1 = .error .TypeError := by
  obtain ⟨h1, h2⟩ := itemsOf_run ro₀ l₀ ops hops v ro c hv hc
  simp [shown, h1, lowlevelRepr]

/-! ### `lst = [1, 2, 3]; v = view(lst); w = v[1:]; lst = [4, 5, 6, 7]` -/

private def opsEq : List (Op Nat) := [.mk false none noop, .slice 0 ⟨some 1, none, none⟩, .use 1 .iter, .mutate [4, 5, 6, 7]]
private def neNat (a b : Nat) : Res Bool := .ok (a != b)

example : NonzeroSteps opsEq := by simp [NonzeroSteps, opsEq, noop, Slice.by]
example : (made false opsEq)[1]? = some (false, [noop, ⟨some 1, none, none⟩]) := rfl
example : Determined [noop, ⟨some 1, none, none⟩] := stable_determined _ (by simp [Stable, Anchored, noop, Slice.by])
example : (View.eq neNat (run (init false [1, 2, 3]) opsEq) 1 (.seq [5, 6, 7])).1 = .ok true := by decide
example : (View.eq neNat (run (init false [1, 2, 3]) opsEq) 1 (.seq [5, 6])).1 = .ok false := by decide
example : (View.eq neNat (run (init false [1, 2, 3]) opsEq) 1 (.var 0)).1 = .ok false := by decide
example : (shown [] .tuple (run (init false [1, 2, 3]) opsEq) 1).1 = .ok ⟨.tuple, [5, 6, 7]⟩ := by decide

end Unpy.Props
