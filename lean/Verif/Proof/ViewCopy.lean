import Verif.Spec.ViewCopy
import Verif.Proof.View
/-! Helper lemmas for C138. -/
namespace Unpy.View
open Unpy Unpy.Spec.View
universe u
variable {α : Type u}

theorem copyAll_eq (ps qs : List Int) (data items : List α) (hp : ∀ x ∈ ps, 0 ≤ x ∧ x < data.length) (hq : ∀ x ∈ qs, 0 ≤ x ∧ x < data.length)
    (hlen : items.length = qs.length) (hit : ∀ (m : Nat) q, m < ps.length → qs[m]? = some q → data[q.toNat]? = items[m]?) (hn : NotAhead ps qs) :
    copyAll data ps qs = (.ok (), assignAt data ps items) := by
  induction ps generalizing qs data items with
  | nil => simp [copyAll, assignAt]
  | cons p ps ih =>
    cases qs with
    | nil =>
      have : items = [] := List.length_eq_zero_iff.mp (by simpa using hlen)
      subst this
      simp [copyAll, assignAt]
    | cons q qs =>
      cases items with
      | nil => simp at hlen
      | cons a items =>
        have h0 := hit 0 q (by simp) rfl
        simp only [List.getElem?_cons_zero] at h0
        have hp0 := hp p (by simp)
        simp only [copyAll, h0]
        rw [if_neg (by omega)]
        have e : assignAt data (p :: ps) (a :: items) = assignAt (data.set p.toNat a) ps items := rfl
        rw [e]
        refine ih qs _ items (fun x hx => by rw [List.length_set]; exact hp x (by simp [hx])) (fun x hx => by rw [List.length_set]; exact hq x (by simp [hx]))
          (by simpa using hlen) ?_ ?_
        · intro m x hm hx
          have h1 := hit (m + 1) x (by simp; omega) (by simpa using hx)
          simp only [List.getElem?_cons_succ] at h1
          rw [← h1, List.getElem?_set_ne]
          intro e
          have hxr := hq x (by simp [List.mem_of_getElem? hx])
          have := hn 0 (m + 1) p (by omega) (by simp; omega) rfl
          apply this
          rw [List.getElem?_cons_succ, hx, show x = p from by omega]
        · intro a b x hab hb h1 h2
          exact hn (a + 1) (b + 1) x (by omega) (by simp; omega) (by simpa using h1) (by simpa using h2)

/-- what the assignment does, for views that are not stale -/
theorem copySlice_spec {st : St α} {rd md cs} (h : Hist Determined (fun _ => True) st rd md cs) (v : Nat) (c : List Slice)
    (hv : md[v]? = some (false, c)) (hc : Determined c) (src : Live) (c' : List Slice) (hs : through md src = some c') (hc' : Determined c')
    (k : Slice) :
    (k.by = 0 → (copySlice st v k src).1 = .error .ValueError ∧ (copySlice st v k src).2.data = st.data) ∧
    (k.by ≠ 0 → (copySlice st v k src).1 = (match (copyAll st.data (positions st.data.length (c ++ [k])) (positions st.data.length c')).1 with
        | .ok _ => .ok .unit
        | .error e => .error e) ∧
      (copySlice st v k src).2.data = (copyAll st.data (positions st.data.length (c ++ [k])) (positions st.data.length c')).2) := by
  have hPN : Cond Determined (fun _ => True) :=
    ⟨fun c s h => det_pre h, fun c s n n' h _ _ hl => h c s (List.prefix_refl _) n n' hl⟩
  have hlt : v < st.vars.length := by rw [h.vars.1]; exact (List.getElem?_eq_some_iff.mp hv).1
  obtain ⟨o, ac, sc, a1, a2, a3, a4, a5⟩ := h.vars.2 v _ (List.getElem?_eq_getElem hlt)
  rw [hv] at a3
  simp only [Option.some.injEq, Prod.mk.injEq] at a3
  obtain ⟨ho, rfl⟩ := a3
  obtain ⟨b1, b2, b3⟩ := update_spec hPN _ st h.wf h.inv h.n _ ac a2 (Nat.lt_succ_self _)
  have b3 := b3 (a5 hc)
  simp only [copySlice, List.getElem?_eq_getElem hlt, a1, ← ho, Bool.false_eq_true, if_false]
  rcases hu : updateCache st (st.vars[v] + 1) st.vars[v] with ⟨r, st1⟩
  rw [hu] at b1 b2 b3
  simp only at b1 b2 b3
  subst b3
  simp only
  -- the right-hand side
  have hit : ∃ st2, iterOf st1 src = (.ok (positions st.data.length c'), st2) ∧ st2.data = st.data := by
    cases src with
    | seq =>
      simp only [through, Option.some.injEq] at hs
      subst hs
      exact ⟨st1, by simp only [iterOf, rng_eq, b1.data], b1.data⟩
    | var w =>
      simp only [through, Option.map_eq_some_iff] at hs
      obtain ⟨⟨ro', c2⟩, hw, rfl⟩ := hs
      have hltw : w < st.vars.length := by rw [h.vars.1]; exact (List.getElem?_eq_some_iff.mp hw).1
      obtain ⟨o', ac', sc', d1, d2, d3, d4, d5⟩ := h.vars.2 w _ (List.getElem?_eq_getElem hltw)
      rw [hw] at d3
      simp only [Option.some.injEq, Prod.mk.injEq] at d3
      obtain ⟨-, rfl⟩ := d3
      obtain ⟨e1, e2, e3⟩ := update_spec hPN _ st1 (h.wf.shape b1) b2 trivial _ ac' d2 (Nat.lt_succ_self _)
      have e3 := e3 (d5 hc')
      simp only [iterOf, b1.vars, List.getElem?_eq_getElem hltw]
      rcases hu' : updateCache st1 (st.vars[w] + 1) st.vars[w] with ⟨r', st2⟩
      rw [hu'] at e1 e3
      simp only at e1 e3
      subst e3
      exact ⟨st2, by rw [b1.data, d4], e1.data.trans b1.data⟩
  obtain ⟨st2, f1, f2⟩ := hit
  simp only [f1]
  constructor
  · intro hk
    simp only [rangeSlice, hk, if_true]
    exact ⟨trivial, f2⟩
  · intro hk
    simp only [rangeSlice_ok hk, a4, ← positions_snoc, f2]
    exact ⟨rfl, trivial⟩

/-! ### running ahead -/

/-- each item is copied to the next place -/
theorem copyAll_smear (m j : Nat) (data : List α) (a : α) (hj : data[j]? = some a) (hm : j + m < data.length) :
    ∃ r, copyAll data ((List.range' (j + 1) m).map (fun k : Nat => (k : Int))) ((List.range' j (m + 1)).map (fun k : Nat => (k : Int))) = (.ok (), r) ∧
      ∀ i : Nat, r[i]? = if j < i ∧ i ≤ j + m then some a else data[i]? := by
  induction m generalizing j data with
  | zero =>
    refine ⟨data, rfl, fun i => ?_⟩
    rw [if_neg (by omega)]
  | succ m ih =>
    rw [List.range'_succ (n := m), List.range'_succ (n := m + 1)]
    simp only [List.map_cons, copyAll, Int.toNat_natCast, hj]
    rw [if_neg (by omega)]
    have hset : (data.set (j + 1) a)[j + 1]? = some a := List.getElem?_set_self (by omega)
    obtain ⟨r, h1, h2⟩ := ih (j + 1) (data.set (j + 1) a) hset (by rw [List.length_set]; omega)
    refine ⟨r, h1, fun i => ?_⟩
    rw [h2]
    by_cases h : j + 1 < i ∧ i ≤ j + 1 + m
    · rw [if_pos h, if_pos (by omega)]
    · rw [if_neg h]
      by_cases hi : i = j + 1
      · subst hi; rw [hset, if_pos (by omega)]
      · rw [List.getElem?_set_ne (by omega), if_neg (by omega)]

/-- backwards onto itself: the second half has been overwritten when it is read -/
theorem copyAll_mirror (l : List α) (t m : Nat) (data : List α) (hm : t + m = l.length) (hlen : data.length = l.length)
    (hd : ∀ i : Nat, i < l.length → data[i]? = if l.length < i + 1 + t then l[min i (l.length - 1 - i)]? else l[i]?) :
    ∃ r, copyAll data (((List.range m).reverse).map (fun k : Nat => (k : Int))) ((List.range' t m).map (fun k : Nat => (k : Int))) = (.ok (), r) ∧
      r.length = l.length ∧ ∀ i : Nat, i < l.length → r[i]? = l[min i (l.length - 1 - i)]? := by
  induction m generalizing t data with
  | zero =>
    refine ⟨data, rfl, hlen, fun i hi => ?_⟩
    rw [hd i hi, if_pos (by omega)]
  | succ m ih =>
    have hr : data[t]? = l[min t m]? := by
      rw [hd t (by omega)]
      split
      · congr 1; omega
      · congr 1; omega
    have hx := List.getElem?_eq_getElem (l := l) (i := min t m) (by omega)
    rw [hx] at hr
    rw [List.range'_succ, List.range_succ, List.reverse_append]
    simp only [List.reverse_cons, List.reverse_nil, List.nil_append, List.singleton_append, List.map_cons, copyAll, Int.toNat_natCast, hr]
    rw [if_neg (by omega)]
    refine ih (t + 1) (data.set m _) (by omega) (by rw [List.length_set]; exact hlen) ?_
    intro i hi
    by_cases him : i = m
    · subst him
      rw [List.getElem?_set_self (by omega), if_pos (by omega), ← hx]
      congr 1; omega
    · rw [List.getElem?_set_ne (by omega), hd i hi]
      by_cases h : l.length < i + 1 + t
      · rw [if_pos h, if_pos (by omega)]
      · rw [if_neg h, if_neg (by omega)]

theorem positions_tail (n : Nat) : positions n [noop, ⟨some 1, none, none⟩] = (List.range' 1 (n - 1)).map (fun k : Nat => (k : Int)) := by
  have e : positions n [noop, ⟨some 1, none, none⟩] = pySlice (positions n [noop]) ⟨some 1, none, none⟩ := rfl
  have e2 : positions n [noop] = rng n := by
    have : positions n [noop] = pySlice (rng n) noop := rfl
    rw [this, pySlice_noop]
  rw [e, e2]
  apply List.ext_getElem?
  intro k
  rw [pySlice_getElem?]
  have hl : (rng n).length = n := by simp [rng]
  unfold Slice.indices
  rw [pyRange_getElem?, hl]
  have h3 : Slice.by ⟨some 1, none, none⟩ = 1 := rfl
  have h2 : Slice.stopIn ⟨some 1, none, none⟩ n = n := rfl
  have h1 : n = 0 ∧ Slice.startIn ⟨some 1, none, none⟩ n = 0 ∨ 0 < n ∧ Slice.startIn ⟨some 1, none, none⟩ n = 1 := by
    cases n with
    | zero => exact .inl ⟨rfl, rfl⟩
    | succ n => right; refine ⟨by omega, ?_⟩; simp [Slice.startIn]; try omega
  have hk := rangeLen_pos (a := Slice.startIn ⟨some 1, none, none⟩ n) (b := (n : Int)) (s := 1) (by decide) k
  rw [h2, h3]
  simp only [rng, List.getElem?_map]
  by_cases hlt : k < n - 1
  · obtain ⟨_, h1⟩ := h1.resolve_left (by omega)
    rw [if_pos (hk.mpr (by rw [h1]; omega)), List.getElem?_range' hlt, h1]
    simp only [Option.bind_some]
    rw [show ((1 : Int) + (k : Int) * 1).toNat = 1 + k from by omega, List.getElem?_range (by omega)]
    simp
  · rw [if_neg (by rw [hk]; rcases h1 with ⟨_, h1⟩ | ⟨_, h1⟩ <;> rw [h1] <;> omega), List.getElem?_eq_none (by simp; omega)]
    rfl

end Unpy.View
