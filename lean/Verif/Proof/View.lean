import Verif.Spec.View
import Verif.Proof.PySlice
import Verif.Proof.Slices
/-! Helper lemmas for C12. -/
namespace Unpy.View
open Unpy Unpy.Spec.View
universe u
variable {α : Type u}

theorem rng_eq (n : Nat) : rng n = positions n [] := rfl

theorem positions_snoc (n : Nat) (c : List Slice) (s : Slice) : positions n (c ++ [s]) = pySlice (positions n c) s := by
  simp [positions, List.foldl_append]

theorem pySlice_noop (l : List β) : pySlice l noop = l := by
  apply List.ext_getElem?
  intro k
  rw [pySlice_getElem?]
  have : (noop : Slice).indices l.length = rng l.length := by
    apply List.ext_getElem?
    intro k
    unfold Slice.indices
    rw [pyRange_getElem?]
    have hk := rangeLen_pos (a := noop.startIn l.length) (b := noop.stopIn l.length) (s := noop.by) (by decide) k
    have h1 : noop.startIn l.length = 0 := rfl
    have h2 : noop.stopIn l.length = l.length := rfl
    have h3 : noop.by = 1 := rfl
    rw [h1, h2, h3] at hk ⊢
    simp only [rng, List.getElem?_map]
    by_cases h : k < l.length
    · rw [if_pos (hk.mpr (by simp; omega)), List.getElem?_range h]; simp
    · rw [if_neg (by rw [hk]; simp; omega), List.getElem?_eq_none (by simp; omega)]; simp
  rw [this]
  simp only [rng, List.getElem?_map]
  by_cases h : k < l.length
  · rw [List.getElem?_range h]; simp
  · rw [List.getElem?_eq_none (by simp; omega), List.getElem?_eq_none (by omega)]; simp

theorem snocInd {P : List β → Prop} (h0 : P []) (h1 : ∀ l a, P l → P (l ++ [a])) : ∀ l, P l := by
  intro l
  have : ∀ m : List β, P m.reverse := by
    intro m
    induction m with
    | nil => exact h0
    | cons a m ih => rw [List.reverse_cons]; exact h1 _ _ ih
  have := this l.reverse
  rwa [List.reverse_reverse] at this

theorem positions_range (n : Nat) (c : List Slice) : ∀ x ∈ positions n c, 0 ≤ x ∧ x < n := by
  induction c using snocInd with
  | h0 => intro x hx; simp [positions] at hx; obtain ⟨a, ha, rfl⟩ := hx; omega
  | h1 c s ih =>
    intro x hx
    rw [positions_snoc] at hx
    unfold pySlice at hx
    obtain ⟨i, _, hi⟩ := List.mem_filterMap.mp hx
    exact ih x (List.mem_of_getElem? hi)

theorem contents_getElem? (data : List α) (c : List Slice) (k : Nat) :
    (contents data c)[k]? = ((positions data.length c)[k]?).bind (fun j => data[j.toNat]?) := by
  have key : ∀ c : List Slice, (contents data c).length = (positions data.length c).length ∧
      ∀ k : Nat, (contents data c)[k]? = ((positions data.length c)[k]?).bind (fun j => data[j.toNat]?) := by
    intro c
    induction c using snocInd with
    | h0 =>
      refine ⟨by simp [contents, positions], fun k => ?_⟩
      simp only [contents, positions, List.foldl_nil, List.getElem?_map]
      by_cases h : k < data.length
      · rw [List.getElem?_range h]; simp
      · rw [List.getElem?_eq_none (l := List.range data.length) (by simp; omega), List.getElem?_eq_none (by omega)]; simp
    | h1 c s ih =>
      have hr : contents data (c ++ [s]) = pySlice (contents data c) s := by simp [contents, List.foldl_append]
      rw [hr, positions_snoc]
      refine ⟨by rw [pySlice_length, pySlice_length, ih.1], fun k => ?_⟩
      rw [pySlice_getElem?, pySlice_getElem?, ih.1]
      cases (s.indices (positions data.length c).length)[k]? with
      | none => rfl
      | some i => simp only [Option.bind_some, ih.2]
  exact (key c).2 k

theorem contents_length (data : List α) (c : List Slice) : (contents data c).length = (positions data.length c).length := by
  have h : ∀ k, k < (contents data c).length ↔ k < (positions data.length c).length := by
    intro k
    have := contents_getElem? data c k
    constructor
    · intro hk
      rw [List.getElem?_eq_getElem hk] at this
      cases h : (positions data.length c)[k]? with
      | none => rw [h] at this; simp at this
      | some j => exact (List.getElem?_eq_some_iff.mp h).1
    · intro hk
      rw [List.getElem?_eq_getElem hk] at this
      have hr := positions_range data.length c _ (List.getElem_mem hk)
      simp only [Option.bind_some] at this
      rw [List.getElem?_eq_getElem (show (positions data.length c)[k].toNat < data.length by omega)] at this
      exact (List.getElem?_eq_some_iff.mp this).1
  have h1 := h (contents data c).length
  have h2 := h (positions data.length c).length
  omega

theorem readAll_eq (data : List α) (r : List Int) (h : ∀ x ∈ r, 0 ≤ x ∧ x < data.length) :
    readAll data r = .ok (r.filterMap (fun j => data[j.toNat]?)) := by
  induction r with
  | nil => rfl
  | cons j r ih =>
    have hj := h j (by simp)
    rw [readAll, List.getElem?_eq_getElem (by omega), ih (fun x hx => h x (by simp [hx]))]
    simp [List.getElem?_eq_getElem (show j.toNat < data.length by omega)]

theorem readAll_positions (data : List α) (c : List Slice) : readAll data (positions data.length c) = .ok (contents data c) := by
  rw [readAll_eq data _ (positions_range _ _)]
  congr 1
  apply List.ext_getElem?
  intro k
  rw [contents_getElem?, filterMap_total]
  intro x hx
  have := positions_range _ _ x hx
  exact ⟨_, List.getElem?_eq_getElem (by omega)⟩

theorem writeAll_eq (ps : List (Int × α)) (data : List α) (h : ∀ p ∈ ps, 0 ≤ p.1 ∧ p.1 < data.length) :
    writeAll data ps = (.ok (), ps.foldl (fun l p => l.set p.1.toNat p.2) data) := by
  induction ps generalizing data with
  | nil => rfl
  | cons p ps ih =>
    obtain ⟨j, a⟩ := p
    have hj := h (j, a) (by simp)
    simp only at hj
    rw [writeAll, if_neg (by omega), ih _ (by intro p hp; rw [List.length_set]; exact h p (by simp [hp]))]
    rfl

theorem writeAll_length (ps : List (Int × α)) (data : List α) : (writeAll data ps).2.length = data.length := by
  induction ps generalizing data with
  | nil => rfl
  | cons p ps ih =>
    obtain ⟨j, a⟩ := p
    rw [writeAll]; split
    · rfl
    · rw [ih, List.length_set]

/-! ### the heap -/

/-- two states that differ only in the caches of views `≤ i` -/
structure Shape (st st' : St α) (i : Nat) : Prop where
  data : st'.data = st.data
  roData : st'.roData = st.roData
  vars : st'.vars = st.vars
  len : st'.heap.length = st.heap.length
  obj : ∀ (j : Nat) o, st.heap[j]? = some o → ∃ o', st'.heap[j]? = some o' ∧ o'.ro = o.ro ∧ o'.parent = o.parent ∧ o'.slice = o.slice ∧
    (i < j → o' = o)

theorem Shape.refl (st : St α) (i : Nat) : Shape st st i :=
  ⟨rfl, rfl, rfl, rfl, fun _ o h => ⟨o, h, rfl, rfl, rfl, fun _ => rfl⟩⟩

theorem Shape.trans {st st1 st2 : St α} {i : Nat} (h1 : Shape st st1 i) (h2 : Shape st1 st2 i) : Shape st st2 i := by
  refine ⟨h2.data.trans h1.data, h2.roData.trans h1.roData, h2.vars.trans h1.vars, h2.len.trans h1.len, ?_⟩
  intro j o h
  obtain ⟨o1, a1, b1, c1, d1, e1⟩ := h1.obj j o h
  obtain ⟨o2, a2, b2, c2, d2, e2⟩ := h2.obj j o1 a1
  exact ⟨o2, a2, b2.trans b1, c2.trans c1, d2.trans d1, fun hj => (e2 hj).trans (e1 hj)⟩

theorem Shape.mono {st st1 : St α} {i k : Nat} (h1 : Shape st st1 i) (hik : i ≤ k) : Shape st st1 k :=
  ⟨h1.data, h1.roData, h1.vars, h1.len, fun j o h => by
    obtain ⟨o1, a1, b1, c1, d1, e1⟩ := h1.obj j o h
    exact ⟨o1, a1, b1, c1, d1, fun hj => e1 (by omega)⟩⟩

/-- `cs` lists, for each view object, the slices through which it looks at the sequence. -/
def WF (heap : List Obj) (cs : List (List Slice)) : Prop :=
  cs.length = heap.length ∧ (∀ c ∈ cs, ∀ s ∈ c, s.by ≠ 0) ∧
  ∀ (j : Nat) o, heap[j]? = some o → match o.parent with
    | none => cs[j]? = some [o.slice]
    | some p => p < j ∧ ∃ cp, cs[p]? = some cp ∧ cs[j]? = some (cp ++ [o.slice])

theorem WF.shape {st st' : St α} {i : Nat} {cs} (h : WF st.heap cs) (hs : Shape st st' i) : WF st'.heap cs := by
  refine ⟨h.1.trans hs.len.symm, h.2.1, ?_⟩
  intro j o' ho'
  have hj : j < st.heap.length := by rw [← hs.len]; exact (List.getElem?_eq_some_iff.mp ho').1
  obtain ⟨o1, a1, b1, c1, d1, e1⟩ := hs.obj j _ (List.getElem?_eq_getElem hj)
  rw [ho'] at a1; cases a1
  have := h.2.2 j _ (List.getElem?_eq_getElem hj)
  rw [c1, d1]; exact this

/-- The cache invariant for the views whose slices satisfy `P`, where `N` are the lengths the sequence can have had. -/
def Inv (P : List Slice → Prop) (N : Nat → Prop) (heap : List Obj) (cs : List (List Slice)) : Prop :=
  ∀ (j : Nat) o c s, heap[j]? = some o → cs[j]? = some (c ++ [s]) → P (c ++ [s]) → ∀ q, o.seql = some q →
    ∃ n, N n ∧ q = (positions n c).length ∧ o.cache = some (positions n (c ++ [s]))

/-- what is needed of `P` and `N` -/
structure Cond (P : List Slice → Prop) (N : Nat → Prop) : Prop where
  pre : ∀ c s, P (c ++ [s]) → P c
  det : ∀ c s n n', P (c ++ [s]) → N n → N n' → (positions n c).length = (positions n' c).length →
    positions n (c ++ [s]) = positions n' (c ++ [s])

theorem rangeSlice_ok {r : List Int} {s : Slice} (h : s.by ≠ 0) : rangeSlice r s = .ok (pySlice r s) := by
  rw [rangeSlice, if_neg h]

theorem buildr_spec (st : St α) {cs} (h : WF st.heap cs) (f i : Nat) (c : List Slice) (hc : cs[i]? = some c) (hf : i < f) :
    buildr st f i = .ok (positions st.data.length c) := by
  induction f generalizing i c with
  | zero => omega
  | succ f ih =>
    have hi : i < st.heap.length := by rw [← h.1]; exact (List.getElem?_eq_some_iff.mp hc).1
    have hwf := h.2.2 i _ (List.getElem?_eq_getElem hi)
    have hnz := h.2.1 c (List.mem_of_getElem? hc)
    rw [buildr, List.getElem?_eq_getElem hi]
    generalize st.heap[i] = o at *
    simp only
    cases hp : o.parent with
    | none =>
      rw [hp] at hwf
      simp only at hwf
      rw [hc] at hwf; cases hwf
      simp only
      rw [rangeSlice_ok (hnz _ (by simp))]
      rfl
    | some p =>
      rw [hp] at hwf
      obtain ⟨hpi, cp, h1, h2⟩ := hwf
      rw [hc] at h2; cases h2
      simp only
      rw [ih p cp h1 (by omega)]
      simp only
      rw [rangeSlice_ok (hnz _ (by simp)), positions_snoc]

theorem put_shape (st : St α) (i : Nat) (o o' : Obj) (ho : st.heap[i]? = some o) (h1 : o'.ro = o.ro) (h2 : o'.parent = o.parent)
    (h3 : o'.slice = o.slice) : Shape st (st.put i o') i := by
  refine ⟨rfl, rfl, rfl, by simp [St.put], ?_⟩
  intro j oj hj
  simp only [St.put]
  by_cases hji : j = i
  · subst hji
    rw [ho] at hj; cases hj
    have := (List.getElem?_eq_some_iff.mp ho).1
    exact ⟨o', by simp [this], h1, h2, h3, fun h => by omega⟩
  · exact ⟨oj, by rw [List.getElem?_set_ne (by omega)]; exact hj, rfl, rfl, rfl, fun _ => rfl⟩

theorem update_spec {P N} (hPN : Cond P N) {cs} (f : Nat) (st : St α) (hw : WF st.heap cs) (hi : Inv P N st.heap cs)
    (hn : N st.data.length) (i : Nat) (c : List Slice) (hc : cs[i]? = some c) (hf : i < f) :
    Shape st (updateCache st f i).2 i ∧ Inv P N (updateCache st f i).2.heap cs ∧
    (P c → (updateCache st f i).1 = .ok (positions st.data.length c)) := by
  induction f generalizing st i c with
  | zero => omega
  | succ f ih =>
    have hil : i < st.heap.length := by rw [← hw.1]; exact (List.getElem?_eq_some_iff.mp hc).1
    have ho := List.getElem?_eq_getElem hil
    have hwf := hw.2.2 i _ ho
    generalize st.heap[i] = o at *
    -- the length of `self.seq`
    have hlen : ∃ (cp : List Slice) (L : Res Nat) (st1 : St α), c = cp ++ [o.slice] ∧ updateCache st (f + 1) i =
        (match (L, st1) with
          | (.error e, st1) => (.error e, st1)
          | (.ok seql, st1) =>
            if o.seql ≠ some seql then
              match buildr st1 (i + 1) i with
              | .ok r => (.ok r, st1.put i { o with seql := some seql, cache := some r })
              | .error e => (.error e, st1.put i { o with seql := some seql })
            else
              match o.cache with
              | some r => (.ok r, st1)
              | none => (.error .AttributeError, st1)) ∧
        Shape st st1 i ∧ st1.heap[i]? = some o ∧ Inv P N st1.heap cs ∧
        (P c → L = .ok (positions st.data.length cp).length) := by
      cases hp : o.parent with
      | none =>
        rw [hp] at hwf
        simp only at hwf
        rw [hc] at hwf; cases hwf
        refine ⟨[], .ok st.data.length, st, rfl, ?_, Shape.refl _ _, ho, hi, fun _ => by simp [positions]⟩
        rw [updateCache, ho]
        simp only [hp]
        rfl
      | some p =>
        rw [hp] at hwf
        obtain ⟨hpi, cp, h1, h2⟩ := hwf
        rw [hc] at h2; cases h2
        obtain ⟨s1, s2, s3⟩ := ih st hw hi hn p cp h1 (by omega)
        obtain ⟨o1, a1, _, _, _, e1⟩ := s1.obj i o ho
        have a2 : (updateCache st f p).2.heap[i]? = some o := by rw [a1, e1 hpi]
        cases hr : updateCache st f p with
        | mk r st1 =>
          rw [hr] at s1 s2 s3 a2
          dsimp only at s1 s2 s3 a2
          cases r with
          | error er =>
            refine ⟨cp, .error er, st1, rfl, ?_, s1.mono (by omega), a2, s2, ?_⟩
            · rw [updateCache, ho]; simp only [hp, hr]
            · intro hP
              have := s3 (hPN.pre _ _ hP)
              simp at this
          | ok r =>
            refine ⟨cp, .ok r.length, st1, rfl, ?_, s1.mono (by omega), a2, s2, ?_⟩
            · rw [updateCache, ho]; simp only [hp, hr]; rfl
            · intro hP
              have := s3 (hPN.pre _ _ hP)
              simp only [Except.ok.injEq] at this
              rw [this]
    obtain ⟨cp, L, st1, rfl, he, hsh, ho1, hinv, hL⟩ := hlen
    rw [he]
    cases L with
    | error e =>
      refine ⟨hsh, hinv, fun hP => ?_⟩
      have := hL hP
      simp at this
    | ok seql =>
      simp only
      by_cases hq : o.seql = some seql
      · rw [if_neg (by simp [hq])]
        have hend : Shape st (match o.cache with
              | some r => ((.ok r : Res (List Int)), st1)
              | none => (.error .AttributeError, st1)).2 i ∧
            Inv P N (match o.cache with
              | some r => ((.ok r : Res (List Int)), st1)
              | none => (.error .AttributeError, st1)).2.heap cs := by
          cases o.cache <;> exact ⟨hsh, hinv⟩
        refine ⟨hend.1, hend.2, fun hP => ?_⟩
        obtain ⟨n, hNn, hqn, hcn⟩ := hinv i o cp o.slice ho1 hc hP seql hq
        rw [hcn]
        simp only [Except.ok.injEq]
        have hl := hL hP
        simp only [Except.ok.injEq] at hl
        exact hPN.det _ _ _ _ hP hNn hn (by rw [← hqn, hl])
      · rw [if_pos (by simpa using hq)]
        rw [buildr_spec st1 (hw.shape hsh) (i + 1) i _ hc (by omega), hsh.data]
        simp only
        have hps := put_shape st1 i o { o with seql := some seql, cache := some (positions st.data.length (cp ++ [o.slice])) } ho1 rfl rfl rfl
        refine ⟨hsh.trans hps, ?_, fun _ => trivial⟩
        intro j oj c s hj hcj hP q hqj
        by_cases hji : j = i
        · subst hji
          have hlt : j < st1.heap.length := (List.getElem?_eq_some_iff.mp ho1).1
          simp only [St.put, List.getElem?_set_self hlt] at hj
          simp only [Option.some.injEq] at hj
          subst hj
          rw [hc] at hcj
          simp only [Option.some.injEq] at hcj
          obtain ⟨h1, h2⟩ := List.append_inj' hcj rfl
          simp only [List.cons.injEq, and_true] at h2
          subst h1
          simp only [Option.some.injEq] at hqj
          have hl := hL (by rw [h2]; exact hP)
          simp only [Except.ok.injEq] at hl
          exact ⟨st.data.length, hn, by rw [← hqj, hl], by rw [h2]⟩
        · simp only [St.put] at hj
          rw [List.getElem?_set_ne (by omega)] at hj
          exact hinv j oj c s hj hcj hP q hqj

/-! ### uses and histories -/

theorem Src.take_items (n : Nat) (l : List α) (ps : List Int) (h : ps.length = n) :
    ps.zip ((Src.items l).take n) = ps.zip l := by
  subst h
  simp only [Src.take]
  induction ps generalizing l with
  | nil => simp
  | cons p ps ih => cases l with
    | nil => simp
    | cons a l => simp [ih]

theorem pySlice_rev (l : List β) : pySlice l ⟨none, none, some (-1)⟩ = l.reverse := by
  apply List.ext_getElem?
  intro k
  rw [pySlice_getElem?]
  unfold Slice.indices
  rw [pyRange_getElem?]
  have h1 : Slice.startIn ⟨none, none, some (-1)⟩ l.length = (l.length : Int) - 1 := rfl
  have h2 : Slice.stopIn ⟨none, none, some (-1)⟩ l.length = -1 := rfl
  have h3 : Slice.by ⟨none, none, some (-1)⟩ = -1 := rfl
  have hk := rangeLen_neg (a := (l.length : Int) - 1) (b := -1) (s := -1) (by decide) k
  rw [h1, h2, h3]
  by_cases h : k < l.length
  · rw [if_pos (hk.mpr (by omega)), List.getElem?_reverse h]
    simp only [Option.bind_some]
    congr 1; omega
  · rw [if_neg (by rw [hk]; omega), List.getElem?_eq_none (by simp; omega)]; rfl

/-- the state after a use: data as given, otherwise only caches differ -/
theorem setSlice_spec {P N} (hPN : Cond P N) {cs} (st : St α) (hw : WF st.heap cs) (hi : Inv P N st.heap cs)
    (hn : N st.data.length) (i : Nat) (c : List Slice) (hc : cs[i]? = some c) (k : Slice) (vs : Src α) :
    (∃ st1, Shape st st1 i ∧ Inv P N st1.heap cs ∧
        (setSlice st i k vs).2 = { st1 with data := (setSlice st i k vs).2.data } ∧
        (setSlice st i k vs).2.data.length = st.data.length) ∧
      (P c → (setSlice st i k vs).1 = (Spec.View.use st.data false c (.setSlice k vs)).1 ∧
        (setSlice st i k vs).2.data = (Spec.View.use st.data false c (.setSlice k vs)).2) := by
  obtain ⟨a1, a2, a3⟩ := update_spec hPN (i + 1) st hw hi hn i c hc (by omega)
  unfold setSlice
  cases hr : updateCache st (i + 1) i with
  | mk r st1 =>
    rw [hr] at a1 a2 a3
    dsimp only at a1 a2 a3
    cases r with
    | error e =>
      refine ⟨⟨st1, a1, a2, rfl, by simp only [a1.data]⟩, fun hP => ?_⟩
      have := a3 hP; simp at this
    | ok r =>
      simp only
      by_cases hk : k.by = 0
      · simp only [rangeSlice, hk, if_true]
        refine ⟨⟨st1, a1, a2, rfl, by simp only [a1.data]⟩, fun hP => ?_⟩
        cases vs <;> simp [Spec.View.use, hk, a1.data]
      · simp only [rangeSlice_ok hk]
        refine ⟨⟨st1, a1, a2, rfl, by simp only [writeAll_length, a1.data]⟩, fun hP => ?_⟩
        have hr' := a3 hP
        simp only [Except.ok.injEq] at hr'
        subst hr'
        rw [a1.data]
        rw [← positions_snoc]
        have hb : ∀ p ∈ ((positions st.data.length (c ++ [k])).zip (vs.take (positions st.data.length (c ++ [k])).length)),
            0 ≤ p.1 ∧ p.1 < st.data.length := by
          intro p hp
          exact positions_range _ _ _ (List.of_mem_zip hp).1
        rw [writeAll_eq _ _ hb]
        cases vs with
        | items l =>
          rw [Src.take_items _ _ _ rfl]
          simp [Spec.View.use, hk, assignAt]
        | scalar a =>
          simp [Spec.View.use, hk, assignAt, Src.take]

/-- the state after a use: data as given, otherwise only caches differ -/
theorem use_spec {P N} (hPN : Cond P N) {cs} (st : St α) (hw : WF st.heap cs) (hi : Inv P N st.heap cs)
    (hn : N st.data.length) (i : Nat) (c : List Slice) (hc : cs[i]? = some c) (ro : Bool) (u : Use α) :
    (∃ st1, Shape st st1 i ∧ Inv P N st1.heap cs ∧ (useObj st i ro u).2 = { st1 with data := (useObj st i ro u).2.data } ∧
      (useObj st i ro u).2.data.length = st.data.length) ∧
    (P c → (useObj st i ro u).1 = (Spec.View.use st.data ro c u).1 ∧
      (useObj st i ro u).2.data = (Spec.View.use st.data ro c u).2) := by
  obtain ⟨a1, a2, a3⟩ := update_spec hPN (i + 1) st hw hi hn i c hc (by omega)
  have hslice := setSlice_spec hPN st hw hi hn i c hc
  cases u with
  | setSlice k vs =>
    simp only [useObj]
    cases ro with
    | true =>
      refine ⟨⟨st, Shape.refl _ _, hi, rfl, rfl⟩, fun _ => ?_⟩
      cases vs <;> simp [Spec.View.use]
    | false => exact hslice k vs
  | len =>
    simp only [useObj]
    cases hr : updateCache st (i + 1) i with
    | mk r st1 =>
      rw [hr] at a1 a2 a3
      dsimp only at a1 a2 a3
      cases r with
      | error e =>
        refine ⟨⟨st1, a1, a2, rfl, by simp only [a1.data]⟩, fun hP => ?_⟩
        have := a3 hP; simp at this
      | ok r =>
        refine ⟨⟨st1, a1, a2, rfl, by simp only [a1.data]⟩, fun hP => ?_⟩
        have hr' := a3 hP
        simp only [Except.ok.injEq] at hr'
        subst hr'
        simp [Spec.View.use, contents_length, a1.data]
  | iter =>
    simp only [useObj]
    cases hr : updateCache st (i + 1) i with
    | mk r st1 =>
      rw [hr] at a1 a2 a3
      dsimp only at a1 a2 a3
      cases r with
      | error e =>
        refine ⟨⟨st1, a1, a2, rfl, by simp only [a1.data]⟩, fun hP => ?_⟩
        have := a3 hP; simp at this
      | ok r =>
        refine ⟨⟨st1, a1, a2, rfl, by simp only [a1.data]⟩, fun hP => ?_⟩
        have hr' := a3 hP
        simp only [Except.ok.injEq] at hr'
        subst hr'
        simp only [a1.data, readAll_positions]
        simp [Spec.View.use]
  | get k =>
    simp only [useObj]
    cases hr : updateCache st (i + 1) i with
    | mk r st1 =>
      rw [hr] at a1 a2 a3
      dsimp only at a1 a2 a3
      cases r with
      | error e =>
        refine ⟨⟨st1, a1, a2, rfl, by simp only [a1.data]⟩, fun hP => ?_⟩
        have := a3 hP; simp at this
      | ok r =>
        have hst : ∀ st' : St α, st' = st1 → ∃ st1, Shape st st1 i ∧ Inv P N st1.heap cs ∧ st' = { st1 with data := st'.data } ∧
            st'.data.length = st.data.length := by
          rintro _ rfl; exact ⟨_, a1, a2, rfl, by rw [a1.data]⟩
        simp only
        refine ⟨hst _ ?_, fun hP => ?_⟩
        · split
          · rfl
          · split
            · split <;> rfl
            · rfl
        have hr' := a3 hP
        simp only [Except.ok.injEq] at hr'
        subst hr'
        simp only [Spec.View.use, contents_length, contents_getElem?]
        by_cases hk : k ≥ (positions st.data.length c).length ∨ k < -((positions st.data.length c).length : Int)
        · rw [if_pos hk, if_neg (by omega)]; exact ⟨rfl, a1.data⟩
        · rw [if_neg hk, if_pos (by omega)]
          cases (positions st.data.length c)[(normIdx k (positions st.data.length c).length).toNat]? with
          | none => exact ⟨rfl, a1.data⟩
          | some j =>
            simp only [a1.data, Option.bind_some]
            cases st.data[j.toNat]? with
            | none => exact ⟨rfl, a1.data⟩
            | some a => exact ⟨rfl, a1.data⟩
  | set k a =>
    simp only [useObj]
    cases ro with
    | true => exact ⟨⟨st, Shape.refl _ _, hi, rfl, rfl⟩, fun _ => by simp [Spec.View.use]⟩
    | false =>
    simp only [Bool.false_eq_true, if_false]
    cases hr : updateCache st (i + 1) i with
    | mk r st1 =>
      rw [hr] at a1 a2 a3
      dsimp only at a1 a2 a3
      cases r with
      | error e =>
        refine ⟨⟨st1, a1, a2, rfl, by simp only [a1.data]⟩, fun hP => ?_⟩
        have := a3 hP; simp at this
      | ok r =>
        simp only
        by_cases hk : k ≥ (r.length : Int) ∨ k < -(r.length : Int)
        · rw [if_pos hk]
          refine ⟨⟨st1, a1, a2, rfl, by simp only [a1.data]⟩, fun hP => ?_⟩
          have hr' := a3 hP
          simp only [Except.ok.injEq] at hr'
          subst hr'
          simp only [Spec.View.use, Bool.false_eq_true, if_false]
          rw [if_neg (by omega)]; exact ⟨rfl, a1.data⟩
        · rw [if_neg hk]
          cases hj : r[(normIdx k r.length).toNat]? with
          | none =>
            refine ⟨⟨st1, a1, a2, rfl, by simp only [a1.data]⟩, fun hP => ?_⟩
            have hr' := a3 hP
            simp only [Except.ok.injEq] at hr'
            subst hr'
            simp only [Spec.View.use, Bool.false_eq_true, if_false, hj]
            rw [if_pos (by omega)]; exact ⟨rfl, a1.data⟩
          | some j =>
            refine ⟨⟨st1, a1, a2, rfl, by simp only [writeAll_length, a1.data]⟩, fun hP => ?_⟩
            have hr' := a3 hP
            simp only [Except.ok.injEq] at hr'
            subst hr'
            simp only [Spec.View.use, Bool.false_eq_true, if_false, hj]
            rw [if_pos (by omega), a1.data]
            have := positions_range _ _ _ (List.mem_of_getElem? hj)
            rw [writeAll_eq _ _ (by simpa using this)]
            exact ⟨rfl, rfl⟩
  | reverse =>
    simp only [useObj]
    cases ro with
    | true => exact ⟨⟨st, Shape.refl _ _, hi, rfl, rfl⟩, fun _ => by simp [Spec.View.use]⟩
    | false =>
    simp only [Bool.false_eq_true, if_false]
    cases hr : updateCache st (i + 1) i with
    | mk r st1 =>
      rw [hr] at a1 a2 a3
      dsimp only at a1 a2 a3
      cases r with
      | error e =>
        refine ⟨⟨st1, a1, a2, rfl, by simp only [a1.data]⟩, fun hP => ?_⟩
        have := a3 hP; simp at this
      | ok r =>
        simp only
        cases hl : readAll st1.data r with
        | error e =>
          refine ⟨⟨st1, a1, a2, rfl, by simp only [a1.data]⟩, fun hP => ?_⟩
          have hr' := a3 hP
          simp only [Except.ok.injEq] at hr'
          subst hr'
          rw [a1.data, readAll_positions] at hl; simp at hl
        | ok l =>
          simp only
          obtain ⟨⟨st2, b1, b2, b3, b4⟩, b5⟩ := setSlice_spec hPN st1 (hw.shape a1) a2 (by rw [a1.data]; exact hn) i c hc
            ⟨none, none, some (-1)⟩ (.items l)
          refine ⟨⟨st2, a1.trans b1, b2, b3, by rw [b4, a1.data]⟩, fun hP => ?_⟩
          have hr' := a3 hP
          simp only [Except.ok.injEq] at hr'
          subst hr'
          rw [a1.data, readAll_positions] at hl
          simp only [Except.ok.injEq] at hl
          subst hl
          obtain ⟨c1, c2⟩ := b5 hP
          rw [c1, c2, a1.data]
          simp only [Spec.View.use, positions_snoc, pySlice_rev, Bool.false_eq_true, if_false]
          rw [if_neg (by decide)]
          exact ⟨rfl, rfl⟩

theorem det_pre {c : List Slice} {s : Slice} (h : Determined (c ++ [s])) : Determined c :=
  fun p s' hp => h p s' (hp.trans (List.prefix_append _ _))

theorem det_snoc {c : List Slice} {s : Slice} (h : Determined c)
    (hs : ∀ n n', (positions n c).length = (positions n' c).length → positions n (c ++ [s]) = positions n' (c ++ [s])) :
    Determined (c ++ [s]) := by
  intro p s' hp
  rcases List.prefix_concat_iff.mp hp with e | hp'
  · obtain ⟨h1, h2⟩ := List.append_inj' e rfl
    simp only [List.cons.injEq, and_true] at h2
    subst h1; subst h2; exact hs
  · exact h p s' hp'

theorem det_nil : Determined [] := by
  intro p s hp
  have := hp.length_le
  simp at this

/-- the link between a program variable, the object it refers to and how it was made -/
def VarRel (heap : List Obj) (cs : List (List Slice)) (vars : List Nat) (md : List (Bool × List Slice)) : Prop :=
  vars.length = md.length ∧ ∀ (v i : Nat), vars[v]? = some i → ∃ o c sc, heap[i]? = some o ∧ cs[i]? = some c ∧
    md[v]? = some (o.ro, sc) ∧ (∀ n, positions n c = positions n sc) ∧ (Determined sc → Determined c)

structure Hist (P : List Slice → Prop) (N : Nat → Prop) (st : St α) (roData : Bool) (md : List (Bool × List Slice))
    (cs : List (List Slice)) : Prop where
  wf : WF st.heap cs
  inv : Inv P N st.heap cs
  n : N st.data.length
  ro : st.roData = roData
  vars : VarRel st.heap cs st.vars md

theorem get_snoc {l : List β} {a x : β} {i : Nat} (h : (l ++ [a])[i]? = some x) :
    l[i]? = some x ∨ (i = l.length ∧ x = a) := by
  rcases Nat.lt_trichotomy i l.length with hi | hi | hi
  · rw [List.getElem?_append_left hi] at h; exact .inl h
  · subst hi; simp at h; exact .inr ⟨rfl, h.symm⟩
  · rw [List.getElem?_eq_none (by simp; omega)] at h; simp at h

theorem get_snoc_left {l : List β} {a x : β} {i : Nat} (h : l[i]? = some x) : (l ++ [a])[i]? = some x := by
  rw [List.getElem?_append_left (List.getElem?_eq_some_iff.mp h).1]; exact h

/-- allocating a view object -/
theorem Hist.alloc {P N} {st : St α} {rd md cs} (h : Hist P N st rd md cs) (o : Obj) (cp sc : List Slice) (hs : o.slice.by ≠ 0)
    (hseql : o.seql = none)
    (hp : match o.parent with
      | none => cp = []
      | some p => cs[p]? = some cp)
    (hnz : ∀ s ∈ cp, s.by ≠ 0)
    (hsc : ∀ n, positions n (cp ++ [o.slice]) = positions n sc) (hdet : Determined sc → Determined (cp ++ [o.slice])) :
    Hist P N (st.alloc o) rd (md ++ [(o.ro, sc)]) (cs ++ [cp ++ [o.slice]]) := by
  have hlen := h.wf.1
  refine ⟨⟨by simp [St.alloc, hlen], ?_, ?_⟩, ?_, h.n, h.ro, ?_⟩
  · intro c hc s hsm
    rcases List.mem_append.mp hc with hc | hc
    · exact h.wf.2.1 c hc s hsm
    · simp only [List.mem_singleton] at hc; subst hc
      rcases List.mem_append.mp hsm with hsm | hsm
      · exact hnz s hsm
      · simp only [List.mem_singleton] at hsm; subst hsm; exact hs
  · intro j oj hj
    rcases get_snoc hj with hj | ⟨rfl, rfl⟩
    · have := h.wf.2.2 j oj hj
      cases hpar : oj.parent with
      | none => rw [hpar] at this; exact get_snoc_left this
      | some p =>
        rw [hpar] at this
        obtain ⟨h1, cp', h2, h3⟩ := this
        exact ⟨h1, cp', get_snoc_left h2, get_snoc_left h3⟩
    · cases hpar : oj.parent with
      | none => rw [hpar] at hp; simp only at hp; subst hp; simp [← hlen]
      | some p =>
        rw [hpar] at hp
        simp only at hp
        refine ⟨by rw [← hlen]; exact (List.getElem?_eq_some_iff.mp hp).1, cp, get_snoc_left hp, by simp [← hlen]⟩
  · intro j oj c s hj hc hP q hq
    rcases get_snoc hj with hj | ⟨rfl, rfl⟩
    · have hlt : j < cs.length := by rw [hlen]; exact (List.getElem?_eq_some_iff.mp hj).1
      rw [List.getElem?_append_left hlt] at hc
      exact h.inv j oj c s hj hc hP q hq
    · rw [hseql] at hq; simp at hq
  · refine ⟨by simp [St.alloc, h.vars.1], ?_⟩
    intro v i hv
    rcases get_snoc hv with hv | ⟨rfl, rfl⟩
    · obtain ⟨o', c, sc', a1, a2, a3, a4, a5⟩ := h.vars.2 v i hv
      exact ⟨o', c, sc', get_snoc_left a1, get_snoc_left a2, get_snoc_left a3, a4, a5⟩
    · exact ⟨o, cp ++ [o.slice], sc, by simp [St.alloc], by simp [← hlen], by simp [h.vars.1], hsc, hdet⟩

theorem positions_congr_snoc {c sc : List Slice} (h : ∀ n, positions n c = positions n sc) (s : Slice) (n : Nat) :
    positions n (c ++ [s]) = positions n (sc ++ [s]) := by rw [positions_snoc, positions_snoc, h]

theorem Hist.step {P N} (hPN : Cond P N) {st : St α} {rd md cs} (h : Hist P N st rd md cs) (op : Op α)
    (hop : match op with
      | .mk _ _ s | .slice _ s => s.by ≠ 0
      | _ => True)
    (hN : ∀ l, op = .mutate l → N l.length) : ∃ cs', Hist P N (step st op).2 rd (track rd md op) cs' := by
  cases op with
  | mutate l => exact ⟨cs, h.wf, h.inv, hN l rfl, h.ro, h.vars⟩
  | use v u =>
    simp only [View.step, track]
    cases hv : st.vars[v]? with
    | none => exact ⟨cs, h⟩
    | some i =>
      obtain ⟨o, c, sc, a1, a2, a3, a4, a5⟩ := h.vars.2 v i hv
      simp only [a1]
      obtain ⟨⟨st1, b1, b2, b3, b4⟩, -⟩ := use_spec hPN st h.wf h.inv h.n i c a2 o.ro u
      rw [b3]
      have hwf1 := h.wf.shape b1
      refine ⟨cs, hwf1, b2, by rw [b4]; exact h.n, b1.roData.trans h.ro, ?_⟩
      refine ⟨by rw [b1.vars]; exact h.vars.1, ?_⟩
      intro v' i' hv'
      rw [b1.vars] at hv'
      obtain ⟨o', c', sc', d1, d2, d3, d4, d5⟩ := h.vars.2 v' i' hv'
      obtain ⟨o2, e1, e2, -⟩ := b1.obj i' o' d1
      exact ⟨o2, c', sc', e1, d2, by rw [e2]; exact d3, d4, d5⟩
  | mk ro of s =>
    simp only at hop
    cases of with
    | none =>
      simp only [View.step, track, h.ro]
      by_cases hro : (!ro && rd) = true
      · simp only [hro, if_true]; exact ⟨cs, h⟩
      · simp only [hro]
        refine ⟨_, h.alloc ⟨ro, none, s, none, none⟩ [] [s] hop rfl rfl (by simp) (fun n => rfl) (fun hd => hd)⟩
    | some v =>
      simp only [View.step, track]
      cases hv : st.vars[v]? with
      | none =>
        have : md[v]? = none := by
          rw [List.getElem?_eq_none_iff] at hv ⊢
          rw [← h.vars.1]; exact hv
        simp only [this]; exact ⟨cs, h⟩
      | some i =>
        obtain ⟨o, c, sc, a1, a2, a3, a4, a5⟩ := h.vars.2 v i hv
        simp only [a1, a3]
        by_cases hro : (!ro && o.ro) = true
        · simp only [hro, if_true]; exact ⟨cs, h⟩
        · simp only [hro]
          refine ⟨_, h.alloc ⟨ro, some i, s, none, none⟩ c (sc ++ [s]) hop rfl a2 ?_ ?_ ?_⟩
          · exact h.wf.2.1 c (List.mem_of_getElem? a2)
          · exact positions_congr_snoc a4 s
          · intro hd
            refine det_snoc (a5 (det_pre hd)) ?_
            intro n n' hnn
            rw [positions_congr_snoc a4, positions_congr_snoc a4]
            exact hd sc s (List.prefix_refl _) n n' (by rw [← a4, ← a4]; exact hnn)
  | slice v s =>
    simp only at hop
    simp only [View.step, track]
    cases hv : st.vars[v]? with
    | none =>
      have : md[v]? = none := by
        rw [List.getElem?_eq_none_iff] at hv ⊢
        rw [← h.vars.1]; exact hv
      simp only [this]; exact ⟨cs, h⟩
    | some i =>
      obtain ⟨o, c, sc, a1, a2, a3, a4, a5⟩ := h.vars.2 v i hv
      simp only [a1, a3]
      by_cases h1 : s = noop
      · subst h1
        simp only [if_true]
        refine ⟨cs, h.wf, h.inv, h.n, h.ro, by simp [h.vars.1], ?_⟩
        intro v' i' hv'
        rcases get_snoc hv' with hv' | ⟨rfl, rfl⟩
        · obtain ⟨o', c', sc', d1, d2, d3, d4, d5⟩ := h.vars.2 v' i' hv'
          exact ⟨o', c', sc', d1, d2, get_snoc_left d3, d4, d5⟩
        · refine ⟨o, c, sc ++ [noop], a1, a2, by simp [h.vars.1], ?_, fun hd => a5 (det_pre hd)⟩
          intro n; rw [positions_snoc, pySlice_noop, a4]
      · simp only [h1, if_false]
        by_cases h2 : o.slice = noop
        · simp only [h2, if_true]
          have hwf := h.wf.2.2 i o a1
          have hpar : ∃ cp, c = cp ++ [noop] ∧ (match o.parent with
              | none => cp = []
              | some p => cs[p]? = some cp) := by
            cases hp : o.parent with
            | none => rw [hp] at hwf; simp only at hwf; rw [a2] at hwf; cases hwf; exact ⟨[], by simp [h2], rfl⟩
            | some p =>
              rw [hp] at hwf
              obtain ⟨_, cp, e1, e2⟩ := hwf
              rw [a2] at e2; cases e2
              exact ⟨cp, by rw [h2], e1⟩
          obtain ⟨cp, rfl, hp⟩ := hpar
          have a4' : ∀ n, positions n cp = positions n sc := by
            intro n; rw [← a4, positions_snoc, pySlice_noop]
          refine ⟨_, h.alloc ⟨o.ro, o.parent, s, none, none⟩ cp (sc ++ [s]) hop rfl hp ?_ ?_ ?_⟩
          · intro s' hs'
            exact h.wf.2.1 _ (List.mem_of_getElem? a2) s' (by simp [hs'])
          · exact positions_congr_snoc a4' s
          · intro hd
            refine det_snoc (det_pre (a5 (det_pre hd))) ?_
            intro n n' hnn
            rw [positions_congr_snoc a4', positions_congr_snoc a4']
            exact hd sc s (List.prefix_refl _) n n' (by rw [← a4', ← a4']; exact hnn)
        · simp only [h2, if_false]
          refine ⟨_, h.alloc ⟨o.ro, some i, s, none, none⟩ c (sc ++ [s]) hop rfl a2 ?_ ?_ ?_⟩
          · exact h.wf.2.1 c (List.mem_of_getElem? a2)
          · exact positions_congr_snoc a4 s
          · intro hd
            refine det_snoc (a5 (det_pre hd)) ?_
            intro n n' hnn
            rw [positions_congr_snoc a4, positions_congr_snoc a4]
            exact hd sc s (List.prefix_refl _) n n' (by rw [← a4, ← a4]; exact hnn)

theorem Hist.run {P N} (hPN : Cond P N) (ops : List (Op α)) {st : St α} {rd md cs} (h : Hist P N st rd md cs)
    (hop : NonzeroSteps ops)
    (hN : ∀ l, .mutate l ∈ ops → N l.length) : ∃ cs', Hist P N (run st ops) rd (ops.foldl (track rd) md) cs' := by
  induction ops generalizing st md cs with
  | nil => exact ⟨cs, h⟩
  | cons op ops ih =>
    obtain ⟨cs', h'⟩ := h.step hPN op (hop op (by simp)) (fun l e => hN l (by simp [e]))
    exact ih h' (fun o ho => hop o (by simp [ho])) (fun o ho => hN o (by simp [ho]))

theorem Hist.init {P : List Slice → Prop} {N : Nat → Prop} (rd : Bool) (l : List α) (hl : N l.length) :
    Hist P N (init rd l) rd [] [] :=
  ⟨⟨rfl, by simp, by intro j o h; simp [View.init] at h⟩, by intro j o c s h; simp [View.init] at h, hl, rfl, rfl,
    by intro v i h; simp [View.init] at h⟩

theorem use_congr (data : List α) (ro : Bool) {c sc : List Slice} (h : ∀ n, positions n c = positions n sc) (u : Use α) :
    Spec.View.use data ro c u = Spec.View.use data ro sc u := by
  have hr : contents data c = contents data sc := by
    apply List.ext_getElem?
    intro k; rw [contents_getElem?, contents_getElem?, h]
  cases u with
  | len => simp only [Spec.View.use, hr]
  | iter => simp only [Spec.View.use, hr]
  | get k => simp only [Spec.View.use, hr]
  | set k a => simp only [Spec.View.use, h]
  | setSlice k vs => cases vs <;> simp only [Spec.View.use, positions_snoc, h]
  | reverse => simp only [Spec.View.use, h, hr]

theorem Hist.use {P N} (hPN : Cond P N) {st : St α} {rd md cs} (h : Hist P N st rd md cs) (v : Nat) (ro : Bool) (c : List Slice)
    (hv : md[v]? = some (ro, c)) (hP : ∀ ac : List Slice, (Determined c → Determined ac) → P ac) (u : Use α) :
    (View.step st (.use v u)).1 = (Spec.View.use st.data ro c u).1 ∧
    (View.step st (.use v u)).2.data = (Spec.View.use st.data ro c u).2 := by
  have hlt : v < st.vars.length := by rw [h.vars.1]; exact (List.getElem?_eq_some_iff.mp hv).1
  obtain ⟨o, c', sc, a1, a2, a3, a4, a5⟩ := h.vars.2 v _ (List.getElem?_eq_getElem hlt)
  rw [hv] at a3
  simp only [Option.some.injEq, Prod.mk.injEq] at a3
  obtain ⟨rfl, rfl⟩ := a3
  simp only [View.step, List.getElem?_eq_getElem hlt, a1]
  obtain ⟨-, b⟩ := use_spec hPN st h.wf h.inv h.n _ c' a2 o.ro u
  rw [← use_congr st.data o.ro a4]
  exact b (hP c' a5)

/-! ### what an assignment does -/

theorem assignAt_length (data : List α) (ps : List Int) (items : List α) : (assignAt data ps items).length = data.length :=
  Slices.foldl_set_length _ _

theorem assignAt_frame (ps : List Int) (items : List α) (data : List α) (h : ∀ x ∈ ps, 0 ≤ x) (j : Nat) (hj : (j : Int) ∉ ps) :
    (assignAt data ps items)[j]? = data[j]? := by
  induction ps generalizing items data with
  | nil => simp [assignAt]
  | cons p ps ih =>
    cases items with
    | nil => simp [assignAt]
    | cons a items =>
      have h0 := h p (by simp)
      have : assignAt data (p :: ps) (a :: items) = assignAt (data.set p.toNat a) ps items := rfl
      rw [this, ih items _ (fun x hx => h x (by simp [hx])) (fun hm => hj (by simp [hm])), List.getElem?_set_ne]
      intro e; apply hj; simp; left; omega

theorem assignAt_get (ps : List Int) (items : List α) (data : List α) (h : ∀ x ∈ ps, 0 ≤ x ∧ x < data.length) (hnd : ps.Nodup)
    (m : Nat) (x : Int) (hx : ps[m]? = some x) :
    (assignAt data ps items)[x.toNat]? = match items[m]? with
      | some a => some a
      | none => data[x.toNat]? := by
  induction ps generalizing items data m with
  | nil => simp at hx
  | cons p ps ih =>
    have hnd' := List.nodup_cons.mp hnd
    cases items with
    | nil => simp [assignAt]
    | cons a items =>
      have h0 := h p (by simp)
      have e : assignAt data (p :: ps) (a :: items) = assignAt (data.set p.toNat a) ps items := rfl
      rw [e]
      cases m with
      | zero =>
        simp only [List.getElem?_cons_zero, Option.some.injEq] at hx
        subst hx
        rw [assignAt_frame _ _ _ (fun y hy => (h y (by simp [hy])).1)]
        · rw [List.getElem?_set_self (by omega)]; simp
        · rw [show ((p.toNat : Nat) : Int) = p from by omega]; exact hnd'.1
      | succ m =>
        simp only [List.getElem?_cons_succ] at hx ⊢
        rw [ih items _ (fun y hy => by rw [List.length_set]; exact h y (by simp [hy])) hnd'.2 m hx]
        have hxm := List.mem_of_getElem? hx
        have h1 := h x (by simp [hxm])
        rw [List.getElem?_set_ne (fun e => hnd'.1 (by rw [show p = x from by omega]; exact hxm))]

theorem pySlice_nodup (l : List β) (s : Slice) (hs : s.by ≠ 0) (h : l.Nodup) : (pySlice l s).Nodup := by
  have h' := h
  unfold List.Nodup at h ⊢
  rw [List.pairwise_iff_getElem] at h ⊢
  intro a b ha hb hab e
  have e1 := pySlice_getElem? l s a
  have e2 := pySlice_getElem? l s b
  rw [List.getElem?_eq_getElem ha] at e1
  rw [List.getElem?_eq_getElem hb] at e2
  have hia : a < (s.indices l.length).length := by rw [← pySlice_length]; exact ha
  have hib : b < (s.indices l.length).length := by rw [← pySlice_length]; exact hb
  rw [List.getElem?_eq_getElem hia] at e1
  rw [List.getElem?_eq_getElem hib] at e2
  simp only [Option.bind_some] at e1 e2
  have ra := s.indices_range l.length (List.getElem_mem hia)
  have rb := s.indices_range l.length (List.getElem_mem hib)
  have hn := s.indices_nodup l.length hs
  unfold List.Nodup at hn
  rw [List.pairwise_iff_getElem] at hn
  have hne := hn a b hia hib hab
  rw [List.getElem?_eq_getElem (by omega)] at e1 e2
  simp only [Option.some.injEq] at e1 e2
  rw [e1, e2] at e
  rcases Nat.lt_trichotomy (s.indices l.length)[a].toNat (s.indices l.length)[b].toNat with hlt | heq | hlt
  · exact h _ _ (by omega) (by omega) hlt e
  · exact hne (by omega)
  · exact h _ _ (by omega) (by omega) hlt e.symm

theorem positions_nodup (n : Nat) (c : List Slice) (h : ∀ s ∈ c, s.by ≠ 0) : (positions n c).Nodup := by
  induction c using snocInd with
  | h0 =>
    simp only [positions, List.foldl_nil]
    unfold List.Nodup
    rw [List.pairwise_map]
    have := List.nodup_range (n := n)
    exact this.imp (fun h e => h (by omega))
  | h1 c s ih =>
    rw [positions_snoc]
    exact pySlice_nodup _ _ (h s (by simp)) (ih (fun s' hs' => h s' (by simp [hs'])))

theorem contents_assignAt (data : List α) (c : List Slice) (items : List α) (hc : ∀ s ∈ c, s.by ≠ 0)
    (hl : items.length = (positions data.length c).length) : contents (assignAt data (positions data.length c) items) c = items := by
  apply List.ext_getElem?
  intro k
  rw [contents_getElem?, assignAt_length]
  cases hk : (positions data.length c)[k]? with
  | none =>
    rw [List.getElem?_eq_none_iff] at hk
    rw [List.getElem?_eq_none (by omega)]; rfl
  | some x =>
    have hkl := (List.getElem?_eq_some_iff.mp hk).1
    simp only [Option.bind_some]
    rw [assignAt_get _ _ _ (positions_range _ _) (positions_nodup _ _ hc) k x hk]
    rw [List.getElem?_eq_getElem (by omega)]

/-! ### anchored chains are determined -/

theorem anchored_progression (c : List Slice) (h : ∀ s ∈ c, Anchored s) :
    ∃ a d : Int, ∀ (n m : Nat) x, (positions n c)[m]? = some x → x = a + m * d := by
  induction c using snocInd with
  | h0 =>
    refine ⟨0, 1, fun n m x hx => ?_⟩
    simp only [positions, List.foldl_nil, List.getElem?_map] at hx
    cases hm : (List.range n)[m]? with
    | none => rw [hm] at hx; simp at hx
    | some y =>
      rw [hm] at hx
      have := List.getElem?_eq_some_iff.mp hm
      obtain ⟨h1, h2⟩ := this
      simp at h2 hx
      omega
  | h1 c s ih =>
    obtain ⟨a, d, had⟩ := ih (fun s' hs' => h s' (by simp [hs']))
    obtain ⟨hpos, hst⟩ := h s (by simp)
    refine ⟨a + (s.start.getD 0) * d, s.by * d, fun n m x hx => ?_⟩
    rw [positions_snoc, pySlice_getElem?] at hx
    generalize hL : (positions n c).length = L at hx
    cases hi : (s.indices L)[m]? with
    | none => rw [hi] at hx; simp at hx
    | some j =>
      rw [hi] at hx
      simp only [Option.bind_some] at hx
      have hj := s.indices_range L (List.mem_of_getElem? hi)
      have e := had n j.toNat x hx
      unfold Slice.indices at hi
      rw [pyRange_getElem?] at hi
      split at hi
      · rename_i hlt
        simp only [Option.some.injEq] at hi
        have hstart : s.startIn L = s.start.getD 0 := by
          have hb := (rangeLen_pos (a := s.startIn L) (b := s.stopIn L) hpos m).mp hlt
          have hb2 := (s.stopIn_bounds L).2 (by omega)
          have hmul : 0 ≤ (m : Int) * s.by := Int.mul_nonneg (by omega) (by omega)
          unfold Slice.startIn at hb ⊢
          cases hk : s.start with
          | none => simp only [hk]; rw [if_neg (show ¬ s.by < 0 by omega)]; rfl
          | some k =>
            have hk0 := hst k hk
            simp only [hk] at hb ⊢
            rw [if_neg (show ¬ s.by < 0 by omega)] at hb ⊢
            rw [if_neg (show ¬ k < 0 by omega)] at hb ⊢
            rw [if_neg (show ¬ k < 0 by omega)] at hb ⊢
            split at hb
            · omega
            · rename_i hk2; rw [if_neg hk2]; rfl
        rw [e, show ((j.toNat : Nat) : Int) = j from by omega, ← hi, hstart, Int.add_mul, Int.mul_assoc, Int.add_assoc]
      · simp at hi

theorem positions_eq_of_length (c : List Slice) (h : ∀ s ∈ c, Anchored s) (n n' : Nat)
    (hl : (positions n c).length = (positions n' c).length) : positions n c = positions n' c := by
  obtain ⟨a, d, had⟩ := anchored_progression c h
  apply List.ext_getElem hl
  intro m h1 h2
  rw [had n m _ (List.getElem?_eq_getElem h1), had n' m _ (List.getElem?_eq_getElem h2)]

theorem stable_determined (c : List Slice) (h : Stable c) : Determined c := by
  intro p s hp n n' hl
  rw [positions_snoc, positions_snoc, positions_eq_of_length p ?_ n n' hl]
  intro s' hs'
  apply h
  obtain ⟨t, rfl⟩ := hp
  cases t with
  | nil => simp [hs']
  | cons a t =>
    rw [List.append_assoc, List.dropLast_append_of_ne_nil (by simp)]
    exact List.mem_append.mpr (.inl hs')

theorem made_steps (ro₀ : Bool) (ops : List (Op α)) (hops : NonzeroSteps ops) (v : Nat) (ro : Bool) (c : List Slice)
    (hv : (made ro₀ ops)[v]? = some (ro, c)) : ∀ s ∈ c, s.by ≠ 0 := by
  have key : ∀ (ops : List (Op α)) (md : List (Bool × List Slice)), NonzeroSteps ops → (∀ p ∈ md, ∀ s ∈ p.2, s.by ≠ 0) →
      ∀ p ∈ ops.foldl (track ro₀) md, ∀ s ∈ p.2, s.by ≠ 0 := by
    intro ops
    induction ops with
    | nil => intro md _ h; exact h
    | cons op ops ih =>
      intro md hn h
      refine ih _ (fun o ho => hn o (by simp [ho])) ?_
      have hop := hn op (by simp)
      have hsnoc : ∀ (b : Bool) (sc : List Slice) (s : Slice), s.by ≠ 0 → (∀ s' ∈ sc, s'.by ≠ 0) →
          ∀ p ∈ md ++ [(b, sc ++ [s])], ∀ s ∈ p.2, s.by ≠ 0 := by
        intro b sc s hs hsc p hp s' hs'
        rcases List.mem_append.mp hp with hp | hp
        · exact h p hp s' hs'
        · simp only [List.mem_singleton] at hp; subst hp
          rcases List.mem_append.mp hs' with hs' | hs'
          · exact hsc s' hs'
          · simp only [List.mem_singleton] at hs'; subst hs'; exact hs
      cases op with
      | mutate l => exact h
      | use v u => exact h
      | mk ro of s =>
        cases of with
        | none =>
          simp only [track]; split
          · exact h
          · exact hsnoc ro [] s hop (by simp)
        | some v =>
          simp only [track]; split
          · rename_i pro sc hv
            split
            · exact h
            · exact hsnoc ro sc s hop (h _ (List.mem_of_getElem? hv))
          · exact h
      | slice v s =>
        simp only [track]; split
        · rename_i pro sc hv
          exact hsnoc pro sc s hop (h _ (List.mem_of_getElem? hv))
        · exact h
  exact key ops [] hops (by simp) _ (List.mem_of_getElem? hv)

end Unpy.View
