import Verif.Model.ItLazy
/-! Helper lemmas for `partition` and `inn`. -/
namespace Unpy.ItLazy
universe u
variable {α : Type u}

/-- What one side has still to see. -/
def Tee.pending (side : Bool) (st : Tee α) : List α := st.buf side ++ st.src

theorem teeNext_pending (side : Bool) (st : Tee α) :
    (teeNext side st = none ∧ st.pending side = []) ∨
    ∃ x st', teeNext side st = some (x, st') ∧ st.pending side = x :: st'.pending side ∧
      st'.pending (!side) = st.pending (!side) := by
  obtain ⟨src, bf, bt⟩ := st
  cases side <;> cases src <;> cases bf <;> cases bt <;> simp [teeNext, Tee.pending, Tee.buf] <;>
    exact ⟨_, _, ⟨rfl, rfl⟩, by simp⟩

theorem partNext_eq (pred : α → Bool) (side : Bool) (st : Tee α) :
    (partNext pred side st).1 = ((st.pending side).filter (fun x => pred x = side)).head? ∧
    ((partNext pred side st).2.pending side).filter (fun x => pred x = side)
      = ((st.pending side).filter (fun x => pred x = side)).tail ∧
    (partNext pred side st).2.pending (!side) = st.pending (!side) := by
  fun_induction partNext pred side st with
  | case1 st h =>
    rcases teeNext_pending side st with ⟨_, h2⟩ | ⟨x, st', h1, _⟩
    · simp [h2]
    · rw [h] at h1; simp at h1
  | case2 st x st' h hp =>
    rcases teeNext_pending side st with ⟨h1, _⟩ | ⟨x', st'', h1, h2, h3⟩
    · rw [h] at h1; simp at h1
    · rw [h] at h1; simp only [Option.some.injEq, Prod.mk.injEq] at h1
      obtain ⟨rfl, rfl⟩ := h1
      simp [h2, h3, hp]
  | case3 st x st' h hp ih =>
    rcases teeNext_pending side st with ⟨h1, _⟩ | ⟨x', st'', h1, h2, h3⟩
    · rw [h] at h1; simp at h1
    · rw [h] at h1; simp only [Option.some.injEq, Prod.mk.injEq] at h1
      obtain ⟨rfl, rfl⟩ := h1
      simp only [h2, ← h3]
      rw [List.filter_cons_of_neg (by simpa using hp)]
      exact ih

theorem partRun_eq (pred : α → Bool) (ops : List Bool) (st : Tee α) (t : Nat) (side : Bool)
    (h : ops[t]? = some side) :
    (partRun pred ops st)[t]? =
      some (((st.pending side).filter (fun x => pred x = side))[(ops.take t).count side]?) := by
  induction ops generalizing st t with
  | nil => simp at h
  | cons op ops ih =>
    rw [partRun]
    obtain ⟨h1, h2, h3⟩ := partNext_eq pred op st
    cases t with
    | zero =>
      simp only [List.getElem?_cons_zero, Option.some.injEq] at h
      subst h
      simp only [List.getElem?_cons_zero, h1, List.take_zero, List.count_nil, List.head?_eq_getElem?]
    | succ t =>
      simp only [List.getElem?_cons_succ] at h
      simp only [List.getElem?_cons_succ, List.take_succ_cons]
      rw [ih _ _ h]
      by_cases e : op = side
      · subst e
        rw [h2]; simp
      · have e' : side = !op := by cases op <;> cases side <;> simp_all
        subst e'
        rw [h3, List.count_cons_of_ne (by simp)]

section inn
variable (src : Nat → Option Int)

theorem src_none_le (hstop : ∀ i, src i = none → src (i+1) = none) {i j : Nat} (hij : i ≤ j)
    (h : src i = none) : src j = none := by
  induction hij with
  | refl => exact h
  | step _ ih => exact hstop _ ih

theorem innSkip_spec (y0 : Int) (i m : Nat)
    (hm : ∀ j, i ≤ j → j < i + m → src j = some y0)
    (hend : src (i+m) ≠ some y0) (fuel : Nat) (hf : m < fuel) :
    innSkip src y0 fuel i = some ((src (i+m)).map (fun y => (y, i+m+1))) := by
  induction m generalizing i fuel with
  | zero =>
    obtain ⟨fuel, rfl⟩ : ∃ f, fuel = f+1 := ⟨fuel-1, by omega⟩
    simp only [Nat.add_zero] at hend ⊢
    cases h : src i with
    | none => simp [innSkip, h]
    | some y =>
      have : y ≠ y0 := by rintro rfl; exact hend h
      simp [innSkip, h, this]
  | succ m ih =>
    obtain ⟨fuel, rfl⟩ : ∃ f, fuel = f+1 := ⟨fuel-1, by omega⟩
    have h0 := hm i (Nat.le_refl _) (by omega)
    simp only [innSkip, h0, if_true]
    have e : i + (m+1) = i + 1 + m := by omega
    rw [e] at hend ⊢
    exact ih (i+1) (fun j h1 h2 => hm j (by omega) (by omega)) hend fuel (by omega)

theorem innSearch_spec (pred : Int → Bool) (x : Int) (i m : Nat)
    (hm : ∀ j, i ≤ j → j < i + m → ∃ e, src j = some e ∧ pred e = true ∧ e ≠ x)
    (hend : src (i+m) = none ∨ (∃ e, src (i+m) = some e ∧ (pred e = false ∨ e = x)))
    (fuel : Nat) (hf : m < fuel) :
    innSearch src pred x fuel i = some (match src (i+m) with
      | none => false
      | some e => pred e && decide (e = x)) := by
  induction m generalizing i fuel with
  | zero =>
    obtain ⟨fuel, rfl⟩ : ∃ f, fuel = f+1 := ⟨fuel-1, by omega⟩
    simp only [Nat.add_zero] at hend ⊢
    rcases hend with h | ⟨e, h, h'⟩
    · simp [innSearch, h]
    · rcases h' with h' | h'
      · simp [innSearch, h, h']
      · by_cases hp : pred e
        · subst h'; simp [innSearch, h, hp]
        · simp [innSearch, h, hp]
  | succ m ih =>
    obtain ⟨fuel, rfl⟩ : ∃ f, fuel = f+1 := ⟨fuel-1, by omega⟩
    obtain ⟨e, h0, hp, hx⟩ := hm i (Nat.le_refl _) (by omega)
    simp only [innSearch, h0, hp, hx, if_true, if_false]
    have e : i + (m+1) = i + 1 + m := by omega
    rw [e] at hend ⊢
    exact ih (i+1) (fun j h1 h2 => hm j (by omega) (by omega)) hend fuel (by omega)

/-- least natural number with a decidable property -/
theorem exists_least {P : Nat → Prop} (h : ∃ n, P n) : ∃ n, P n ∧ ∀ m, m < n → ¬ P m := by
  obtain ⟨n, hn⟩ := h
  induction n using Nat.strongRecOn with
  | _ n ih =>
    by_cases hc : ∃ m, m < n ∧ P m
    · obtain ⟨m, hm, hp⟩ := hc; exact ih m hm hp
    · exact ⟨n, hn, fun m hm hp => hc ⟨m, hm, hp⟩⟩

/-- the search phase for an increasing input -/
theorem innSearch_incr (hmono : ∀ i j a b, i ≤ j → src i = some a → src j = some b → a ≤ b)
    (hstop : ∀ i, src i = none → src (i+1) = none)
    (hdiv : (∃ i, src i = none) ∨ ∀ B, ∃ i a, src i = some a ∧ B < a) (x : Int) (i : Nat) :
    ∃ N, ∀ fuel, N ≤ fuel →
      ∃ b, innSearch src (fun elt => decide (elt ≤ x)) x fuel i = some b ∧
        (b = true ↔ ∃ j, i ≤ j ∧ src j = some x) := by
  have hex : ∃ m, src (i+m) = none ∨ ∃ e, src (i+m) = some e ∧ x ≤ e := by
    rcases hdiv with ⟨j, hj⟩ | h
    · exact ⟨j, .inl (src_none_le src hstop (by omega) hj)⟩
    · obtain ⟨j, a, hj, ha⟩ := h x
      cases hs : src (i+j) with
      | none => exact ⟨j, .inl hs⟩
      | some e =>
        have := hmono j (i+j) a e (by omega) hj hs
        exact ⟨j, .inr ⟨e, hs, by omega⟩⟩
  obtain ⟨m, hm, hleast⟩ := exists_least hex
  refine ⟨m+1, fun fuel hf => ⟨_, innSearch_spec src _ x i m ?_ ?_ fuel (by omega), ?_⟩⟩
  · intro j h1 h2
    have := hleast (j - i) (by omega)
    rw [show i + (j - i) = j by omega] at this
    cases hs : src j with
    | none => exact absurd (.inl hs) this
    | some e =>
      refine ⟨e, rfl, ?_, ?_⟩
      · have : ¬ x ≤ e := fun h => this (.inr ⟨e, hs, h⟩)
        simp; omega
      · rintro rfl; exact this (.inr ⟨e, hs, by omega⟩)
  · rcases hm with h | ⟨e, h, hx⟩
    · exact .inl h
    · refine .inr ⟨e, h, ?_⟩
      by_cases he : e = x
      · exact .inr he
      · left; simp; omega
  · constructor
    · intro hb
      cases hs : src (i+m) with
      | none => simp [hs] at hb
      | some e => simp [hs] at hb; exact ⟨i+m, by omega, by rw [hs, hb.2]⟩
    · rintro ⟨j, hij, hj⟩
      have hjm : i + m ≤ j := by
        apply Nat.le_of_not_lt; intro hlt
        exact hleast (j - i) (by omega) (.inr ⟨x, by rw [show i + (j-i) = j by omega]; exact hj, by omega⟩)
      rcases hm with h | ⟨e, h, hx⟩
      · have := src_none_le src hstop hjm h; simp [this] at hj
      · have := hmono _ _ _ _ hjm h hj
        have : e = x := by omega
        simp [h, this]

theorem innSearch_neg (pred pred' : Int → Bool) (x : Int) (fuel i : Nat)
    (hp : ∀ e, pred e = pred' (-e)) :
    innSearch src pred x fuel i = innSearch (fun i => (src i).map (fun e => -e)) pred' (-x) fuel i := by
  induction fuel generalizing i with
  | zero => rfl
  | succ fuel ih =>
    cases hs : src i with
    | none => simp [innSearch, hs]
    | some e =>
      have : (-e = -x) ↔ e = x := by omega
      simp [innSearch, hs, hp, ih, this]

theorem innSkip_neg (y0 : Int) (fuel i : Nat) :
    innSkip (fun i => (src i).map (fun e => -e)) (-y0) fuel i =
      (innSkip src y0 fuel i).map (fun r => r.map (fun p => (-p.1, p.2))) := by
  induction fuel generalizing i with
  | zero => rfl
  | succ fuel ih =>
    cases hs : src i with
    | none => simp [innSkip, hs]
    | some e =>
      have : (-e = -y0) ↔ e = y0 := by omega
      simp only [innSkip, hs, ih, this, Option.map_some]
      split <;> simp

theorem innSkip_next {y0 : Int} {fuel i y k} (h : innSkip src y0 fuel i = some (some (y, k))) :
    y ≠ y0 ∧ i < k ∧ src (k-1) = some y ∧ ∀ j, i ≤ j → j < k - 1 → src j = some y0 := by
  induction fuel generalizing i with
  | zero => simp [innSkip] at h
  | succ fuel ih =>
    cases hs : src i with
    | none => simp [innSkip, hs] at h
    | some e =>
      by_cases he : e = y0
      · simp only [innSkip, hs, he, if_true] at h
        obtain ⟨h1, h2, h3, h4⟩ := ih h
        refine ⟨h1, by omega, h3, ?_⟩
        intro j hj hk
        by_cases e' : j = i
        · rw [e', hs, he]
        · exact h4 j (by omega) hk
      · simp [innSkip, hs, he] at h
        obtain ⟨rfl, rfl⟩ := h
        refine ⟨he, by omega, by simpa using hs, ?_⟩
        intro j h1 h2; omega

theorem inn_incr (hmono : ∀ i j a b, i ≤ j → src i = some a → src j = some b → a ≤ b)
    (hstop : ∀ i, src i = none → src (i+1) = none)
    (hdiv : (∃ i, src i = none) ∨ ∀ B, ∃ i a, src i = some a ∧ B < a) (x : Int) :
    ∃ N, ∀ fuel, N ≤ fuel → ∃ b, inn fuel x src = some b ∧ (b = true ↔ ∃ j, src j = some x) := by
  cases h0 : src 0 with
  | none =>
    refine ⟨0, fun fuel _ => ⟨false, by simp [inn, h0], by simp; intro j; simp [src_none_le src hstop (Nat.zero_le j) h0]⟩⟩
  | some y0 =>
    by_cases hx : y0 = x
    · exact ⟨0, fun fuel _ => ⟨true, by simp [inn, h0, hx], by simp; exact ⟨0, by rw [h0, hx]⟩⟩⟩
    · have hex : ∃ m, src (1+m) ≠ some y0 := by
        rcases hdiv with ⟨j, hj⟩ | h
        · exact ⟨j, by rw [src_none_le src hstop (by omega) hj]; simp⟩
        · obtain ⟨j, a, hj, ha⟩ := h y0
          refine ⟨j, ?_⟩
          intro h
          have := hmono j (1+j) a y0 (by omega) hj h
          omega
      obtain ⟨m, hm, hleast⟩ := exists_least hex
      have hbefore : ∀ j, 1 ≤ j → j < 1 + m → src j = some y0 := by
        intro j h1 h2
        have := hleast (j-1) (by omega)
        rw [show 1 + (j-1) = j by omega] at this
        exact Classical.not_not.mp this
      cases hs : src (1+m) with
      | none =>
        refine ⟨m+1, fun fuel hf => ⟨false, ?_, ?_⟩⟩
        · simp [inn, h0, hx, innSkip_spec src y0 1 m hbefore hm fuel (by omega), hs]
        · simp only [Bool.false_eq_true, false_iff, not_exists]
          intro j hj
          by_cases hjm : j < 1 + m
          · by_cases j0 : j = 0
            · subst j0; rw [h0] at hj; simp at hj; exact hx hj
            · rw [hbefore j (by omega) hjm] at hj; simp at hj; exact hx hj
          · rw [src_none_le src hstop (show 1+m ≤ j by omega) hs] at hj; simp at hj
      | some yj =>
        have hlt : y0 < yj := by
          have := hmono 0 (1+m) _ _ (by omega) h0 hs
          have : yj ≠ y0 := by rintro rfl; exact hm hs
          omega
        by_cases hyx : yj = x
        · refine ⟨m+1, fun fuel hf => ⟨true, ?_, ?_⟩⟩
          · simp [inn, h0, hx, innSkip_spec src y0 1 m hbefore hm fuel (by omega), hs, hyx]
          · simp; exact ⟨1+m, by rw [hs, hyx]⟩
        · obtain ⟨N, hN⟩ := innSearch_incr src hmono hstop hdiv x (1+m+1)
          refine ⟨max N (m+1), fun fuel hf => ?_⟩
          obtain ⟨b, hb, hb'⟩ := hN fuel (by omega)
          refine ⟨b, ?_, ?_⟩
          · simp only [inn, h0, hx, if_false, innSkip_spec src y0 1 m hbefore hm fuel (by omega), hs, Option.map_some, hyx]
            rw [if_pos (by omega)]
            exact hb
          · rw [hb']
            constructor
            · rintro ⟨j, _, hj⟩; exact ⟨j, hj⟩
            · rintro ⟨j, hj⟩
              refine ⟨j, ?_, hj⟩
              rcases Nat.lt_or_ge j (1+m+1) with hlt' | hge
              · exfalso
                by_cases j1 : j = 1 + m
                · subst j1; rw [hs] at hj; simp at hj; exact hyx hj
                · by_cases j0 : j = 0
                  · subst j0; rw [h0] at hj; simp at hj; exact hx hj
                  · rw [hbefore j (by omega) (by omega)] at hj; simp at hj; exact hx hj
              · omega

theorem inn_neg (x : Int) (fuel : Nat) :
    inn fuel (-x) (fun i => (src i).map (fun e => -e)) = inn fuel x src := by
  cases h0 : src 0 with
  | none => simp [inn, h0]
  | some y0 =>
    have e1 : (-y0 = -x) ↔ y0 = x := by omega
    by_cases hx : y0 = x
    · simp [inn, h0, hx]
    · simp only [inn, h0, e1, hx, Option.map_some, if_false]
      rw [innSkip_neg]
      cases hk : innSkip src y0 fuel 1 with
      | none => simp
      | some r =>
        cases r with
        | none => simp
        | some p =>
          obtain ⟨yj, i⟩ := p
          have hne := (innSkip_next src hk).1
          have e2 : (-yj = -x) ↔ yj = x := by omega
          simp only [Option.map_some, e2]
          split
          · rfl
          · by_cases hd : yj - y0 > 0
            · rw [if_neg (by omega), if_pos hd]
              rw [innSearch_neg src (fun elt => decide (elt ≤ x)) (fun elt => decide (elt ≥ -x))]
              intro e
              by_cases h : e ≤ x
              · simp [h]
              · simp [h]
            · rw [if_pos (by omega), if_neg hd]
              rw [innSearch_neg src (fun elt => decide (elt ≥ x)) (fun elt => decide (elt ≤ -x))]
              intro e
              by_cases h : x ≤ e
              · simp [h]
              · simp [h]

end inn
end Unpy.ItLazy
