import Verif.Proof.LetDoExpand
/-!
# The names made for the environments are fresh
-/
namespace Unpy.LetDo
open Unpy.PyExpr
variable {β : Type}

mutual
/-- A lambda in `t` has the generated name `g` as a parameter. -/
def binds (g : Nat) : Ex β → Bool
  | .attr t _ => binds g t
  | .call f args => binds g f || bindsAny g args
  | .lam ps ds b => decide (Name.gen g ∈ ps) || bindsAny g ds || binds g b
  | .ife c t e => binds g c || binds g t || binds g e
  | .tup ts => bindsAny g ts
  | .lst ts => bindsAny g ts
  | .assign _ v => binds g v
  | .letx _ _ vs b => bindsAny g vs || binds g b
  | .doe _ ts => bindsAny g ts
  | _ => false
def bindsAny (g : Nat) : List (Ex β) → Bool
  | [] => false
  | t :: ts => binds g t || bindsAny g ts
end

mutual
/-- No generated name is bound again inside a lambda that binds it. -/
def Uniq : Ex β → Prop
  | .attr t _ => Uniq t
  | .call f args => Uniq f ∧ Uniqs args
  | .lam ps ds b => (∀ g, Name.gen g ∈ ps → binds g b = false) ∧ Uniqs ds ∧ Uniq b
  | .ife c t e => Uniq c ∧ Uniq t ∧ Uniq e
  | .tup ts => Uniqs ts
  | .lst ts => Uniqs ts
  | .assign _ v => Uniq v
  | .letx _ _ vs b => Uniqs vs ∧ Uniq b
  | .doe _ ts => Uniqs ts
  | _ => True
def Uniqs : List (Ex β) → Prop
  | [] => True
  | t :: ts => Uniq t ∧ Uniqs ts
end

section
variable {R L : List String} {m : String} {e : Nat}

mutual
theorem binds_both {g : Nat} : ∀ {t : Ex β} {S : List Name}, binds g (both R L m e S t) = true → binds g t = true
  | .cst _, _, h => h
  | .str _, _, h => h
  | .cap _, _, h => h
  | .name (.gen _), _, h => h
  | .name (.user y), S, h => by rw [both_user] at h; split at h <;> simp [binds] at h
  | .attr t a, S, h => by rw [both_attr] at h; simp only [binds] at h ⊢; exact binds_both h
  | .call f args, S, h => by
    rw [both_call] at h; simp only [binds, Bool.or_eq_true] at h ⊢
    exact h.imp binds_both binds_boths
  | .lam ps ds b, S, h => by
    rw [both_lam] at h; simp only [binds, Bool.or_eq_true] at h ⊢
    exact h.imp (Or.imp id binds_boths) binds_both
  | .ife c t f, S, h => by
    rw [both_ife] at h; simp only [binds, Bool.or_eq_true] at h ⊢
    exact h.imp (Or.imp binds_both binds_both) binds_both
  | .tup ts, S, h => by rw [both_tup] at h; simp only [binds] at h ⊢; exact binds_boths h
  | .lst ts, S, h => by rw [both_lst] at h; simp only [binds] at h ⊢; exact binds_boths h
  | .assign (.gen _) v, S, h => by rw [both_assign_gen] at h; simp only [binds] at h ⊢; exact binds_both h
  | .assign (.user y) v, S, h => by
    rw [both_assign] at h
    split at h <;> simp [binds, bindsAny] at h ⊢ <;> exact binds_both h
  | .letx r xs vs b, S, h => by
    simp only [both, passAssign] at h
    split at h
    · simp [passName, binds] at h
    · simp only [passName, binds, Bool.or_eq_true] at h ⊢
      exact h.imp binds_boths binds_both
  | .doe tags ts, S, h => by
    simp only [both, passAssign] at h
    split at h
    · simp [passName, binds] at h
    · simp only [passName] at h
      split at h
      · simp [binds] at h
      · simp only [binds] at h ⊢; exact binds_boths h
  | .bad, _, h => h
theorem binds_boths {g : Nat} : ∀ {ts : List (Ex β)} {S : List Name}, bindsAny g (boths R L m e S ts) = true →
    bindsAny g ts = true
  | [], _, h => h
  | t :: ts, S, h => by
    rw [boths_cons] at h; simp only [bindsAny, Bool.or_eq_true] at h ⊢
    exact h.imp binds_both binds_boths
end

mutual
theorem uniq_both : ∀ {t : Ex β} {S : List Name}, Uniq t → Uniq (both R L m e S t)
  | .cst _, _, h => h
  | .str _, _, h => h
  | .cap _, _, h => h
  | .name (.gen _), _, h => h
  | .name (.user y), S, h => by rw [both_user]; split <;> simp [Uniq]
  | .attr t a, S, h => by rw [both_attr]; simp only [Uniq] at h ⊢; exact uniq_both h
  | .call f args, S, h => by
    rw [both_call]; simp only [Uniq] at h ⊢
    exact ⟨uniq_both h.1, uniq_boths h.2⟩
  | .lam ps ds b, S, h => by
    rw [both_lam]; simp only [Uniq] at h ⊢
    refine ⟨?_, uniq_boths h.2.1, uniq_both h.2.2⟩
    intro g hg
    cases hb : binds g (both R L m e (S ++ ps) b) with
    | false => rfl
    | true => have := binds_both hb; rw [h.1 g hg] at this; cases this
  | .ife c t f, S, h => by
    rw [both_ife]; simp only [Uniq] at h ⊢
    exact ⟨uniq_both h.1, uniq_both h.2.1, uniq_both h.2.2⟩
  | .tup ts, S, h => by rw [both_tup]; simp only [Uniq] at h ⊢; exact uniq_boths h
  | .lst ts, S, h => by rw [both_lst]; simp only [Uniq] at h ⊢; exact uniq_boths h
  | .assign (.gen _) v, S, h => by rw [both_assign_gen]; simp only [Uniq] at h ⊢; exact uniq_both h
  | .assign (.user y) v, S, h => by
    rw [both_assign]; simp only [Uniq] at h
    split
    · simp only [Uniq, Uniqs, true_and, and_true]; exact uniq_both h
    · simp only [Uniq]; exact uniq_both h
  | .letx r xs vs b, S, h => by
    simp only [both, passAssign]
    split
    · simp [passName, Uniq]
    · simp only [passName, Uniq] at h ⊢
      exact ⟨uniq_boths h.1, uniq_both h.2⟩
  | .doe tags ts, S, h => by
    simp only [both, passAssign]
    split
    · simp [passName, Uniq]
    · simp only [passName]
      split
      · simp [Uniq]
      · simp only [Uniq] at h ⊢
        exact uniq_boths h
  | .bad, _, h => h
theorem uniq_boths : ∀ {ts : List (Ex β)} {S : List Name}, Uniqs ts → Uniqs (boths R L m e S ts)
  | [], _, h => h
  | t :: ts, S, h => by
    rw [boths_cons]; simp only [Uniqs] at h ⊢
    exact ⟨uniq_both h.1, uniq_boths h.2⟩
end
end

theorem binds_foldr {t : Ex β} {g : Nat} : ∀ xs : List String,
    binds g (xs.foldr (fun x t => .assign (.user x) t) t) = binds g t
  | [] => rfl
  | x :: xs => by simp only [List.foldr_cons, binds]; exact binds_foldr xs
theorem uniq_foldr {t : Ex β} (h : Uniq t) : ∀ xs : List String, Uniq (xs.foldr (fun x t => .assign (.user x) t) t)
  | [] => h
  | x :: xs => by simp only [List.foldr_cons, Uniq]; exact uniq_foldr h xs

theorem binds_wrap {e g : Nat} {m : String} {R L : List String} {t : Ex β}
    (h : binds g (letlikeWrap e m L R t) = true) : g = e ∨ binds g t = true := by
  simp only [letlikeWrap, binds, Bool.or_eq_true, decide_eq_true_eq, List.mem_singleton, Name.gen.injEq, bindsAny,
    Bool.false_eq_true, or_false] at h
  exact h.imp id binds_both

theorem uniq_wrap {e : Nat} {m : String} {R L : List String} {t : Ex β} (h : Uniq t) (hb : binds e t = false) :
    Uniq (letlikeWrap e m L R t) := by
  simp only [letlikeWrap, Uniq, Uniqs, true_and, List.mem_singleton, Name.gen.injEq, forall_eq]
  refine ⟨?_, uniq_both h⟩
  cases hx : binds e (letlike e m L R t) with
  | false => rfl
  | true => have := binds_both hx; rw [hb] at this; cases this

theorem fresh_doLines {e : Nat} : ∀ {names : List String} {tags : List Tag} {ts ls : List (Ex β)},
    (∀ g, bindsAny g ts = true → g < e) → Uniqs ts → doLines e names tags ts = .ok ls →
    (∀ g, bindsAny g ls = true → g < e + 1) ∧ (∀ g, bindsAny g ls = true → bindsAny g ts = true ∨ e ≤ g) ∧ Uniqs ls
  | names, .loc xs :: tags, t :: ts, ls, hb, hu, h => by
    simp only [doLines] at h
    split at h
    · cases h
    · split at h
      · cases h
      · rename_i ls' heq
        cases h
        simp only [Uniqs] at hu ⊢
        obtain ⟨i1, i2, i3⟩ := fresh_doLines (fun g hg => hb g (by simp [bindsAny, hg])) hu.2 heq
        have hw : ∀ g, binds g (letlikeWrap e "_set" (names ++ xs) names
            (List.foldr (fun x t => Ex.assign (Name.user x) t) t xs)) = true → g = e ∨ binds g t = true := by
          intro g hg
          exact (binds_wrap hg).imp id (by rw [binds_foldr]; exact id)
        refine ⟨?_, ?_, ?_, i3⟩
        · intro g hg
          simp only [bindsAny, Bool.or_eq_true] at hg
          rcases hg with hg | hg
          · rcases hw g hg with rfl | hg
            · omega
            · have := hb g (by simp [bindsAny, hg]); omega
          · exact i1 g hg
        · intro g hg
          simp only [bindsAny, Bool.or_eq_true] at hg ⊢
          rcases hg with hg | hg
          · rcases hw g hg with rfl | hg
            · right; omega
            · left; left; exact hg
          · exact (i2 g hg).imp Or.inr id
        · refine uniq_wrap (uniq_foldr hu.1 xs) ?_
          rw [binds_foldr]
          cases hx : binds e t with
          | false => rfl
          | true => have := hb e (by simp [bindsAny, hx]); omega
  | names, .del x :: tags, _ :: ts, ls, hb, hu, h => by
    simp only [doLines] at h
    split at h
    · cases h
    · rename_i ls' heq
      cases h
      simp only [Uniqs] at hu ⊢
      obtain ⟨i1, i2, i3⟩ := fresh_doLines (fun g hg => hb g (by simp [bindsAny, hg])) hu.2 heq
      refine ⟨?_, ?_, ?_, i3⟩
      · intro g hg
        simp only [bindsAny, Bool.or_eq_true] at hg
        rcases hg with hg | hg
        · rcases binds_wrap hg with rfl | hg
          · omega
          · simp [binds, bindsAny] at hg
        · exact i1 g hg
      · intro g hg
        simp only [bindsAny, Bool.or_eq_true] at hg ⊢
        rcases hg with hg | hg
        · rcases binds_wrap hg with rfl | hg
          · right; omega
          · simp [binds, bindsAny] at hg
        · exact (i2 g hg).imp Or.inr id
      · exact uniq_wrap (by simp [Uniq, Uniqs]) (by simp [binds, bindsAny])
  | _, [], _, ls, _, _, h => by simp only [doLines] at h; cases h; simp [Uniqs, bindsAny]
  | _, .loc _ :: _, [], ls, _, _, h => by simp only [doLines] at h; cases h; simp [Uniqs, bindsAny]
  | _, .del _ :: _, [], ls, _, _, h => by simp only [doLines] at h; cases h; simp [Uniqs, bindsAny]

/-- What is claimed of an expansion from counter `c` to `c'`. -/
structure FreshRes (c c' : Nat) (b b' : Nat → Bool) (u' : Prop) : Prop where
  le : c ≤ c'
  lt : ∀ g, b' g = true → g < c'
  or : ∀ g, b' g = true → b g = true ∨ c ≤ g
  uniq : u'

theorem fresh_mapS {n : Nat} (ih : ∀ (t : Ex β) c t' c', (∀ g, binds g t = true → g < c) → Uniq t →
      expand n t c = .ok (t', c') → FreshRes c c' (fun g => binds g t) (fun g => binds g t') (Uniq t')) :
    ∀ {ts : List (Ex β)} {c ts' c'}, (∀ g, bindsAny g ts = true → g < c) → Uniqs ts →
      mapS (expand n) ts c = .ok (ts', c') → FreshRes c c' (fun g => bindsAny g ts) (fun g => bindsAny g ts') (Uniqs ts')
  | [], _, _, _, _, _, h => by
    simp only [mapS] at h; cases h
    exact ⟨Nat.le_refl _, by simp [bindsAny], by simp [bindsAny], by simp [Uniqs]⟩
  | t :: ts, c, _, _, hb, hu, h => by
    simp only [mapS] at h
    simp only [Uniqs] at hu
    split at h
    · cases h
    · rename_i t' c1 h1
      split at h
      · cases h
      · rename_i ts' c2 h2
        cases h
        have r1 := ih _ _ _ _ (fun g hg => hb g (by simp [bindsAny, hg])) hu.1 h1
        have r2 := fresh_mapS ih (fun g hg => Nat.lt_of_lt_of_le (hb g (by simp [bindsAny, hg])) r1.le) hu.2 h2
        have := r1.le; have := r2.le
        refine ⟨by omega, ?_, ?_, ?_⟩
        · intro g hg
          simp only [bindsAny, Bool.or_eq_true] at hg
          rcases hg with hg | hg
          · have := r1.lt g hg; omega
          · exact r2.lt g hg
        · intro g hg
          simp only [bindsAny, Bool.or_eq_true] at hg ⊢
          rcases hg with hg | hg
          · exact (r1.or g hg).imp Or.inl id
          · rcases r2.or g hg with h | h
            · exact .inl (.inr h)
            · right; omega
        · simp only [Uniqs]; exact ⟨r1.uniq, r2.uniq⟩

theorem FreshRes.seq {c c1 c2 : Nat} {b1 b1' b2 b2' : Nat → Bool} {u1 u2 : Prop}
    (r1 : FreshRes c c1 b1 b1' u1) (r2 : FreshRes c1 c2 b2 b2' u2) :
    FreshRes c c2 (fun g => b1 g || b2 g) (fun g => b1' g || b2' g) (u1 ∧ u2) := by
  have := r1.le; have := r2.le
  refine ⟨by omega, ?_, ?_, r1.uniq, r2.uniq⟩
  · intro g hg
    simp only [Bool.or_eq_true] at hg
    rcases hg with hg | hg
    · have := r1.lt g hg; omega
    · exact r2.lt g hg
  · intro g hg
    simp only [Bool.or_eq_true] at hg ⊢
    rcases hg with hg | hg
    · exact (r1.or g hg).imp Or.inl id
    · rcases r2.or g hg with h | h
      · exact .inl (.inr h)
      · right; omega

theorem bindsAny_map_wrap {e g : Nat} {m : String} {R L : List String} : ∀ {vs : List (Ex β)},
    bindsAny g (vs.map (letlikeWrap e m L R)) = true → g = e ∨ bindsAny g vs = true
  | [], h => by simp [bindsAny] at h
  | v :: vs, h => by
    simp only [List.map_cons, bindsAny, Bool.or_eq_true] at h ⊢
    rcases h with h | h
    · exact (binds_wrap h).imp id .inl
    · exact (bindsAny_map_wrap h).imp id .inr

theorem uniqs_map_wrap {e : Nat} {m : String} {R L : List String} : ∀ {vs : List (Ex β)}, Uniqs vs →
    bindsAny e vs = false → Uniqs (vs.map (letlikeWrap e m L R))
  | [], _, _ => by simp [Uniqs]
  | v :: vs, h, hb => by
    simp only [bindsAny, Bool.or_eq_false_iff] at hb
    simp only [Uniqs, List.map_cons] at h ⊢
    exact ⟨uniq_wrap h.1 hb.1, uniqs_map_wrap h.2 hb.2⟩

theorem bindsAny_zip {g : Nat} : ∀ {xs : List String} {vs : List (Ex β)},
    bindsAny g (List.zipWith (fun x v => .tup [.str x, v]) xs vs) = true → bindsAny g vs = true
  | [], vs, h => by simp [bindsAny] at h
  | x :: xs, [], h => by simp [bindsAny] at h
  | x :: xs, v :: vs, h => by
    simp only [List.zipWith_cons_cons, bindsAny, binds, Bool.false_or, Bool.or_false, Bool.or_eq_true] at h ⊢
    exact h.imp id bindsAny_zip
theorem uniqs_zip : ∀ {xs : List String} {vs : List (Ex β)}, Uniqs vs →
    Uniqs (List.zipWith (fun x v => .tup [.str x, v]) xs vs)
  | [], vs, h => by simp [Uniqs]
  | x :: xs, [], h => by simp [Uniqs]
  | x :: xs, v :: vs, h => by
    simp only [Uniqs, List.zipWith_cons_cons, Uniq, true_and, and_true] at h ⊢
    exact ⟨h.1, uniqs_zip h.2⟩

theorem not_of_lt {b : Nat → Bool} {c : Nat} (h : ∀ g, b g = true → g < c) : b c = false := by
  cases hx : b c with
  | false => rfl
  | true => have := h c hx; omega

/-- `expand` binds only new names, each once. -/
theorem fresh_expand : ∀ (n : Nat) (t : Ex β) (c : Nat) (t' : Ex β) (c' : Nat), (∀ g, binds g t = true → g < c) → Uniq t →
    expand n t c = .ok (t', c') → FreshRes c c' (fun g => binds g t) (fun g => binds g t') (Uniq t') := by
  intro n
  induction n with
  | zero => intro t c t' c' _ _ h; simp [expand] at h
  | succ n ih =>
    intro t c t' c' hb hu h
    have atom : ∀ (t : Ex β), (∀ g, binds g t = false) → Uniq t →
        FreshRes c c (fun g => binds g t) (fun g => binds g t) (Uniq t) := fun t h1 h2 =>
      ⟨Nat.le_refl _, by simp [h1], by simp [h1], h2⟩
    match t, hb, hu with
    | .cst _, _, _ => simp only [expand] at h; cases h; exact atom _ (by simp [binds]) (by simp [Uniq])
    | .str _, _, _ => simp only [expand] at h; cases h; exact atom _ (by simp [binds]) (by simp [Uniq])
    | .cap _, _, _ => simp only [expand] at h; cases h; exact atom _ (by simp [binds]) (by simp [Uniq])
    | .name _, _, _ => simp only [expand] at h; cases h; exact atom _ (by simp [binds]) (by simp [Uniq])
    | .attr t a, hb, hu =>
      simp only [expand] at h; simp only [Uniq] at hu
      split at h
      · cases h
      · rename_i h1; cases h
        simpa only [binds, Uniq] using ih _ _ _ _ (by simpa only [binds] using hb) hu h1
    | .call f args, hb, hu =>
      simp only [expand] at h; simp only [Uniq] at hu
      split at h
      · cases h
      · rename_i h1
        split at h
        · cases h
        · rename_i h2; cases h
          have r1 := ih _ _ _ _ (fun g hg => hb g (by simp [binds, hg])) hu.1 h1
          have r2 := fresh_mapS ih (fun g hg => Nat.lt_of_lt_of_le (hb g (by simp [binds, hg])) r1.le) hu.2 h2
          simpa only [binds, Uniq] using r1.seq r2
    | .lam ps ds b, hb, hu =>
      simp only [expand] at h; simp only [Uniq] at hu
      split at h
      · cases h
      · rename_i h1
        split at h
        · cases h
        · rename_i ds1 c1 h1 _ _ b1 c2 h2; cases h
          have r1 := fresh_mapS ih (fun g hg => hb g (by simp [binds, hg])) hu.2.1 h1
          have r2 := ih _ _ _ _ (fun g hg => Nat.lt_of_lt_of_le (hb g (by simp [binds, hg])) r1.le) hu.2.2 h2
          have hp : ∀ g, Name.gen g ∈ ps → g < c := fun g hg => hb g (by simp [binds, hg])
          have r := r1.seq r2
          refine ⟨r.le, ?_, ?_, ?_⟩
          · intro g hg
            simp only [binds, Bool.or_assoc, Bool.or_eq_true (decide _), decide_eq_true_eq] at hg
            rcases hg with hg | hg
            · have := hp g hg; have := r.le; omega
            · exact r.lt g hg
          · intro g hg
            simp only [binds, Bool.or_assoc, Bool.or_eq_true (decide _), decide_eq_true_eq] at hg ⊢
            rcases hg with hg | hg
            · exact .inl (.inl hg)
            · exact (r.or g hg).imp Or.inr id
          · simp only [Uniq]
            refine ⟨?_, r.uniq⟩
            intro g hg
            cases hx : binds g b1 with
            | false => rfl
            | true =>
              rcases r2.or g hx with h | h
              · have h : binds g b = true := h
                rw [hu.1 g hg] at h; cases h
              · have := hp g hg; have := r1.le; omega
    | .ife t₁ t₂ t₃, hb, hu =>
      simp only [expand] at h; simp only [Uniq] at hu
      split at h
      · cases h
      · rename_i h1
        split at h
        · cases h
        · rename_i h2
          split at h
          · cases h
          · rename_i h3; cases h
            have r1 := ih _ _ _ _ (fun g hg => hb g (by simp [binds, hg])) hu.1 h1
            have r2 := ih _ _ _ _ (fun g hg => Nat.lt_of_lt_of_le (hb g (by simp [binds, hg])) r1.le) hu.2.1 h2
            have r3 := ih _ _ _ _ (fun g hg => Nat.lt_of_lt_of_le (hb g (by simp [binds, hg]))
              (Nat.le_trans r1.le r2.le)) hu.2.2 h3
            have := (r1.seq r2).seq r3
            simpa only [binds, Uniq, and_assoc] using this
    | .tup ts, hb, hu =>
      simp only [expand] at h; simp only [Uniq] at hu
      split at h
      · cases h
      · rename_i h1; cases h
        simpa only [binds, Uniq] using fresh_mapS ih (by simpa only [binds] using hb) hu h1
    | .lst ts, hb, hu =>
      simp only [expand] at h; simp only [Uniq] at hu
      split at h
      · cases h
      · rename_i h1; cases h
        simpa only [binds, Uniq] using fresh_mapS ih (by simpa only [binds] using hb) hu h1
    | .assign _ v, hb, hu =>
      simp only [expand] at h; simp only [Uniq] at hu
      split at h
      · cases h
      · rename_i h1; cases h
        simpa only [binds, Uniq] using ih _ _ _ _ (by simpa only [binds] using hb) hu h1
    | .letx r xs vs b, hb, hu =>
      simp only [expand] at h; simp only [Uniq] at hu
      split at h
      · cases h
      · rename_i b1 c1 h1
        have r1 := ih _ _ _ _ (fun g hg => hb g (by simp [binds, hg])) hu.2 h1
        split at h
        · cases h
          refine ⟨r1.le, r1.lt, ?_, r1.uniq⟩
          intro g hg
          simp only [binds, Bool.or_eq_true]
          exact (r1.or g hg).imp Or.inr id
        split at h
        · cases h
        · rename_i vs1 c2 h2
          cases h
          have r2 := fresh_mapS ih (fun g hg => Nat.lt_of_lt_of_le (hb g (by simp [binds, hg])) r1.le) hu.1 h2
          have hle1 := r1.le; have hle2 := r2.le
          have hbv : bindsAny c2 vs1 = false := not_of_lt r2.lt
          have hbb : binds c2 b1 = false := not_of_lt (b := fun g => binds g b1) (fun g hg => Nat.lt_of_lt_of_le (r1.lt g hg) hle2)
          have key : ∀ g, binds g (letCode r c2 xs vs1 b1) = true → g = c2 ∨ bindsAny g vs1 = true ∨ binds g b1 = true := by
            intro g hg
            simp only [letCode, binds, bindsAny, Bool.false_or, Bool.or_false, Bool.or_eq_true] at hg
            rcases hg with hg | hg
            · have := bindsAny_zip hg
              cases r with
              | false => exact .inr (.inl this)
              | true => exact (bindsAny_map_wrap this).imp id .inl
            · exact (binds_wrap hg).imp id .inr
          refine ⟨by omega, ?_, ?_, ?_⟩
          · intro g hg
            rcases key g hg with rfl | hg | hg
            · omega
            · have := r2.lt g hg; omega
            · have := r1.lt g hg; omega
          · intro g hg
            simp only [binds, Bool.or_eq_true]
            rcases key g hg with rfl | hg | hg
            · right; omega
            · rcases r2.or g hg with h | h
              · exact .inl (.inl h)
              · right; omega
            · rcases r1.or g hg with h | h
              · exact .inl (.inr h)
              · right; omega
          · simp only [letCode, Uniq, Uniqs, true_and, and_true]
            refine ⟨uniqs_zip ?_, uniq_wrap r1.uniq hbb⟩
            cases r with
            | false => exact r2.uniq
            | true => exact uniqs_map_wrap r2.uniq hbv
    | .doe tags ts, hb, hu =>
      simp only [expand] at h; simp only [Uniq] at hu
      split at h
      · cases h
      · rename_i ls h1
        obtain ⟨i1, i2, i3⟩ := fresh_doLines (by simpa only [binds] using hb) hu h1
        have r := ih _ _ _ _ (by simpa only [binds, Bool.false_or] using i1) (by simpa only [Uniq, true_and] using i3) h
        have := r.le
        refine ⟨by omega, r.lt, ?_, r.uniq⟩
        intro g hg
        rcases r.or g hg with h | h
        · simp only [binds, Bool.false_or] at h ⊢
          exact i2 g h
        · right; omega
    | .bad, _, _ => simp [expand] at h

end Unpy.LetDo
