import Verif.Proof.LetDo
/-!
# `expand` yields related expressions
-/
namespace Unpy.LetDo
open Unpy.PyExpr
open Unpy.Spec.LetDo (reads readsAny assigns assignsAny)
variable {β : Type}

mutual
/-- The conditions on sources that the relation needs: no default mentions a parameter; no empty `let`. -/
def Ok : Ex β → Prop
  | .attr t _ => Ok t
  | .call f args => Ok f ∧ Oks args
  | .lam ps ds b => (∀ x, Name.user x ∈ ps → readsAny (.user x) ds = false ∧ assignsAny (.user x) ds = false) ∧ Oks ds ∧ Ok b
  | .ife c t e => Ok c ∧ Ok t ∧ Ok e
  | .tup ts => Oks ts
  | .lst ts => Oks ts
  | .assign _ v => Ok v
  | .letx _ xs vs b => xs ≠ [] ∧ Oks vs ∧ Ok b
  | .doe tags ts => ts.length = tags.length ∧ Oks ts
  | _ => True
def Oks : List (Ex β) → Prop
  | [] => True
  | t :: ts => Ok t ∧ Oks ts
end

/-- Both passes of `_letlike_transform`. -/
def both (R L : List String) (m : String) (e : Nat) (S : List Name) (t : Ex β) : Ex β :=
  passName R e S (passAssign L m e S t)
def boths (R L : List String) (m : String) (e : Nat) (S : List Name) (ts : List (Ex β)) : List (Ex β) :=
  passNames R e S (passAssigns L m e S ts)

section
variable (R L : List String) (m : String) (e : Nat) (S : List Name)

theorem boths_nil : boths R L m e S ([] : List (Ex β)) = [] := rfl
theorem boths_cons (t : Ex β) (ts : List (Ex β)) : boths R L m e S (t :: ts) = both R L m e S t :: boths R L m e S ts := rfl
theorem both_call (f : Ex β) (args : List (Ex β)) :
    both R L m e S (.call f args) = .call (both R L m e S f) (boths R L m e S args) := rfl
theorem both_lam (ps : List Name) (ds : List (Ex β)) (b : Ex β) :
    both R L m e S (.lam ps ds b) = .lam ps (boths R L m e (S ++ ps) ds) (both R L m e (S ++ ps) b) := rfl
theorem both_tup (ts : List (Ex β)) : both R L m e S (.tup ts) = .tup (boths R L m e S ts) := rfl
theorem both_lst (ts : List (Ex β)) : both R L m e S (.lst ts) = .lst (boths R L m e S ts) := rfl
theorem both_str (s : String) : both R L m e S (.str s : Ex β) = .str s := rfl
theorem both_cst (c : β) : both R L m e S (.cst c : Ex β) = .cst c := rfl
theorem both_cap (c : Cap) : both R L m e S (.cap c : Ex β) = .cap c := rfl
theorem both_gen (n : Nat) : both R L m e S (.name (.gen n) : Ex β) = .name (.gen n) := rfl
theorem both_attr (t : Ex β) (a : String) : both R L m e S (.attr t a) = .attr (both R L m e S t) a := rfl
theorem both_ife (c t f : Ex β) :
    both R L m e S (.ife c t f) = .ife (both R L m e S c) (both R L m e S t) (both R L m e S f) := rfl
theorem both_bad : both R L m e S (.bad : Ex β) = .bad := rfl
theorem both_user (x : String) : both R L m e S (.name (.user x) : Ex β) =
    if x ∈ R ∧ Name.user x ∉ S then .attr (.name (.gen e)) x else .name (.user x) := by
  simp [both, passAssign, passName]
theorem both_assign (x : String) (v : Ex β) : both R L m e S (.assign (.user x) v) =
    if x ∈ L ∧ Name.user x ∉ S then .call (.attr (.name (.gen e)) m) [.str x, both R L m e S v]
    else .assign (.user x) (both R L m e S v) := by
  simp only [both, passAssign]
  split <;> simp [passName, passNames]
theorem both_assign_gen (n : Nat) (v : Ex β) :
    both R L m e S (.assign (.gen n) v) = .assign (.gen n) (both R L m e S v) := rfl

theorem boths_zip : ∀ (xs : List String) (vs : List (Ex β)),
    boths R L m e S (List.zipWith (fun x v => .tup [.str x, v]) xs vs) =
      List.zipWith (fun x v => .tup [.str x, v]) xs (boths R L m e S vs)
  | [], vs => by simp [boths_nil]
  | x :: xs, [] => by simp [boths_nil]
  | x :: xs, v :: vs => by
    simp [boths_cons, boths_nil, both_tup, both_str, boths_zip xs vs]

theorem boths_lam (g : Nat) : ∀ (vs : List (Ex β)), boths R L m e S (vs.map (.lam [.gen g] [])) =
      (boths R L m e (S ++ [.gen g]) vs).map (.lam [.gen g] [])
  | [] => rfl
  | v :: vs => by simp [boths_cons, boths_nil, both_lam, boths_lam g vs]

theorem both_letOut (letrec : Bool) (g : Nat) (xs : List String) (vs : List (Ex β)) (b : Ex β) :
    both R L m e S (letOut letrec g xs vs b) = letOut letrec g xs
      (boths R L m e (if letrec then S ++ [.gen g] else S) vs) (both R L m e (S ++ [.gen g]) b) := by
  cases letrec <;> simp [letOut, both_call, both_cap, boths_cons, boths_nil, both_tup, both_lam, boths_zip, boths_lam]

theorem both_setCode (g : Nat) : ∀ (xs : List String) (t : Ex β),
    both R L m e S (setCode g xs t) = setCode g xs (both R L m e S t)
  | [], _ => rfl
  | x :: xs, t => by
    have ih := both_setCode g xs t
    simp only [setCode, List.foldr_cons] at ih ⊢
    simp [both_call, both_attr, both_gen, boths_cons, boths_nil, both_str, ih]

end

/-! ## Scopes -/

theorem under_gen (r : Sc) (R : List String) (S : List Name) (g e : Nat) (k : Bool) :
    under r R (S ++ [.gen g]) e k = under r R S e k := by
  funext x; simp [under]

theorem under_over (r : Sc) (xs R : List String) (S : List Name) (g e : Nat) (j k : Bool) :
    under (over r xs g j) R S e k = over (under r R S e k) xs g j := by
  funext x; simp only [under, over]; split <;> rename_i h <;> split at h <;> simp_all

theorem under_hide (r : Sc) (R : List String) (S ps : List Name) (e : Nat) (k : Bool) :
    under (hide r ps) R (S ++ ps) e k = hide (under r R S e k) ps := by
  funext x; simp only [under, hide]
  by_cases h : Name.user x ∈ ps <;> simp [h]

theorem under_append (r : Sc) (R : List String) (S ps : List Name) (e : Nat) (k : Bool) (x : String) (h : Name.user x ∉ ps) :
    under r R (S ++ ps) e k x = under r R S e k x := by
  simp [under, h]

theorem readsAny_false {x : String} {ts : List (Ex β)} {ps : List Name}
    (h : ∀ x, Name.user x ∈ ps → readsAny (.user x) ts = false) (hx : readsAny (.user x) ts = true) : Name.user x ∉ ps := by
  intro hm; rw [h x hm] at hx; cases hx
theorem assignsAny_false {x : String} {ts : List (Ex β)} {ps : List Name}
    (h : ∀ x, Name.user x ∈ ps → assignsAny (.user x) ts = false) (hx : assignsAny (.user x) ts = true) :
    Name.user x ∉ ps := by
  intro hm; rw [h x hm] at hx; cases hx

/-! ## The passes after an expansion -/

mutual
theorem expR_after {R L : List String} {e : Nat} {k : Bool} : ∀ {t t' : Ex β} {r w : Sc} {S : List Name}, Ok t → ExpR r w t t' →
    ExpR (under r R S e k) (under w L S e k) t (both R L (setter k) e S t')
  | .cst _, _, r, w, S, _, h => by simp only [ExpR] at h ⊢; rw [h, both_cst]
  | .str _, _, r, w, S, _, h => by simp only [ExpR] at h ⊢; rw [h, both_str]
  | .cap _, _, r, w, S, _, h => by simp only [ExpR] at h ⊢; rw [h, both_cap]
  | .name (.gen _), _, r, w, S, _, h => by simp only [ExpR] at h ⊢; rw [h, both_gen]
  | .name (.user x), _, r, w, S, _, h => by
    simp only [ExpR] at h ⊢
    subst h
    cases hr : r x with
    | none =>
      simp only [under, hr, both_user]
      split <;> simp_all
    | some p => simp [under, hr, both_attr, both_gen]
  | .attr t a, _, r, w, S, ho, h => by
    simp only [ExpR] at h ⊢
    simp only [Ok] at ho
    obtain ⟨u, rfl, h⟩ := h
    exact ⟨_, both_attr .., expR_after ho h⟩
  | .call f args, _, r, w, S, ho, h => by
    simp only [ExpR] at h ⊢
    simp only [Ok] at ho
    obtain ⟨f', as', rfl, h1, h2⟩ := h
    exact ⟨_, _, both_call .., expR_after ho.1 h1, expRs_after ho.2 h2⟩
  | .lam ps ds b, _, r, w, S, ho, h => by
    simp only [ExpR] at h ⊢
    simp only [Ok] at ho
    obtain ⟨ds', b', rfl, h1, h2⟩ := h
    refine ⟨_, _, both_lam .., ?_, ?_⟩
    · refine expRs_congr ?_ ?_ (expRs_after ho.2.1 h1)
      · intro x hx; exact under_append _ _ _ _ _ _ _ (readsAny_false (fun p hp => (ho.1 p hp).1) hx)
      · intro x hx; exact under_append _ _ _ _ _ _ _ (assignsAny_false (fun p hp => (ho.1 p hp).2) hx)
    · rw [← under_hide, ← under_hide]; exact expR_after ho.2.2 h2
  | .ife c t f, _, r, w, S, ho, h => by
    simp only [ExpR] at h ⊢
    simp only [Ok] at ho
    obtain ⟨c', u', f', rfl, h1, h2, h3⟩ := h
    exact ⟨_, _, _, both_ife .., expR_after ho.1 h1, expR_after ho.2.1 h2, expR_after ho.2.2 h3⟩
  | .tup ts, _, r, w, S, ho, h => by
    simp only [ExpR] at h ⊢
    simp only [Ok] at ho
    obtain ⟨ts', rfl, h⟩ := h
    exact ⟨_, both_tup .., expRs_after ho h⟩
  | .lst ts, _, r, w, S, ho, h => by
    simp only [ExpR] at h ⊢
    simp only [Ok] at ho
    obtain ⟨ts', rfl, h⟩ := h
    exact ⟨_, both_lst .., expRs_after ho h⟩
  | .assign (.gen _) v, _, r, w, S, ho, h => by
    simp only [ExpR] at h ⊢
    simp only [Ok] at ho
    obtain ⟨v', rfl, h⟩ := h
    exact ⟨_, both_assign_gen .., expR_after ho h⟩
  | .assign (.user y) v, _, r, w, S, ho, h => by
    simp only [ExpR] at h ⊢
    simp only [Ok] at ho
    obtain ⟨v', h, h'⟩ := h
    refine ⟨_, expR_after ho h, ?_⟩
    subst h'
    cases hw : w y with
    | none =>
      simp only [under, hw, both_assign]
      split <;> simp_all
    | some p => simp [under, hw, both_call, both_attr, both_gen, boths_cons, boths_nil, both_str]
  | .letx letrec xs vs b, _, r, w, S, ho, h => by
    simp only [ExpR] at h ⊢
    simp only [Ok] at ho
    obtain ⟨g, vs', b', rfl, h1, h2⟩ := h
    refine ⟨g, _, _, both_letOut .., ?_, ?_⟩
    · cases letrec with
      | false => exact expRs_after ho.2.1 h1
      | true =>
        have := expRs_after (R := R) (L := L) (e := e) (k := k) (S := S ++ [.gen g]) ho.2.1 h1
        simpa [under_gen, under_over] using this
    · have := expR_after (R := R) (L := L) (e := e) (k := k) (S := S ++ [.gen g]) ho.2.2 h2
      simpa [under_gen, under_over] using this
  | .doe tags ts, _, r, w, S, ho, h => by
    simp only [ExpR] at h ⊢
    simp only [Ok] at ho
    obtain ⟨g, ls, rfl, h⟩ := h
    refine ⟨g, boths R L (setter k) e (S ++ [.gen g]) ls, ?_, ?_⟩
    · rw [both_call, both_cap, boths_lam]
    · have := expItems_after (R := R) (L := L) (e := e) (k := k) (S := S ++ [.gen g]) ho.2 h
      simpa [under_gen] using this
  | .bad, _, _, _, _, _, h => by simp [ExpR] at h
theorem expRs_after {R L : List String} {e : Nat} {k : Bool} : ∀ {ts ts' : List (Ex β)} {r w : Sc} {S : List Name}, Oks ts →
    ExpRs r w ts ts' → ExpRs (under r R S e k) (under w L S e k) ts (boths R L (setter k) e S ts')
  | [], _, _, _, _, _, h => by simp only [ExpRs] at h ⊢; rw [h, boths_nil]
  | t :: ts, _, _, _, _, ho, h => by
    simp only [ExpRs] at h ⊢
    simp only [Oks] at ho
    obtain ⟨t', ts', rfl, h1, h2⟩ := h
    exact ⟨_, _, boths_cons .., expR_after ho.1 h1, expRs_after ho.2 h2⟩
theorem expItems_after {R L : List String} {e : Nat} {k : Bool} {g : Nat} : ∀ {names : List String} {tags : List Tag}
    {ts ls : List (Ex β)} {r w : Sc} {S : List Name}, Oks ts → ExpItems r w g names tags ts ls →
    ExpItems (under r R S e k) (under w L S e k) g names tags ts (boths R L (setter k) e S ls)
  | names, .loc xs :: tags, t :: ts, _, r, w, S, ho, h => by
    simp only [ExpItems] at h ⊢
    simp only [Oks] at ho
    obtain ⟨t', ls, rfl, h1, h2⟩ := h
    refine ⟨both R L (setter k) e S t', _, ?_, ?_, expItems_after ho.2 h2⟩
    · rw [boths_cons, both_setCode]
    · have := expR_after (R := R) (L := L) (e := e) (k := k) (S := S) ho.1 h1
      simpa [under_over] using this
  | names, .del x :: tags, _ :: ts, _, r, w, S, ho, h => by
    simp only [ExpItems] at h ⊢
    simp only [Oks] at ho
    obtain ⟨ls, rfl, h2⟩ := h
    exact ⟨_, by rw [boths_cons]; simp [both_call, both_attr, both_gen, boths_cons, boths_nil, both_str],
      expItems_after ho.2 h2⟩
  | _, [], _, _, _, _, _, _, h => by simp only [ExpItems] at h ⊢; rw [h, boths_nil]
  | _, .loc _ :: _, [], _, _, _, _, _, h => by simp only [ExpItems] at h ⊢; rw [h, boths_nil]
  | _, .del _ :: _, [], _, _, _, _, _, h => by simp only [ExpItems] at h ⊢; rw [h, boths_nil]
end

/-! ## The passes before an expansion -/

mutual
theorem expR_before {R L : List String} {e : Nat} {k : Bool} (hRL : ∀ x ∈ R, x ∈ L) :
    ∀ {t t' : Ex β} {r w : Sc} {S : List Name}, Ok t →
    (∀ x ∈ L, Name.user x ∉ S → r x = none ∧ w x = none) →
    ExpR r w (both R L (setter k) e S t) t' → ExpR (under r R S e k) (under w L S e k) t t'
  | .cst _, _, r, w, S, _, _, h => by simpa only [ExpR, both_cst] using h
  | .str _, _, r, w, S, _, _, h => by simpa only [ExpR, both_str] using h
  | .cap _, _, r, w, S, _, _, h => by simpa only [ExpR, both_cap] using h
  | .name (.gen _), _, r, w, S, _, _, h => by simpa only [ExpR, both_gen] using h
  | .name (.user x), _, r, w, S, _, hn, h => by
    rw [both_user] at h
    by_cases hx : x ∈ R ∧ Name.user x ∉ S
    · rw [if_pos hx] at h
      simp only [ExpR] at h ⊢
      obtain ⟨u, rfl, rfl⟩ := h
      simp [under, (hn x (hRL x hx.1) hx.2).1, hx]
    · rw [if_neg hx] at h
      simp only [ExpR] at h ⊢
      rw [h]
      simp only [under]
      cases r x <;> simp [hx]
  | .attr t a, _, r, w, S, ho, hn, h => by
    rw [both_attr] at h
    simp only [ExpR] at h ⊢
    simp only [Ok] at ho
    obtain ⟨u, rfl, h⟩ := h
    exact ⟨_, rfl, expR_before hRL ho hn h⟩
  | .call f args, _, r, w, S, ho, hn, h => by
    rw [both_call] at h
    simp only [ExpR] at h ⊢
    simp only [Ok] at ho
    obtain ⟨f', as', rfl, h1, h2⟩ := h
    exact ⟨_, _, rfl, expR_before hRL ho.1 hn h1, expRs_before hRL ho.2 hn h2⟩
  | .lam ps ds b, _, r, w, S, ho, hn, h => by
    rw [both_lam] at h
    simp only [ExpR] at h ⊢
    simp only [Ok] at ho
    obtain ⟨ds', b', rfl, h1, h2⟩ := h
    refine ⟨_, _, rfl, ?_, ?_⟩
    · refine expRs_congr ?_ ?_ (expRs_before hRL ho.2.1 ?_ h1)
      · intro x hx; exact under_append _ _ _ _ _ _ _ (readsAny_false (fun p hp => (ho.1 p hp).1) hx)
      · intro x hx; exact under_append _ _ _ _ _ _ _ (assignsAny_false (fun p hp => (ho.1 p hp).2) hx)
      · intro x hx hs; exact hn x hx (by simp at hs; exact hs.1)
    · rw [← under_hide, ← under_hide]
      refine expR_before hRL ho.2.2 ?_ h2
      intro x hx hs
      simp at hs
      simp [hide, hs.2, hn x hx hs.1]
  | .ife c t f, _, r, w, S, ho, hn, h => by
    rw [both_ife] at h
    simp only [ExpR] at h ⊢
    simp only [Ok] at ho
    obtain ⟨c', u', f', rfl, h1, h2, h3⟩ := h
    exact ⟨_, _, _, rfl, expR_before hRL ho.1 hn h1, expR_before hRL ho.2.1 hn h2, expR_before hRL ho.2.2 hn h3⟩
  | .tup ts, _, r, w, S, ho, hn, h => by
    rw [both_tup] at h
    simp only [ExpR] at h ⊢
    simp only [Ok] at ho
    obtain ⟨ts', rfl, h⟩ := h
    exact ⟨_, rfl, expRs_before hRL ho hn h⟩
  | .lst ts, _, r, w, S, ho, hn, h => by
    rw [both_lst] at h
    simp only [ExpR] at h ⊢
    simp only [Ok] at ho
    obtain ⟨ts', rfl, h⟩ := h
    exact ⟨_, rfl, expRs_before hRL ho hn h⟩
  | .assign (.gen _) v, _, r, w, S, ho, hn, h => by
    rw [both_assign_gen] at h
    simp only [ExpR] at h ⊢
    simp only [Ok] at ho
    obtain ⟨v', rfl, h⟩ := h
    exact ⟨_, rfl, expR_before hRL ho hn h⟩
  | .assign (.user y) v, _, r, w, S, ho, hn, h => by
    rw [both_assign] at h
    simp only [Ok] at ho
    by_cases hy : y ∈ L ∧ Name.user y ∉ S
    · rw [if_pos hy] at h
      simp only [ExpR, ExpRs] at h ⊢
      obtain ⟨_, _, rfl, ⟨_, rfl, rfl⟩, _, _, rfl, rfl, v', _, rfl, hv, rfl⟩ := h
      exact ⟨v', expR_before hRL ho hn hv, by simp [under, (hn y hy.1 hy.2).2, hy]⟩
    · rw [if_neg hy] at h
      simp only [ExpR] at h ⊢
      obtain ⟨v', hv, rfl⟩ := h
      refine ⟨v', expR_before hRL ho hn hv, ?_⟩
      simp only [under]
      cases w y <;> simp [hy]
  | .letx letrec xs vs b, _, r, w, S, ho, hn, h => by
    simp only [both, passAssign] at h
    split at h
    · simp [passName, ExpR] at h
    · rename_i hx
      simp only [List.any_eq_true, decide_eq_true_eq, not_exists, not_and, Classical.not_not] at hx
      simp only [passName] at h
      simp only [ExpR] at h ⊢
      simp only [Ok] at ho
      obtain ⟨g, vs', b', rfl, h1, h2⟩ := h
      have hov : ∀ x ∈ L, Name.user x ∉ S → over r xs g false x = none ∧ over w xs g false x = none := by
        intro x hxl hs
        have : x ∉ xs := fun hm => hs (hx x hm hxl)
        simp [over, this, hn x hxl hs]
      refine ⟨g, vs', b', rfl, ?_, ?_⟩
      · cases letrec with
        | false => exact expRs_before hRL ho.2.1 hn h1
        | true =>
          have := expRs_before hRL ho.2.1 hov h1
          simpa [under_over] using this
      · have := expR_before hRL ho.2.2 hov h2
        simpa [under_over] using this
  | .doe tags ts, _, r, w, S, ho, hn, h => by
    simp only [both, passAssign] at h
    split at h
    · simp [passName, ExpR] at h
    · rename_i hx
      simp only [passName] at h
      split at h
      · simp [ExpR] at h
      · simp only [ExpR] at h ⊢
        simp only [Ok] at ho
        obtain ⟨g, ls, rfl, h⟩ := h
        refine ⟨g, ls, rfl, expItems_before hRL ho.2 hn (names := []) (by simp) ?_ h⟩
        intro xs hxs x hm hxl
        simp only [List.any_eq_true, not_exists, not_and] at hx
        have := hx _ hxs
        simp only [List.any_eq_true, decide_eq_true_eq, not_exists, not_and, Classical.not_not] at this
        exact this x hm hxl
  | .bad, _, _, _, _, _, _, h => by simp [both, passAssign, passName, ExpR] at h
theorem expRs_before {R L : List String} {e : Nat} {k : Bool} (hRL : ∀ x ∈ R, x ∈ L) :
    ∀ {ts ts' : List (Ex β)} {r w : Sc} {S : List Name}, Oks ts →
    (∀ x ∈ L, Name.user x ∉ S → r x = none ∧ w x = none) →
    ExpRs r w (boths R L (setter k) e S ts) ts' → ExpRs (under r R S e k) (under w L S e k) ts ts'
  | [], _, _, _, _, _, _, h => by simpa only [ExpRs, boths_nil] using h
  | t :: ts, _, _, _, _, ho, hn, h => by
    rw [boths_cons] at h
    simp only [ExpRs] at h ⊢
    simp only [Oks] at ho
    obtain ⟨t', ts', rfl, h1, h2⟩ := h
    exact ⟨_, _, rfl, expR_before hRL ho.1 hn h1, expRs_before hRL ho.2 hn h2⟩
theorem expItems_before {R L : List String} {e : Nat} {k : Bool} (hRL : ∀ x ∈ R, x ∈ L) {g : Nat} :
    ∀ {names : List String} {tags : List Tag} {ts ls : List (Ex β)} {r w : Sc} {S : List Name}, Oks ts →
    (∀ x ∈ L, Name.user x ∉ S → r x = none ∧ w x = none) →
    (∀ x ∈ names, x ∈ L → Name.user x ∈ S) →
    (∀ xs, Tag.loc xs ∈ tags → ∀ x ∈ xs, x ∈ L → Name.user x ∈ S) →
    ExpItems r w g names tags (boths R L (setter k) e S ts) ls →
    ExpItems (under r R S e k) (under w L S e k) g names tags ts ls
  | names, .loc xs :: tags, t :: ts, _, r, w, S, ho, hn, hna, ht, h => by
    rw [boths_cons] at h
    simp only [ExpItems] at h ⊢
    simp only [Oks] at ho
    obtain ⟨t', ls, rfl, h1, h2⟩ := h
    have hna' : ∀ x ∈ names ++ xs, x ∈ L → Name.user x ∈ S := by
      intro x hx hl
      rcases List.mem_append.1 hx with hx | hx
      · exact hna x hx hl
      · exact ht xs (List.mem_cons_self) x hx hl
    refine ⟨t', ls, rfl, ?_, expItems_before hRL ho.2 hn hna' (fun ys hy => ht ys (List.mem_cons_of_mem _ hy)) h2⟩
    have := expR_before (R := R) (L := L) (e := e) (k := k) hRL (S := S) ho.1 ?_ h1
    · simpa [under_over] using this
    · intro x hxl hs
      have h1 : x ∉ names := fun hm => hs (hna x hm hxl)
      have h2 : x ∉ names ++ xs := fun hm => hs (hna' x hm hxl)
      simp only [over, if_neg h1, if_neg h2]
      exact hn x hxl hs
  | names, .del x :: tags, _ :: ts, _, r, w, S, ho, hn, hna, ht, h => by
    rw [boths_cons] at h
    simp only [ExpItems] at h ⊢
    simp only [Oks] at ho
    obtain ⟨ls, rfl, h2⟩ := h
    exact ⟨ls, rfl, expItems_before hRL ho.2 hn (fun y hy => hna y (List.mem_filter.1 hy).1)
      (fun ys hy => ht ys (List.mem_cons_of_mem _ hy)) h2⟩
  | _, [], _, _, _, _, _, _, _, _, _, h => by simpa only [ExpItems] using h
  | _, .loc _ :: _, [], _, _, _, _, _, _, _, _, h => by rw [boths_nil] at h; simpa only [ExpItems] using h
  | _, .del _ :: _, [], _, _, _, _, _, _, _, _, h => by rw [boths_nil] at h; simpa only [ExpItems] using h
end

/-! ## The passes keep the conditions -/

mutual
theorem reads_both {R L : List String} {m : String} {e : Nat} {x : String} : ∀ {t : Ex β} {S : List Name},
    reads (.user x) (both R L m e S t) = true → reads (.user x) t = true
  | .cst _, _, h => h
  | .str _, _, h => h
  | .cap _, _, h => h
  | .name (.gen _), _, h => h
  | .name (.user y), S, h => by
    rw [both_user] at h; split at h
    · simp [reads] at h
    · exact h
  | .attr t a, S, h => by rw [both_attr] at h; simp only [reads] at h ⊢; exact reads_both h
  | .call f args, S, h => by
    rw [both_call] at h; simp only [reads, Bool.or_eq_true] at h ⊢
    exact h.imp reads_both reads_boths
  | .lam ps ds b, S, h => by
    rw [both_lam] at h; simp only [reads, Bool.or_eq_true] at h ⊢
    exact h.imp reads_boths reads_both
  | .ife c t f, S, h => by
    rw [both_ife] at h; simp only [reads, Bool.or_eq_true] at h ⊢
    exact h.imp (Or.imp reads_both reads_both) reads_both
  | .tup ts, S, h => by rw [both_tup] at h; simp only [reads] at h ⊢; exact reads_boths h
  | .lst ts, S, h => by rw [both_lst] at h; simp only [reads] at h ⊢; exact reads_boths h
  | .assign (.gen _) v, S, h => by rw [both_assign_gen] at h; simp only [reads] at h ⊢; exact reads_both h
  | .assign (.user y) v, S, h => by
    rw [both_assign] at h
    split at h <;> simp [reads, readsAny] at h ⊢ <;> exact reads_both h
  | .letx r xs vs b, S, h => by
    simp only [both, passAssign] at h
    split at h
    · simp [passName, reads] at h
    · simp only [passName, reads, Bool.or_eq_true] at h ⊢
      exact h.imp reads_boths reads_both
  | .doe tags ts, S, h => by
    simp only [both, passAssign] at h
    split at h
    · simp [passName, reads] at h
    · simp only [passName] at h
      split at h
      · simp [reads] at h
      · simp only [reads] at h ⊢; exact reads_boths h
  | .bad, _, h => h
theorem reads_boths {R L : List String} {m : String} {e : Nat} {x : String} : ∀ {ts : List (Ex β)} {S : List Name},
    readsAny (.user x) (boths R L m e S ts) = true → readsAny (.user x) ts = true
  | [], _, h => h
  | t :: ts, S, h => by
    rw [boths_cons] at h; simp only [readsAny, Bool.or_eq_true] at h ⊢
    exact h.imp reads_both reads_boths
end

mutual
theorem assigns_both {R L : List String} {m : String} {e : Nat} {x : String} : ∀ {t : Ex β} {S : List Name},
    assigns (.user x) (both R L m e S t) = true → assigns (.user x) t = true
  | .cst _, _, h => h
  | .str _, _, h => h
  | .cap _, _, h => h
  | .name (.gen _), _, h => h
  | .name (.user y), S, h => by
    rw [both_user] at h; split at h <;> simp [assigns] at h
  | .attr t a, S, h => by rw [both_attr] at h; simp only [assigns] at h ⊢; exact assigns_both h
  | .call f args, S, h => by
    rw [both_call] at h; simp only [assigns, Bool.or_eq_true] at h ⊢
    exact h.imp assigns_both assigns_boths
  | .lam ps ds b, S, h => by
    rw [both_lam] at h; simp only [assigns, Bool.or_eq_true] at h ⊢
    exact h.imp assigns_boths assigns_both
  | .ife c t f, S, h => by
    rw [both_ife] at h; simp only [assigns, Bool.or_eq_true] at h ⊢
    exact h.imp (Or.imp assigns_both assigns_both) assigns_both
  | .tup ts, S, h => by rw [both_tup] at h; simp only [assigns] at h ⊢; exact assigns_boths h
  | .lst ts, S, h => by rw [both_lst] at h; simp only [assigns] at h ⊢; exact assigns_boths h
  | .assign (.gen _) v, S, h => by
    rw [both_assign_gen] at h; simp only [assigns, Bool.or_eq_true] at h ⊢; exact h.imp id assigns_both
  | .assign (.user y) v, S, h => by
    rw [both_assign] at h
    split at h
    · simp only [assigns, assignsAny, Bool.or_eq_true, Bool.false_or, Bool.or_false, Bool.false_eq_true, false_or] at h ⊢
      exact .inr (assigns_both h)
    · simp only [assigns, Bool.or_eq_true] at h ⊢
      exact h.imp id assigns_both
  | .letx r xs vs b, S, h => by
    simp only [both, passAssign] at h
    split at h
    · simp [passName, assigns] at h
    · simp only [passName, assigns, Bool.or_eq_true] at h ⊢
      exact h.imp assigns_boths assigns_both
  | .doe tags ts, S, h => by
    simp only [both, passAssign] at h
    split at h
    · simp [passName, assigns] at h
    · simp only [passName] at h
      split at h
      · simp [assigns] at h
      · simp only [assigns] at h ⊢; exact assigns_boths h
  | .bad, _, h => h
theorem assigns_boths {R L : List String} {m : String} {e : Nat} {x : String} : ∀ {ts : List (Ex β)} {S : List Name},
    assignsAny (.user x) (boths R L m e S ts) = true → assignsAny (.user x) ts = true
  | [], _, h => h
  | t :: ts, S, h => by
    rw [boths_cons] at h; simp only [assignsAny, Bool.or_eq_true] at h ⊢
    exact h.imp assigns_both assigns_boths
end

theorem boths_length {R L : List String} {m : String} {e : Nat} {S : List Name} : ∀ {ts : List (Ex β)},
    (boths R L m e S ts).length = ts.length
  | [] => rfl
  | t :: ts => by rw [boths_cons, List.length_cons, List.length_cons, boths_length]

mutual
theorem ok_both {R L : List String} {m : String} {e : Nat} : ∀ {t : Ex β} {S : List Name}, Ok t → Ok (both R L m e S t)
  | .cst _, _, h => h
  | .str _, _, h => h
  | .cap _, _, h => h
  | .name (.gen _), _, h => h
  | .name (.user y), S, h => by rw [both_user]; split <;> simp [Ok]
  | .attr t a, S, h => by rw [both_attr]; simp only [Ok] at h ⊢; exact ok_both h
  | .call f args, S, h => by
    rw [both_call]; simp only [Ok] at h ⊢
    exact ⟨ok_both h.1, ok_boths h.2⟩
  | .lam ps ds b, S, h => by
    rw [both_lam]; simp only [Ok] at h ⊢
    refine ⟨?_, ok_boths h.2.1, ok_both h.2.2⟩
    intro x hx
    refine ⟨?_, ?_⟩
    · cases hr : readsAny (.user x) (boths R L m e (S ++ ps) ds) with
      | false => rfl
      | true => have := reads_boths hr; rw [(h.1 x hx).1] at this; cases this
    · cases hr : assignsAny (.user x) (boths R L m e (S ++ ps) ds) with
      | false => rfl
      | true => have := assigns_boths hr; rw [(h.1 x hx).2] at this; cases this
  | .ife c t f, S, h => by
    rw [both_ife]; simp only [Ok] at h ⊢
    exact ⟨ok_both h.1, ok_both h.2.1, ok_both h.2.2⟩
  | .tup ts, S, h => by rw [both_tup]; simp only [Ok] at h ⊢; exact ok_boths h
  | .lst ts, S, h => by rw [both_lst]; simp only [Ok] at h ⊢; exact ok_boths h
  | .assign (.gen _) v, S, h => by rw [both_assign_gen]; simp only [Ok] at h ⊢; exact ok_both h
  | .assign (.user y) v, S, h => by
    rw [both_assign]; simp only [Ok] at h
    split
    · simp only [Ok, Oks, true_and, and_true]; exact ok_both h
    · simp only [Ok]; exact ok_both h
  | .letx r xs vs b, S, h => by
    simp only [both, passAssign]
    split
    · simp [passName, Ok]
    · simp only [passName, Ok] at h ⊢
      exact ⟨h.1, ok_boths h.2.1, ok_both h.2.2⟩
  | .doe tags ts, S, h => by
    simp only [both, passAssign]
    split
    · simp [passName, Ok]
    · simp only [passName]
      split
      · simp [Ok]
      · simp only [Ok] at h ⊢
        exact ⟨by rw [← h.1]; exact boths_length, ok_boths h.2⟩
  | .bad, _, h => h
theorem ok_boths {R L : List String} {m : String} {e : Nat} : ∀ {ts : List (Ex β)} {S : List Name}, Oks ts →
    Oks (boths R L m e S ts)
  | [], _, h => h
  | t :: ts, S, h => by
    rw [boths_cons]; simp only [Oks] at h ⊢
    exact ⟨ok_both h.1, ok_boths h.2⟩
end

theorem ok_foldr {t : Ex β} (h : Ok t) : ∀ xs : List String, Ok (xs.foldr (fun x t => .assign (.user x) t) t)
  | [] => h
  | x :: xs => by simp only [List.foldr_cons, Ok]; exact ok_foldr h xs

theorem ok_doLines {e : Nat} : ∀ {names : List String} {tags : List Tag} {ts ls : List (Ex β)}, Oks ts →
    doLines e names tags ts = .ok ls → Oks ls
  | names, .loc xs :: tags, t :: ts, ls, ho, h => by
    simp only [doLines] at h
    split at h
    · cases h
    · split at h
      · cases h
      · rename_i ls' heq
        cases h
        simp only [Oks] at ho ⊢
        refine ⟨?_, ok_doLines ho.2 heq⟩
        simp only [letlikeWrap, Ok, Oks, true_and]
        exact ⟨by simp [readsAny, assignsAny], ok_both (ok_foldr ho.1 xs)⟩
  | names, .del x :: tags, _ :: ts, ls, ho, h => by
    simp only [doLines] at h
    split at h
    · cases h
    · rename_i ls' heq
      cases h
      simp only [Oks] at ho ⊢
      exact ⟨by simp [letlikeWrap, letlike, passAssign, passAssigns, passName, passNames, Ok, Oks, readsAny, assignsAny],
        ok_doLines ho.2 heq⟩
  | _, [], _, ls, _, h => by simp only [doLines] at h; cases h; simp [Oks]
  | _, .loc _ :: _, [], ls, _, h => by simp only [doLines] at h; cases h; simp [Oks]
  | _, .del _ :: _, [], ls, _, h => by simp only [doLines] at h; cases h; simp [Oks]

/-! ## Expansion -/

/-- No name is resolved. -/
def none' : Sc := fun _ => none

theorem under_none (xs : List String) (e : Nat) (k : Bool) : under none' xs [] e k = over none' xs e k := by
  funext x; simp [under, over, none']

theorem hide_none (ps : List Name) : hide none' ps = none' := by funext x; simp [hide, none']

theorem expR_foldr {r w : Sc} {e : Nat} : ∀ {xs : List String} {t t' : Ex β}, (∀ x ∈ xs, w x = some (e, true)) →
    ExpR r w (xs.foldr (fun x t => .assign (.user x) t) t) t' → ∃ u, t' = setCode e xs u ∧ ExpR r w t u
  | [], _, t', _, h => ⟨t', rfl, h⟩
  | x :: xs, t, t', hw, h => by
    simp only [List.foldr_cons, ExpR] at h
    obtain ⟨v', h1, rfl⟩ := h
    obtain ⟨u, rfl, h⟩ := expR_foldr (fun y hy => hw y (List.mem_cons_of_mem _ hy)) h1
    exact ⟨u, by simp [hw x, setCode, setter], h⟩

theorem expItems_of_lines {e : Nat} : ∀ {names : List String} {tags : List Tag} {ts ls ls' : List (Ex β)}, Oks ts →
    doLines e names tags ts = .ok ls → ExpRs none' none' ls ls' →
    ∃ bs, ls' = bs.map (.lam [.gen e] []) ∧ ExpItems none' none' e names tags ts bs
  | names, .loc xs :: tags, t :: ts, ls, ls', ho, h, hr => by
    simp only [doLines] at h
    split at h
    · cases h
    · split at h
      · cases h
      · rename_i ls1 heq
        cases h
        simp only [Oks] at ho
        simp only [ExpRs, letlikeWrap, ExpR] at hr
        obtain ⟨_, ls2, rfl, ⟨_, b', rfl, rfl, h1⟩, h2⟩ := hr
        obtain ⟨bs, rfl, hi⟩ := expItems_of_lines ho.2 heq h2
        have h1' := expR_before (R := names) (L := names ++ xs) (e := e) (k := true) (S := [])
          (fun x hx => by simp [hx]) (ok_foldr ho.1 xs) (fun x _ _ => by simp [hide, none']) h1
        rw [hide_none, under_none, under_none] at h1'
        obtain ⟨u, rfl, hu⟩ := expR_foldr (e := e) (fun x hx => by simp [over, hx]) h1'
        exact ⟨setCode e xs u :: bs, rfl, by simp only [ExpItems]; exact ⟨u, bs, rfl, hu, hi⟩⟩
  | names, .del x :: tags, _ :: ts, ls, ls', ho, h, hr => by
    simp only [doLines] at h
    split at h
    · cases h
    · rename_i ls1 heq
      cases h
      simp only [Oks] at ho
      simp only [ExpRs, letlikeWrap, letlike, passAssign, passAssigns, passName, passNames, ExpR] at hr
      obtain ⟨_, ls2, rfl, ⟨_, b', rfl, rfl, f', as', rfl, ⟨_, rfl, rfl⟩, _, _, rfl, rfl, rfl⟩, h2⟩ := hr
      obtain ⟨bs, rfl, hi⟩ := expItems_of_lines ho.2 heq h2
      exact ⟨.call (.attr (.name (.gen e)) "pop") [.str x] :: bs, rfl, by simp only [ExpItems]; exact ⟨bs, rfl, hi⟩⟩
  | _, [], _, ls, ls', _, h, hr => by
    simp only [doLines] at h; cases h; simp only [ExpRs] at hr; exact ⟨[], hr, by simp [ExpItems]⟩
  | _, .loc _ :: _, [], ls, ls', _, h, hr => by
    simp only [doLines] at h; cases h; simp only [ExpRs] at hr; exact ⟨[], hr, by simp [ExpItems]⟩
  | _, .del _ :: _, [], ls, ls', _, h, hr => by
    simp only [doLines] at h; cases h; simp only [ExpRs] at hr; exact ⟨[], hr, by simp [ExpItems]⟩

theorem expRs_mapS {n : Nat} (ih : ∀ (t : Ex β) c t' c', Ok t → expand n t c = .ok (t', c') → ExpR none' none' t t') :
    ∀ {ts : List (Ex β)} {c ts' c'}, Oks ts → mapS (expand n) ts c = .ok (ts', c') → ExpRs none' none' ts ts'
  | [], _, _, _, _, h => by simp only [mapS] at h; cases h; simp [ExpRs]
  | t :: ts, c, _, _, ho, h => by
    simp only [mapS] at h
    simp only [Oks] at ho
    split at h
    · cases h
    · rename_i t' c1 h1
      split at h
      · cases h
      · rename_i ts' c2 h2
        cases h
        simp only [ExpRs]
        exact ⟨t', ts', rfl, ih _ _ _ _ ho.1 h1, expRs_mapS ih ho.2 h2⟩

theorem map_wrap (e : Nat) (m : String) (R L : List String) : ∀ vs : List (Ex β),
    vs.map (letlikeWrap e m L R) = (boths R L m e [] vs).map (.lam [.gen e] [])
  | [] => rfl
  | v :: vs => by rw [List.map_cons, map_wrap e m R L vs]; rfl

/-- What `expand` returns is an expansion. -/
theorem expR_expand : ∀ (n : Nat) (t : Ex β) (c : Nat) (t' : Ex β) (c' : Nat), Ok t →
    expand n t c = .ok (t', c') → ExpR none' none' t t' := by
  intro n
  induction n with
  | zero => intro t c t' c' _ h; simp [expand] at h
  | succ n ih =>
    intro t c t' c' ho h
    match t, ho with
    | .cst _, _ => simp only [expand] at h; cases h; simp [ExpR]
    | .str _, _ => simp only [expand] at h; cases h; simp [ExpR]
    | .cap _, _ => simp only [expand] at h; cases h; simp [ExpR]
    | .name (.gen _), _ => simp only [expand] at h; cases h; simp [ExpR]
    | .name (.user _), _ => simp only [expand] at h; cases h; simp [ExpR, none']
    | .attr t a, ho =>
      simp only [expand] at h; simp only [Ok] at ho
      split at h
      · cases h
      · rename_i h1; cases h; simp only [ExpR]; exact ⟨_, rfl, ih _ _ _ _ ho h1⟩
    | .call f args, ho =>
      simp only [expand] at h; simp only [Ok] at ho
      split at h
      · cases h
      · rename_i h1
        split at h
        · cases h
        · rename_i h2; cases h; simp only [ExpR]; exact ⟨_, _, rfl, ih _ _ _ _ ho.1 h1, expRs_mapS ih ho.2 h2⟩
    | .lam ps ds b, ho =>
      simp only [expand] at h; simp only [Ok] at ho
      split at h
      · cases h
      · rename_i h1
        split at h
        · cases h
        · rename_i h2; cases h; simp only [ExpR, hide_none]
          exact ⟨_, _, rfl, expRs_mapS ih ho.2.1 h1, ih _ _ _ _ ho.2.2 h2⟩
    | .ife t₁ t₂ t₃, ho =>
      simp only [expand] at h; simp only [Ok] at ho
      split at h
      · cases h
      · rename_i h1
        split at h
        · cases h
        · rename_i h2
          split at h
          · cases h
          · rename_i h3; cases h; simp only [ExpR]
            exact ⟨_, _, _, rfl, ih _ _ _ _ ho.1 h1, ih _ _ _ _ ho.2.1 h2, ih _ _ _ _ ho.2.2 h3⟩
    | .tup ts, ho =>
      simp only [expand] at h; simp only [Ok] at ho
      split at h
      · cases h
      · rename_i h1; cases h; simp only [ExpR]; exact ⟨_, rfl, expRs_mapS ih ho h1⟩
    | .lst ts, ho =>
      simp only [expand] at h; simp only [Ok] at ho
      split at h
      · cases h
      · rename_i h1; cases h; simp only [ExpR]; exact ⟨_, rfl, expRs_mapS ih ho h1⟩
    | .assign (.gen _) v, ho =>
      simp only [expand] at h; simp only [Ok] at ho
      split at h
      · cases h
      · rename_i h1; cases h; simp only [ExpR]; exact ⟨_, rfl, ih _ _ _ _ ho h1⟩
    | .assign (.user _) v, ho =>
      simp only [expand] at h; simp only [Ok] at ho
      split at h
      · cases h
      · rename_i h1; cases h; simp only [ExpR, none']; exact ⟨_, ih _ _ _ _ ho h1, rfl⟩
    | .letx r xs vs b, ho =>
      simp only [expand] at h; simp only [Ok] at ho
      split at h
      · cases h
      · rename_i b1 c1 h1
        have hne : xs.isEmpty = false := by cases xs <;> simp_all
        simp only [hne, Bool.false_eq_true, if_false] at h
        split at h
        · cases h
        · rename_i vs1 c2 h2
          cases h
          simp only [ExpR]
          refine ⟨c2, if r then boths xs xs "set" c2 [] vs1 else vs1, both xs xs "set" c2 [] b1, ?_, ?_, ?_⟩
          · cases r with
            | false => rfl
            | true =>
              simp only [letCode, if_true, map_wrap, letOut]
              rfl
          · have hv := expRs_mapS ih ho.2.1 h2
            cases r with
            | false => exact hv
            | true =>
              have := expRs_after (R := xs) (L := xs) (e := c2) (k := false) (S := []) ho.2.1 hv
              simpa [under_none, setter] using this
          · have hb := ih _ _ _ _ ho.2.2 h1
            have := expR_after (R := xs) (L := xs) (e := c2) (k := false) (S := []) ho.2.2 hb
            simpa [under_none, setter] using this
    | .doe tags ts, ho =>
      simp only [expand] at h; simp only [Ok] at ho
      split at h
      · cases h
      · rename_i ls h1
        have := ih _ _ _ _ (by simp only [Ok, true_and]; exact ok_doLines ho.2 h1) h
        simp only [ExpR] at this ⊢
        obtain ⟨_, ls', rfl, rfl, h2⟩ := this
        obtain ⟨bs, rfl, hi⟩ := expItems_of_lines ho.2 h1 h2
        exact ⟨c, bs, rfl, hi⟩
    | .bad, _ => simp [expand] at h

end Unpy.LetDo
