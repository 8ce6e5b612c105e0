import Verif.Proof.LetDoMain
/-!
# When the expansion has a result
-/
namespace Unpy.LetDo
open Unpy.PyExpr
open Unpy.Spec.LetDo (Wf Wfs WfItems rebinds rebindsAny NoClash NoClashes NoClashItems)
variable {β ω ε : Type}

mutual
/-- No binding in `t` is damaged by the two passes. -/
def Clear (L R : List String) (S : List Name) : Ex β → Prop
  | .attr t _ => Clear L R S t
  | .call f args => Clear L R S f ∧ Clears L R S args
  | .lam ps ds b => Clears L R (S ++ ps) ds ∧ Clear L R (S ++ ps) b
  | .ife c t e => Clear L R S c ∧ Clear L R S t ∧ Clear L R S e
  | .tup ts => Clears L R S ts
  | .lst ts => Clears L R S ts
  | .assign _ v => Clear L R S v
  | .letx _ xs vs b => (∀ x ∈ xs, ¬ (x ∈ L ∧ Name.user x ∉ S)) ∧ (xs ≠ [] → Clears L R S vs) ∧ Clear L R S b
  | .doe tags ts => (∀ xs, Tag.loc xs ∈ tags → ∀ x ∈ xs, ¬ (x ∈ L ∧ Name.user x ∉ S)) ∧
      (∀ x, Tag.del x ∈ tags → ¬ (x ∈ R ∧ Name.user x ∉ S)) ∧ ClearItems L R S tags ts
  | _ => True
def Clears (L R : List String) (S : List Name) : List (Ex β) → Prop
  | [] => True
  | t :: ts => Clear L R S t ∧ Clears L R S ts
def ClearItems (L R : List String) (S : List Name) : List Tag → List (Ex β) → Prop
  | .loc _ :: tags, t :: ts => Clear L R S t ∧ ClearItems L R S tags ts
  | .del _ :: tags, _ :: ts => ClearItems L R S tags ts
  | _, _ => True
end

mutual
/-- The expansion has a result. -/
def NC : Ex β → Prop
  | .attr t _ => NC t
  | .call f args => NC f ∧ NCs args
  | .lam _ ds b => NCs ds ∧ NC b
  | .ife c t e => NC c ∧ NC t ∧ NC e
  | .tup ts => NCs ts
  | .lst ts => NCs ts
  | .assign _ v => NC v
  | .letx _ xs vs b => (xs ≠ [] → NCs vs) ∧ NC b
  | .doe tags ts => NCItems [] tags ts
  | .bad => False
  | _ => True
def NCs : List (Ex β) → Prop
  | [] => True
  | t :: ts => NC t ∧ NCs ts
def NCItems : List String → List Tag → List (Ex β) → Prop
  | names, .loc xs :: tags, t :: ts => (∀ x ∈ xs, x ∉ names) ∧ Clear (names ++ xs) names [] t ∧ NC t ∧
      NCItems (names ++ xs) tags ts
  | names, .del x :: tags, _ :: ts => NCItems (names.filter (· ≠ x)) tags ts
  | _, _, _ => True
end

theorem both_letx_bad {R L : List String} {m : String} {e : Nat} {S : List Name} {r : Bool} {xs : List String} {vs : List (Ex β)}
    {b : Ex β} (h : ¬ ∀ x ∈ xs, ¬ (x ∈ L ∧ Name.user x ∉ S)) : both R L m e S (.letx r xs vs b) = .bad := by
  have : xs.any (fun x => decide (x ∈ L ∧ Name.user x ∉ S)) = true := by simpa using h
  simp only [both, passAssign, this, if_true, passName]

theorem both_letx {R L : List String} {m : String} {e : Nat} {S : List Name} {r : Bool} {xs : List String} {vs : List (Ex β)}
    {b : Ex β} (h : ∀ x ∈ xs, ¬ (x ∈ L ∧ Name.user x ∉ S)) :
    both R L m e S (.letx r xs vs b) = .letx r xs (boths R L m e S vs) (both R L m e S b) := by
  have : xs.any (fun x => decide (x ∈ L ∧ Name.user x ∉ S)) = false := by simpa using h
  simp only [both, passAssign, this, passName, boths]; rfl

theorem both_doe_bad {R L : List String} {m : String} {e : Nat} {S : List Name} {tags : List Tag} {ts : List (Ex β)}
    (h : ¬ ((∀ xs, Tag.loc xs ∈ tags → ∀ x ∈ xs, ¬ (x ∈ L ∧ Name.user x ∉ S)) ∧
      (∀ x, Tag.del x ∈ tags → ¬ (x ∈ R ∧ Name.user x ∉ S)))) : both R L m e S (.doe tags ts) = .bad := by
  simp only [both, passAssign]
  split
  · rfl
  · rename_i h1
    simp only [passName]
    split
    · rfl
    · rename_i h2
      refine absurd ⟨?_, ?_⟩ h
      · intro xs hx x hxx hc
        refine h1 (List.any_eq_true.2 ⟨_, hx, ?_⟩)
        simp only [List.any_eq_true, decide_eq_true_eq]
        exact ⟨x, hxx, hc⟩
      · intro x hx hc
        refine h2 (List.any_eq_true.2 ⟨_, hx, ?_⟩)
        simp only [decide_eq_true_eq]; exact hc

theorem both_doe {R L : List String} {m : String} {e : Nat} {S : List Name} {tags : List Tag} {ts : List (Ex β)}
    (h1 : ∀ xs, Tag.loc xs ∈ tags → ∀ x ∈ xs, ¬ (x ∈ L ∧ Name.user x ∉ S))
    (h2 : ∀ x, Tag.del x ∈ tags → ¬ (x ∈ R ∧ Name.user x ∉ S)) :
    both R L m e S (.doe tags ts) = .doe tags (boths R L m e S ts) := by
  simp only [both, passAssign]
  split
  · rename_i h
    obtain ⟨t, ht, h⟩ := List.any_eq_true.1 h
    cases t with
    | loc xs =>
      simp only [List.any_eq_true, decide_eq_true_eq] at h
      obtain ⟨x, hx, hc⟩ := h
      exact absurd hc (h1 xs ht x hx)
    | del x => simp at h
  · simp only [passName]
    split
    · rename_i h
      obtain ⟨t, ht, h⟩ := List.any_eq_true.1 h
      cases t with
      | loc xs => simp at h
      | del x => simp only [decide_eq_true_eq] at h; exact absurd h (h2 x ht)
    · rfl

section
variable {R L : List String} {m : String} {e : Nat}

mutual
theorem clear_both {L' R' : List String} : ∀ {t : Ex β} {S S' : List Name}, Clear L R S t →
    (Clear L' R' S' (both R L m e S t) ↔ Clear L' R' S' t)
  | .cst _, _, _, _ => Iff.rfl
  | .str _, _, _, _ => Iff.rfl
  | .cap _, _, _, _ => Iff.rfl
  | .name (.gen _), _, _, _ => Iff.rfl
  | .name (.user y), S, _, _ => by rw [both_user]; split <;> simp [Clear]
  | .attr t a, S, _, h => by rw [both_attr]; simp only [Clear] at h ⊢; exact clear_both h
  | .call f args, S, _, h => by
    rw [both_call]; simp only [Clear] at h ⊢; rw [clear_both h.1, clear_boths h.2]
  | .lam ps ds b, S, _, h => by
    rw [both_lam]; simp only [Clear] at h ⊢; rw [clear_boths h.1, clear_both h.2]
  | .ife c t f, S, _, h => by
    rw [both_ife]; simp only [Clear] at h ⊢; rw [clear_both h.1, clear_both h.2.1, clear_both h.2.2]
  | .tup ts, S, _, h => by rw [both_tup]; simp only [Clear] at h ⊢; exact clear_boths h
  | .lst ts, S, _, h => by rw [both_lst]; simp only [Clear] at h ⊢; exact clear_boths h
  | .assign (.gen _) v, S, _, h => by rw [both_assign_gen]; simp only [Clear] at h ⊢; exact clear_both h
  | .assign (.user y) v, S, _, h => by
    rw [both_assign]; simp only [Clear] at h
    split
    · simp only [Clear, Clears, true_and, and_true]; exact clear_both h
    · simp only [Clear]; exact clear_both h
  | .letx r xs vs b, S, _, h => by
    simp only [Clear] at h
    rw [both_letx h.1]
    simp only [Clear]
    rw [clear_both h.2.2]
    by_cases hx : xs = []
    · simp [hx]
    · rw [clear_boths (h.2.1 hx)]
  | .doe tags ts, S, _, h => by
    simp only [Clear] at h
    rw [both_doe h.1 h.2.1]
    simp only [Clear]
    rw [clear_items h.2.2]
  | .bad, _, _, _ => Iff.rfl
theorem clear_boths {L' R' : List String} : ∀ {ts : List (Ex β)} {S S' : List Name}, Clears L R S ts →
    (Clears L' R' S' (boths R L m e S ts) ↔ Clears L' R' S' ts)
  | [], _, _, _ => Iff.rfl
  | t :: ts, S, _, h => by
    rw [boths_cons]; simp only [Clears] at h ⊢; rw [clear_both h.1, clear_boths h.2]
theorem clear_items {L' R' : List String} : ∀ {tags : List Tag} {ts : List (Ex β)} {S S' : List Name}, ClearItems L R S tags ts →
    (ClearItems L' R' S' tags (boths R L m e S ts) ↔ ClearItems L' R' S' tags ts)
  | .loc _ :: tags, t :: ts, S, _, h => by
    rw [boths_cons]; simp only [ClearItems] at h ⊢; rw [clear_both h.1, clear_items h.2]
  | .del _ :: tags, t :: ts, S, _, h => by
    rw [boths_cons]; simp only [ClearItems] at h ⊢; rw [clear_items h]
  | [], _, _, _, _ => by simp [ClearItems]
  | .loc _ :: _, [], _, _, _ => by simp [boths_nil]
  | .del _ :: _, [], _, _, _ => by simp [boths_nil]
end

mutual
theorem nc_both : ∀ {t : Ex β} {S : List Name}, NC (both R L m e S t) ↔ NC t ∧ Clear L R S t
  | .cst _, _ => by simp [both_cst, NC, Clear]
  | .str _, _ => by simp [both_str, NC, Clear]
  | .cap _, _ => by simp [both_cap, NC, Clear]
  | .name (.gen _), _ => by simp [both_gen, NC, Clear]
  | .name (.user y), S => by rw [both_user]; split <;> simp [Clear, NC]
  | .attr t a, S => by rw [both_attr]; simp only [Clear, NC]; exact nc_both
  | .call f args, S => by
    rw [both_call]; simp only [Clear, NC]; rw [nc_both, nc_boths]; grind
  | .lam ps ds b, S => by
    rw [both_lam]; simp only [Clear, NC]; rw [nc_both, nc_boths]; grind
  | .ife c t f, S => by
    rw [both_ife]; simp only [Clear, NC]; rw [nc_both, nc_both, nc_both]; grind
  | .tup ts, S => by rw [both_tup]; simp only [Clear, NC]; exact nc_boths
  | .lst ts, S => by rw [both_lst]; simp only [Clear, NC]; exact nc_boths
  | .assign (.gen _) v, S => by rw [both_assign_gen]; simp only [Clear, NC]; exact nc_both
  | .assign (.user y) v, S => by
    rw [both_assign]
    split
    · simp only [Clear, NC, NCs, true_and, and_true]; exact nc_both
    · simp only [Clear, NC]; exact nc_both
  | .letx r xs vs b, S => by
    simp only [Clear, NC]
    by_cases h : ∀ x ∈ xs, ¬ (x ∈ L ∧ Name.user x ∉ S)
    · rw [both_letx h]
      simp only [NC]
      rw [nc_both, nc_boths]
      grind
    · rw [both_letx_bad h]
      simp only [NC]
      grind
  | .doe tags ts, S => by
    simp only [Clear, NC]
    by_cases h : (∀ xs, Tag.loc xs ∈ tags → ∀ x ∈ xs, ¬ (x ∈ L ∧ Name.user x ∉ S)) ∧
      (∀ x, Tag.del x ∈ tags → ¬ (x ∈ R ∧ Name.user x ∉ S))
    · rw [both_doe h.1 h.2]
      simp only [NC]
      rw [nc_items]
      grind
    · rw [both_doe_bad h]
      simp only [NC]
      grind
  | .bad, _ => by simp [both_bad, NC]
theorem nc_boths : ∀ {ts : List (Ex β)} {S : List Name}, NCs (boths R L m e S ts) ↔ NCs ts ∧ Clears L R S ts
  | [], _ => by simp [boths_nil, NCs, Clears]
  | t :: ts, S => by
    rw [boths_cons]; simp only [Clears, NCs]; rw [nc_both, nc_boths]; grind
theorem nc_items : ∀ {names : List String} {tags : List Tag} {ts : List (Ex β)} {S : List Name},
    NCItems names tags (boths R L m e S ts) ↔ NCItems names tags ts ∧ ClearItems L R S tags ts
  | names, .loc xs :: tags, t :: ts, S => by
    rw [boths_cons]; simp only [ClearItems, NCItems]; rw [nc_both, nc_items]
    constructor
    · rintro ⟨h1, h2, ⟨h3, h4⟩, h5, h6⟩
      exact ⟨⟨h1, (clear_both h4).1 h2, h3, h5⟩, h4, h6⟩
    · rintro ⟨⟨h1, h2, h3, h5⟩, h4, h6⟩
      exact ⟨h1, (clear_both h4).2 h2, ⟨h3, h4⟩, h5, h6⟩
  | names, .del _ :: tags, t :: ts, S => by
    rw [boths_cons]; simp only [ClearItems, NCItems]; rw [nc_items]
  | _, [], _, _ => by simp [ClearItems, NCItems]
  | _, .loc _ :: _, [], _ => by simp [boths_nil, ClearItems, NCItems]
  | _, .del _ :: _, [], _ => by simp [boths_nil, ClearItems, NCItems]
end
end

theorem nc_foldr {t : Ex β} : ∀ xs : List String, NC (xs.foldr (fun x t => .assign (.user x) t) t) ↔ NC t
  | [] => Iff.rfl
  | x :: xs => by simp only [List.foldr_cons, NC]; exact nc_foldr xs
theorem clear_foldr {L R : List String} {S : List Name} {t : Ex β} : ∀ xs : List String,
    Clear L R S (xs.foldr (fun x t => .assign (.user x) t) t) ↔ Clear L R S t
  | [] => Iff.rfl
  | x :: xs => by simp only [List.foldr_cons, Clear]; exact clear_foldr xs

theorem nc_line {e : Nat} {names xs : List String} {t : Ex β} :
    NC (letlikeWrap e "_set" (names ++ xs) names (xs.foldr (fun x t => .assign (.user x) t) t)) ↔
      NC t ∧ Clear (names ++ xs) names [] t := by
  have := nc_both (R := names) (L := names ++ xs) (m := "_set") (e := e) (S := [])
    (t := xs.foldr (fun x t => .assign (.user x) t) t)
  rw [nc_foldr, clear_foldr] at this
  simp only [letlikeWrap, NC, NCs, true_and]
  exact this

theorem nc_del {e : Nat} {names names' : List String} {x : String} :
    NC (letlikeWrap e "_set" names' names (.call (.attr (.name (.gen e)) "pop") [.str x]) : Ex β) := by
  simp [letlikeWrap, letlike, passAssign, passAssigns, passName, passNames, NC, NCs]

theorem nc_doLines {e : Nat} : ∀ {names : List String} {tags : List Tag} {ts : List (Ex β)},
    NCItems names tags ts ↔ ∃ ls, doLines e names tags ts = .ok ls ∧ NCs ls
  | names, .loc xs :: tags, t :: ts => by
    simp only [NCItems, doLines]
    rw [nc_doLines (e := e)]
    by_cases hx : ∀ x ∈ xs, x ∉ names
    · have : xs.any (· ∈ names) = false := by simpa using hx
      rw [this]
      constructor
      · rintro ⟨_, h1, h2, ls, h3, h4⟩
        rw [h3]
        exact ⟨_, rfl, by simp only [NCs]; exact ⟨nc_line.2 ⟨h2, h1⟩, h4⟩⟩
      · rintro ⟨ls, h, hl⟩
        cases hd : doLines e (names ++ xs) tags ts with
        | error x => rw [hd] at h; simp at h
        | ok ls' =>
          rw [hd] at h; simp only [Bool.false_eq_true, if_false, Except.ok.injEq] at h; subst h
          simp only [NCs] at hl
          have := nc_line.1 hl.1
          exact ⟨hx, this.2, this.1, _, rfl, hl.2⟩
    · have : xs.any (· ∈ names) = true := by simpa using hx
      rw [this]
      simp [hx]
  | names, .del x :: tags, t :: ts => by
    simp only [NCItems, doLines]
    rw [nc_doLines (e := e)]
    constructor
    · rintro ⟨ls, h3, h4⟩
      rw [h3]
      exact ⟨_, rfl, by simp only [NCs]; exact ⟨nc_del, h4⟩⟩
    · rintro ⟨ls, h, hl⟩
      cases hd : doLines e (names.filter (· ≠ x)) tags ts with
      | error x => rw [hd] at h; simp at h
      | ok ls' =>
        rw [hd] at h; simp only [Except.ok.injEq] at h; subst h
        simp only [NCs] at hl
        exact ⟨_, rfl, hl.2⟩
  | _, [], _ => by simp [NCItems, doLines, NCs]
  | _, .loc _ :: _, [] => by simp [NCItems, doLines, NCs]
  | _, .del _ :: _, [] => by simp [NCItems, doLines, NCs]

/-! ## Sizes -/

def tagSize : List Tag → Nat
  | [] => 0
  | .loc xs :: tags => 1 + 4 * xs.length + tagSize tags
  | .del _ :: tags => 5 + tagSize tags

mutual
def size : Ex β → Nat
  | .name (.user _) => 2
  | .attr t _ => 1 + size t
  | .call f args => 1 + size f + sizes args
  | .lam _ ds b => 1 + sizes ds + size b
  | .ife c t e => 1 + size c + size t + size e
  | .tup ts => 1 + sizes ts
  | .lst ts => 1 + sizes ts
  | .assign _ v => 4 + size v
  | .letx _ _ vs b => 1 + sizes vs + size b
  | .doe tags ts => 3 + tagSize tags + sizes ts
  | _ => 1
def sizes : List (Ex β) → Nat
  | [] => 0
  | t :: ts => size t + sizes ts
end

section
variable {R L : List String} {m : String} {e : Nat}
mutual
theorem size_both : ∀ {t : Ex β} {S : List Name}, size (both R L m e S t) ≤ size t
  | .cst _, _ => Nat.le_refl _
  | .str _, _ => Nat.le_refl _
  | .cap _, _ => Nat.le_refl _
  | .name (.gen _), _ => Nat.le_refl _
  | .name (.user y), S => by rw [both_user]; split <;> simp [size]
  | .attr t a, S => by
    rw [both_attr]; simp only [size]; have := size_both (t := t) (S := S); omega
  | .call f args, S => by
    rw [both_call]; simp only [size]; have := size_both (t := f) (S := S); have := size_boths (ts := args) (S := S); omega
  | .lam ps ds b, S => by
    rw [both_lam]; simp only [size]
    have := size_both (t := b) (S := S ++ ps); have := size_boths (ts := ds) (S := S ++ ps); omega
  | .ife c t f, S => by
    rw [both_ife]; simp only [size]
    have := size_both (t := c) (S := S); have := size_both (t := t) (S := S); have := size_both (t := f) (S := S); omega
  | .tup ts, S => by rw [both_tup]; simp only [size]; have := size_boths (ts := ts) (S := S); omega
  | .lst ts, S => by rw [both_lst]; simp only [size]; have := size_boths (ts := ts) (S := S); omega
  | .assign (.gen _) v, S => by rw [both_assign_gen]; simp only [size]; have := size_both (t := v) (S := S); omega
  | .assign (.user y) v, S => by
    rw [both_assign]
    have := size_both (t := v) (S := S)
    split
    · simp only [size, sizes]; omega
    · simp only [size]; omega
  | .letx r xs vs b, S => by
    by_cases h : ∀ x ∈ xs, ¬ (x ∈ L ∧ Name.user x ∉ S)
    · rw [both_letx h]; simp only [size]
      have := size_both (t := b) (S := S); have := size_boths (ts := vs) (S := S); omega
    · rw [both_letx_bad h]; simp only [size]; omega
  | .doe tags ts, S => by
    by_cases h : (∀ xs, Tag.loc xs ∈ tags → ∀ x ∈ xs, ¬ (x ∈ L ∧ Name.user x ∉ S)) ∧
      (∀ x, Tag.del x ∈ tags → ¬ (x ∈ R ∧ Name.user x ∉ S))
    · rw [both_doe h.1 h.2]; simp only [size]; have := size_boths (ts := ts) (S := S); omega
    · rw [both_doe_bad h]; simp only [size]; omega
  | .bad, _ => Nat.le_refl _
theorem size_boths : ∀ {ts : List (Ex β)} {S : List Name}, sizes (boths R L m e S ts) ≤ sizes ts
  | [], _ => Nat.le_refl _
  | t :: ts, S => by
    rw [boths_cons]; simp only [sizes]
    have := size_both (t := t) (S := S); have := size_boths (ts := ts) (S := S); omega
end
end

theorem size_foldr {t : Ex β} : ∀ xs : List String,
    size (xs.foldr (fun x t => .assign (.user x) t) t) = 4 * xs.length + size t
  | [] => by simp
  | x :: xs => by simp only [List.foldr_cons, size, size_foldr xs, List.length_cons]; omega

theorem size_doLines {e : Nat} : ∀ {names : List String} {tags : List Tag} {ts ls : List (Ex β)},
    doLines e names tags ts = .ok ls → sizes ls ≤ tagSize tags + sizes ts
  | names, .loc xs :: tags, t :: ts, ls, h => by
    simp only [doLines] at h
    split at h
    · cases h
    · split at h
      · cases h
      · rename_i ls1 heq
        cases h
        have ih := size_doLines heq
        have := size_both (R := names) (L := names ++ xs) (m := "_set") (e := e) (S := [])
          (t := xs.foldr (fun x t => .assign (.user x) t) t)
        rw [size_foldr] at this
        simp only [both] at this
        simp only [sizes, letlikeWrap, letlike, size, tagSize]
        omega
  | names, .del x :: tags, t :: ts, ls, h => by
    simp only [doLines] at h
    split at h
    · cases h
    · rename_i ls1 heq
      cases h
      have ih := size_doLines heq
      simp only [sizes, letlikeWrap, letlike, size, tagSize, passAssign, passAssigns, passName, passNames]
      omega
  | _, [], _, ls, h => by simp only [doLines] at h; cases h; simp [sizes]
  | _, .loc _ :: _, [], ls, h => by simp only [doLines] at h; cases h; simp [sizes]
  | _, .del _ :: _, [], ls, h => by simp only [doLines] at h; cases h; simp [sizes]

theorem size_pos : ∀ (t : Ex β), 1 ≤ size t
  | .cst _ => by simp [size]
  | .str _ => by simp [size]
  | .cap _ => by simp [size]
  | .name (.gen _) => by simp [size]
  | .name (.user y) => by simp [size]
  | .attr t a => by simp only [size]; omega
  | .call f args => by simp only [size]; omega
  | .lam ps ds b => by simp only [size]; omega
  | .ife c t f => by simp only [size]; omega
  | .tup ts => by simp only [size]; omega
  | .lst ts => by simp only [size]; omega
  | .assign _ v => by simp only [size]; omega
  | .letx r xs vs b => by simp only [size]; omega
  | .doe tags ts => by simp only [size]; omega
  | .bad => by simp [size]

/-! ## Expansion -/

theorem mapS_ok {n : Nat} (ih : ∀ t : Ex β, size t ≤ n → NC t → ∀ c, ∃ r, expand n t c = .ok r) :
    ∀ {ts : List (Ex β)} {c : Nat}, sizes ts ≤ n → NCs ts → ∃ r, mapS (expand n) ts c = .ok r
  | [], _, _, _ => ⟨_, rfl⟩
  | t :: ts, c, hs, hn => by
    simp only [sizes] at hs; simp only [NCs] at hn
    obtain ⟨⟨t', c1⟩, h1⟩ := ih t (by omega) hn.1 c
    obtain ⟨⟨ts', c2⟩, h2⟩ := mapS_ok ih (c := c1) (by omega) hn.2
    exact ⟨(t' :: ts', c2), by simp [mapS, h1, h2]⟩

theorem expand_ok : ∀ (n : Nat) (t : Ex β), size t ≤ n → NC t → ∀ c, ∃ r, expand n t c = .ok r := by
  intro n
  induction n with
  | zero => intro t h; have := size_pos t; omega
  | succ n ih =>
    intro t hs hn c
    match t with
    | .cst _ => exact ⟨_, rfl⟩
    | .str _ => exact ⟨_, rfl⟩
    | .cap _ => exact ⟨_, rfl⟩
    | .name _ => exact ⟨_, rfl⟩
    | .attr t a =>
      simp only [size] at hs; simp only [NC] at hn
      obtain ⟨⟨t', c1⟩, h1⟩ := ih t (by omega) hn c
      exact ⟨(.attr t' a, c1), by simp [expand, h1]⟩
    | .call f args =>
      simp only [size] at hs; simp only [NC] at hn
      obtain ⟨⟨t', c1⟩, h1⟩ := ih f (by omega) hn.1 c
      have := size_pos f
      obtain ⟨⟨ts', c2⟩, h2⟩ := mapS_ok ih (c := c1) (ts := args) (by omega) hn.2
      exact ⟨(.call t' ts', c2), by simp [expand, h1, h2]⟩
    | .lam ps ds b =>
      simp only [size] at hs; simp only [NC] at hn
      have := size_pos b
      obtain ⟨⟨ts', c2⟩, h2⟩ := mapS_ok ih (c := c) (ts := ds) (by omega) hn.1
      obtain ⟨⟨t', c1⟩, h1⟩ := ih b (by omega) hn.2 c2
      exact ⟨(.lam ps ts' t', c1), by simp [expand, h1, h2]⟩
    | .ife t1 t2 t3 =>
      simp only [size] at hs; simp only [NC] at hn
      obtain ⟨⟨u1, c1⟩, h1⟩ := ih t1 (by omega) hn.1 c
      obtain ⟨⟨u2, c2⟩, h2⟩ := ih t2 (by omega) hn.2.1 c1
      obtain ⟨⟨u3, c3⟩, h3⟩ := ih t3 (by omega) hn.2.2 c2
      exact ⟨(.ife u1 u2 u3, c3), by simp [expand, h1, h2, h3]⟩
    | .tup ts =>
      simp only [size] at hs; simp only [NC] at hn
      obtain ⟨⟨ts', c2⟩, h2⟩ := mapS_ok ih (c := c) (ts := ts) (by omega) hn
      exact ⟨(.tup ts', c2), by simp [expand, h2]⟩
    | .lst ts =>
      simp only [size] at hs; simp only [NC] at hn
      obtain ⟨⟨ts', c2⟩, h2⟩ := mapS_ok ih (c := c) (ts := ts) (by omega) hn
      exact ⟨(.lst ts', c2), by simp [expand, h2]⟩
    | .assign x v =>
      simp only [size] at hs; simp only [NC] at hn
      obtain ⟨⟨t', c1⟩, h1⟩ := ih v (by omega) hn c
      exact ⟨(.assign x t', c1), by simp [expand, h1]⟩
    | .letx r xs vs b =>
      simp only [size] at hs; simp only [NC] at hn
      have := size_pos b
      obtain ⟨⟨t', c1⟩, h1⟩ := ih b (by omega) hn.2 c
      by_cases hx : xs = []
      · exact ⟨(t', c1), by simp [expand, h1, hx]⟩
      · obtain ⟨⟨ts', c2⟩, h2⟩ := mapS_ok ih (c := c1) (ts := vs) (by omega) (hn.1 hx)
        exact ⟨_, by simp [expand, h1, h2, hx]; rfl⟩
    | .doe tags ts =>
      simp only [size] at hs; simp only [NC] at hn
      obtain ⟨ls, h1, h2⟩ := (nc_doLines (e := c)).1 hn
      have h3 := size_doLines h1
      obtain ⟨r, h4⟩ := ih (.call (.cap .dof) ls) (by simp only [size]; omega) (by simp only [NC]; exact ⟨trivial, h2⟩) (c + 1)
      exact ⟨r, by simp [expand, h1, h4]⟩
    | .bad => simp [NC] at hn

theorem ncs_mapS {n : Nat} (ih : ∀ (t : Ex β) c r, expand n t c = .ok r → NC t) :
    ∀ {ts : List (Ex β)} {c : Nat} {r}, mapS (expand n) ts c = .ok r → NCs ts
  | [], _, _, _ => by simp [NCs]
  | t :: ts, c, r, h => by
    simp only [mapS] at h
    split at h
    · cases h
    · rename_i t' c1 h1
      split at h
      · cases h
      · rename_i ts' c2 h2
        simp only [NCs]
        exact ⟨ih _ _ _ h1, ncs_mapS ih h2⟩

theorem nc_of_expand : ∀ (n : Nat) (t : Ex β) (c : Nat) (r), expand n t c = .ok r → NC t := by
  intro n
  induction n with
  | zero => intro t c r h; simp [expand] at h
  | succ n ih =>
    intro t c r h
    match t with
    | .cst _ => simp [NC]
    | .str _ => simp [NC]
    | .cap _ => simp [NC]
    | .name _ => simp [NC]
    | .attr t a =>
      simp only [expand] at h; simp only [NC]
      split at h
      · cases h
      · rename_i h1; exact ih _ _ _ h1
    | .call f args =>
      simp only [expand] at h; simp only [NC]
      split at h
      · cases h
      · rename_i h1
        split at h
        · cases h
        · rename_i h2; exact ⟨ih _ _ _ h1, ncs_mapS ih h2⟩
    | .lam ps ds b =>
      simp only [expand] at h; simp only [NC]
      split at h
      · cases h
      · rename_i h1
        split at h
        · cases h
        · rename_i h2; exact ⟨ncs_mapS ih h1, ih _ _ _ h2⟩
    | .ife t1 t2 t3 =>
      simp only [expand] at h; simp only [NC]
      split at h
      · cases h
      · rename_i h1
        split at h
        · cases h
        · rename_i h2
          split at h
          · cases h
          · rename_i h3; exact ⟨ih _ _ _ h1, ih _ _ _ h2, ih _ _ _ h3⟩
    | .tup ts =>
      simp only [expand] at h; simp only [NC]
      split at h
      · cases h
      · rename_i h1; exact ncs_mapS ih h1
    | .lst ts =>
      simp only [expand] at h; simp only [NC]
      split at h
      · cases h
      · rename_i h1; exact ncs_mapS ih h1
    | .assign x v =>
      simp only [expand] at h; simp only [NC]
      split at h
      · cases h
      · rename_i h1; exact ih _ _ _ h1
    | .letx r xs vs b =>
      simp only [expand] at h; simp only [NC]
      split at h
      · cases h
      · rename_i h1
        split at h
        · rename_i hx
          exact ⟨fun hne => absurd (List.isEmpty_iff.1 hx) hne, ih _ _ _ h1⟩
        · split at h
          · cases h
          · rename_i h2; exact ⟨fun _ => ncs_mapS ih h2, ih _ _ _ h1⟩
    | .doe tags ts =>
      simp only [expand] at h; simp only [NC]
      split at h
      · cases h
      · rename_i ls h1
        have := ih _ _ _ h
        simp only [NC] at this
        exact (nc_doLines (e := c)).2 ⟨ls, h1, this.2⟩
    | .bad => simp [expand] at h

theorem mapS_nofuel {n : Nat} (ih : ∀ t : Ex β, size t ≤ n → ∀ c, expand n t c ≠ .error .fuel) :
    ∀ {ts : List (Ex β)} {c : Nat}, sizes ts ≤ n → mapS (expand n) ts c ≠ .error .fuel
  | [], _, _ => by simp [mapS]
  | t :: ts, c, hs => by
    simp only [sizes] at hs
    intro h
    simp only [mapS] at h
    split at h
    · rename_i x h1; cases h; exact ih t (by omega) c h1
    · rename_i t' c1 h1
      split at h
      · rename_i x h2; cases h; exact mapS_nofuel ih (by omega) h2
      · cases h

theorem expand_nofuel : ∀ (n : Nat) (t : Ex β), size t ≤ n → ∀ c, expand n t c ≠ .error .fuel := by
  intro n
  induction n with
  | zero => intro t h; have := size_pos t; omega
  | succ n ih =>
    intro t hs c h
    match t with
    | .cst _ => simp [expand] at h
    | .str _ => simp [expand] at h
    | .cap _ => simp [expand] at h
    | .name _ => simp [expand] at h
    | .attr t a =>
      simp only [size] at hs; simp only [expand] at h
      split at h
      · rename_i h1; cases h; exact ih t (by omega) _ h1
      · cases h
    | .call f args =>
      simp only [size] at hs; simp only [expand] at h
      have := size_pos f
      split at h
      · rename_i h1; cases h; exact ih _ (by omega) _ h1
      · split at h
        · rename_i h1; cases h; exact mapS_nofuel ih (by omega) h1
        · cases h
    | .lam ps ds b =>
      simp only [size] at hs; simp only [expand] at h
      have := size_pos b
      split at h
      · rename_i h1; cases h; exact mapS_nofuel ih (by omega) h1
      · split at h
        · rename_i h1; cases h; exact ih _ (by omega) _ h1
        · cases h
    | .ife t1 t2 t3 =>
      simp only [size] at hs; simp only [expand] at h
      split at h
      · rename_i h1; cases h; exact ih _ (by omega) _ h1
      · split at h
        · rename_i h1; cases h; exact ih _ (by omega) _ h1
        · split at h
          · rename_i h1; cases h; exact ih _ (by omega) _ h1
          · cases h
    | .tup ts =>
      simp only [size] at hs; simp only [expand] at h
      split at h
      · rename_i h1; cases h; exact mapS_nofuel ih (by omega) h1
      · cases h
    | .lst ts =>
      simp only [size] at hs; simp only [expand] at h
      split at h
      · rename_i h1; cases h; exact mapS_nofuel ih (by omega) h1
      · cases h
    | .assign x v =>
      simp only [size] at hs; simp only [expand] at h
      split at h
      · rename_i h1; cases h; exact ih _ (by omega) _ h1
      · cases h
    | .letx r xs vs b =>
      simp only [size] at hs; simp only [expand] at h
      have := size_pos b
      split at h
      · rename_i h1; cases h; exact ih _ (by omega) _ h1
      · split at h
        · cases h
        · split at h
          · rename_i h1; cases h; exact mapS_nofuel ih (by omega) h1
          · cases h
    | .doe tags ts =>
      simp only [size] at hs; simp only [expand] at h
      split at h
      · rename_i x h1
        cases h
        exact doLines_nofuel h1
      · rename_i ls h1
        have h3 := size_doLines h1
        exact ih (.call (.cap .dof) ls) (by simp only [size]; omega) _ h
    | .bad => simp [expand] at h
where
  doLines_nofuel {e : Nat} : ∀ {names : List String} {tags : List Tag} {ts : List (Ex β)},
      doLines e names tags ts = .error .fuel → False
    | names, .loc xs :: tags, t :: ts, h => by
      simp only [doLines] at h
      split at h
      · cases h
      · split at h
        · rename_i h1; cases h; exact doLines_nofuel h1
        · cases h
    | names, .del x :: tags, t :: ts, h => by
      simp only [doLines] at h
      split at h
      · rename_i h1; cases h; exact doLines_nofuel h1
      · cases h
    | _, [], _, h => by simp [doLines] at h
    | _, .loc _ :: _, [], h => by simp [doLines] at h
    | _, .del _ :: _, [], h => by simp [doLines] at h

/-! ## In terms of the source -/

section
variable {P : World β ω ε}

theorem del_loc : ∀ {names : List String} {tags : List Tag} {ts : List (Ex β)}, ts.length = tags.length →
    WfItems P names tags ts → ∀ x, Tag.del x ∈ tags → x ∈ names ∨ ∃ xs, Tag.loc xs ∈ tags ∧ x ∈ xs
  | names, .loc xs :: tags, t :: ts, hl, h, x, hx => by
    simp only [WfItems] at h
    simp only [List.mem_cons, reduceCtorEq, false_or] at hx
    rcases del_loc (by simpa using hl) h.2.2 x hx with h' | ⟨ys, h', hy⟩
    · rcases List.mem_append.1 h' with h' | h'
      · exact .inl h'
      · exact .inr ⟨xs, by simp, h'⟩
    · exact .inr ⟨ys, by simp [h'], hy⟩
  | names, .del y :: tags, t :: ts, hl, h, x, hx => by
    simp only [WfItems] at h
    simp only [List.mem_cons, Tag.del.injEq] at hx
    rcases hx with rfl | hx
    · exact .inl h.1
    · rcases del_loc (by simpa using hl) h.2.2 x hx with h' | ⟨ys, h', hy⟩
      · exact .inl (List.mem_filter.1 h').1
      · exact .inr ⟨ys, by simp [h'], hy⟩
  | _, [], _, _, _, _, hx => by simp at hx
  | _, _ :: _, [], hl, _, _, _ => by simp at hl

mutual
theorem clear_iff {L R : List String} (hR : ∀ x ∈ R, x ∈ L) : ∀ {t : Ex β} {S : List Name}, Wf P t →
    (Clear L R S t ↔ ∀ x ∈ L, Name.user x ∉ S → rebinds x t = false)
  | .cst _, _, _ => by simp [Clear, rebinds]
  | .name (.user _), _, _ => by simp [Clear, rebinds]
  | .call f args, S, h => by
    simp only [Wf] at h; simp only [Clear, rebinds, Bool.or_eq_false_iff]
    rw [clear_iff hR h.1, clears_iff hR h.2]; grind
  | .lam ps ds b, S, h => by
    simp only [Wf] at h; simp only [Clear, rebinds]
    rw [clears_iff hR h.2.2.1, clear_iff hR h.2.2.2]
    constructor
    · intro ⟨h1, h2⟩ x hx hs
      by_cases hp : Name.user x ∈ ps
      · simp [hp]
      · simp [h1 x hx (by simp [hs, hp]), h2 x hx (by simp [hs, hp])]
    · intro h1
      refine ⟨fun x hx hs => ?_, fun x hx hs => ?_⟩
      all_goals
        simp only [List.mem_append, not_or] at hs
        have := h1 x hx hs.1
        simp only [hs.2, decide_false, Bool.not_false, Bool.true_and, Bool.or_eq_false_iff] at this
      · exact this.1
      · exact this.2
  | .ife c t e, S, h => by
    simp only [Wf] at h; simp only [Clear, rebinds, Bool.or_eq_false_iff]
    rw [clear_iff hR h.1, clear_iff hR h.2.1, clear_iff hR h.2.2]; grind
  | .tup ts, S, h => by simp only [Wf] at h; simp only [Clear, rebinds]; exact clears_iff hR h
  | .lst ts, S, h => by simp only [Wf] at h; simp only [Clear, rebinds]; exact clears_iff hR h
  | .assign (.user _) v, S, h => by simp only [Wf] at h; simp only [Clear, rebinds]; exact clear_iff hR h
  | .letx _ xs vs b, S, h => by
    simp only [Wf] at h; simp only [Clear, rebinds, Bool.or_eq_false_iff, decide_eq_false_iff_not]
    rw [clear_iff hR h.2.2.2.2.2, clears_iff hR h.2.2.2.2.1]
    have := h.1
    grind
  | .doe tags ts, S, h => by
    simp only [Wf] at h; simp only [Clear, rebinds, Bool.or_eq_false_iff]
    rw [clear_items_iff hR h.2.1 h.2.2]
    constructor
    · intro ⟨h1, h2, h3⟩ x hx hs
      refine ⟨?_, h3 x hx hs⟩
      rw [List.any_eq_false]
      intro t ht
      cases t with
      | del y => simp
      | loc xs =>
        simp only [decide_eq_true_eq]
        exact fun hxx => h1 xs ht x hxx ⟨hx, hs⟩
    · intro h1
      have hloc : ∀ xs, Tag.loc xs ∈ tags → ∀ x ∈ xs, ¬ (x ∈ L ∧ Name.user x ∉ S) := by
        intro xs ht x hxx hc
        have := List.any_eq_false.1 (h1 x hc.1 hc.2).1 _ ht
        simp [hxx] at this
      refine ⟨hloc, fun x hx hc => ?_, fun x hx hs => (h1 x hx hs).2⟩
      rcases del_loc h.2.1 h.2.2 x hx with h' | ⟨ys, h', hy⟩
      · simp at h'
      · exact hloc ys h' x hy ⟨hR x hc.1, hc.2⟩
  | .str _, _, h => by simp [Wf] at h
  | .cap _, _, h => by simp [Wf] at h
  | .name (.gen _), _, h => by simp [Wf] at h
  | .attr _ _, _, h => by simp [Wf] at h
  | .assign (.gen _) _, _, h => by simp [Wf] at h
  | .bad, _, h => by simp [Wf] at h
theorem clears_iff {L R : List String} (hR : ∀ x ∈ R, x ∈ L) : ∀ {ts : List (Ex β)} {S : List Name}, Wfs P ts →
    (Clears L R S ts ↔ ∀ x ∈ L, Name.user x ∉ S → rebindsAny x ts = false)
  | [], _, _ => by simp [Clears, rebindsAny]
  | t :: ts, S, h => by
    simp only [Wfs] at h; simp only [Clears, rebindsAny, Bool.or_eq_false_iff]
    rw [clear_iff hR h.1, clears_iff hR h.2]; grind
theorem clear_items_iff {L R : List String} (hR : ∀ x ∈ R, x ∈ L) : ∀ {names : List String} {tags : List Tag} {ts : List (Ex β)}
    {S : List Name}, ts.length = tags.length → WfItems P names tags ts →
    (ClearItems L R S tags ts ↔ ∀ x ∈ L, Name.user x ∉ S → rebindsAny x ts = false)
  | _, .loc xs :: tags, t :: ts, S, hl, h => by
    simp only [WfItems] at h; simp only [ClearItems, rebindsAny, Bool.or_eq_false_iff]
    rw [clear_iff hR h.2.1, clear_items_iff hR (by simpa using hl) h.2.2]; grind
  | _, .del _ :: tags, t :: ts, S, hl, h => by
    simp only [WfItems] at h; simp only [ClearItems, rebindsAny, Bool.or_eq_false_iff]
    rw [clear_items_iff hR (by simpa using hl) h.2.2, h.2.1]; simp [rebinds]
  | _, [], [], _, _, _ => by simp [ClearItems, rebindsAny]
  | _, [], _ :: _, _, hl, _ => by simp at hl
  | _, .loc _ :: _, [], _, hl, _ => by simp at hl
  | _, .del _ :: _, [], _, hl, _ => by simp at hl
end

mutual
theorem nc_iff : ∀ {t : Ex β}, Wf P t → (NC t ↔ NoClash t)
  | .cst _, _ => by simp [NC, NoClash]
  | .name (.user _), _ => by simp [NC, NoClash]
  | .call f args, h => by
    simp only [Wf] at h; simp only [NC, NoClash]; rw [nc_iff h.1, ncs_iff h.2]
  | .lam ps ds b, h => by
    simp only [Wf] at h; simp only [NC, NoClash]; rw [ncs_iff h.2.2.1, nc_iff h.2.2.2]
  | .ife c t e, h => by
    simp only [Wf] at h; simp only [NC, NoClash]; rw [nc_iff h.1, nc_iff h.2.1, nc_iff h.2.2]
  | .tup ts, h => by simp only [Wf] at h; simp only [NC, NoClash]; exact ncs_iff h
  | .lst ts, h => by simp only [Wf] at h; simp only [NC, NoClash]; exact ncs_iff h
  | .assign (.user _) v, h => by simp only [Wf] at h; simp only [NC, NoClash]; exact nc_iff h
  | .letx _ xs vs b, h => by
    simp only [Wf] at h; simp only [NC, NoClash]; rw [ncs_iff h.2.2.2.2.1, nc_iff h.2.2.2.2.2]
    simp [h.1]
  | .doe tags ts, h => by
    simp only [Wf] at h; simp only [NC, NoClash]; exact nc_items_iff h.2.1 h.2.2
  | .str _, h => by simp [Wf] at h
  | .cap _, h => by simp [Wf] at h
  | .name (.gen _), h => by simp [Wf] at h
  | .attr _ _, h => by simp [Wf] at h
  | .assign (.gen _) _, h => by simp [Wf] at h
  | .bad, h => by simp [Wf] at h
theorem ncs_iff : ∀ {ts : List (Ex β)}, Wfs P ts → (NCs ts ↔ NoClashes ts)
  | [], _ => by simp [NCs, NoClashes]
  | t :: ts, h => by
    simp only [Wfs] at h; simp only [NCs, NoClashes]; rw [nc_iff h.1, ncs_iff h.2]
theorem nc_items_iff : ∀ {names : List String} {tags : List Tag} {ts : List (Ex β)}, ts.length = tags.length →
    WfItems P names tags ts → (NCItems names tags ts ↔ NoClashItems names tags ts)
  | names, .loc xs :: tags, t :: ts, hl, h => by
    simp only [WfItems] at h; simp only [NCItems, NoClashItems]
    rw [clear_iff (fun x hx => by simp [hx]) h.2.1, nc_iff h.2.1, nc_items_iff (by simpa using hl) h.2.2]
    simp
  | _, .del _ :: tags, t :: ts, hl, h => by
    simp only [WfItems] at h; simp only [NCItems, NoClashItems]
    exact nc_items_iff (by simpa using hl) h.2.2
  | _, [], _, _, _ => by simp [NCItems, NoClashItems]
  | _, .loc _ :: _, [], hl, _ => by simp at hl
  | _, .del _ :: _, [], hl, _ => by simp at hl
end

theorem expands_iff {t : Ex β} (h : Wf P t) (c : Nat) : (∃ m r, expand m t c = .ok r) ↔ NoClash t := by
  rw [← nc_iff h]
  exact ⟨fun ⟨m, r, hr⟩ => nc_of_expand m t c r hr, fun hn => ⟨size t, expand_ok _ _ (Nat.le_refl _) hn c⟩⟩

theorem expand_error {t : Ex β} (h : Wf P t) (hc : ¬ NoClash t) (n c : Nat) (hn : size t ≤ n) :
    expand n t c = .error .syntaxError := by
  cases he : expand n t c with
  | ok r => exact absurd ((expands_iff h c).1 ⟨n, r, he⟩) hc
  | error x =>
    cases x with
    | syntaxError => rfl
    | fuel => exact absurd he (expand_nofuel n t hn c)

end

end Unpy.LetDo
