import Verif.Spec.Deco
/-!
# Proofs about the order of decorators
-/
namespace Unpy.Deco.Pf
open Unpy.Deco Unpy.Deco.Spec

section
variable {α : Type} (le : α → α → Bool)

theorem insertBy_perm (x : α) : ∀ l, (insertBy le x l).Perm (x :: l)
  | [] => .refl _
  | y :: ys => by
    simp only [insertBy]
    split
    · exact .refl _
    · exact ((insertBy_perm x ys).cons y).trans (.swap x y ys)

theorem sortBy_perm : ∀ l, (sortBy le l).Perm l
  | [] => .refl _
  | x :: xs => (insertBy_perm le x _).trans ((sortBy_perm xs).cons x)

variable {le}

theorem insertBy_sorted (ht : ∀ a b c, le a b = true → le b c = true → le a c = true)
    (htot : ∀ a b, le a b = true ∨ le b a = true) (x : α) : ∀ l, l.Pairwise (fun a b => le a b = true) →
    (insertBy le x l).Pairwise (fun a b => le a b = true)
  | [], _ => by simp [insertBy]
  | y :: ys, h => by
    simp only [insertBy]
    rw [List.pairwise_cons] at h
    split
    · rename_i hxy
      refine List.pairwise_cons.2 ⟨fun z hz => ?_, List.pairwise_cons.2 h⟩
      rcases List.mem_cons.1 hz with rfl | hz
      · exact hxy
      · exact ht _ _ _ hxy (h.1 z hz)
    · rename_i hxy
      refine List.pairwise_cons.2 ⟨fun z hz => ?_, insertBy_sorted ht htot x ys h.2⟩
      rcases List.mem_cons.1 ((insertBy_perm le x ys).mem_iff.1 hz) with rfl | hz
      · exact (htot z y).resolve_left hxy
      · exact h.1 z hz

theorem sortBy_sorted (ht : ∀ a b c, le a b = true → le b c = true → le a c = true)
    (htot : ∀ a b, le a b = true ∨ le b a = true) : ∀ l, (sortBy le l).Pairwise (fun a b => le a b = true)
  | [] => by simp [sortBy]
  | x :: xs => insertBy_sorted ht htot x _ (sortBy_sorted ht htot xs)

theorem sortBy_fixed : ∀ l : List α, l.Pairwise (fun a b => le a b = true) → sortBy le l = l
  | [], _ => rfl
  | x :: xs, h => by
    rw [List.pairwise_cons] at h
    rw [sortBy, sortBy_fixed xs h.2]
    cases xs with
    | nil => rfl
    | cons y ys => simp [insertBy, h.1 y List.mem_cons_self]

end

theorem str_trans (a b c : String) (h : a ≤ b) (h' : b ≤ c) : a ≤ c := String.le_trans h h'
theorem str_total (a b : String) : a ≤ b ∨ b ≤ a := String.le_total a b

theorem pairLe_trans (a b c : Int × String) (h : pairLe a b = true) (h' : pairLe b c = true) : pairLe a c = true := by
  simp only [pairLe, Bool.or_eq_true, Bool.and_eq_true, decide_eq_true_eq] at *
  rcases h with h | ⟨h, hs⟩ <;> rcases h' with h' | ⟨h', hs'⟩
  · left; omega
  · left; omega
  · left; omega
  · right; exact ⟨by omega, str_trans _ _ _ hs hs'⟩

theorem pairLe_total (a b : Int × String) : pairLe a b = true ∨ pairLe b a = true := by
  simp only [pairLe, Bool.or_eq_true, Bool.and_eq_true, decide_eq_true_eq]
  rcases str_total a.2 b.2 with h | h <;> by_cases h₁ : a.1 < b.1 <;> by_cases h₂ : b.1 < a.1
  all_goals first
    | (left; left; omega)
    | (right; left; omega)
    | (left; right; exact ⟨by omega, h⟩)
    | (right; right; exact ⟨by omega, h⟩)

theorem register_perm (r : Registry) (p n) : (register r p n).Perm ((p, n) :: r) :=
  (sortBy_perm pairLe _).trans (List.perm_append_comm (l₂ := [(p, n)]))

theorem register_sorted (r : Registry) (p n) : (register r p n).Pairwise (fun a b => a.1 ≤ b.1) := by
  refine (sortBy_sorted pairLe_trans pairLe_total (r ++ [(p, n)])).imp fun {a b} h => ?_
  simp only [pairLe, Bool.or_eq_true, Bool.and_eq_true, decide_eq_true_eq] at h
  omega

theorem made_perm {r : Registry} {es} (h : Made r es) : r.Perm es := by
  induction h with
  | nil => exact .refl _
  | reg _ _ ih => exact (register_perm _ _ _).trans ((ih.cons _).trans (List.perm_append_comm (l₁ := [_])))

theorem made_sorted {r : Registry} {es} (h : Made r es) : r.Pairwise (fun a b => a.1 ≤ b.1) := by
  cases h with
  | nil => exact .nil
  | reg _ _ => exact register_sorted _ _ _

theorem made_nodup {r : Registry} {es} (h : Made r es) : (es.map Prod.snd).Nodup := by
  induction h with
  | nil => exact .nil
  | reg _ hn ih =>
    simp only [List.map_append, List.map_cons, List.map_nil]
    exact List.nodup_append.2 ⟨ih, by simp, by simp; intro a x hx hax; exact hn (hax ▸ List.mem_map.2 ⟨_, hx, rfl⟩)⟩

theorem priority_iff {es : List (Int × String)} (h : (es.map Prod.snd).Nodup) {p n} : priority es n = some p ↔ (p, n) ∈ es := by
  induction es with
  | nil => simp [priority]
  | cons e es ih =>
    obtain ⟨q, m⟩ := e
    simp only [List.map_cons, List.nodup_cons] at h
    have ih := ih h.2
    by_cases hm : m = n
    · subst hm
      simp only [priority, List.findSome?_cons, if_true, List.mem_cons, Prod.mk.injEq, and_true, Option.some.injEq]
      constructor
      · rintro rfl; exact .inl rfl
      · rintro (rfl | hp)
        · rfl
        · exact absurd (List.mem_map.2 ⟨_, hp, rfl⟩) h.1
    · have : priority ((q, m) :: es) n = priority es n := by simp [priority, hm]
      rw [this, ih]
      simp [Ne.symm hm]

theorem made_mem {r : Registry} {es} (h : Made r es) {p n} : (p, n) ∈ r ↔ priority es n = some p := by
  rw [priority_iff (made_nodup h), (made_perm h).mem_iff]

theorem priByName_eq {r : Registry} {es} (h : Made r es) (n : String) : priByName r n = priority es n := by
  have key : ∀ p, priByName r n = some p → priority es n = some p := by
    intro p hp
    simp only [priByName, Option.map_eq_some_iff] at hp
    obtain ⟨e, he, rfl⟩ := hp
    have h₁ := List.find?_some he
    have h₂ := List.mem_reverse.1 (List.mem_of_find?_eq_some he)
    simp only [beq_iff_eq] at h₁
    obtain ⟨q, m⟩ := e
    simp only at h₁
    subst h₁
    exact (made_mem h).1 h₂
  rcases hp : priByName r n with _ | p
  · rcases hq : priority es n with _ | q
    · rfl
    · have hm := List.mem_reverse.2 ((made_mem h).2 hq)
      simp only [priByName, Option.map_eq_none_iff, List.find?_eq_none] at hp
      exact absurd (by simp) (hp _ hm)
  · exact (key p hp).symm

theorem isRegistered_eq {r : Registry} {es} (h : Made r es) (n : String) : isRegistered r n = (priority es n).isSome := by
  rcases hq : priority es n with _ | q
  · simp only [isRegistered, Option.isSome_none, List.any_eq_false, beq_iff_eq]
    rintro ⟨p, m⟩ hm rfl
    rw [(made_mem h).1 hm] at hq
    cases hq
  · simp only [isRegistered, Option.isSome_some, List.any_eq_true, beq_iff_eq]
    exact ⟨(q, n), (made_mem h).2 hq, rfl⟩

variable {φ κ : Type}

theorem prioritize_get {r : Registry} {es} (h : Made r es) {d : Deco φ κ} {p} (hp : priority es d.name = some p) :
    ∃ hlt : prioritize r d < r.length, r[prioritize r d] = (p, d.name) := by
  have hm := (made_mem h).2 hp
  have hlt : prioritize r d < r.length := List.findIdx_lt_length_of_exists ⟨_, hm, by simp⟩
  refine ⟨hlt, ?_⟩
  have h₁ : (r[prioritize r d].2 == d.name) = true := List.findIdx_getElem (w := hlt)
  rw [beq_iff_eq] at h₁
  have h₂ : (r[prioritize r d].1, d.name) ∈ r := by
    have := List.getElem_mem hlt
    rw [← h₁]; exact this
  have h₃ := (made_mem h).1 h₂
  rw [hp] at h₃
  exact Prod.ext (Option.some.inj h₃).symm h₁

theorem prioritize_le {r : Registry} {es} (h : Made r es) {a b : Deco φ κ} {p q} (hp : priority es a.name = some p)
    (hq : priority es b.name = some q) (hle : prioritize r a ≤ prioritize r b) : p ≤ q := by
  obtain ⟨h₁, e₁⟩ := prioritize_get h hp
  obtain ⟨h₂, e₂⟩ := prioritize_get h hq
  rcases Nat.lt_or_eq_of_le hle with hl | he
  · have := List.pairwise_iff_getElem.1 (made_sorted h) _ _ h₁ h₂ hl
    rw [e₁, e₂] at this
    exact this
  · have : r[prioritize r a] = r[prioritize r b] := by congr
    rw [e₁, e₂] at this
    exact Int.le_of_eq (congrArg Prod.fst this)

theorem prioritize_of_lt {r : Registry} {es} (h : Made r es) {a b : Deco φ κ} {p q} (hp : priority es a.name = some p)
    (hq : priority es b.name = some q) (hlt : p < q) : prioritize r a ≤ prioritize r b := by
  apply Nat.le_of_not_lt
  intro hl
  have := prioritize_le h hq hp (Nat.le_of_lt hl)
  omega

/-! ## Sorting -/

theorem zipWith_parts (ds os : List (Deco φ κ)) (h : ds.length = os.length) :
    (List.zipWith (fun a b : Deco φ κ => { a with name := b.name, func := b.func }) ds os).map (fun d => (d.name, d.func)) =
      os.map (fun d => (d.name, d.func)) ∧
    (List.zipWith (fun a b : Deco φ κ => { a with name := b.name, func := b.func }) ds os).map Deco.kws = ds.map Deco.kws := by
  induction ds generalizing os with
  | nil => cases os with
    | nil => exact ⟨rfl, rfl⟩
    | cons => simp at h
  | cons d ds ih => cases os with
    | nil => simp at h
    | cons o os =>
      have := ih os (by simpa using h)
      simp only [List.zipWith_cons_cons, List.map_cons, this.1, this.2, and_self]

def ordered (reg : Registry) (ds : List (Deco φ κ)) : List (Deco φ κ) :=
  sortBy (fun a b => decide (prioritize reg a ≤ prioritize reg b)) ds

theorem sortKnown_parts (reg : Registry) (ds : List (Deco φ κ)) :
    (sortKnown reg ds).map (fun d => (d.name, d.func)) = (ordered reg ds).map (fun d => (d.name, d.func)) ∧
    (sortKnown reg ds).map Deco.kws = ds.map Deco.kws :=
  zipWith_parts ds _ (sortBy_perm _ ds).length_eq.symm

theorem ordered_sorted (reg : Registry) (ds : List (Deco φ κ)) :
    (ordered reg ds).Pairwise (fun a b => prioritize reg a ≤ prioritize reg b) := by
  refine (sortBy_sorted ?_ ?_ ds).imp fun {a b} h => of_decide_eq_true h
  · intro a b c h h'
    simp only [decide_eq_true_eq] at *
    omega
  · intro a b
    simp only [decide_eq_true_eq]
    omega

theorem zipWith_self (ds : List (Deco φ κ)) :
    List.zipWith (fun a b : Deco φ κ => { a with name := b.name, func := b.func }) ds ds = ds := by
  induction ds with
  | nil => rfl
  | cons d ds ih => rw [List.zipWith_cons_cons, ih]

theorem sortKnown_fixed (reg : Registry) (ds : List (Deco φ κ))
    (h : ds.Pairwise (fun a b => prioritize reg a ≤ prioritize reg b)) : sortKnown reg ds = ds := by
  have : ordered reg ds = ds := sortBy_fixed ds (h.imp fun {a b} h => decide_eq_true h)
  simp only [sortKnown]
  rw [show sortBy (fun a b => decide (prioritize reg a ≤ prioritize reg b)) ds = ds from this]
  exact zipWith_self ds

/-! ## Insertion -/

theorem cummax_asc : ∀ (l : List Int) (m : Option Int),
    (((cummax m l).zip (cummax m l).tail).all (fun p => decide (p.2 ≥ p.1))) = true
  | [], _ => rfl
  | [_], _ => rfl
  | x :: y :: l, m => by
    have ih := cummax_asc (y :: l) (some (match m with | none => x | some m => max x m))
    simp only [cummax, List.tail_cons, List.zip_cons_cons, List.all_cons, Bool.and_eq_true, decide_eq_true_eq] at ih ⊢
    refine ⟨?_, ih⟩
    omega

theorem isascending_true (l : List Int) : isascending l = true := cummax_asc l none

theorem knownnames_eq {r : Registry} {es} (h : Made r es) (names : List (Option String)) :
    names.filterMap (fun n => n.filter (fun n => (priByName r n).isSome)) =
      names.filterMap (fun n => n.filter (fun n => (priority es n).isSome)) := by
  simp only [priByName_eq h]

theorem knownpris_eq (es : List (Int × String)) (names : List (Option String)) :
    (names.filterMap (fun n => n.filter (fun n => (priority es n).isSome))).filterMap (priority es) = known es names := by
  induction names with
  | nil => rfl
  | cons n names ih =>
    cases n with
    | none => simpa [known] using ih
    | some n =>
      rcases hp : priority es n with _ | p
      · simpa [known, hp, Option.filter] using ih
      · simp only [known, List.filterMap_cons, Option.bind_some, hp, Option.filter, Option.isSome_some, if_true]
        exact congrArg (p :: ·) ih

/-- The first known decorator of at least this priority, and where it is. -/
theorem find_split (es : List (Int × String)) (t : Int) : ∀ (names : List (Option String)), (∃ p ∈ known es names, t ≤ p) →
    ∃ a n b q, names = a ++ some n :: b ∧ priority es n = some q ∧ t ≤ q ∧ (∀ p ∈ known es a, p < t) ∧
      ((known es names).zip (names.filterMap (fun n => n.filter (fun n => (priority es n).isSome)))).find?
        (fun p => decide (p.1 ≥ t)) = some (q, n) ∧ some n ∉ a
  | [], h => by simp [known] at h
  | x :: names, h => by
    have skip : (x.bind (priority es) = none) → (∃ p ∈ known es names, t ≤ p) → x.filter (fun n => (priority es n).isSome) = none →
        ∃ a n b q, x :: names = a ++ some n :: b ∧ priority es n = some q ∧ t ≤ q ∧ (∀ p ∈ known es a, p < t) ∧
      ((known es (x :: names)).zip ((x :: names).filterMap (fun n => n.filter (fun n => (priority es n).isSome)))).find?
        (fun p => decide (p.1 ≥ t)) = some (q, n) ∧ some n ∉ a := by
      intro hx h hf
      obtain ⟨a, n, b, q, rfl, h₁, h₂, h₃, h₄, h₅⟩ := find_split es t names h
      refine ⟨x :: a, n, b, q, rfl, h₁, h₂, ?_, ?_, ?_⟩
      · simpa [known, hx] using h₃
      · simp only [known, List.filterMap_cons, hx, hf] at h₄ ⊢
        exact h₄
      · intro hm
        rcases List.mem_cons.1 hm with hm | hm
        · subst hm
          simp [h₁] at hx
        · exact h₅ hm
    cases x with
    | none => exact skip rfl (by simpa [known] using h) rfl
    | some x =>
      rcases hp : priority es x with _ | p
      · exact skip (by simp [hp]) (by simpa [known, hp] using h) (by simp [Option.filter, hp])
      · by_cases hpt : t ≤ p
        · refine ⟨[], x, names, p, rfl, hp, hpt, by simp [known], ?_, by simp⟩
          simp [known, hp, Option.filter, hpt]
        · have h' : ∃ p ∈ known es names, t ≤ p := by
            obtain ⟨q, hq, hle⟩ := h
            simp only [known, List.filterMap_cons, Option.bind_some, hp, List.mem_cons] at hq
            rcases hq with rfl | hq
            · exact absurd hle hpt
            · exact ⟨q, hq, hle⟩
          obtain ⟨a, n, b, q, rfl, h₁, h₂, h₃, h₄, h₅⟩ := find_split es t names h'
          refine ⟨some x :: a, n, b, q, rfl, h₁, h₂, ?_, ?_, ?_⟩
          · intro y hy
            simp only [known, List.filterMap_cons, Option.bind_some, hp, List.mem_cons] at hy
            rcases hy with rfl | hy
            · omega
            · exact h₃ y hy
          · simp only [known, List.filterMap_cons, Option.bind_some, hp, Option.filter, Option.isSome_some, if_true,
              List.zip_cons_cons, List.find?_cons, ge_iff_le, hpt, decide_false] at h₄ ⊢
            exact h₄
          · intro hm
            rcases List.mem_cons.1 hm with hm | hm
            · cases hm
              rw [hp] at h₁
              cases h₁
              exact hpt h₂
            · exact h₅ hm

theorem known_append (es : List (Int × String)) (a b : List (Option String)) : known es (a ++ b) = known es a ++ known es b :=
  List.filterMap_append

end Unpy.Deco.Pf
