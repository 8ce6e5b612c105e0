import Verif.Spec.Typecheck
/-! Helper lemmas for `isoftype`. -/
namespace Unpy.Proof.Typecheck
open Unpy Unpy.Typecheck Unpy.Spec.Typecheck
variable {C V : Type} [DecidableEq C]

theorem anyM_sound {α : Type} {f : α → Res Bool} {P : α → Prop} : ∀ {l : List α},
    (∀ x ∈ l, ∀ b, f x = .ok b → (b = true ↔ P x)) → ∀ {b}, anyM f l = .ok b →
    (b = true ↔ ∃ x ∈ l, P x)
  | [], _, b, hb => by
    simp only [anyM, Except.ok.injEq] at hb
    subst hb
    simp
  | x :: xs, h, b, hb => by
    have hx := h x (by simp)
    have ih := anyM_sound (l := xs) (fun y hy => h y (by simp [hy])) (b := b)
    unfold anyM at hb
    rcases hf : f x with e | (_ | _)
    · rw [hf] at hb; cases hb
    · rw [hf] at hb
      rw [ih hb]
      have := hx _ hf
      simp only [Bool.false_eq_true, false_iff] at this
      simp [this]
    · rw [hf] at hb
      cases hb
      have := hx _ hf
      simp only [true_iff] at this
      simp [this]

theorem allM_sound {α : Type} {f : α → Res Bool} {P : α → Prop} : ∀ {l : List α},
    (∀ x ∈ l, ∀ b, f x = .ok b → (b = true ↔ P x)) → ∀ {b}, allM f l = .ok b →
    (b = true ↔ ∀ x ∈ l, P x)
  | [], _, b, hb => by
    simp only [allM, Except.ok.injEq] at hb
    subst hb
    simp
  | x :: xs, h, b, hb => by
    have hx := h x (by simp)
    have ih := allM_sound (l := xs) (fun y hy => h y (by simp [hy])) (b := b)
    unfold allM at hb
    rcases hf : f x with e | (_ | _)
    · rw [hf] at hb; cases hb
    · rw [hf] at hb
      cases hb
      have := hx _ hf
      simp only [Bool.false_eq_true, false_iff] at this
      simp [this]
    · rw [hf] at hb
      rw [ih hb]
      have := hx _ hf
      simp only [true_iff] at this
      simp [this]

theorem both_sound {f g : V → Res Bool} {P Q : V → Prop} {kv : V × V}
    (hf : ∀ b, f kv.1 = .ok b → (b = true ↔ P kv.1)) (hg : ∀ b, g kv.2 = .ok b → (b = true ↔ Q kv.2)) :
    ∀ b, both f g kv = .ok b → (b = true ↔ P kv.1 ∧ Q kv.2) := by
  intro b hb
  unfold both at hb
  rcases h : f kv.1 with e | (_ | _)
  · rw [h] at hb; cases hb
  · rw [h] at hb; cases hb
    have := hf _ h
    simp only [Bool.false_eq_true, false_iff] at this
    simp [this]
  · rw [h] at hb
    have := hf _ h
    simp only [true_iff] at this
    simp [this, hg b hb]

theorem anyM_answers {α : Type} {f : α → Res Bool} : ∀ {l : List α},
    (∀ x ∈ l, ∃ b, f x = .ok b) → ∃ b, anyM f l = .ok b
  | [], _ => ⟨_, rfl⟩
  | x :: xs, h => by
    obtain ⟨b, hb⟩ := h x (by simp)
    unfold anyM
    rw [hb]
    cases b
    · exact anyM_answers (fun y hy => h y (by simp [hy]))
    · exact ⟨_, rfl⟩

theorem allM_answers {α : Type} {f : α → Res Bool} : ∀ {l : List α},
    (∀ x ∈ l, ∃ b, f x = .ok b) → ∃ b, allM f l = .ok b
  | [], _ => ⟨_, rfl⟩
  | x :: xs, h => by
    obtain ⟨b, hb⟩ := h x (by simp)
    unfold allM
    rw [hb]
    cases b
    · exact ⟨_, rfl⟩
    · exact allM_answers (fun y hy => h y (by simp [hy]))

theorem both_answers {f g : V → Res Bool} {kv : V × V}
    (hf : ∃ b, f kv.1 = .ok b) (hg : ∃ b, g kv.2 = .ok b) : ∃ b, both f g kv = .ok b := by
  obtain ⟨b, hb⟩ := hf
  unfold both
  rw [hb]
  cases b
  · exact ⟨_, rfl⟩
  · exact hg

theorem anyOf_eq (w : World C V) (v : V) : ∀ ts, anyOf w ts v = anyM (fun t => isoftype w t v) ts
  | [] => by simp [anyOf, anyM]
  | t :: ts => by
    unfold anyOf anyM
    rw [anyOf_eq w v ts]

theorem allOf_eq (w : World C V) : ∀ ts xs, allOf w ts xs = allM (fun p => isoftype w p.2 p.1) (xs.zip ts)
  | [], xs => by cases xs <;> simp [allOf, allM]
  | t :: ts, [] => by simp [allOf, allM]
  | t :: ts, x :: xs => by
    simp only [List.zip_cons_cons]
    unfold allOf allM
    rw [allOf_eq w ts xs]

theorem ismapping_sound {w : World C V} {c : C} {f g : V → Res Bool} {P Q : V → Prop} {v : V}
    (ht : w.inst v c = true → w.truthy v = !(w.pairs v).isEmpty)
    (hf : ∀ x b, f x = .ok b → (b = true ↔ P x)) (hg : ∀ x b, g x = .ok b → (b = true ↔ Q x)) {b}
    (hb : ismapping w c f g v = .ok b) :
    b = true ↔ w.inst v c = true ∧ w.pairs v ≠ [] ∧ (∀ p ∈ w.pairs v, P p.1) ∧ (∀ p ∈ w.pairs v, Q p.2) := by
  unfold ismapping at hb
  cases hi : w.inst v c
  · simp only [hi, Bool.not_false, if_true, Except.ok.injEq] at hb
    simp [← hb]
  · simp only [hi, Bool.not_true, Bool.false_eq_true, if_false, ht hi] at hb
    cases hp : w.pairs v with
    | nil => simp [hp] at hb; simp [← hb]
    | cons p ps =>
      rw [hp] at hb
      simp only [List.isEmpty_cons, Bool.not_false, Bool.not_true, Bool.false_eq_true, if_false] at hb
      rw [allM_sound (P := fun kv => P kv.1 ∧ Q kv.2) (fun x _ => both_sound (hf x.1) (hg x.2)) hb]
      constructor
      · intro h
        exact ⟨rfl, by simp, fun q hq => (h q hq).1, fun q hq => (h q hq).2⟩
      · rintro ⟨_, _, h1, h2⟩ q hq
        exact ⟨h1 q hq, h2 q hq⟩

theorem iscollection_sound {w : World C V} {c : C} {f : V → Res Bool} {P : V → Prop} {v : V}
    (ht : w.inst v c = true → w.truthy v = !(w.iter v).isEmpty)
    (hf : ∀ x b, f x = .ok b → (b = true ↔ P x)) {b}
    (hb : iscollection w c f v = .ok b) :
    b = true ↔ w.inst v c = true ∧ w.iter v ≠ [] ∧ (∀ p ∈ w.iter v, P p) := by
  unfold iscollection at hb
  cases hi : w.inst v c
  · simp only [hi, Bool.not_false, if_true, Except.ok.injEq] at hb
    simp [← hb]
  · simp only [hi, Bool.not_true, Bool.false_eq_true, if_false, ht hi] at hb
    cases hp : w.iter v with
    | nil => simp [hp] at hb; simp [← hb]
    | cons p ps =>
      rw [hp] at hb
      simp only [List.isEmpty_cons, Bool.not_false, Bool.not_true, Bool.false_eq_true, if_false] at hb
      rw [allM_sound (P := P) (fun x _ => hf x) hb]
      exact ⟨fun h => ⟨rfl, by simp, h⟩, fun h => h.2.2⟩

theorem ismapping_answers {w : World C V} {c : C} {f g : V → Res Bool} {v : V}
    (hf : ∀ x, ∃ b, f x = .ok b) (hg : ∀ x, ∃ b, g x = .ok b) : ∃ b, ismapping w c f g v = .ok b := by
  unfold ismapping
  split
  · exact ⟨_, rfl⟩
  · split
    · exact ⟨_, rfl⟩
    · exact allM_answers (fun x _ => both_answers (hf _) (hg _))

theorem iscollection_answers {w : World C V} {c : C} {f : V → Res Bool} {v : V}
    (hf : ∀ x, ∃ b, f x = .ok b) : ∃ b, iscollection w c f v = .ok b := by
  unfold iscollection
  split
  · exact ⟨_, rfl⟩
  · split
    · exact ⟨_, rfl⟩
    · exact allM_answers (fun x _ => hf _)

theorem unconstrained_sound (x : V) (b : Bool) (h : unconstrained x = .ok b) : b = true ↔ True := by
  unfold unconstrained at h
  cases h
  simp

theorem byClass_answers {w : World C V} {v : V} {c : C} {sb : Bool} {fb : Res Bool} (h : ∃ b, fb = .ok b) :
    ∃ b, byClass w v c sb fb = .ok b := by
  unfold byClass
  repeat' split
  · exact ⟨_, rfl⟩
  · exact ⟨_, rfl⟩
  · exact ismapping_answers (fun _ => ⟨_, rfl⟩) (fun _ => ⟨_, rfl⟩)
  · exact ismapping_answers (fun _ => ⟨_, rfl⟩) (fun _ => ⟨_, rfl⟩)
  · exact iscollection_answers (fun x => ⟨_, rfl⟩)
  · exact iscollection_answers (fun x => ⟨_, rfl⟩)
  · exact ⟨_, rfl⟩
  · exact h

/-- what the tests do for the bare generics -/
theorem byClass_bare {w : World C V} (hr : Real w) (v : V) (fb : Res Bool) {k : Std} (hk : k ∈ bareKinds) :
    byClass w v (w.std k) false fb =
      match k with
      | .tuple => .ok (w.inst v (w.std .tuple))
      | .callable => .ok (w.isCallable v)
      | .byteString => iscollection w (w.std .byteString) (fun x => .ok (w.inst x (w.std .int))) v
      | .dict | .mutableMapping | .mapping | .itemsView => ismapping w (w.std k) unconstrained unconstrained v
      | _ => iscollection w (w.std k) unconstrained v := by
  have h0 := fun a => hr.sub a .str (by decide)
  have h1 := fun a => hr.sub a .tuple (by decide)
  have h2 := fun a => hr.sub a .dict (by decide)
  have h3 := fun a => hr.sub a .mutableMapping (by decide)
  have h4 := fun a => hr.sub a .mapping (by decide)
  have h5 := fun a => hr.sub a .itemsView (by decide)
  have h6 := fun a => hr.sub a .list (by decide)
  have h7 := fun a => hr.sub a .frozenset (by decide)
  have h8 := fun a => hr.sub a .set (by decide)
  have h9 := fun a => hr.sub a .deque (by decide)
  have h10 := fun a => hr.sub a .byteString (by decide)
  have h11 := fun a => hr.sub a .mutableSet (by decide)
  have h12 := fun a => hr.sub a .keysView (by decide)
  have h13 := fun a => hr.sub a .valuesView (by decide)
  have h14 := fun a => hr.sub a .mappingView (by decide)
  have h15 := fun a => hr.sub a .abstractSet (by decide)
  have h16 := fun a => hr.sub a .mutableSequence (by decide)
  have h17 := fun a => hr.sub a .sequence (by decide)
  have h18 := fun a => hr.sub a .callable (by decide)
  cases k <;> first
    | (exfalso; revert hk; decide)
    | (simp only [byClass, mapKinds, collKinds, List.find?_cons, List.find?_nil, MapKind.std, CollKind.std]
       simp [h0, h1, h2, h3, h4, h5, h6, h7, h8, h9, h10, h11, h12, h13, h14, h15, h16, h17, h18,
          ancestors, MapKind.std, CollKind.std])

omit [DecidableEq C] in
theorem pyIsinstanceAny_eq (w : World C V) (v : V) : ∀ {ts : List (Ty C)}, (∀ t ∈ ts, Checkable t) → pyIsinstanceAny w v ts = anyM (pyIsinstance w v) ts
  | [], _ => by simp [pyIsinstanceAny, anyM]
  | t :: ts, h => by
    have ih := pyIsinstanceAny_eq w v (ts := ts) (fun t ht => h t (.tail _ ht))
    have ht := h t (.head _)
    rw [anyM, ← ih]
    cases ht <;> rw [pyIsinstanceAny] <;> intro hc <;> cases hc

omit [DecidableEq C] in
/-- `isinstance` of something checkable is right -/
theorem checkable_sound {w : World C V} {t : Ty C} (ht : Checkable t) : ∀ (v : V) (b : Bool), pyIsinstance w v t = .ok b → (b = true ↔ Has w v t) := by
  induction ht with
  | cls => intro v b h; simp only [pyIsinstance, Except.ok.injEq] at h; subst h; exact ⟨.cls, fun h => by cases h; assumption⟩
  | @pony p =>
    have e : p.std = ponyClass p := by cases p <;> rfl
    intro v b h; simp only [pyIsinstance, Except.ok.injEq, e] at h; subst h; exact ⟨.pony, fun h => by cases h; assumption⟩
  | supports => intro v b h; simp only [pyIsinstance, Except.ok.injEq] at h; subst h; exact ⟨.supports, fun h => by cases h; assumption⟩
  | @union ts hts ih =>
    intro v b h
    simp only [pyIsinstance, pyIsinstanceAny_eq w v hts] at h
    rw [anyM_sound (P := fun t => Has w v t) (fun t ht b => ih t ht v b) h]
    exact ⟨fun ⟨t, ht, hh⟩ => .union ht hh, fun hh => by cases hh with | union ht hh => exact ⟨_, ht, hh⟩⟩

omit [DecidableEq C] in
theorem checkable_answers {w : World C V} {t : Ty C} (ht : Checkable t) : ∀ v : V, ∃ b, pyIsinstance w v t = .ok b := by
  induction ht with
  | @union ts hts ih => intro v; simp only [pyIsinstance, pyIsinstanceAny_eq w v hts]; exact anyM_answers (fun t ht => ih t ht v)
  | _ => intro v; simp only [pyIsinstance]; exact ⟨_, rfl⟩

end Unpy.Proof.Typecheck
