import Verif.Spec.CurryGeneric
import Verif.Model.CurryGeneric
import Verif.Proof.Dispatch
import Verif.Proof.Curry
/-! # Lemmas about currying generic functions -/
namespace Unpy.CurryGeneric
open Unpy Unpy.Arity Unpy.Dispatch Unpy.Spec.Arity Unpy.Spec.Dispatch Unpy.Spec.CurryGeneric Unpy.Proof.Dispatch
variable {C V T : Type}

/-! ## The keys of the bindings -/

/-- a dict without double keys, whose keys are names of parameters -/
def Named (sig : Sig V) (A : PyDict String (BVal V)) : Prop := (PyDict.keys A).Nodup ∧ ∀ k ∈ PyDict.keys A, ∃ p ∈ sig, p.name = k

theorem Named.set {sig : Sig V} {A : PyDict String (BVal V)} (h : Named sig A) {p : Param V} (hp : p ∈ sig) (b : BVal V) : Named sig (PyDict.set A p.name b) := by
  refine ⟨PyDict.nodup_set h.1 _ _, ?_⟩
  intro k hk
  rw [PyDict.mem_keys, PyDict.has_set] at hk
  by_cases hkp : p.name = k
  · exact ⟨p, hp, hkp⟩
  · rw [Bool.or_eq_true] at hk
    rcases hk with hk | hk
    · exact absurd (of_decide_eq_true hk).symm (by first | exact hkp | exact fun e => hkp e.symm)
    · exact h.2 k ((PyDict.mem_keys _ _).mpr hk)

theorem phase1_named {sig : Sig V} (part : Bool) (kwargs : PyDict String V) (ps : List (Param V)) (hps : ∀ p ∈ ps, p ∈ sig) (args : List V) (A : PyDict String (BVal V))
    (U : List (Param V)) (E : List V) (hA : Named sig A) {s : Phase1 V} (h : phase1 part kwargs args ps A U E = .ok s) : Named sig s.arguments ∧ ∀ p ∈ s.params, p ∈ sig := by
  induction ps generalizing args A U E with
  | nil => simp only [phase1] at h; cases h; exact ⟨hA, by simp⟩
  | cons p ps ih =>
    have hps' : ∀ q ∈ ps, q ∈ sig := fun q hq => hps q (by simp [hq])
    cases args with
    | nil =>
      simp only [phase1] at h
      (repeat' split at h) <;> first | (cases h; done) | (cases h; first | exact ⟨hA, hps⟩ | exact ⟨hA, hps'⟩) | exact ih hps' _ _ _ _ hA h
    | cons a as =>
      simp only [phase1] at h
      split at h
      · cases h; exact ⟨hA.set (hps p (by simp)) _, hps'⟩
      · split at h
        · cases h
        · exact ih hps' _ _ _ _ (hA.set (hps p (by simp)) _) h

theorem phase2_named {sig : Sig V} (part : Bool) (ps : List (Param V)) (hps : ∀ p ∈ ps, p ∈ sig) (K : PyDict String V) (A : PyDict String (BVal V))
    (U : List (Param V)) (kp : Option (Param V)) (hkp : ∀ p, kp = some p → p ∈ sig) (hA : Named sig A) {s : Phase2 V} (h : phase2 part ps K A U kp = .ok s) :
    Named sig s.arguments ∧ ∀ p, s.kwargsParam = some p → p ∈ sig := by
  induction ps generalizing K A U kp with
  | nil => simp only [phase2] at h; cases h; exact ⟨hA, hkp⟩
  | cons p ps ih =>
    have hps' : ∀ q ∈ ps, q ∈ sig := fun q hq => hps q (by simp [hq])
    have hp : p ∈ sig := hps p (by simp)
    simp only [phase2] at h
    split at h
    · exact ih hps' _ _ _ _ (by simpa using hp) hA h
    · split at h
      · exact ih hps' _ _ _ _ hkp hA h
      · split at h
        · split at h <;> exact ih hps' _ _ _ _ hkp hA h
        · split at h
          · cases h
          · exact ih hps' _ _ _ _ hkp (hA.set hp _) h

theorem bind_named {sig : Sig V} {part : Bool} {args : List V} {kwargs : PyDict String V} {r : Analysis V} (h : bind part sig args kwargs = .ok r) : Named sig r.arguments := by
  simp only [Arity.bind] at h
  split at h
  · cases h
  · rename_i s1 h1
    have n1 := phase1_named part kwargs sig (fun _ hp => hp) args [] [] [] ⟨by simp [PyDict.keys], by simp [PyDict.keys]⟩ h1
    split at h
    · cases h
    · rename_i s2 h2
      have n2 := phase2_named part s1.params n1.2 kwargs s1.arguments s1.unbound none (by simp) n1.1 h2
      split at h
      · cases h; exact n2.1
      · split at h
        · rename_i kp hkp
          cases h
          exact n2.1.set (n2.2 kp hkp) _
        · cases h; exact n2.1

theorem get?_of_mem {A : PyDict String (BVal V)} (h : (PyDict.keys A).Nodup) {q : String × BVal V} (hq : q ∈ A) : PyDict.get? A q.1 = some q.2 := by
  induction A with
  | nil => simp at hq
  | cons x A ih =>
    obtain ⟨k, v⟩ := x
    simp only [PyDict.keys, List.map_cons, List.nodup_cons] at h
    rcases List.mem_cons.mp hq with rfl | hq
    · simp [PyDict.get?]
    · have : k ≠ q.1 := fun e => h.1 (e ▸ List.mem_map.mpr ⟨q, hq, rfl⟩)
      rw [PyDict.get?, if_neg this]
      exact ih h.2 hq

theorem mem_of_get? {A : PyDict String (BVal V)} {k : String} {b : BVal V} (h : PyDict.get? A k = some b) : (k, b) ∈ A := by
  induction A with
  | nil => simp [PyDict.get?] at h
  | cons x A ih =>
    obtain ⟨k', v⟩ := x
    rw [PyDict.get?] at h
    split at h
    · next e => cases h; simp [e]
    · simp [ih h]

/-! ## One multimethod -/

theorem mismatch_total {isof : T → BVal V → Res Bool} (hI : ∀ t b, ∃ r, isof t b = .ok r) {hints : PyDict String T} :
    ∀ {l : List (String × BVal V)}, (∀ q ∈ l, PyDict.has hints q.1 = true) → ∃ b, mismatch isof hints l = .ok b
  | [], _ => ⟨false, rfl⟩
  | (p, v) :: rest, hh => by
    obtain ⟨t, ht⟩ := Option.isSome_iff_exists.mp (hh (p, v) (by simp))
    obtain ⟨r, hr⟩ := hI t v
    obtain ⟨b, hb⟩ := mismatch_total hI (l := rest) (fun q hq => hh q (by simp [hq]))
    exact ⟨!r || b, by simp only [mismatch]; rw [ht]; simp [hr, hb]⟩

/-- what the binder and the type check say of a multimethod -/
theorem fits_spec {isof : T → BVal V → Res Bool} (hI : ∀ t b, ∃ r, isof t b = .ok r) {args : List V} {kwargs : PyDict String V} {m : MM V T} (hg : Good m) (hc : Clear args kwargs m) :
    ∃ r, bind false m.sig args kwargs = .ok r ∧ r.unbound = missing m.sig args kwargs ∧ r.extraArgs = extraArgs m.sig args ∧ r.extraKwargs = extraKwargs m.sig kwargs ∧
      ((fits isof m r = .ok true ∧ TypesFit isof args kwargs m) ∨ (fits isof m r = .ok false ∧ ¬ TypesFit isof args kwargs m)) := by
  obtain ⟨r, e0, e1, e2, e3, e4⟩ := bind_main hg.1 args kwargs hc.2.2 hc.1 hc.2.1
  refine ⟨r, e0, e1, e2, e3, ?_⟩
  have hn := bind_named e0
  obtain ⟨b, hb⟩ := mismatch_total hI (hints := m.hints) (l := r.arguments) (by
    intro q hq
    obtain ⟨p, hp, he⟩ := hn.2 q.1 (List.mem_map.mpr ⟨q, hq, rfl⟩)
    rw [← he]; exact hg.2 p hp)
  have hiff : mismatch isof m.hints r.arguments = .ok false ↔ TypesFit isof args kwargs m := by
    rw [mismatch_false]
    constructor
    · intro h p hp b hs
      have : PyDict.get? r.arguments p.name = some b := by rw [e4 p hp]; exact hs
      exact h _ (mem_of_get? this)
    · intro h q hq
      obtain ⟨p, hp, he⟩ := hn.2 q.1 (List.mem_map.mpr ⟨q, hq, rfl⟩)
      have := get?_of_mem hn.1 hq
      rw [← he, e4 p hp] at this
      rw [← he]
      exact h p hp q.2 this
  simp only [fits, hb] at hiff ⊢
  cases b
  · exact .inl ⟨rfl, hiff.mp rfl⟩
  · exact .inr ⟨rfl, fun h => by have := hiff.mpr h; cases this⟩

theorem exact_iff_bind {sig : Sig V} {args : List V} {kwargs : PyDict String V} (hc : ¬ Conflict sig args kwargs) :
    ((missing sig args kwargs).isEmpty && (extraArgs sig args).isEmpty && (extraKwargs sig kwargs).isEmpty) = true ↔ Accepts sig args kwargs := by
  simp [Accepts, hc, List.isEmpty_iff, and_assoc]

theorem exact_spec {isof : T → BVal V → Res Bool} (hI : ∀ t b, ∃ r, isof t b = .ok r) {args : List V} {kwargs : PyDict String V} {ms : List (MM V T)} (hg : ∀ m ∈ ms, Good m)
    (hc : ∀ m ∈ ms, Clear args kwargs m) : (exact isof args kwargs ms = .ok true ∧ ∃ m ∈ ms, Exact isof args kwargs m) ∨ (exact isof args kwargs ms = .ok false ∧ ∀ m ∈ ms, ¬ Exact isof args kwargs m) := by
  induction ms with
  | nil => exact .inr ⟨rfl, by simp⟩
  | cons m ms ih =>
    obtain ⟨r, e0, e1, e2, e3, e4⟩ := fits_spec hI (hg m (by simp)) (hc m (by simp))
    have ih := ih (fun x hx => hg x (by simp [hx])) (fun x hx => hc x (by simp [hx]))
    have hb := exact_iff_bind (hc m (by simp)).1
    have hno : ¬ Exact isof args kwargs m → (exact isof args kwargs ms = .ok true ∧ ∃ x ∈ m :: ms, Exact isof args kwargs x) ∨ (exact isof args kwargs ms = .ok false ∧ ∀ x ∈ m :: ms, ¬ Exact isof args kwargs x) := by
      intro hx
      rcases ih with ⟨h, x, hm, h'⟩ | ⟨h, h'⟩
      · exact .inl ⟨h, x, by simp [hm], h'⟩
      · exact .inr ⟨h, by simpa [hx] using h'⟩
    simp only [exact, e0, e1, e2, e3]
    by_cases ha : Accepts m.sig args kwargs
    · rw [if_pos (hb.mpr ha)]
      rcases e4 with ⟨h1, h2⟩ | ⟨h1, h2⟩
      · simp only [h1]; exact .inl ⟨trivial, m, by simp, ha, h2⟩
      · simp only [h1]; exact hno (fun h => h2 h.2)
    · rw [if_neg (fun h => ha (hb.mp h))]
      exact hno (fun h => ha h.1)

theorem complete_spec {isof : T → BVal V → Res Bool} (hI : ∀ t b, ∃ r, isof t b = .ok r) {args : List V} {kwargs : PyDict String V} {ms : List (MM V T)} (hg : ∀ m ∈ ms, Good m)
    (hc : ∀ m ∈ ms, Clear args kwargs m) :
    (∃ r m, complete isof args kwargs ms = .ok (some r) ∧ r.extraArgs = extraArgs m.sig args ∧ r.extraKwargs = extraKwargs m.sig kwargs ∧ First (TooMany isof args kwargs) ms m) ∨
    (complete isof args kwargs ms = .ok none ∧ ∀ m ∈ ms, ¬ TooMany isof args kwargs m) := by
  induction ms with
  | nil => exact .inr ⟨rfl, by simp⟩
  | cons m ms ih =>
    obtain ⟨r, e0, e1, e2, e3, e4⟩ := fits_spec hI (hg m (by simp)) (hc m (by simp))
    have ih := ih (fun x hx => hg x (by simp [hx])) (fun x hx => hc x (by simp [hx]))
    have hno : ¬ TooMany isof args kwargs m →
        (∃ r x, complete isof args kwargs ms = .ok (some r) ∧ r.extraArgs = extraArgs x.sig args ∧ r.extraKwargs = extraKwargs x.sig kwargs ∧ First (TooMany isof args kwargs) (m :: ms) x) ∨
        (complete isof args kwargs ms = .ok none ∧ ∀ x ∈ m :: ms, ¬ TooMany isof args kwargs x) := by
      intro hx
      rcases ih with ⟨r, x, h, h1, h2, b, a, h3, h4, h5⟩ | ⟨h, h'⟩
      · exact .inl ⟨r, x, h, h1, h2, m :: b, a, by simp [h3], h4, by simpa [hx] using h5⟩
      · exact .inr ⟨h, by simpa [hx] using h'⟩
    have hb : ((missing m.sig args kwargs).isEmpty && (!(extraArgs m.sig args).isEmpty || !(extraKwargs m.sig kwargs).isEmpty)) = true ↔
        missing m.sig args kwargs = [] ∧ (extraArgs m.sig args ≠ [] ∨ extraKwargs m.sig kwargs ≠ []) := by
      simp [List.isEmpty_iff]
    simp only [complete, e0, e1, e2, e3]
    by_cases ha : missing m.sig args kwargs = [] ∧ (extraArgs m.sig args ≠ [] ∨ extraKwargs m.sig kwargs ≠ [])
    · rw [if_pos (hb.mpr ha)]
      rcases e4 with ⟨h1, h2⟩ | ⟨h1, h2⟩
      · simp only [h1]; exact .inl ⟨r, m, rfl, e2, e3, [], ms, rfl, ⟨ha.1, ha.2, h2⟩, by simp⟩
      · simp only [h1]; exact hno (fun h => h2 h.2.2)
    · rw [if_neg (fun h => ha (hb.mp h))]
      exact hno (fun h => ha ⟨h.1, h.2.1⟩)

theorem incomplete_spec {isof : T → BVal V → Res Bool} (hI : ∀ t b, ∃ r, isof t b = .ok r) {args : List V} {kwargs : PyDict String V} {ms : List (MM V T)} (hg : ∀ m ∈ ms, Good m)
    (hc : ∀ m ∈ ms, Clear args kwargs m) : (incomplete isof args kwargs ms = .ok true ∧ ∃ m ∈ ms, TooFew isof args kwargs m) ∨ (incomplete isof args kwargs ms = .ok false ∧ ∀ m ∈ ms, ¬ TooFew isof args kwargs m) := by
  induction ms with
  | nil => exact .inr ⟨rfl, by simp⟩
  | cons m ms ih =>
    obtain ⟨r, e0, e1, e2, e3, e4⟩ := fits_spec hI (hg m (by simp)) (hc m (by simp))
    have ih := ih (fun x hx => hg x (by simp [hx])) (fun x hx => hc x (by simp [hx]))
    have hno : ¬ TooFew isof args kwargs m → (incomplete isof args kwargs ms = .ok true ∧ ∃ x ∈ m :: ms, TooFew isof args kwargs x) ∨ (incomplete isof args kwargs ms = .ok false ∧ ∀ x ∈ m :: ms, ¬ TooFew isof args kwargs x) := by
      intro hx
      rcases ih with ⟨h, x, hm, h'⟩ | ⟨h, h'⟩
      · exact .inl ⟨h, x, by simp [hm], h'⟩
      · exact .inr ⟨h, by simpa [hx] using h'⟩
    have hb : (!(missing m.sig args kwargs).isEmpty) = true ↔ missing m.sig args kwargs ≠ [] := by simp [List.isEmpty_iff]
    simp only [incomplete, e0, e1]
    by_cases ha : missing m.sig args kwargs ≠ []
    · rw [if_pos (hb.mpr ha)]
      rcases e4 with ⟨h1, h2⟩ | ⟨h1, h2⟩
      · simp only [h1]; exact .inl ⟨trivial, m, by simp, ha, h2⟩
      · simp only [h1]; exact hno (fun h => h2 h.2)
    · rw [if_neg (fun h => ha (hb.mp h))]
      exact hno (fun h => ha h.1)

/-! ## Partial application -/

theorem filterMap_congr'' {α β : Type} {f g : α → Option β} {l : List α} (h : ∀ x ∈ l, f x = g x) : l.filterMap f = l.filterMap g := by
  induction l with
  | nil => rfl
  | cons x l ih =>
    simp only [List.filterMap_cons, h x (by simp)]
    rw [ih (fun y hy => h y (by simp [hy]))]

theorem takes_bind {sig : Sig V} (h : WF sig) {args : List V} {kwargs : PyDict String V} (ht : Takes sig args kwargs) :
    ∃ r, bind true sig args kwargs = .ok r ∧ r.extraArgs = [] ∧ r.extraKwargs = [] ∧ ∀ p ∈ sig, PyDict.get? r.arguments p.name = supplied sig args kwargs p := by
  obtain ⟨hc, hp, hx, hk⟩ := ht
  obtain ⟨r, e0, e1, e2, e3, e4⟩ := bind_main h args kwargs (.inl hx) hc hp
  refine ⟨forget r, by rw [bind_part h.names, e0]; rfl, by simp [forget, e2, hx], by simp [forget, e3, hk], ?_⟩
  intro p hp
  simp only [forget]
  rw [e4 p hp]; rfl

theorem bind_takes {sig : Sig V} (h : WF sig) {args : List V} {kwargs : PyDict String V} {r : Analysis V} (hb : bind true sig args kwargs = .ok r) (hx : r.extraArgs = []) (hk : r.extraKwargs = []) :
    Takes sig args kwargs := by
  rw [bind_part h.names] at hb
  cases hf : bind false sig args kwargs with
  | error e => rw [hf] at hb; cases hb
  | ok r' =>
    rw [hf] at hb
    simp only [Except.map, Except.ok.injEq] at hb
    subst hb
    have hc : ¬ (Conflict sig args kwargs ∨ PosOnlyClash sig args kwargs) := by
      intro hc; rw [bind_error h args kwargs hc] at hf; cases hf
    rw [not_or] at hc
    have hx' := bind_extra h args kwargs r' hf hx
    obtain ⟨r'', e0, e1, e2, e3, e4⟩ := bind_main h args kwargs (.inl hx') hc.1 hc.2
    rw [hf] at e0; cases e0
    exact ⟨hc.1, hc.2, hx', by rw [← e3]; exact hk⟩

theorem bind_true_error {sig : Sig V} (h : WF sig) {args : List V} {kwargs : PyDict String V} {e : PyErr} (hb : bind true sig args kwargs = .error e) : e = .TypeError := by
  rw [bind_part h.names] at hb
  have he : bind false sig args kwargs = .error e := by
    cases hf : bind false sig args kwargs with
    | error e' => rw [hf] at hb; cases hb; rfl
    | ok r => rw [hf] at hb; cases hb
  have : ∀ {e}, bind false sig args kwargs = .error e → e = .TypeError := by
    intro e he
    simp only [Arity.bind] at he
    split at he
    · rename_i h1
      cases he
      have : ∀ (ps : List (Param V)) (args : List V) A U E, phase1 false kwargs args ps A U E = .error e → e = .TypeError := by
        intro ps
        induction ps with
        | nil => intro args A U E h; simp [phase1] at h
        | cons p ps ih =>
          intro args A U E h
          cases args with
          | nil =>
            simp only [phase1] at h
            (repeat' split at h) <;> first | (cases h; done) | (cases h; rfl) | exact ih _ _ _ _ h
          | cons a as =>
            simp only [phase1] at h
            split at h
            · cases h
            · split at h
              · cases h; rfl
              · exact ih _ _ _ _ h
      exact this _ _ _ _ _ h1
    · rename_i s1 _
      split at he
      · rename_i h2
        cases he
        have : ∀ (ps : List (Param V)) K A U kp, phase2 false ps K A U kp = .error e → e = .TypeError := by
          intro ps
          induction ps with
          | nil => intro K A U kp h; simp [phase2] at h
          | cons p ps ih =>
            intro K A U kp h
            simp only [phase2] at h
            split at h
            · exact ih _ _ _ _ h
            · split at h
              · exact ih _ _ _ _ h
              · split at h
                · split at h <;> exact ih _ _ _ _ h
                · split at h
                  · cases h; rfl
                  · exact ih _ _ _ _ h
        exact this _ _ _ _ _ h2
      · split at he
        · cases he
        · split at he <;> cases he
  exact this he

theorem keyPartial_spec {sig : Sig V} (h : WF sig) (args : List V) (kwargs : PyDict String V) :
    (Takes sig args kwargs ∧ keyPartial sig args kwargs = .ok (sig.filterMap (fun p => (seen sig args kwargs p).map (p.name, ·)))) ∨
    (¬ Takes sig args kwargs ∧ keyPartial sig args kwargs = .error .TypeError) := by
  by_cases ht : Takes sig args kwargs
  · refine .inl ⟨ht, ?_⟩
    obtain ⟨r, e0, e2, e3, e4⟩ := takes_bind h ht
    simp only [keyPartial, e0, e2, e3, List.isEmpty_nil, Bool.and_self, if_true, applyDefaults]
    congr 1
    apply filterMap_congr''
    intro p hp
    rw [e4 p hp]
    have hst := h.stars p hp
    unfold supplied seen
    by_cases h1 : p.kind = .varPos
    · simp only [h1, if_true]
      have hd := hst (.inl h1)
      by_cases ho : overflow sig args = [] <;> simp [hd, ho]
    · by_cases h2 : p.kind = .varKw
      · have hd := hst (.inr h2)
        simp only [h2, if_true]
        simp only [reduceCtorEq, if_false]
        by_cases ho : unknown sig kwargs = [] <;> simp [hd, ho]
      · simp only [h1, h2, if_false]
        cases given sig args kwargs p with
        | some v => simp
        | none => cases p.default <;> simp
  · refine .inr ⟨ht, ?_⟩
    unfold keyPartial
    cases hb : bind true sig args kwargs with
    | error e => rw [bind_true_error h hb]
    | ok r =>
      simp only
      rw [if_neg]
      intro hx
      rw [Bool.and_eq_true, List.isEmpty_iff, List.isEmpty_iff] at hx
      exact ht (bind_takes h hb hx.1 hx.2)

theorem testPartial_spec {isof : T → BVal V → Res Bool} (hq : ∀ t b e, isof t b = .error e → e = .TypeError) {args : List V} {kwargs : PyDict String V} {m : MM V T} (hg : Good m) :
    (testPartial isof args kwargs m = .ok true ∧ SoFar isof args kwargs m) ∨
    ((testPartial isof args kwargs m = .ok false ∨ testPartial isof args kwargs m = .error .TypeError) ∧ ¬ SoFar isof args kwargs m) := by
  unfold testPartial SoFar
  rcases keyPartial_spec hg.1 args kwargs with ⟨ht, hk⟩ | ⟨ht, hk⟩
  · simp only [hk, ht, true_and]
    have hall : mismatch isof m.hints (m.sig.filterMap (fun p => (seen m.sig args kwargs p).map (p.name, ·))) = .ok false ↔
        ∀ p ∈ m.sig, ∀ b, seen m.sig args kwargs p = some b → ∃ t, PyDict.get? m.hints p.name = some t ∧ isof t b = .ok true := by
      rw [mismatch_false]
      constructor
      · intro hh p hp b hs
        exact hh (p.name, b) (List.mem_filterMap.mpr ⟨p, hp, by simp [hs]⟩)
      · intro hh q hq
        obtain ⟨p, hp, he⟩ := List.mem_filterMap.mp hq
        cases hs : seen m.sig args kwargs p with
        | none => simp [hs] at he
        | some b =>
          simp only [hs, Option.map_some, Option.some.injEq] at he
          subst he
          exact hh p hp b hs
    cases hm : mismatch isof m.hints (m.sig.filterMap (fun p => (seen m.sig args kwargs p).map (p.name, ·))) with
    | error e =>
      have : e = .TypeError := by
        refine mismatch_error hq (fun q hq' => ?_) hm
        obtain ⟨p, hp, hep⟩ := List.mem_filterMap.mp hq'
        cases hs : seen m.sig args kwargs p with
        | none => simp [hs] at hep
        | some b =>
          simp only [hs, Option.map_some, Option.some.injEq] at hep
          subst hep
          exact hg.2 p hp
      subst this
      exact .inr ⟨.inr rfl, fun h => by rw [hall.mpr h] at hm; cases hm⟩
    | ok b =>
      cases b
      · exact .inl ⟨rfl, hall.mp hm⟩
      · exact .inr ⟨.inl rfl, fun h => by rw [hall.mpr h] at hm; cases hm⟩
  · exact .inr ⟨.inr (by simp only [hk]), fun h => ht h.1⟩

theorem scanPartial_spec {isof : T → BVal V → Res Bool} (hq : ∀ t b e, isof t b = .error e → e = .TypeError) {args : List V} {kwargs : PyDict String V} {ms : List (MM V T)} (hg : ∀ m ∈ ms, Good m) :
    (scanPartial isof args kwargs ms = .ok true ∧ ∃ m ∈ ms, SoFar isof args kwargs m) ∨ (scanPartial isof args kwargs ms = .ok false ∧ ∀ m ∈ ms, ¬ SoFar isof args kwargs m) := by
  induction ms with
  | nil => exact .inr ⟨rfl, by simp⟩
  | cons m ms ih =>
    have ih := ih (fun x hx => hg x (by simp [hx]))
    simp only [scanPartial]
    rcases testPartial_spec hq (args := args) (kwargs := kwargs) (hg m (by simp)) with ⟨h1, h2⟩ | ⟨h1, h2⟩
    · simp only [h1]; exact .inl ⟨trivial, m, by simp, h2⟩
    · have hno : (scanPartial isof args kwargs ms = .ok true ∧ ∃ x ∈ m :: ms, SoFar isof args kwargs x) ∨ (scanPartial isof args kwargs ms = .ok false ∧ ∀ x ∈ m :: ms, ¬ SoFar isof args kwargs x) := by
        rcases ih with ⟨h, x, hm, h'⟩ | ⟨h, h'⟩
        · exact .inl ⟨h, x, by simp [hm], h'⟩
        · exact .inr ⟨h, by simpa [h2] using h'⟩
      rcases h1 with h1 | h1 <;> simp only [h1, if_true] <;> exact hno

theorem soFar_typesFit {isof : T → BVal V → Res Bool} {args : List V} {kwargs : PyDict String V} {m : MM V T} (h : SoFar isof args kwargs m) : TypesFit isof args kwargs m := by
  intro p hp b hs
  refine h.2 p hp b ?_
  unfold supplied at hs
  unfold seen
  split
  · next h1 => rw [if_pos h1] at hs; split at hs <;> simp_all
  · next h1 =>
    rw [if_neg h1] at hs
    split
    · next h2 => rw [if_pos h2] at hs; split at hs <;> simp_all
    · next h2 =>
      rw [if_neg h2] at hs
      cases hg : given m.sig args kwargs p with
      | none => simp [hg] at hs
      | some v => simp [hg] at hs ⊢; exact hs

theorem matches_soFar {isof : T → BVal V → Res Bool} {args : List V} {kwargs : PyDict String V} {m : MM V T} (h : Matches isof args kwargs m) : SoFar isof args kwargs m :=
  ⟨⟨h.1.1.1, h.1.2, h.1.1.2.2.1, h.1.1.2.2.2⟩, h.2⟩

theorem plain_positional {k : Nat} {sig : Sig V} (h : Plain k sig) : positional sig = sig := by
  rw [positional, List.filter_eq_self]
  intro p hp
  rcases (h.2 p hp).1 with e | e <;> simp [e]

theorem plain_nokind {k : Nat} {sig : Sig V} (h : Plain k sig) {x : Kind} (hx : x ≠ .posOnly ∧ x ≠ .posOrKw) : ¬ hasKind x sig := by
  rintro ⟨p, hp, hk⟩
  rcases (h.2 p hp).1 with e | e
  · exact hx.1 (hk.symm.trans e)
  · exact hx.2 (hk.symm.trans e)

theorem no_clash (sig : Sig V) (args : List V) : ¬ PosOnlyClash sig args [] := by
  rintro ⟨p, _, _, _, h⟩
  simp [PyDict.has, PyDict.get?] at h

theorem no_conflict (sig : Sig V) (args : List V) : ¬ Conflict sig args [] := by
  rintro ⟨p, _, _, _, h⟩
  simp [PyDict.has, PyDict.get?] at h

theorem plain_takes {k : Nat} {sig : Sig V} (h : Plain k sig) {args : List V} (hl : args.length ≤ k) : Takes sig args [] := by
  refine ⟨no_conflict _ _, no_clash _ _, ?_, by simp [extraKwargs, unknown]⟩
  rw [extraArgs, if_neg (plain_nokind h (by simp)), overflow, plain_positional h, List.drop_eq_nil_iff, h.1]
  exact hl

theorem plain_missing {k : Nat} {sig : Sig V} (h : Plain k sig) (hwf : WF sig) {args : List V} (hl : args.length < k) : missing sig args [] ≠ [] := by
  have hlt : args.length < sig.length := by rw [h.1]; exact hl
  intro he
  rw [missing, List.filter_eq_nil_iff] at he
  have hp : sig[args.length] ∈ sig := List.getElem_mem hlt
  refine he _ hp ?_
  have hnone : posArg sig args sig[args.length].name = none := by
    cases hs : posArg sig args sig[args.length].name with
    | none => rfl
    | some v =>
      have : (posArg sig args sig[args.length].name).isSome := by rw [hs]; rfl
      rw [Curry.posArg_isSome hwf args hp, plain_positional h] at this
      exfalso
      obtain ⟨i, hi, hie⟩ := List.getElem_of_mem this
      simp only [List.length_take] at hi
      rw [List.getElem_take] at hie
      have hnd : sig.Nodup := List.Pairwise.of_map (fun p : Param V => p.name) (fun a b hab e => hab (by rw [e])) hwf.names
      have := (List.getElem_inj (h₀ := by omega) (h₁ := hlt) hnd).mp hie
      omega
  rcases (h.2 _ hp).1 with e | e <;> simp [Ordinary, e, (h.2 _ hp).2, given, hnone, PyDict.get?]

end Unpy.CurryGeneric
