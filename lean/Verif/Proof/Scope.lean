import Verif.Spec.Scope
/-! # Proofs about the scope analyzer -/
namespace Unpy.Scope
open Unpy.Spec.Scope

/-- what is collected -/
def Stored (n : Option String) (t : Tree) : Prop := (∃ x, n = some x ∧ Binds x .plain t) ∨ Mistaken n t

def Good (r : Except Err (List (Option String))) (bad : Prop) (P : Option String → Prop) : Prop :=
  (bad → r = .error .type) ∧ (¬ bad → ∃ l, r = .ok l ∧ ∀ n, n ∈ l ↔ P n)

theorem Good.cat {a b : Except Err (List (Option String))} {A B : Prop} {P Q : Option String → Prop} (ha : Good a A P) (hb : Good b B Q) :
    Good (cat a b) (A ∨ B) (fun n => P n ∨ Q n) := by
  by_cases hA : A
  · refine ⟨fun _ => ?_, fun h => absurd (.inl hA) h⟩
    simp [Scope.cat, ha.1 hA]
  · obtain ⟨l, hl, hl'⟩ := ha.2 hA
    by_cases hB : B
    · refine ⟨fun _ => ?_, fun h => absurd (.inr hB) h⟩
      simp [Scope.cat, hl, hb.1 hB]
    · obtain ⟨m, hm, hm'⟩ := hb.2 hB
      refine ⟨fun h => absurd h (by simp [hA, hB]), fun _ => ⟨l ++ m, by simp [Scope.cat, hl, hm], fun n => ?_⟩⟩
      rw [List.mem_append, hl', hm']

theorem Good.congr {r : Except Err (List (Option String))} {A B : Prop} {P Q : Option String → Prop} (h : Good r A P) (hA : B ↔ A) (hP : ∀ n, Q n ↔ P n) : Good r B Q := by
  refine ⟨fun hb => h.1 (hA.1 hb), fun hb => ?_⟩
  obtain ⟨l, hl, hl'⟩ := h.2 (fun ha => hb (hA.2 ha))
  exact ⟨l, hl, fun n => (hl' n).trans (hP n).symm⟩

theorem Good.leaf {l : List (Option String)} {B : Prop} {Q : Option String → Prop} (hB : ¬ B) (hQ : ∀ n, Q n ↔ n ∈ l) : Good (.ok l) B Q :=
  ⟨fun h => absurd h hB, fun _ => ⟨l, rfl, fun n => (hQ n).symm⟩⟩

/-- a node that only has parts -/
theorem parts_iff {s : Tree} {ts : List Tree} (hp : ∀ t, Part t s ↔ t ∈ ts) (hn : ∀ x w, Binds x w s → ∃ t, Part t s ∧ Binds x w t)
    (hm : ∀ n, Mistaken n s → ∃ t, Part t s ∧ Mistaken n t) (n : Option String) : Stored n s ↔ ∃ t ∈ ts, Stored n t := by
  constructor
  · rintro (⟨x, rfl, h⟩ | h)
    · obtain ⟨t, h1, h2⟩ := hn _ _ h
      exact ⟨t, (hp t).1 h1, .inl ⟨x, rfl, h2⟩⟩
    · obtain ⟨t, h1, h2⟩ := hm _ h
      exact ⟨t, (hp t).1 h1, .inr h2⟩
  · rintro ⟨t, ht, ⟨x, rfl, h⟩ | h⟩
    · exact .inl ⟨x, rfl, .part ((hp t).2 ht) h⟩
    · exact .inr (.part ((hp t).2 ht) h)

theorem pattern_iff {s : Tree} {ts : List Tree} (hp : ∀ t, Part t s ↔ t ∈ ts) (hs : HasPattern s → ∃ t, Part t s ∧ HasPattern t) :
    HasPattern s ↔ ∃ t ∈ ts, HasPattern t := by
  constructor
  · intro h; obtain ⟨t, h1, h2⟩ := hs h; exact ⟨t, (hp t).1 h1, h2⟩
  · rintro ⟨t, ht, h⟩; exact .part ((hp t).2 ht) h

theorem part_done (t u : Tree) : Part u (.done t) ↔ u ∈ [t] := by
  constructor
  · intro h; cases h; simp
  · intro h; simp at h; subst h; exact .done _
theorem part_tuple (ts : List Tree) (u : Tree) : Part u (.tuple ts) ↔ u ∈ ts := ⟨fun h => by cases h; assumption, .tuple⟩
theorem part_other (ts : List Tree) (u : Tree) : Part u (.other ts) ↔ u ∈ ts := ⟨fun h => by cases h; assumption, .other⟩
theorem part_try (hs : List (Option String)) (ts : List Tree) (u : Tree) : Part u (.try_ hs ts) ↔ u ∈ ts := ⟨fun h => by cases h; assumption, .try_⟩
theorem part_matchAs (n : Option String) (ts : List Tree) (u : Tree) : Part u (.matchAs n ts) ↔ u ∈ ts := ⟨fun h => by cases h; assumption, .matchAs⟩
theorem part_matchMapping (n : Option String) (ts : List Tree) (u : Tree) : Part u (.matchMapping n ts) ↔ u ∈ ts := ⟨fun h => by cases h; assumption, .matchMapping⟩
theorem part_matchClass (ts : List Tree) (u : Tree) : Part u (.matchClass ts) ↔ u ∈ ts := ⟨fun h => by cases h; assumption, .matchClass⟩

theorem good_parts {s : Tree} {ts : List Tree} {r} (hp : ∀ t, Part t s ↔ t ∈ ts) (hs : HasPattern s → ∃ t, Part t s ∧ HasPattern t)
    (hn : ∀ x w, Binds x w s → ∃ t, Part t s ∧ Binds x w t) (hm : ∀ n, Mistaken n s → ∃ t, Part t s ∧ Mistaken n t)
    (h : Good r (∃ t ∈ ts, HasPattern t) (fun n => ∃ t ∈ ts, Stored n t)) : Good r (HasPattern s) (Stored · s) :=
  h.congr (pattern_iff hp hs) (parts_iff hp hn hm)

/-- a node that has parts and collects something itself -/
theorem good_more {s : Tree} {ts : List Tree} {own : List (Option String)} {r} (hp : ∀ t, Part t s ↔ t ∈ ts) (hs : HasPattern s → ∃ t, Part t s ∧ HasPattern t)
    (hown : ∀ n ∈ own, Stored n s)
    (hn : ∀ x, Binds x .plain s → some x ∈ own ∨ ∃ t, Part t s ∧ Binds x .plain t) (hm : ∀ n, Mistaken n s → n ∈ own ∨ ∃ t, Part t s ∧ Mistaken n t)
    (h : Good r (∃ t ∈ ts, HasPattern t) (fun n => ∃ t ∈ ts, Stored n t)) : Good (cat (.ok own) r) (HasPattern s) (Stored · s) := by
  have h0 : Good (.ok own) False (· ∈ own) := .leaf (fun h => h) (fun _ => .rfl)
  refine (h0.cat h).congr (by simpa using pattern_iff hp hs) fun n => ?_
  constructor
  · rintro (⟨x, rfl, h⟩ | h)
    · rcases hn _ h with h | ⟨t, h1, h2⟩
      · exact .inl h
      · exact .inr ⟨t, (hp t).1 h1, .inl ⟨x, rfl, h2⟩⟩
    · rcases hm _ h with h | ⟨t, h1, h2⟩
      · exact .inl h
      · exact .inr ⟨t, (hp t).1 h1, .inr h2⟩
  · rintro (h | ⟨t, ht, ⟨x, rfl, h⟩ | h⟩)
    · exact hown n h
    · exact .inl ⟨x, rfl, .part ((hp t).2 ht) h⟩
    · exact .inr (.part ((hp t).2 ht) h)

macro "noparts" : tactic => `(tactic| (intro h; cases h with | part hp _ => cases hp))

mutual
theorem store_good : (t : Tree) → Good (storeNames t) (HasPattern t) (Stored · t)
  | .name id ctx => by
    refine .leaf (by noparts) fun n => ?_
    constructor
    · rintro (⟨x, rfl, h⟩ | h)
      · cases h with
        | assigned => simp
        | part hp _ => cases hp
      · cases h with | part hp _ => cases hp
    · intro h
      cases ctx <;> simp at h
      exact .inl ⟨id, h, .assigned⟩
  | .done t => by
    refine good_parts (part_done t) ?_ ?_ ?_ ?_ (ts := [t])
    · intro h; cases h with | part hp h => exact ⟨_, hp, h⟩
    · intro x w h; cases h with
      | part hp h => exact ⟨_, hp, h⟩
      | outer ho _ => cases ho
    · intro n h; cases h with | part hp h => exact ⟨_, hp, h⟩
    · simpa [storeNames] using store_good t
  | .tuple ts => by
    refine good_parts (part_tuple ts) ?_ ?_ ?_ (by simpa [storeNames] using storeL_good ts)
    · intro h; cases h with | part hp h => exact ⟨_, hp, h⟩
    · intro x w h; cases h with
      | part hp h => exact ⟨_, hp, h⟩
      | outer ho _ => cases ho
    · intro n h; cases h with | part hp h => exact ⟨_, hp, h⟩
  | .func a name p o b => by
    refine .leaf (by noparts) fun n => ?_
    constructor
    · rintro (⟨x, rfl, h⟩ | h)
      · cases h with
        | function => simp
        | part hp _ => cases hp
      · cases h with | part hp _ => cases hp
    · intro h
      simp at h
      exact .inl ⟨name, h, .function⟩
  | .lam p o b => by
    refine .leaf (by noparts) fun n => ?_
    constructor
    · rintro (⟨x, rfl, h⟩ | h)
      · cases h with | part hp _ => cases hp
      · cases h with | part hp _ => cases hp
    · intro h; simp at h
  | .cls name bs o b => by
    refine .leaf (by noparts) fun n => ?_
    constructor
    · rintro (⟨x, rfl, h⟩ | h)
      · cases h with
        | class_ => simp
        | part hp _ => cases hp
      · cases h with | part hp _ => cases hp
    · intro h
      simp at h
      exact .inl ⟨name, h, .class_⟩
  | .comp c ts i r => by
    refine .leaf (by noparts) fun n => ?_
    constructor
    · rintro (⟨x, rfl, h⟩ | h)
      · cases h with | part hp _ => cases hp
      · cases h with | part hp _ => cases hp
    · intro h; simp at h
  | .imp names => by
    refine .leaf (by noparts) fun n => ?_
    constructor
    · rintro (⟨x, rfl, h⟩ | h)
      · cases h with
        | importAs d h ha => exact List.mem_map.2 ⟨d, h, by simp [ha]⟩
        | importModule d h ha ht hh => exact List.mem_map.2 ⟨d, h, by simp [ha, Dotted.full, ht, hh]⟩
        | part hp _ => cases hp
      · cases h with
        | dotted d h ha ht => exact List.mem_map.2 ⟨d, h, by simp [ha, Dotted.full]⟩
        | part hp _ => cases hp
    · intro h0
      obtain ⟨d, h, rfl⟩ := List.mem_map.1 h0
      cases ha : d.asname with
      | some y => exact .inl ⟨y, by simp, .importAs d h ha⟩
      | none =>
        by_cases ht : d.tail = []
        · exact .inl ⟨d.head, by simp [Dotted.full, ht], .importModule d h ha ht rfl⟩
        · exact .inr (by simpa [Dotted.full] using Mistaken.dotted d h ha ht)
  | .importFrom names => by
    refine .leaf (by noparts) fun n => ?_
    constructor
    · rintro (⟨x, rfl, h⟩ | h)
      · cases h with
        | fromImportAs y h => exact List.mem_map.2 ⟨_, h, by simp⟩
        | fromImport h hx => exact List.mem_map.2 ⟨_, h, by simp⟩
        | part hp _ => cases hp
      · cases h with
        | star h => exact List.mem_map.2 ⟨_, h, by simp⟩
        | part hp _ => cases hp
    · intro h0
      obtain ⟨⟨y, a⟩, h, rfl⟩ := List.mem_map.1 h0
      cases a with
      | some z => exact .inl ⟨z, by simp, .fromImportAs y h⟩
      | none =>
        by_cases hy : y = "*"
        · subst hy; exact .inr (by simpa using Mistaken.star h)
        · exact .inl ⟨y, by simp, .fromImport h hy⟩
  | .try_ hs ts => by
    refine good_more (part_try hs ts) ?_ ?_ ?_ ?_ (storeL_good ts)
    · intro h; cases h with | part hp h => exact ⟨_, hp, h⟩
    · intro n h
      cases n with
      | none => exact .inr (.anonymous h)
      | some x => exact .inl ⟨x, rfl, .handler h⟩
    · intro x h; cases h with
      | handler h => exact .inl h
      | part hp h => exact .inr ⟨_, hp, h⟩
    · intro n h; cases h with
      | anonymous h => exact .inl h
      | part hp h => exact .inr ⟨_, hp, h⟩
  | .matchAs name ts => by
    refine good_more (part_matchAs name ts) ?_ ?_ ?_ ?_ (storeL_good ts)
    · intro h; cases h with | part hp h => exact ⟨_, hp, h⟩
    · intro n h
      cases name with
      | none => simp at h
      | some x => simp at h; exact .inl ⟨x, h, .captured⟩
    · intro x h; cases h with
      | captured => exact .inl (by simp)
      | part hp h => exact .inr ⟨_, hp, h⟩
    · intro n h; cases h with
      | part hp h => exact .inr ⟨_, hp, h⟩
  | .matchStar name => by
    refine .leaf (by noparts) fun n => ?_
    constructor
    · rintro (⟨x, rfl, h⟩ | h)
      · cases h with
        | capturedStar => simp
        | part hp _ => cases hp
      · cases h with | part hp _ => cases hp
    · intro h
      cases name with
      | none => simp at h
      | some x => simp at h; exact .inl ⟨x, h, .capturedStar⟩
  | .matchMapping r ts => ⟨fun _ => rfl, fun h => absurd .mapping h⟩
  | .matchClass ts => ⟨fun _ => rfl, fun h => absurd .class_ h⟩
  | .globals names => by
    refine .leaf (by noparts) fun n => ?_
    constructor
    · rintro (⟨x, rfl, h⟩ | h)
      · cases h with | part hp _ => cases hp
      · cases h with | part hp _ => cases hp
    · intro h; simp at h
  | .nonlocals names => by
    refine .leaf (by noparts) fun n => ?_
    constructor
    · rintro (⟨x, rfl, h⟩ | h)
      · cases h with | part hp _ => cases hp
      · cases h with | part hp _ => cases hp
    · intro h; simp at h
  | .other ts => by
    refine good_parts (part_other ts) ?_ ?_ ?_ (by simpa [storeNames] using storeL_good ts)
    · intro h; cases h with | part hp h => exact ⟨_, hp, h⟩
    · intro x w h; cases h with
      | part hp h => exact ⟨_, hp, h⟩
      | outer ho _ => cases ho
    · intro n h; cases h with | part hp h => exact ⟨_, hp, h⟩
theorem storeL_good : (ts : List Tree) → Good (storeNamesL ts) (∃ t ∈ ts, HasPattern t) (fun n => ∃ t ∈ ts, Stored n t)
  | [] => .leaf (by simp) (by simp)
  | t :: ts => ((store_good t).cat (storeL_good ts)).congr (by simp) (by simp)
end

/-! ## Walks -/

mutual
theorem mem_walk {f : Tree → List String} {x : String} {P : Tree → Prop} (hp : ∀ {t s}, Part t s → P t → P s) (hP : ∀ t, P t → x ∈ f t ∨ ∃ u, Part u t ∧ P u)
    (hf : ∀ t, x ∈ f t → P t) : (t : Tree) → (x ∈ walk f t ↔ P t)
  | .done t => by
    have := mem_walk hp hP hf t
    rw [walk, List.mem_append]
    exact ⟨fun h => h.elim (hf _) fun h => hp (.done t) (this.1 h), fun h => (hP _ h).imp id fun ⟨u, hu, h⟩ => this.2 (by simpa [(by simpa using (part_done t u).1 hu : u = t)] using h)⟩
  | .tuple ts => by
    have := mem_walkL hp hP hf ts
    rw [walk, List.mem_append]
    exact ⟨fun h => h.elim (hf _) fun h => by obtain ⟨u, hu, h⟩ := this.1 h; exact hp (.tuple hu) h,
      fun h => (hP _ h).imp id fun ⟨u, hu, h⟩ => this.2 ⟨u, (part_tuple ..).1 hu, h⟩⟩
  | .try_ hs ts => by
    have := mem_walkL hp hP hf ts
    rw [walk, List.mem_append]
    exact ⟨fun h => h.elim (hf _) fun h => by obtain ⟨u, hu, h⟩ := this.1 h; exact hp (.try_ hu) h,
      fun h => (hP _ h).imp id fun ⟨u, hu, h⟩ => this.2 ⟨u, (part_try ..).1 hu, h⟩⟩
  | .matchAs n ts => by
    have := mem_walkL hp hP hf ts
    rw [walk, List.mem_append]
    exact ⟨fun h => h.elim (hf _) fun h => by obtain ⟨u, hu, h⟩ := this.1 h; exact hp (.matchAs hu) h,
      fun h => (hP _ h).imp id fun ⟨u, hu, h⟩ => this.2 ⟨u, (part_matchAs ..).1 hu, h⟩⟩
  | .matchMapping n ts => by
    have := mem_walkL hp hP hf ts
    rw [walk, List.mem_append]
    exact ⟨fun h => h.elim (hf _) fun h => by obtain ⟨u, hu, h⟩ := this.1 h; exact hp (.matchMapping hu) h,
      fun h => (hP _ h).imp id fun ⟨u, hu, h⟩ => this.2 ⟨u, (part_matchMapping ..).1 hu, h⟩⟩
  | .matchClass ts => by
    have := mem_walkL hp hP hf ts
    rw [walk, List.mem_append]
    exact ⟨fun h => h.elim (hf _) fun h => by obtain ⟨u, hu, h⟩ := this.1 h; exact hp (.matchClass hu) h,
      fun h => (hP _ h).imp id fun ⟨u, hu, h⟩ => this.2 ⟨u, (part_matchClass ..).1 hu, h⟩⟩
  | .other ts => by
    have := mem_walkL hp hP hf ts
    rw [walk, List.mem_append]
    exact ⟨fun h => h.elim (hf _) fun h => by obtain ⟨u, hu, h⟩ := this.1 h; exact hp (.other hu) h,
      fun h => (hP _ h).imp id fun ⟨u, hu, h⟩ => this.2 ⟨u, (part_other ..).1 hu, h⟩⟩
  | .name .. | .func .. | .lam .. | .cls .. | .comp .. | .imp .. | .importFrom .. | .matchStar .. | .globals .. | .nonlocals .. => by
    refine ⟨fun h => hf _ (by simpa [walk] using h), fun h => ?_⟩
    rcases hP _ h with h | ⟨u, hu, _⟩
    · simpa [walk] using h
    · cases hu
theorem mem_walkL {f : Tree → List String} {x : String} {P : Tree → Prop} (hp : ∀ {t s}, Part t s → P t → P s) (hP : ∀ t, P t → x ∈ f t ∨ ∃ u, Part u t ∧ P u)
    (hf : ∀ t, x ∈ f t → P t) : (ts : List Tree) → (x ∈ walkL f ts ↔ ∃ t ∈ ts, P t)
  | [] => by simp [walkL]
  | t :: ts => by simp [walkL, mem_walk hp hP hf t, mem_walkL hp hP hf ts]
end

theorem mem_delNames (x : String) (ts : List Tree) : x ∈ delNames ts ↔ ∃ t ∈ ts, Binds x .deleted t := by
  refine mem_walkL (fun hp h => .part hp h) ?_ ?_ ts
  · intro t h; cases h with
    | deleted => exact .inl (by simp)
    | part hp h => exact .inr ⟨_, hp, h⟩
  · intro t h
    split at h
    · simp at h; subst h; exact .deleted
    · simp at h

theorem mem_collectGlobals (x : String) (ts : List Tree) : x ∈ collectGlobals ts ↔ ∃ t ∈ ts, Global x t := by
  refine mem_walkL (fun hp h => .part hp h) ?_ ?_ ts
  · intro t h; cases h with
    | here h => exact .inl h
    | part hp h => exact .inr ⟨_, hp, h⟩
  · intro t h
    split at h
    · exact .here h
    · simp at h

theorem mem_collectNonlocals (x : String) (ts : List Tree) : x ∈ collectNonlocals ts ↔ ∃ t ∈ ts, Nonlocal x t := by
  refine mem_walkL (fun hp h => .part hp h) ?_ ?_ ts
  · intro t h; cases h with
    | here h => exact .inl h
    | part hp h => exact .inr ⟨_, hp, h⟩
  · intro t h
    split at h
    · exact .here h
    · simp at h

/-! ## Results -/

theorem mem_uniqify {α} [DecidableEq α] (x : α) (l : List α) : x ∈ uniqify l ↔ x ∈ l := by
  induction l with
  | nil => rfl
  | cons y ys ih =>
    simp only [uniqify, List.mem_cons, List.mem_filter, ih, decide_eq_true_eq]
    by_cases h : x = y <;> simp [h]

theorem nodup_uniqify {α} [DecidableEq α] (l : List α) : (uniqify l).Nodup := by
  induction l with
  | nil => exact .nil
  | cons y ys ih => exact List.nodup_cons.2 ⟨by simp, ih.filter _⟩

theorem mem_extract (x : String) (p : Params) : x ∈ p.extract ↔ Parameter x p := by
  rcases p with ⟨po, a, v, k, kw⟩
  cases v <;> cases kw <;> simp [Params.extract, Parameter, or_assoc, or_comm, or_left_comm, eq_comm]

mutual
theorem mem_allNames {x : String} : {t : Tree} → Assignee t → (x ∈ allNames t ↔ Binds x .plain t)
  | .name y c, h => by
    cases h
    simp only [allNames, List.mem_singleton]
    exact ⟨fun e => by subst e; exact .assigned, fun h => by cases h with | assigned => rfl | part hp _ => cases hp⟩
  | .done t, h => by
    cases h with | done h =>
    rw [allNames, mem_allNames h]
    exact ⟨fun h => .part (.done t) h, fun h => by cases h with | part hp h => cases hp; exact h⟩
  | .tuple ts, h => by
    cases h with | tuple h =>
    rw [allNames, mem_allNamesL h]
    exact ⟨fun ⟨u, hu, h⟩ => .part (.tuple hu) h, fun h => by cases h with | part hp h => exact ⟨_, (part_tuple ..).1 hp, h⟩⟩
  | .other ts, h => by
    cases h with | other h =>
    rw [allNames, mem_allNamesL h]
    exact ⟨fun ⟨u, hu, h⟩ => .part (.other hu) h, fun h => by cases h with | part hp h => exact ⟨_, (part_other ..).1 hp, h⟩⟩
  | .func .., h | .lam .., h | .cls .., h | .comp .., h | .imp .., h | .importFrom .., h | .try_ .., h | .matchAs .., h | .matchStar .., h | .matchMapping .., h
  | .matchClass .., h | .globals .., h | .nonlocals .., h => by cases h
theorem mem_allNamesL {x : String} : {ts : List Tree} → (∀ t ∈ ts, Assignee t) → (x ∈ allNamesL ts ↔ ∃ t ∈ ts, Binds x .plain t)
  | [], _ => by simp [allNamesL]
  | t :: ts, h => by simp [allNamesL, mem_allNames (h t (by simp)), mem_allNamesL (ts := ts) (fun u hu => h u (by simp [hu]))]
end

end Unpy.Scope
