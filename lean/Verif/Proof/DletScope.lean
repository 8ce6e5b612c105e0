import Verif.Proof.Dlet
/-!
# Proofs about the `let` decorators: the scope analysis resolves the names
-/
namespace Unpy.Dlet.Lemmas
open Unpy Unpy.Dlet Unpy.Eff
open Unpy.Spec.Dlet (Seen without both after afters Keeps KeepsAll Calm CalmAll defines definesAny Simple SimpleAll)

theorem mem_without {xs ys : List String} {x : String} : x ∈ without xs ys ↔ x ∈ xs ∧ x ∉ ys := by simp [without]

/-- The names in scope are those that hide let variables. -/
def Inv (lets vis names : List String) : Prop := (∀ x ∈ lets, x ∈ vis ↔ x ∉ names) ∧ ∀ x ∈ vis, x ∈ lets

/-! ## Expressions -/

theorem inv_lam {lets vis names : List String} (h : Inv lets vis names) (ps : List String) : Inv lets (without vis ps) (names ++ ps) := by
  refine ⟨fun x hx => ?_, fun x hx => h.2 x (mem_without.mp hx).1⟩
  rw [mem_without, h.1 x hx]
  simp

theorem inv_mem {lets vis names : List String} (h : Inv lets vis names) (x : String) : (x ∈ lets ∧ x ∉ names) ↔ x ∈ vis :=
  ⟨fun hx => (h.1 x hx.1).mpr hx.2, fun hx => ⟨h.2 x hx, (h.1 x (h.2 x hx)).mp hx⟩⟩

mutual
theorem passE {lets : List String} : (e : E) → (vis n1 n2 : List String) → Inv lets vis n1 → Inv lets vis n2 →
    nameE lets n2 (assignE lets n1 e) = resE vis e
  | .int _, _, _, _, _, _ => rfl
  | .var x, vis, n1, n2, h1, h2 => by simp only [assignE, nameE, resE, inv_mem h2]
  | .sub a b, vis, n1, n2, h1, h2 => by simp only [assignE, nameE, resE, passE a vis n1 n2 h1 h2, passE b vis n1 n2 h1 h2]
  | .show e, vis, n1, n2, h1, h2 => by simp only [assignE, nameE, resE, passE e vis n1 n2 h1 h2]
  | .walrus x e, vis, n1, n2, h1, h2 => by
    simp only [assignE, resE, inv_mem h1]
    split <;> simp only [nameE, passE e vis n1 n2 h1 h2]
  | .lam ps e, vis, n1, n2, h1, h2 => by simp only [assignE, nameE, resE, passE e _ _ _ (inv_lam h1 ps) (inv_lam h2 ps)]
  | .call f args, vis, n1, n2, h1, h2 => by simp only [assignE, nameE, resE, passE f vis n1 n2 h1 h2, passEs args vis n1 n2 h1 h2]
  | .envget x, _, _, _, _, _ => rfl
  | .envset x e, vis, n1, n2, h1, h2 => by simp only [assignE, nameE, resE, passE e vis n1 n2 h1 h2]
theorem passEs {lets : List String} : (es : Es) → (vis n1 n2 : List String) → Inv lets vis n1 → Inv lets vis n2 →
    nameEs lets n2 (assignEs lets n1 es) = resEs vis es
  | .nil, _, _, _, _, _ => rfl
  | .cons e es, vis, n1, n2, h1, h2 => by simp only [assignEs, nameEs, resEs, passE e vis n1 n2 h1 h2, passEs es vis n1 n2 h1 h2]
end

mutual
/-- `x := e` is left as it is only if `x` is in scope. -/
theorem stores_assignE {lets : List String} : (e : E) → (names : List String) → ∀ x ∈ lets, x ∈ storesE (assignE lets names e) → x ∈ names
  | .int _, _, _, _, h | .var _, _, _, _, h | .lam .., _, _, _, h | .envget _, _, _, _, h => by simp [assignE, storesE] at h
  | .sub a b, names, x, hx, h => by
    simp only [assignE, storesE, List.mem_append] at h
    exact h.elim (stores_assignE a names x hx) (stores_assignE b names x hx)
  | .show e, names, x, hx, h => stores_assignE e names x hx h
  | .walrus y e, names, x, hx, h => by
    simp only [assignE] at h
    split at h
    · exact stores_assignE e names x hx h
    · rename_i hy
      simp only [storesE, List.mem_cons] at h
      rcases h with h | h
      · rw [← h] at hy
        exact Classical.not_not.mp fun hn => hy ⟨hx, hn⟩
      · exact stores_assignE e names x hx h
  | .call f args, names, x, hx, h => by
    simp only [assignE, storesE, List.mem_append] at h
    exact h.elim (stores_assignE f names x hx) (stores_assignEs args names x hx)
  | .envset _ e, names, x, hx, h => stores_assignE e names x hx h
theorem stores_assignEs {lets : List String} : (es : Es) → (names : List String) → ∀ x ∈ lets, x ∈ storesEs (assignEs lets names es) → x ∈ names
  | .nil, _, _, _, h => by simp [assignEs, storesEs] at h
  | .cons e es, names, x, hx, h => by
    simp only [assignEs, storesEs, List.mem_append] at h
    exact h.elim (stores_assignE e names x hx) (stores_assignEs es names x hx)
end

mutual
theorem stores_nameE {lets : List String} : (e : E) → (names : List String) → storesE (nameE lets names e) = storesE e
  | .int _, _ | .lam .., _ | .envget _, _ => by simp [nameE, storesE]
  | .var x, _ => by simp only [nameE]; split <;> simp [storesE]
  | .sub a b, names => by simp only [nameE, storesE, stores_nameE a names, stores_nameE b names]
  | .show e, names => by simp only [nameE, storesE, stores_nameE e names]
  | .walrus y e, names => by simp only [nameE, storesE, stores_nameE e names]
  | .call f args, names => by simp only [nameE, storesE, stores_nameE f names, stores_nameEs args names]
  | .envset _ e, names => by simp only [nameE, storesE, stores_nameE e names]
theorem stores_nameEs {lets : List String} : (es : Es) → (names : List String) → storesEs (nameEs lets names es) = storesEs es
  | .nil, _ => rfl
  | .cons e es, names => by simp only [nameEs, storesEs, stores_nameE e names, stores_nameEs es names]
end

/-! ## Statements -/

mutual
/-- What is left in the list of arguments. -/
def addedS : S → List String
  | .assign .. | .del _ | .expr _ | .ret _ => []
  | .ite _ t e => addedSs t ++ addedSs e
  | .while _ b => addedSs b
  | .fdef g ps _ _ body => (g :: ps) ++ addedSs body
def addedSs : Ss → List String
  | .nil => []
  | .cons s ss => addedS s ++ addedSs ss
end

mutual
theorem added_scopedS (cb : Callback) : (s : S) → (st : Scope) → (scopedS cb st s).2 = st.args ++ addedS s ∧ addedS (scopedS cb st s).1 = addedS s ∧
    delsS (scopedS cb st s).1 = delsS s
  | .assign .., _ | .del _, _ | .expr _, _ | .ret _, _ => by simp [scopedS, addedS, delsS]
  | .ite c t e, st => by
    have h1 := added_block cb t st
    have h2 := added_block cb e { st with args := st.args ++ addedSs t }
    simp [scopedS, addedS, delsS, h1, h2]
  | .while c b, st => by simp [scopedS, addedS, delsS, added_block cb b st]
  | .fdef g ps ds gl body, st => by
    have h := added_body cb body ⟨st.args ++ g :: ps, st.localvars, gl⟩
    simp [scopedS, addedS, delsS, h]
theorem added_block (cb : Callback) : (ss : Ss) → (st : Scope) → (scopedBlock cb st ss).2 = st.args ++ addedSs ss ∧
    addedSs (scopedBlock cb st ss).1 = addedSs ss ∧ delsSs (scopedBlock cb st ss).1 = delsSs ss
  | .nil, st => by simp [scopedBlock, addedSs]
  | .cons s ss, st => by
    have h1 := added_scopedS cb s st
    have h2 := added_block cb ss { st with args := st.args ++ addedS s }
    simp [scopedBlock, addedSs, delsSs, h1, h2]
theorem added_body (cb : Callback) : (ss : Ss) → (st : Scope) → (scopedBody cb st ss).2 = st.args ++ addedSs ss ∧
    addedSs (scopedBody cb st ss).1 = addedSs ss ∧ delsSs (scopedBody cb st ss).1 = delsSs ss
  | .nil, st => by simp [scopedBody, addedSs]
  | .cons s ss, st => by
    have h1 := added_scopedS cb s st
    have h2 := added_body cb ss { st with args := st.args ++ addedS s, localvars := st.after (scopedS cb st s).1 }
    simp [scopedBody, addedSs, delsSs, h1, h2]
end

mutual
theorem added_calm {lets : List String} : (s : S) → (nested : Bool) → Calm lets nested s → ∀ x ∈ addedS s, x ∉ lets
  | .assign .., _, _, x, h | .del _, _, _, x, h | .expr _, _, _, x, h | .ret _, _, _, x, h => by simp [addedS] at h
  | .ite _ t e, nested, hc, x, h => by
    simp only [addedS, List.mem_append] at h
    exact h.elim (addeds_calm t nested hc.2.2.1 x) (addeds_calm e nested hc.2.2.2 x)
  | .while _ b, nested, hc, x, h => addeds_calm b nested hc.2 x h
  | .fdef g ps _ _ body, nested, hc, x, h => by
    simp only [addedS, List.mem_append, List.mem_cons] at h
    rcases h with (h | h) | h
    · rw [h]; exact hc.1
    · exact hc.2.1 x h
    · exact addeds_calm body true hc.2.2.2 x h
theorem addeds_calm {lets : List String} : (ss : Ss) → (nested : Bool) → CalmAll lets nested ss → ∀ x ∈ addedSs ss, x ∉ lets
  | .nil, _, _, x, h => by simp [addedSs] at h
  | .cons s ss, nested, hc, x, h => by
    simp only [addedSs, List.mem_append] at h
    exact h.elim (added_calm s nested hc.1 x) (addeds_calm ss nested hc.2 x)
end

/-- The two transformations. -/
abbrev cbA (lets : List String) : Callback := ⟨assignE lets, assignEs lets⟩
abbrev cbN (lets : List String) : Callback := ⟨nameE lets, nameEs lets⟩

mutual
theorem stores_nameS {lets : List String} : (s : S) → (st : Scope) → storesS (scopedS (cbN lets) st s).1 = storesS s
  | .assign .., _ | .expr _, _ | .ret _, _ => by simp [scopedS, storesS, stores_nameE]
  | .del _, _ | .fdef .., _ => by simp [scopedS, storesS]
  | .ite c t e, st => by simp [scopedS, storesS, stores_nameE, stores_nameBlock t, stores_nameBlock e]
  | .while c b, st => by simp [scopedS, storesS, stores_nameE, stores_nameBlock b]
theorem stores_nameBlock {lets : List String} : (ss : Ss) → (st : Scope) → storesSs (scopedBlock (cbN lets) st ss).1 = storesSs ss
  | .nil, _ => rfl
  | .cons s ss, st => by simp [scopedBlock, storesSs, stores_nameS s, stores_nameBlock ss]
end

theorem names_added {lets : List String} {st : Scope} {add : List String} (h : ∀ x ∈ add, x ∉ lets) {x : String} (hx : x ∈ lets) :
    x ∈ ({ st with args := st.args ++ add } : Scope).names ↔ x ∈ st.names := by
  have : x ∉ add := fun hn => h x hn hx
  simp [Scope.names, this]

mutual
theorem stores_keep {lets : List String} : (s : S) → (nested : Bool) → (st : Scope) → Calm lets nested s → Keeps lets s → ∀ x ∈ lets,
    x ∈ storesS (scopedS (cbA lets) st s).1 → x ∈ st.names
  | .assign y e, _, st, _, hk, x, hx, h => by
    simp only [scopedS, storesS, List.mem_cons] at h
    rcases h with h | h
    · rw [h] at hx; exact absurd hx hk
    · exact stores_assignE e _ x hx h
  | .del _, _, _, _, _, x, _, h => by simp [scopedS, storesS] at h
  | .expr e, _, st, _, _, x, hx, h | .ret e, _, st, _, _, x, hx, h => stores_assignE e _ x hx h
  | .ite c t e, nested, st, hc, hk, x, hx, h => by
    simp only [scopedS, storesS, List.mem_append] at h
    rcases h with (h | h) | h
    · exact stores_assignE c _ x hx h
    · exact stores_keeps t nested st hc.2.2.1 hk.1 x hx h
    · rw [(added_block (cbA lets) t st).1] at h
      have := stores_keeps e nested _ hc.2.2.2 hk.2 x hx h
      rwa [names_added (addeds_calm t nested hc.2.2.1) hx] at this
  | .while c b, nested, st, hc, hk, x, hx, h => by
    simp only [scopedS, storesS, List.mem_append] at h
    rcases h with h | h
    · exact stores_assignE c _ x hx h
    · exact stores_keeps b nested st hc.2 hk x hx h
  | .fdef g ps ds gl body, _, st, hc, _, x, hx, h => by
    simp only [scopedS, storesS, List.mem_singleton] at h
    rw [h] at hx
    exact absurd hx hc.1
theorem stores_keeps {lets : List String} : (ss : Ss) → (nested : Bool) → (st : Scope) → CalmAll lets nested ss → KeepsAll lets ss → ∀ x ∈ lets,
    x ∈ storesSs (scopedBlock (cbA lets) st ss).1 → x ∈ st.names
  | .nil, _, _, _, _, x, _, h => by simp [scopedBlock, storesSs] at h
  | .cons s ss, nested, st, hc, hk, x, hx, h => by
    simp only [scopedBlock, storesSs, List.mem_append] at h
    rcases h with h | h
    · exact stores_keep s nested st hc.1 hk.1 x hx h
    · rw [(added_scopedS (cbA lets) s st).1] at h
      have := stores_keeps ss nested _ hc.2 hk.2 x hx h
      rwa [names_added (added_calm s nested hc.1) hx] at this
end

mutual
theorem dels_keep {lets : List String} : (s : S) → Keeps lets s → ∀ x ∈ delsS s, x ∉ lets
  | .assign .., _, x, h | .expr _, _, x, h | .ret _, _, x, h | .fdef .., _, x, h => by simp [delsS] at h
  | .del y, hk, x, h => by simp only [delsS, List.mem_singleton] at h; rw [h]; exact hk
  | .ite _ t e, hk, x, h => by
    simp only [delsS, List.mem_append] at h
    exact h.elim (dels_keeps t hk.1 x) (dels_keeps e hk.2 x)
  | .while _ b, hk, x, h => dels_keeps b hk x h
theorem dels_keeps {lets : List String} : (ss : Ss) → KeepsAll lets ss → ∀ x ∈ delsSs ss, x ∉ lets
  | .nil, _, x, h => by simp [delsSs] at h
  | .cons s ss, hk, x, h => by
    simp only [delsSs, List.mem_append] at h
    exact h.elim (dels_keep s hk.1 x) (dels_keeps ss hk.2 x)
end

theorem without_none {xs ys : List String} (h : ∀ y ∈ ys, y ∉ xs) : without xs ys = xs := by
  unfold without
  rw [List.filter_eq_self]
  intro x hx
  simp only [List.contains_eq_mem, Bool.not_eq_true', decide_eq_false_iff_not]
  exact fun hy => h x hy hx

theorem both_self (xs : List String) : both xs xs = xs := by
  unfold both
  rw [List.filter_eq_self]
  intro x hx
  simp [hx]

mutual
/-- These change nothing. -/
theorem after_keep {lets : List String} : (s : S) → (nested : Bool) → (base vis : List String) → Calm lets nested s → Keeps lets s →
    (∀ x ∈ base, x ∈ lets) → (∀ x ∈ vis, x ∈ lets) → after base vis s = vis
  | .assign y e, _, base, vis, _, hk, _, hv => by
    rw [after]; exact without_none fun x hx h => hk (by rw [List.mem_singleton] at hx; rw [← hx]; exact hv x h)
  | .del y, _, base, vis, _, hk, hb, _ => by
    rw [after, if_neg fun h => hk (hb y h)]
  | .expr e, _, _, _, _, _, _, _ | .ret e, _, _, _, _, _, _, _ => rfl
  | .ite c t e, nested, base, vis, hc, hk, hb, hv => by
    rw [after, afters_keep t nested base vis hc.2.2.1 hk.1 hb hv, afters_keep e nested base vis hc.2.2.2 hk.2 hb hv, both_self]
  | .while c b, nested, base, vis, hc, hk, hb, hv => by
    rw [after, afters_keep b nested base vis hc.2 hk hb hv, both_self]
  | .fdef g .., _, base, vis, hc, _, _, hv => by
    rw [after]; exact without_none fun x hx h => hc.1 (by rw [List.mem_singleton] at hx; rw [← hx]; exact hv x h)
theorem afters_keep {lets : List String} : (ss : Ss) → (nested : Bool) → (base vis : List String) → CalmAll lets nested ss → KeepsAll lets ss →
    (∀ x ∈ base, x ∈ lets) → (∀ x ∈ vis, x ∈ lets) → afters base vis ss = vis
  | .nil, _, _, _, _, _, _, _ => rfl
  | .cons s ss, nested, base, vis, hc, hk, hb, hv => by
    rw [afters, after_keep s nested base vis hc.1 hk.1 hb hv, afters_keep ss nested base vis hc.2 hk.2 hb hv]
end

/-- The state of the analyzer fits. -/
structure Fits (lets base vis : List String) (nested : Bool) (st : Scope) : Prop where
  inv : Inv lets vis st.names
  sub : ∀ x ∈ base, x ∈ lets
  base : nested = false → ∀ x ∈ lets, x ∈ base ↔ x ∉ st.args ∧ x ∉ st.nonlocals

theorem fits_added {lets base vis : List String} {nested : Bool} {st : Scope} (h : Fits lets base vis nested st) {add : List String}
    (ha : ∀ x ∈ add, x ∉ lets) : Fits lets base vis nested { st with args := st.args ++ add } := by
  refine ⟨⟨fun x hx => ?_, h.inv.2⟩, h.sub, fun hn x hx => ?_⟩
  · rw [h.inv.1 x hx, names_added ha hx]
  · have : x ∉ add := fun hn => ha x hn hx
    rw [h.base hn x hx]
    simp [this]

/-- The state after a statement of a function; `s'` is the statement after the transformation. -/
theorem fits_after {lets base vis : List String} {nested : Bool} {st : Scope} (h : Fits lets base vis nested st) (s s' : S) (hc : Calm lets nested s)
    (hs : ∀ x ∈ lets, (x ∈ storesS s' → x ∈ st.names ∨ ∃ e, s = .assign x e) ∧ ((∃ e, s = .assign x e) → x ∈ storesS s'))
    (hd : delsS s' = delsS s) : Fits lets base (after base vis s) nested { st with args := st.args ++ addedS s, localvars := st.after s' } := by
  have hadd : ∀ x ∈ lets, x ∉ addedS s := fun x hx hn => added_calm s nested hc x hn hx
  have hsub : ∀ x ∈ after base vis s, x ∈ lets := by
    cases s with
    | assign y e => intro x hx; exact h.inv.2 x (mem_without.mp hx).1
    | del y =>
      intro x hx
      simp only [after] at hx
      split at hx
      · rename_i hy
        rcases List.mem_cons.mp hx with hx | hx
        · rw [hx]; exact h.sub y hy
        · exact h.inv.2 x hx
      · exact h.inv.2 x hx
    | expr e => exact h.inv.2
    | ret e => exact h.inv.2
    | ite c t e => rw [after_keep _ nested base vis hc ⟨hc.1, hc.2.1⟩ h.sub h.inv.2]; exact h.inv.2
    | «while» c b => rw [after_keep _ nested base vis hc hc.1 h.sub h.inv.2]; exact h.inv.2
    | fdef g ps ds gl body => intro x hx; exact h.inv.2 x (mem_without.mp hx).1
  refine ⟨⟨fun x hx => ?_, hsub⟩, h.sub, fun hn x hx => ?_⟩
  · have hi := h.inv.1 x hx
    have hs := hs x hx
    have ha := hadd x hx
    simp only [Scope.names, List.mem_append, Scope.after, List.mem_filter, List.contains_eq_mem, Bool.not_eq_true', decide_eq_false_iff_not,
      hd] at hi hs ⊢
    have keep : after base vis s = vis → x ∉ delsS s → (¬ ∃ e, s = .assign x e) → (x ∈ after base vis s ↔
        ¬(((x ∈ st.args ∨ x ∈ addedS s) ∨ (x ∈ st.localvars ∨ x ∈ storesS s' ∧ x ∉ st.nonlocals) ∧ ¬(x ∈ delsS s ∧ x ∉ st.nonlocals)) ∨
          x ∈ st.nonlocals)) := by
      intro hv hd' hna
      rw [hv, hi]
      constructor
      · intro h1 h2
        rcases h2 with (h2 | h2) | h2
        · exact h2.elim (fun h => h1 (.inl (.inl h))) ha
        · rcases h2.1 with h3 | h3
          · exact h1 (.inl (.inr h3))
          · exact (hs.1 h3.1).elim h1 hna
        · exact h1 (.inr h2)
      · intro h1 h2
        apply h1
        rcases h2 with (h2 | h2) | h2
        · exact .inl (.inl (.inl h2))
        · exact .inl (.inr ⟨.inl h2, fun h => hd' h.1⟩)
        · exact .inr h2
    cases s with
    | assign y e =>
      by_cases hy : y = x
      · subst hy
        have h1 := hs.2 ⟨e, rfl⟩
        rw [after, mem_without]
        simp only [List.mem_singleton, not_true, and_false, false_iff, Classical.not_not, delsS, List.not_mem_nil, false_and, not_false_iff, and_true]
        by_cases hn : y ∈ st.nonlocals
        · exact .inr hn
        · exact .inl (.inr (.inr ⟨h1, hn⟩))
      · have hne : x ≠ y := fun h => hy h.symm
        have : ¬ ∃ e', S.assign y e = .assign x e' := by rintro ⟨e', h⟩; cases h; exact hy rfl
        rw [after, mem_without]
        simp only [List.mem_singleton, hne, not_false_iff, and_true]
        simp only [delsS, List.not_mem_nil, false_and, not_false_iff, and_true, hi]
        constructor
        · intro h1 h2
          rcases h2 with (h2 | h2) | h2
          · exact h2.elim (fun h => h1 (.inl (.inl h))) ha
          · rcases h2 with h3 | h3
            · exact h1 (.inl (.inr h3))
            · exact (hs.1 h3.1).elim h1 this
          · exact h1 (.inr h2)
        · intro h1 h2
          apply h1
          rcases h2 with (h2 | h2) | h2
          · exact .inl (.inl (.inl h2))
          · exact .inl (.inr (.inl h2))
          · exact .inr h2
    | del y =>
      by_cases hy : y = x
      · subst hy
        have hnest : nested = false := by
          cases nested with
          | false => rfl
          | true => exact absurd hx (hc rfl)
        have hb := h.base hnest y hx
        have : y ∈ after base vis (.del y) ↔ y ∈ base := by
          rw [after]
          split
          · rename_i h; simp [h]
          · rename_i hnb
            refine ⟨fun hv => ?_, fun h => absurd h hnb⟩
            rw [hi] at hv
            exact hb.mpr ⟨fun h => hv (.inl (.inl h)), fun h => hv (.inr h)⟩
        rw [this, hb]
        simp only [delsS, List.mem_singleton, true_and, addedS, List.not_mem_nil, or_false, Classical.not_not]
        constructor
        · rintro ⟨h1, h2⟩ ((h3 | h3) | h3)
          · exact h1 h3
          · exact h2 h3.2
          · exact h2 h3
        · intro h1
          exact ⟨fun h => h1 (.inl (.inl h)), fun h => h1 (.inr h)⟩
      · have hne : x ≠ y := fun h => hy h.symm
        have : x ∈ after base vis (.del y) ↔ x ∈ vis := by
          rw [after]
          split
          · simp [hne]
          · rfl
        rw [this, hi]
        simp only [delsS, List.mem_singleton, hne, false_and, not_false_iff, and_true]
        constructor
        · intro h1 h2
          rcases h2 with (h2 | h2) | h2
          · exact h2.elim (fun h => h1 (.inl (.inl h))) ha
          · rcases h2 with h3 | h3
            · exact h1 (.inl (.inr h3))
            · exact (hs.1 h3.1).elim h1 (by rintro ⟨e, he⟩; cases he)
          · exact h1 (.inr h2)
        · intro h1 h2
          apply h1
          rcases h2 with (h2 | h2) | h2
          · exact .inl (.inl (.inl h2))
          · exact .inl (.inr (.inl h2))
          · exact .inr h2
    | expr e => exact keep rfl (by simp [delsS]) (by rintro ⟨e, he⟩; cases he)
    | ret e => exact keep rfl (by simp [delsS]) (by rintro ⟨e, he⟩; cases he)
    | ite c t e =>
      exact keep (after_keep _ nested base vis hc ⟨hc.1, hc.2.1⟩ h.sub h.inv.2) (fun h => dels_keep (.ite c t e) ⟨hc.1, hc.2.1⟩ x h hx)
        (by rintro ⟨e, he⟩; cases he)
    | «while» c b =>
      exact keep (after_keep _ nested base vis hc hc.1 h.sub h.inv.2) (fun h => dels_keep (.while c b) hc.1 x h hx)
        (by rintro ⟨e, he⟩; cases he)
    | fdef g ps ds gl body =>
      exact keep (after_keep _ nested base vis hc trivial h.sub h.inv.2) (by simp [delsS]) (by rintro ⟨e, he⟩; cases he)
  · have ha := hadd x hx
    rw [h.base hn x hx]
    simp [ha]

/-- For the statements of a function, what the transformation `assignE` stores. -/
theorem stores_A {lets : List String} {nested : Bool} (s : S) (st : Scope) (hc : Calm lets nested s) : ∀ x ∈ lets,
    (x ∈ storesS (scopedS (cbA lets) st s).1 → x ∈ st.names ∨ ∃ e, s = .assign x e) ∧
      ((∃ e, s = .assign x e) → x ∈ storesS (scopedS (cbA lets) st s).1) := by
  intro x hx
  refine ⟨fun h => ?_, ?_⟩
  · cases s with
    | assign y e =>
      simp only [scopedS, storesS, List.mem_cons] at h
      rcases h with h | h
      · exact .inr ⟨e, by rw [h]⟩
      · exact .inl (stores_assignE e _ x hx h)
    | del y => simp [scopedS, storesS] at h
    | expr e => exact .inl (stores_assignE e _ x hx h)
    | ret e => exact .inl (stores_assignE e _ x hx h)
    | ite c t e => exact .inl (stores_keep _ nested st hc ⟨hc.1, hc.2.1⟩ x hx h)
    | «while» c b => exact .inl (stores_keep _ nested st hc hc.1 x hx h)
    | fdef g ps ds gl body => exact .inl (stores_keep _ nested st hc trivial x hx h)
  · rintro ⟨e, rfl⟩
    simp [scopedS, storesS]

/-- No let variable is declared in the function around. -/
def NoGlobals (lets : List String) (st : Scope) : Prop := ∀ x ∈ lets, x ∉ st.nonlocals

theorem fits_fdef {lets base vis : List String} {nested : Bool} {st : Scope} (h : Fits lets base vis nested st) (hg : NoGlobals lets st) (g : String)
    (ps gl : List String) : Fits lets (without vis (g :: ps ++ gl)) (without vis (g :: ps ++ gl)) true ⟨st.args ++ g :: ps, st.localvars, gl⟩ := by
  refine ⟨⟨fun x hx => ?_, fun x hx => h.inv.2 x (mem_without.mp hx).1⟩, fun x hx => h.inv.2 x (mem_without.mp hx).1, nofun⟩
  rw [mem_without, h.inv.1 x hx]
  have := hg x hx
  simp only [Scope.names, List.mem_append, this, or_false]
  grind

mutual
theorem scopedS_res {lets : List String} : (s : S) → (nested : Bool) → (base vis : List String) → (st1 st2 : Scope) → Calm lets nested s →
    Fits lets base vis nested st1 → Fits lets base vis nested st2 → (defines s = true → NoGlobals lets st1 ∧ NoGlobals lets st2) →
    (scopedS (cbN lets) st2 (scopedS (cbA lets) st1 s).1).1 = resS base vis s
  | .assign x e, _, base, vis, st1, st2, _, h1, h2, _ => by simp only [scopedS, resS, passE e vis _ _ h1.inv h2.inv]
  | .del x, _, _, _, _, _, _, _, _, _ => rfl
  | .expr e, _, base, vis, st1, st2, _, h1, h2, _ => by simp only [scopedS, resS, passE e vis _ _ h1.inv h2.inv]
  | .ret e, _, base, vis, st1, st2, _, h1, h2, _ => by simp only [scopedS, resS, passE e vis _ _ h1.inv h2.inv]
  | .ite c t e, nested, base, vis, st1, st2, hc, h1, h2, hd => by
    have ht := scopedBlock_res t nested base vis st1 st2 hc.2.2.1 hc.1 h1 h2 (fun h => hd (by simp [defines, h]))
    have he := scopedBlock_res e nested base vis _ _ hc.2.2.2 hc.2.1 (fits_added h1 (addeds_calm t nested hc.2.2.1))
      (fits_added h2 (addeds_calm t nested hc.2.2.1)) (fun h => hd (by simp [defines, h]))
    simp only [scopedS, resS, passE c vis _ _ h1.inv h2.inv, ht, (added_block (cbA lets) t st1).1, (added_block (cbN lets) _ st2).1,
      (added_block (cbA lets) t st1).2.1, he]
  | .while c b, nested, base, vis, st1, st2, hc, h1, h2, hd => by
    have hb := scopedBlock_res b nested base vis st1 st2 hc.2 hc.1 h1 h2 (fun h => hd h)
    simp only [scopedS, resS, passE c vis _ _ h1.inv h2.inv, hb]
  | .fdef g ps ds gl body, nested, base, vis, st1, st2, hc, h1, h2, hd => by
    have hg := hd rfl
    have hadd : ∀ x ∈ g :: ps, x ∉ lets := by
      intro x hx
      rcases List.mem_cons.mp hx with h | h
      · rw [h]; exact hc.1
      · exact hc.2.1 x h
    have hb := scopedBody_res body true _ _ _ _ hc.2.2.2 (fits_fdef h1 hg.1 g ps gl) (fits_fdef h2 hg.2 g ps gl)
      (fun h => ⟨fun x hx hn => hc.2.2.1 h x hn hx, fun x hx hn => hc.2.2.1 h x hn hx⟩)
    simp only [scopedS, resS, hb, passEs ds vis _ _ (fits_added h1 hadd).inv (fits_added h2 hadd).inv]
theorem scopedBlock_res {lets : List String} : (ss : Ss) → (nested : Bool) → (base vis : List String) → (st1 st2 : Scope) → CalmAll lets nested ss →
    KeepsAll lets ss →
    Fits lets base vis nested st1 → Fits lets base vis nested st2 → (definesAny ss = true → NoGlobals lets st1 ∧ NoGlobals lets st2) →
    (scopedBlock (cbN lets) st2 (scopedBlock (cbA lets) st1 ss).1).1 = resSs base vis ss
  | .nil, _, _, _, _, _, _, _, _, _, _ => rfl
  | .cons s ss, nested, base, vis, st1, st2, hc, hk, h1, h2, hd => by
    have hs := scopedS_res s nested base vis st1 st2 hc.1 h1 h2 (fun h => hd (by simp [definesAny, h]))
    have hss := scopedBlock_res ss nested base vis _ _ hc.2 hk.2 (fits_added h1 (added_calm s nested hc.1))
      (fits_added h2 (added_calm s nested hc.1)) (fun h => hd (by simp [definesAny, h]))
    simp only [scopedBlock, resSs, hs, (added_scopedS (cbA lets) s st1).1, (added_scopedS (cbN lets) _ st2).1, (added_scopedS (cbA lets) s st1).2.1, hss,
      after_keep s nested base vis hc.1 hk.1 h1.sub h1.inv.2]
theorem scopedBody_res {lets : List String} : (ss : Ss) → (nested : Bool) → (base vis : List String) → (st1 st2 : Scope) → CalmAll lets nested ss →
    Fits lets base vis nested st1 → Fits lets base vis nested st2 → (definesAny ss = true → NoGlobals lets st1 ∧ NoGlobals lets st2) →
    (scopedBody (cbN lets) st2 (scopedBody (cbA lets) st1 ss).1).1 = resSs base vis ss
  | .nil, _, _, _, _, _, _, _, _, _ => rfl
  | .cons s ss, nested, base, vis, st1, st2, hc, h1, h2, hd => by
    have hs := scopedS_res s nested base vis st1 st2 hc.1 h1 h2 (fun h => hd (by simp [definesAny, h]))
    have f1 := fits_after h1 s (scopedS (cbA lets) st1 s).1 hc.1 (stores_A s st1 hc.1) (added_scopedS (cbA lets) s st1).2.2
    have f2 := fits_after h2 s (scopedS (cbN lets) st2 (scopedS (cbA lets) st1 s).1).1 hc.1
      (by
        intro x hx
        rw [stores_nameS]
        refine ⟨fun h => ?_, ((stores_A s st1 hc.1) x hx).2⟩
        rcases ((stores_A s st1 hc.1) x hx).1 h with h | h
        · exact .inl (Classical.not_not.mp fun hn => ((h1.inv.1 x hx).mp ((h2.inv.1 x hx).mpr hn)) h)
        · exact .inr h)
      (by rw [(added_scopedS (cbN lets) _ st2).2.2, (added_scopedS (cbA lets) s st1).2.2])
    have hss := scopedBody_res ss nested base _ _ _ hc.2 f1 f2 (fun h => hd (by simp [definesAny, h]))
    simp only [scopedBody, resSs, hs, (added_scopedS (cbA lets) s st1).1, (added_scopedS (cbN lets) _ st2).1, (added_scopedS (cbA lets) s st1).2.1]
    rw [hs] at hss
    rw [hss]
end

end Unpy.Dlet.Lemmas
