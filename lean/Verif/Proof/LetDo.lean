import Verif.Model.LetDo
import Verif.Spec.LetDo
/-!
# The expansion relates source and target

`ExpR r w t t'`: `t'` is an expansion of `t` when the names that `r` (for reading) and `w` (for writing) map to
environments have been resolved to these.
-/
namespace Unpy.LetDo
open Unpy.PyExpr
open Unpy.Spec.LetDo (reads readsAny assigns assignsAny)
variable {β : Type}

/-- Which environment a name belongs to, and whether to a `do`. -/
abbrev Sc := String → Option (Nat × Bool)

def setter (isDo : Bool) : String := if isDo then "_set" else "set"

def hide (r : Sc) (ps : List Name) : Sc := fun x => if Name.user x ∈ ps then none else r x
def over (r : Sc) (xs : List String) (e : Nat) (k : Bool) : Sc := fun x => if x ∈ xs then some (e, k) else r x
/-- The names in `xs`, not in `scope`, that are not resolved yet. -/
def under (r : Sc) (xs : List String) (scope : List Name) (e : Nat) (k : Bool) : Sc := fun x =>
  match r x with
  | some p => some p
  | none => if x ∈ xs ∧ Name.user x ∉ scope then some (e, k) else none

def setCode (e : Nat) (xs : List String) (t : Ex β) : Ex β :=
  xs.foldr (fun x t => .call (.attr (.name (.gen e)) "_set") [.str x, t]) t

def letOut (letrec : Bool) (e : Nat) (xs : List String) (vs : List (Ex β)) (b : Ex β) : Ex β :=
  .call (.cap (.letter letrec))
    [.tup (List.zipWith (fun x v => .tup [.str x, v]) xs (if letrec then vs.map (.lam [.gen e] []) else vs)),
     .lam [.gen e] [] b]

mutual
def ExpR (r w : Sc) : Ex β → Ex β → Prop
  | .cst c, t' => t' = .cst c
  | .str s, t' => t' = .str s
  | .cap c, t' => t' = .cap c
  | .name (.gen n), t' => t' = .name (.gen n)
  | .name (.user x), t' => t' = match r x with
    | none => .name (.user x)
    | some (e, _) => .attr (.name (.gen e)) x
  | .attr t a, t' => ∃ u, t' = .attr u a ∧ ExpR r w t u
  | .call f args, t' => ∃ f' args', t' = .call f' args' ∧ ExpR r w f f' ∧ ExpRs r w args args'
  | .lam ps ds b, t' => ∃ ds' b', t' = .lam ps ds' b' ∧ ExpRs r w ds ds' ∧ ExpR (hide r ps) (hide w ps) b b'
  | .ife c t e, t' => ∃ c' u' e', t' = .ife c' u' e' ∧ ExpR r w c c' ∧ ExpR r w t u' ∧ ExpR r w e e'
  | .tup ts, t' => ∃ ts', t' = .tup ts' ∧ ExpRs r w ts ts'
  | .lst ts, t' => ∃ ts', t' = .lst ts' ∧ ExpRs r w ts ts'
  | .assign (.gen n) v, t' => ∃ v', t' = .assign (.gen n) v' ∧ ExpR r w v v'
  | .assign (.user x) v, t' => ∃ v', ExpR r w v v' ∧ t' = match w x with
    | none => .assign (.user x) v'
    | some (e, k) => .call (.attr (.name (.gen e)) (setter k)) [.str x, v']
  | .letx letrec xs vs b, t' => ∃ e vs' b', t' = letOut letrec e xs vs' b' ∧
      (ExpRs (if letrec then over r xs e false else r) (if letrec then over w xs e false else w) vs vs') ∧
      ExpR (over r xs e false) (over w xs e false) b b'
  | .doe tags ts, t' => ∃ e ls, t' = .call (.cap .dof) (ls.map (.lam [.gen e] [])) ∧ ExpItems r w e [] tags ts ls
  | .bad, _ => False
def ExpRs (r w : Sc) : List (Ex β) → List (Ex β) → Prop
  | [], ts' => ts' = []
  | t :: ts, l => ∃ t' ts', l = t' :: ts' ∧ ExpR r w t t' ∧ ExpRs r w ts ts'
def ExpItems (r w : Sc) (e : Nat) : List String → List Tag → List (Ex β) → List (Ex β) → Prop
  | names, .loc xs :: tags, t :: ts, l => ∃ t' ls, l = setCode e xs t' :: ls ∧
      ExpR (over r names e true) (over w (names ++ xs) e true) t t' ∧ ExpItems r w e (names ++ xs) tags ts ls
  | names, .del x :: tags, _ :: ts, l => ∃ ls, l = .call (.attr (.name (.gen e)) "pop") [.str x] :: ls ∧
      ExpItems r w e (names.filter (· ≠ x)) tags ts ls
  | _, _, _, l => l = []
end

/-! ## Only the names that occur matter -/

mutual
theorem expR_congr {r r' w w' : Sc} : ∀ {t t' : Ex β}, (∀ x, reads (.user x) t = true → r x = r' x) →
    (∀ x, assigns (.user x) t = true → w x = w' x) → ExpR r w t t' → ExpR r' w' t t'
  | .cst _, _, _, _, h => by simpa [ExpR] using h
  | .str _, _, _, _, h => by simpa [ExpR] using h
  | .cap _, _, _, _, h => by simpa [ExpR] using h
  | .name (.gen _), _, _, _, h => by simpa [ExpR] using h
  | .name (.user x), _, hr, _, h => by
    simp only [ExpR] at h ⊢
    rw [← hr x (by simp [reads])]; exact h
  | .attr t a, _, hr, hw, h => by
    simp only [ExpR] at h ⊢
    obtain ⟨u, rfl, h⟩ := h
    exact ⟨u, rfl, expR_congr (fun x hx => hr x (by simpa [reads] using hx))
      (fun x hx => hw x (by simpa [assigns] using hx)) h⟩
  | .call f args, _, hr, hw, h => by
    simp only [ExpR] at h ⊢
    obtain ⟨f', as', rfl, h1, h2⟩ := h
    exact ⟨f', as', rfl, expR_congr (fun x hx => hr x (by simp [reads, hx])) (fun x hx => hw x (by simp [assigns, hx])) h1,
      expRs_congr (fun x hx => hr x (by simp [reads, hx])) (fun x hx => hw x (by simp [assigns, hx])) h2⟩
  | .lam ps ds b, _, hr, hw, h => by
    simp only [ExpR] at h ⊢
    obtain ⟨ds', b', rfl, h1, h2⟩ := h
    refine ⟨ds', b', rfl, expRs_congr (fun x hx => hr x (by simp [reads, hx])) (fun x hx => hw x (by simp [assigns, hx])) h1,
      expR_congr ?_ ?_ h2⟩
    · intro x hx; simp only [hide]; rw [hr x (by simp [reads, hx])]
    · intro x hx; simp only [hide]; rw [hw x (by simp [assigns, hx])]
  | .ife c t e, _, hr, hw, h => by
    simp only [ExpR] at h ⊢
    obtain ⟨c', u', e', rfl, h1, h2, h3⟩ := h
    exact ⟨c', u', e', rfl,
      expR_congr (fun x hx => hr x (by simp [reads, hx])) (fun x hx => hw x (by simp [assigns, hx])) h1,
      expR_congr (fun x hx => hr x (by simp [reads, hx])) (fun x hx => hw x (by simp [assigns, hx])) h2,
      expR_congr (fun x hx => hr x (by simp [reads, hx])) (fun x hx => hw x (by simp [assigns, hx])) h3⟩
  | .tup ts, _, hr, hw, h => by
    simp only [ExpR] at h ⊢
    obtain ⟨ts', rfl, h⟩ := h
    exact ⟨ts', rfl, expRs_congr (fun x hx => hr x (by simpa [reads] using hx))
      (fun x hx => hw x (by simpa [assigns] using hx)) h⟩
  | .lst ts, _, hr, hw, h => by
    simp only [ExpR] at h ⊢
    obtain ⟨ts', rfl, h⟩ := h
    exact ⟨ts', rfl, expRs_congr (fun x hx => hr x (by simpa [reads] using hx))
      (fun x hx => hw x (by simpa [assigns] using hx)) h⟩
  | .assign (.gen _) v, _, hr, hw, h => by
    simp only [ExpR] at h ⊢
    obtain ⟨v', rfl, h⟩ := h
    exact ⟨v', rfl, expR_congr (fun x hx => hr x (by simpa [reads] using hx))
      (fun x hx => hw x (by simp [assigns, hx])) h⟩
  | .assign (.user y) v, _, hr, hw, h => by
    simp only [ExpR] at h ⊢
    obtain ⟨v', h, h'⟩ := h
    refine ⟨v', expR_congr (fun x hx => hr x (by simpa [reads] using hx))
      (fun x hx => hw x (by simp [assigns, hx])) h, ?_⟩
    rw [← hw y (by simp [assigns])]; exact h'
  | .letx letrec xs vs b, _, hr, hw, h => by
    simp only [ExpR] at h ⊢
    obtain ⟨e, vs', b', rfl, h1, h2⟩ := h
    refine ⟨e, vs', b', rfl, ?_, ?_⟩
    · refine expRs_congr ?_ ?_ h1
      · intro x hx
        have := hr x (by simp [reads, hx])
        cases letrec <;> simp [over, this]
      · intro x hx
        have := hw x (by simp [assigns, hx])
        cases letrec <;> simp [over, this]
    · refine expR_congr ?_ ?_ h2
      · intro x hx; simp only [over]; rw [hr x (by simp [reads, hx])]
      · intro x hx; simp only [over]; rw [hw x (by simp [assigns, hx])]
  | .doe tags ts, _, hr, hw, h => by
    simp only [ExpR] at h ⊢
    obtain ⟨e, ls, rfl, h⟩ := h
    exact ⟨e, ls, rfl, expItems_congr (fun x hx => hr x (by simpa [reads] using hx))
      (fun x hx => hw x (by simpa [assigns] using hx)) h⟩
  | .bad, _, _, _, h => by simp [ExpR] at h
theorem expRs_congr {r r' w w' : Sc} : ∀ {ts ts' : List (Ex β)}, (∀ x, readsAny (.user x) ts = true → r x = r' x) →
    (∀ x, assignsAny (.user x) ts = true → w x = w' x) → ExpRs r w ts ts' → ExpRs r' w' ts ts'
  | [], _, _, _, h => by simpa [ExpRs] using h
  | t :: ts, _, hr, hw, h => by
    simp only [ExpRs] at h ⊢
    obtain ⟨t', ts', rfl, h1, h2⟩ := h
    exact ⟨t', ts', rfl,
      expR_congr (fun x hx => hr x (by simp [readsAny, hx])) (fun x hx => hw x (by simp [assignsAny, hx])) h1,
      expRs_congr (fun x hx => hr x (by simp [readsAny, hx])) (fun x hx => hw x (by simp [assignsAny, hx])) h2⟩
theorem expItems_congr {r r' w w' : Sc} {e : Nat} : ∀ {names : List String} {tags : List Tag} {ts ls : List (Ex β)},
    (∀ x, readsAny (.user x) ts = true → r x = r' x) → (∀ x, assignsAny (.user x) ts = true → w x = w' x) →
    ExpItems r w e names tags ts ls → ExpItems r' w' e names tags ts ls
  | names, .loc xs :: tags, t :: ts, _, hr, hw, h => by
    simp only [ExpItems] at h ⊢
    obtain ⟨t', ls, rfl, h1, h2⟩ := h
    refine ⟨t', ls, rfl, expR_congr ?_ ?_ h1,
      expItems_congr (fun x hx => hr x (by simp [readsAny, hx])) (fun x hx => hw x (by simp [assignsAny, hx])) h2⟩
    · intro x hx; simp only [over]; rw [hr x (by simp [readsAny, hx])]
    · intro x hx; simp only [over]; rw [hw x (by simp [assignsAny, hx])]
  | names, .del x :: tags, _ :: ts, _, hr, hw, h => by
    simp only [ExpItems] at h ⊢
    obtain ⟨ls, rfl, h2⟩ := h
    exact ⟨ls, rfl,
      expItems_congr (fun x hx => hr x (by simp [readsAny, hx])) (fun x hx => hw x (by simp [assignsAny, hx])) h2⟩
  | _, [], _, _, _, _, h => by simpa [ExpItems] using h
  | _, .loc _ :: _, [], _, _, _, h => by simpa [ExpItems] using h
  | _, .del _ :: _, [], _, _, _, h => by simpa [ExpItems] using h
end

end Unpy.LetDo
