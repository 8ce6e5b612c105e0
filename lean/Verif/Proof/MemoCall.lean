import Verif.Spec.MemoCall
import Verif.Props.Arity
/-! # Lemmas on calls of memoized functions -/
namespace Unpy.MemoCall
open Unpy Unpy.Arity Unpy.Spec.Arity Unpy.Fold Unpy.Spec.MemoCall
variable {V R ε : Type}

theorem eqAll_iff {α : Type} (eq : α → α → Bool) : ∀ as bs : List α, eqAll eq as bs = true ↔ as.length = bs.length ∧ ∀ (i : Nat) a b, as[i]? = some a → bs[i]? = some b → eq a b = true
  | [], [] => by simp [eqAll]
  | [], b :: bs => by simp [eqAll]
  | a :: as, [] => by simp [eqAll]
  | a :: as, b :: bs => by
    simp only [eqAll, Bool.and_eq_true, eqAll_iff eq as bs, List.length_cons, Nat.add_right_cancel_iff]
    constructor
    · rintro ⟨h1, h2, h3⟩
      refine ⟨h2, ?_⟩
      intro i x y hx hy
      cases i with
      | zero => simp at hx hy; subst hx hy; exact h1
      | succ i => simp at hx hy; exact h3 i x y hx hy
    · rintro ⟨h1, h2⟩
      exact ⟨h2 0 a b rfl rfl, h1, fun i x y hx hy => h2 (i + 1) x y (by simpa using hx) (by simpa using hy)⟩

theorem eqB_iff (w : World V) (a b : BVal V) : eqB w a b = true ↔ Alike w (some a) (some b) := by
  cases a <;> cases b <;> simp only [eqB, Bool.false_eq_true, false_iff]
  case val.val a b => exact ⟨.val, fun h => by cases h; assumption⟩
  case tuple.tuple as bs =>
    rw [eqAll_iff]
    exact ⟨fun h => .tuple h.1 h.2, fun h => by cases h; exact ⟨by assumption, by assumption⟩⟩
  case dict.dict as bs =>
    rw [eqAll_iff]
    constructor
    · rintro ⟨h1, h2⟩
      exact .dict h1 fun i a b ha hb => by simpa using h2 i a b ha hb
    · intro h
      cases h with
      | dict h1 h2 => exact ⟨h1, fun i a b ha hb => by simpa using h2 i a b ha hb⟩
  all_goals (intro h; cases h)

theorem seen_some {sig : Sig V} {args : List V} {kwargs : PyDict String V} (h : Accepts sig args kwargs) {p : Param V} (hp : p ∈ sig) : ∃ b, seen sig args kwargs p = some b := by
  unfold seen
  split
  · exact ⟨_, rfl⟩
  · split
    · exact ⟨_, rfl⟩
    · next h1 h2 =>
      have hm := h.2.1
      rw [missing, List.filter_eq_nil_iff] at hm
      have := hm p hp
      have ho : Ordinary p := by
        unfold Ordinary
        cases hk : p.kind <;> simp_all
      simp only [ho, true_and, decide_eq_true_eq, not_and] at this
      cases hd : p.default with
      | some d => cases hg : given sig args kwargs p <;> exact ⟨_, rfl⟩
      | none =>
        cases hg : given sig args kwargs p with
        | none => exact absurd hg (this hd)
        | some v => exact ⟨_, rfl⟩

/-- The keys of two accepted calls are the same to the dict exactly if they bind alike. -/
theorem eqKey_iff (w : World V) (sig ps : Sig V) (c d : List V × PyDict String V) (hc : ∀ p ∈ ps, ∃ b, seen sig c.1 c.2 p = some b) (hd : ∀ p ∈ ps, ∃ b, seen sig d.1 d.2 p = some b) :
    eqKey w (ps.filterMap (fun p => (seen sig c.1 c.2 p).map (p.name, ·))) (ps.filterMap (fun p => (seen sig d.1 d.2 p).map (p.name, ·))) = true ↔
      ∀ p ∈ ps, Alike w (seen sig c.1 c.2 p) (seen sig d.1 d.2 p) := by
  induction ps with
  | nil => simp [eqKey, eqAll]
  | cons p ps ih =>
    obtain ⟨a, ha⟩ := hc p (by simp)
    obtain ⟨b, hb⟩ := hd p (by simp)
    have ih := ih (fun q hq => hc q (by simp [hq])) (fun q hq => hd q (by simp [hq]))
    unfold eqKey at ih ⊢
    simp only [List.filterMap_cons, ha, hb, Option.map_some, eqAll, beq_self_eq_true, Bool.true_and, Bool.and_eq_true, eqB_iff, ih, List.mem_cons, forall_eq_or_imp]

theorem hashableKey_iff (w : World V) (sig : Sig V) (c : List V × PyDict String V) :
    hashableKey w (sig.filterMap (fun p => (seen sig c.1 c.2 p).map (p.name, ·))) = true ↔ CanHash w sig c := by
  unfold hashableKey CanHash
  rw [List.all_eq_true]
  constructor
  · intro h p hp
    cases hs : seen sig c.1 c.2 p with
    | none => trivial
    | some b =>
      have := h (p.name, b) (List.mem_filterMap.mpr ⟨p, hp, by simp [hs]⟩)
      cases b <;> simpa [hashableB] using this
  · intro h x hx
    obtain ⟨p, hp, he⟩ := List.mem_filterMap.mp hx
    have := h p hp
    cases hs : seen sig c.1 c.2 p with
    | none => rw [hs] at he; cases he
    | some b =>
      rw [hs] at he this
      cases he
      cases b <;> simpa [hashableB] using this

theorem lookup_some {w : World V} {k : List (String × BVal V)} {memo : List (List (String × BVal V) × Except (Err ε) R)} {out : Except (Err ε) R} (h : lookup w k memo = some out) :
    ∃ e ∈ memo, eqKey w e.1 k = true ∧ e.2 = out := by
  induction memo with
  | nil => cases h
  | cons e es ih =>
    unfold lookup at h
    split at h
    · next hk => cases h; exact ⟨e, by simp, hk, rfl⟩
    · obtain ⟨e', h1, h2⟩ := ih h; exact ⟨e', by simp [h1], h2⟩

theorem lookup_none {w : World V} {k : List (String × BVal V)} {memo : List (List (String × BVal V) × Except (Err ε) R)} (h : lookup w k memo = none) : ∀ e ∈ memo, eqKey w e.1 k = false := by
  induction memo with
  | nil => simp
  | cons e es ih =>
    unfold lookup at h
    split at h
    · cases h
    · next hk =>
      intro e' he'
      rcases List.mem_cons.mp he' with rfl | he'
      · simpa using hk
      · exact ih h e' he'

end Unpy.MemoCall
