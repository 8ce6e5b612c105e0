import Verif.Spec.Dispatch
import Verif.Props.Arity
import Verif.Proof.PyDict
/-! Helper lemmas for multiple dispatch. -/
namespace Unpy.Proof.Dispatch
open Unpy Unpy.Arity Unpy.Spec.Arity Unpy.Dispatch Unpy.Spec.Dispatch Unpy.Arity
variable {C V T : Type}

theorem mismatch_false {isof : T → BVal V → Res Bool} {hints : PyDict String T} :
    ∀ {l : List (String × BVal V)}, mismatch isof hints l = .ok false ↔
      ∀ q ∈ l, ∃ t, PyDict.get? hints q.1 = some t ∧ isof t q.2 = .ok true
  | [] => by simp [mismatch]
  | (p, v) :: rest => by
    have ih := mismatch_false (isof := isof) (hints := hints) (l := rest)
    unfold mismatch
    cases hg : PyDict.get? hints p with
    | none => simp [hg]
    | some t =>
      simp only
      cases hi : isof t v with
      | error e => simp [hg, hi]
      | ok b =>
        simp only
        cases b
        · cases hm : mismatch isof hints rest <;> simp [hg, hi]
        · cases hm : mismatch isof hints rest with
          | error e =>
            rw [hm] at ih
            simp only [reduceCtorEq, false_iff] at ih
            simp only [reduceCtorEq, false_iff]
            intro h
            exact ih (fun q hq => h q (by simp [hq]))
          | ok m =>
            rw [hm] at ih
            simp only [Bool.not_true, Bool.false_or, Except.ok.injEq] at ih ⊢
            rw [ih]
            simp [hg, hi]

theorem mismatch_error {isof : T → BVal V → Res Bool} {hints : PyDict String T}
    (hq : ∀ t b e, isof t b = .error e → e = .TypeError) :
    ∀ {l : List (String × BVal V)}, (∀ q ∈ l, PyDict.has hints q.1 = true) → ∀ {e},
      mismatch isof hints l = .error e → e = .TypeError
  | [], _, e, h => by simp [mismatch] at h
  | (p, v) :: rest, hh, e, h => by
    unfold mismatch at h
    have hp := hh (p, v) (by simp)
    simp only [PyDict.has] at hp
    cases hg : PyDict.get? hints p with
    | none => rw [hg] at hp; simp at hp
    | some t =>
      rw [hg] at h
      simp only at h
      cases hi : isof t v with
      | error e' => rw [hi] at h; cases h; exact hq _ _ _ hi
      | ok b =>
        rw [hi] at h
        simp only at h
        cases hm : mismatch isof hints rest with
        | error e' =>
          rw [hm] at h; cases h
          exact mismatch_error hq (fun q hq' => hh q (by simp [hq'])) hm
        | ok m => rw [hm] at h; cases h

theorem key_ok {sig : Sig V} (h : WF sig) {args : List V} {kwargs : PyDict String V} {k}
    (hk : key sig args kwargs = .ok k) :
    Binds sig args kwargs ∧ k = sig.filterMap (fun p => (seen sig args kwargs p).map (p.name, ·)) := by
  by_cases ha : Accepts sig args kwargs
  · by_cases hp : PosOnlyClash sig args kwargs
    · simp [key, bindStrict, bind_error h args kwargs (.inr hp)] at hk
    · refine ⟨⟨ha, hp⟩, ?_⟩
      rw [Props.key_eq h args kwargs hp ha] at hk
      cases hk; rfl
  · rw [Props.C04_rejected h args kwargs ha] at hk; cases hk

theorem key_error {sig : Sig V} (h : WF sig) {args : List V} {kwargs : PyDict String V} {e}
    (hk : key sig args kwargs = .error e) : e = .TypeError := by
  by_cases ha : Accepts sig args kwargs
  · by_cases hp : PosOnlyClash sig args kwargs
    · simp [key, bindStrict, bind_error h args kwargs (.inr hp)] at hk
      exact hk.symm
    · rw [Props.key_eq h args kwargs hp ha] at hk
      cases hk
  · rw [Props.C04_rejected h args kwargs ha] at hk; cases hk; rfl

theorem test_iff {isof : T → BVal V → Res Bool} {args : List V} {kwargs : PyDict String V} {m : MM V T}
    (h : WF m.sig) : test isof args kwargs m = .ok true ↔ Matches isof args kwargs m := by
  unfold test Matches
  cases hk : key m.sig args kwargs with
  | error e =>
    simp only [reduceCtorEq, false_iff]
    rintro ⟨hb, _⟩
    rw [Props.key_eq h args kwargs hb.2 hb.1] at hk
    cases hk
  | ok bound =>
    obtain ⟨hb, rfl⟩ := key_ok h hk
    simp only [hb, true_and]
    have := mismatch_false (isof := isof) (hints := m.hints)
      (l := m.sig.filterMap (fun p => (seen m.sig args kwargs p).map (p.name, ·)))
    have hall : (∀ q ∈ m.sig.filterMap (fun p => (seen m.sig args kwargs p).map (p.name, ·)),
        ∃ t, PyDict.get? m.hints q.1 = some t ∧ isof t q.2 = .ok true) ↔
        ∀ p ∈ m.sig, ∀ b, seen m.sig args kwargs p = some b →
          ∃ t, PyDict.get? m.hints p.name = some t ∧ isof t b = .ok true := by
      constructor
      · intro hh p hp b hs
        exact hh (p.name, b) (List.mem_filterMap.mpr ⟨p, hp, by simp [hs]⟩)
      · intro hh q hq
        obtain ⟨p, hp, he⟩ := List.mem_filterMap.mp hq
        cases hs : seen m.sig args kwargs p with
        | none => simp [hs] at he
        | some b =>
          simp only [hs, Option.map_some, Option.some.injEq] at he
          subst he
          exact hh p hp b hs
    rw [← hall, ← this]
    generalize mismatch isof m.hints _ = r
    rcases r with e | (_ | _) <;> simp

theorem test_error {isof : T → BVal V → Res Bool} {args : List V} {kwargs : PyDict String V} {m : MM V T}
    (hq : ∀ t b e, isof t b = .error e → e = .TypeError) (h : Good m) {e}
    (he : test isof args kwargs m = .error e) : e = .TypeError := by
  unfold test at he
  cases hk : key m.sig args kwargs with
  | error e' => rw [hk] at he; cases he; exact key_error h.1 hk
  | ok bound =>
    rw [hk] at he
    simp only at he
    cases hm : mismatch isof m.hints bound with
    | ok b => rw [hm] at he; cases he
    | error e' =>
      rw [hm] at he; cases he
      refine mismatch_error hq (fun q hq' => ?_) hm
      obtain ⟨_, rfl⟩ := key_ok h.1 hk
      obtain ⟨p, hp, hep⟩ := List.mem_filterMap.mp hq'
      cases hs : seen m.sig args kwargs p with
      | none => simp [hs] at hep
      | some b =>
        simp only [hs, Option.map_some, Option.some.injEq] at hep
        subst hep
        exact h.2 p hp

theorem scan_append (isof : T → BVal V → Res Bool) (args : List V) (kwargs : PyDict String V) (l l' : List (MM V T)) :
    scan isof args kwargs (l ++ l') = match scan isof args kwargs l with
      | .ok none => scan isof args kwargs l'
      | r => r := by
  induction l with
  | nil => simp [scan]
  | cons m l ih =>
    simp only [List.cons_append, scan]
    cases test isof args kwargs m with
    | error e =>
      simp only
      split
      · exact ih
      · rfl
    | ok b => cases b <;> simp [ih]

theorem scan_some {isof : T → BVal V → Res Bool} {args : List V} {kwargs : PyDict String V} :
    ∀ {l : List (MM V T)}, (∀ m ∈ l, WF m.sig) → ∀ {m}, scan isof args kwargs l = .ok (some m) →
      First (Matches isof args kwargs) l m
  | [], _, m, h => by simp [scan] at h
  | x :: xs, hw, m, h => by
    have hx := hw x (by simp)
    unfold scan at h
    have hrec : test isof args kwargs x ≠ .ok true → scan isof args kwargs xs = .ok (some m) →
        First (Matches isof args kwargs) (x :: xs) m := by
      intro ht hs
      obtain ⟨pre, post, rfl, hm, hpre⟩ := scan_some (fun y hy => hw y (by simp [hy])) hs
      refine ⟨x :: pre, post, rfl, hm, ?_⟩
      intro y hy
      rcases List.mem_cons.mp hy with rfl | hy
      · exact fun hm => ht ((test_iff hx).mpr hm)
      · exact hpre y hy
    rcases ht : test isof args kwargs x with e | (_ | _)
    · rw [ht] at h hrec
      simp only at h
      split at h
      · exact hrec (by simp) h
      · cases h
    · rw [ht] at h hrec
      exact hrec (by simp) h
    · rw [ht] at h
      cases h
      exact ⟨[], xs, rfl, (test_iff hx).mp ht, by simp⟩

theorem scan_none {isof : T → BVal V → Res Bool} {args : List V} {kwargs : PyDict String V} :
    ∀ {l : List (MM V T)}, (∀ m ∈ l, WF m.sig) → scan isof args kwargs l = .ok none →
      ∀ m ∈ l, ¬ Matches isof args kwargs m
  | [], _, _ => by simp
  | x :: xs, hw, h => by
    have hx := hw x (by simp)
    unfold scan at h
    have hrec : test isof args kwargs x ≠ .ok true → scan isof args kwargs xs = .ok none →
        ∀ m ∈ x :: xs, ¬ Matches isof args kwargs m := by
      intro ht hs y hy
      rcases List.mem_cons.mp hy with rfl | hy
      · exact fun hm => ht ((test_iff hx).mpr hm)
      · exact scan_none (fun y hy => hw y (by simp [hy])) hs y hy
    rcases ht : test isof args kwargs x with e | (_ | _)
    · rw [ht] at h hrec
      simp only at h
      split at h
      · exact hrec (by simp) h
      · cases h
    · rw [ht] at h hrec
      exact hrec (by simp) h
    · rw [ht] at h
      cases h

theorem scan_ok {isof : T → BVal V → Res Bool} {args : List V} {kwargs : PyDict String V}
    (hq : ∀ t b e, isof t b = .error e → e = .TypeError) :
    ∀ {l : List (MM V T)}, (∀ m ∈ l, Good m) → ∃ r, scan isof args kwargs l = .ok r
  | [], _ => ⟨_, rfl⟩
  | x :: xs, hw => by
    have ih := scan_ok (isof := isof) (args := args) (kwargs := kwargs) hq (l := xs)
      (fun y hy => hw y (by simp [hy]))
    unfold scan
    rcases ht : test isof args kwargs x with e | (_ | _)
    · simp only [test_error hq (hw x (by simp)) ht, if_true]
      exact ih
    · exact ih
    · exact ⟨_, rfl⟩

theorem First.reverse {α : Type} {P : α → Prop} {l : List α} {m : α} (h : First P l.reverse m) : Last P l m := by
  obtain ⟨a, b, e, hm, ha⟩ := h
  refine ⟨b.reverse, a.reverse, ?_, hm, by simpa using ha⟩
  have := congrArg List.reverse e
  simpa using this

theorem ownMethods_eq (w : World C V) (st : Reg V T) (c : C) (name : String) :
    ownMethods w st c name = entries st (w.own c name) := by
  unfold ownMethods entries
  cases w.own c name with
  | none => rfl
  | some a =>
    cases a with
    | plain => rfl
    | generic n => simp only; cases PyDict.get? st n <;> rfl

/-- Searching what is found by attribute lookup in each class of the rest of an MRO is searching what each
class defines itself. -/
theorem scan_suffix (isof : T → BVal V → Res Bool) (args : List V) (kwargs : PyDict String V)
    (w : World C V) (st : Reg V T) (name : String) : ∀ (cs : List C),
    (∀ before d after, cs = before ++ d :: after →
      getattr w d name = (d :: after).findSome? (fun e => w.own e name)) →
    scan isof args kwargs (cs.flatMap (fun c => entries st (getattr w c name))) =
      scan isof args kwargs (cs.flatMap (fun c => entries st (w.own c name))) ∧
    scan isof args kwargs (cs.flatMap (fun c => entries st (w.own c name))) =
      (match scan isof args kwargs (entries st (cs.findSome? (fun e => w.own e name))) with
      | .ok none => scan isof args kwargs (cs.flatMap (fun c => entries st (w.own c name)))
      | r => r)
  | [], _ => by simp [entries, scan]
  | c :: cs, h => by
    have ih := scan_suffix isof args kwargs w st name cs
      (fun b d a e => h (c :: b) d a (by rw [e]; rfl))
    have hc := h [] c cs rfl
    simp only [List.flatMap_cons, scan_append, ih.1, hc]
    simp only [List.findSome?_cons]
    cases ho : w.own c name with
    | some a =>
      simp only
      refine ⟨trivial, ?_⟩
      generalize scan isof args kwargs (entries st (some a)) = r
      rcases r with e | (_ | _) <;> rfl
    | none =>
      simp only [show entries st none = [] from rfl, scan]
      exact ⟨ih.2.symm, ih.2⟩

end Unpy.Proof.Dispatch
