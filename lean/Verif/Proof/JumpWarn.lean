import Verif.Spec.JumpWarn
/-!
# Helper lemmas for the warnings about tail calls
-/
namespace Unpy.JumpWarn
open Spec

/-! ## Claimed is carried out -/

structure Inv (b : Option Nat) (s : St) : Prop where
  iff : ∀ j x, s.jumps[j]? = some x → (x.claimed = true ↔ j ∈ s.carried ∨ b = some j)
  lt : ∀ j ∈ s.carried, j < s.jumps.length
  blt : ∀ j, b = some j → j < s.jumps.length

theorem Inv.carry {b s} (h : Inv b s) : Inv none (carry b s) := by
  cases b with
  | none => exact h
  | some j =>
    refine ⟨fun i x hx => ?_, fun i hi => ?_, nofun⟩
    · rw [h.iff i x hx]
      simp [JumpWarn.carry, eq_comm]
    · simp only [JumpWarn.carry, List.mem_append, List.mem_singleton] at hi
      rcases hi with hi | rfl
      · exact h.lt i hi
      · exact h.blt i rfl

theorem Inv.add {s : St} (h : Inv none s) (t a : V) : Inv none { s with jumps := s.jumps ++ [⟨t, a, false⟩] } := by
  refine ⟨fun j x hx => ?_, fun j hj => ?_, nofun⟩
  · rw [List.getElem?_append] at hx
    split at hx
    · exact h.iff j x hx
    · rename_i hlt
      have : x = ⟨t, a, false⟩ := by
        rcases Nat.lt_or_ge (j - s.jumps.length) 1 with h1 | h1
        · have : j - s.jumps.length = 0 := by omega
          simp [this] at hx
          exact hx.symm
        · simp [List.getElem?_eq_none_iff.mpr (show [(⟨t, a, false⟩ : J)].length ≤ j - s.jumps.length by simpa using h1)] at hx
      subst this
      simp only [Bool.false_eq_true, false_iff]
      rintro (hj | hj)
      · exact hlt (h.lt j hj)
      · cases hj
  · have := h.lt j hj
    simp; omega

theorem Inv.claim {s : St} (h : Inv none s) {j : Nat} {x : J} (hx : s.jumps[j]? = some x) : Inv (some j) (claim j x s) := by
  have hl : j < s.jumps.length := (List.getElem?_eq_some_iff.mp hx).1
  refine ⟨fun i y hy => ?_, fun i hi => by simpa [JumpWarn.claim] using h.lt i hi, fun i hi => by cases hi; simpa [JumpWarn.claim] using hl⟩
  simp only [JumpWarn.claim, List.getElem?_set] at hy
  split at hy
  · rename_i he
    subst he
    simp only [hl, if_true, Option.some.injEq] at hy
    subst hy
    simp
  · rename_i hne
    rw [h.iff i y hy]
    simp [JumpWarn.claim, hne]

theorem inv_all (W : World) (n : Nat) :
    (∀ p s r, Inv none s → run W n p s = some r → Inv none r.2) ∧
    (∀ f a s r, Inv none s → call W n f a s = some r → Inv none r.2) ∧
    (∀ f a b s r, Inv b s → loop W n f a b s = some r → Inv none r.2) := by
  induction n with
  | zero => exact ⟨nofun, nofun, nofun⟩
  | succ n ih =>
    obtain ⟨ih1, ih2, ih3⟩ := ih
    refine ⟨fun p s r hs h => ?_, fun f a s r hs h => ?_, fun f a b s r hs h => ?_⟩
    · cases p with
      | ret v => simp only [run, Option.some.injEq] at h; subst h; exact hs
      | raise e => simp only [run, Option.some.injEq] at h; subst h; exact hs
      | jump t a k => rw [run] at h; exact ih1 _ _ _ (hs.add _ _) h
      | call f a k =>
        rw [run] at h
        rcases hc : call W n f a s with _ | ⟨r', s'⟩
        · simp [hc] at h
        · simp only [hc] at h
          exact ih1 _ _ _ (ih2 f a s _ hs hc) h
    · cases f with
      | fn i =>
        rw [call] at h
        split at h
        · exact ih3 _ _ _ _ _ hs h
        · exact ih1 _ _ _ hs h
      | entry i => rw [call] at h; exact ih1 _ _ _ hs h
      | data m => simp only [call, Option.some.injEq] at h; subst h; exact hs
      | jump j => simp only [call, Option.some.injEq] at h; subst h; exact hs
    · rw [loop] at h
      rcases hc : call W n f a (carry b s) with _ | ⟨e | v, s'⟩
      · simp [hc] at h
      · simp only [hc, Option.some.injEq] at h; subst h; exact ih2 _ _ _ _ hs.carry hc
      · have hi := ih2 _ _ _ _ hs.carry hc
        simp only [hc] at h
        cases v with
        | jump j =>
          simp only at h
          rcases hx : s'.jumps[j]? with _ | x
          · simp [hx] at h
          · simp only [hx] at h
            split at h
            · exact ih3 _ _ _ _ _ (hi.claim hx) h
            · simp only [Option.some.injEq] at h; subst h; exact hi
        | data m => simp only [Option.some.injEq] at h; subst h; exact hi
        | fn m => simp only [Option.some.injEq] at h; subst h; exact hi
        | entry m => simp only [Option.some.injEq] at h; subst h; exact hi

theorem mem_warned {s : St} {j : Nat} : j ∈ warned s ↔ ∃ x, s.jumps[j]? = some x ∧ x.claimed = false := by
  simp only [warned, List.mem_filter, List.mem_range]
  constructor
  · rintro ⟨hj, h⟩
    rcases hx : s.jumps[j]? with _ | x
    · simp [hx] at h
    · exact ⟨x, rfl, by simpa [hx] using h⟩
  · rintro ⟨x, hx, h⟩
    exact ⟨(List.getElem?_eq_some_iff.mp hx).1, by simp [hx, h]⟩

/-! ## Programs that follow the rules -/

structure Good (W : World) (x : J) : Prop where
  arg : NotJump x.arg
  strip : ∀ i, x.target = .fn i → W.trampolined i = false

def Settled (x : J) : Prop := x.claimed = true ∨ callable x.target = false

def AllSettled (W : World) (s : St) : Prop := ∀ (j : Nat) (x : J), s.jumps[j]? = some x → Good W x ∧ Settled x

/-- What an ordinary call leads to. -/
def Calm (W : World) (r : Except Err V × St) : Prop := AllSettled W r.2 ∧ ∀ v, r.1 = .ok v → NotJump v

/-- What a function leads to that is called by a trampoline. -/
def Jumps (W : World) (r : Except Err V × St) : Prop :=
  Calm W r ∨ ∃ j x, r.1 = .ok (.jump j) ∧ r.2.jumps[j]? = some x ∧ Good W x ∧ ∀ i y, i ≠ j → r.2.jumps[i]? = some y → Good W y ∧ Settled y

theorem strip_good (W : World) (t : V) (i : Nat) (h : strip W t = .fn i) : W.trampolined i = false := by
  cases t with
  | fn k =>
    simp only [strip] at h
    split at h
    · cases h
    · cases h; simp_all
  | _ => simp [strip] at h

variable {W : World} {tails : Nat → Prop}

theorem rules_all (hR : Rules W tails) (n : Nat) :
    (∀ p s r, Ordinary W tails p → AllSettled W s → run W n p s = some r → Calm W r) ∧
    (∀ p s r, Tail W tails p → AllSettled W s → run W n p s = some r → Jumps W r) ∧
    (∀ f a s r, MayCall W tails f → NotJump a → AllSettled W s → call W n f a s = some r → Calm W r) ∧
    (∀ f a s r, (∀ i, f = .fn i → W.trampolined i = false) → callable f = true → NotJump a → AllSettled W s →
      call W n f a s = some r → Jumps W r) ∧
    (∀ f a b s r, (∀ i, f = .fn i → W.trampolined i = false) → callable f = true → NotJump a → AllSettled W s →
      loop W n f a b s = some r → Calm W r) := by
  induction n with
  | zero => exact ⟨nofun, nofun, nofun, nofun, nofun⟩
  | succ n ih =>
    obtain ⟨ih1, ih2, ih3, ih4, ih5⟩ := ih
    refine ⟨fun p s r hp hs h => ?_, fun p s r hp hs h => ?_, fun f a s r hf ha hs h => ?_, fun f a s r hf hc ha hs h => ?_,
      fun f a b s r hf hc ha hs h => ?_⟩
    · cases p with
      | ret v => simp only [run, Option.some.injEq] at h; subst h; exact ⟨hs, fun v' hv => by cases hv; exact hp⟩
      | raise e => simp only [run, Option.some.injEq] at h; subst h; exact ⟨hs, nofun⟩
      | jump t a k => exact hp.elim
      | call f a k =>
        rw [run] at h
        rcases hc : call W n f a s with _ | ⟨r', s'⟩
        · simp [hc] at h
        · simp only [hc] at h
          have := ih3 f a s _ hp.1 hp.2.1 hs hc
          exact ih1 _ _ _ (hp.2.2 r' this.2) this.1 h
    · cases p with
      | ret v => simp only [run, Option.some.injEq] at h; subst h; exact .inl ⟨hs, fun v' hv => by cases hv; exact hp⟩
      | raise e => simp only [run, Option.some.injEq] at h; subst h; exact .inl ⟨hs, nofun⟩
      | jump t a k =>
        rw [run, hp.2.2] at h
        cases n with
        | zero => simp [run] at h
        | succ n =>
          simp only [run, Option.some.injEq] at h
          subst h
          refine .inr ⟨s.jumps.length, ⟨strip W t, a, false⟩, rfl, by simp, ⟨hp.2.1, strip_good W t⟩, fun i y hi hy => ?_⟩
          rw [List.getElem?_append] at hy
          split at hy
          · exact hs i y hy
          · rename_i hlt
            have : 1 ≤ i - s.jumps.length := by omega
            simp [List.getElem?_eq_none_iff.mpr (show [(⟨strip W t, a, false⟩ : J)].length ≤ i - s.jumps.length by simpa using this)] at hy
      | call f a k =>
        rw [run] at h
        rcases hc : call W n f a s with _ | ⟨r', s'⟩
        · simp [hc] at h
        · simp only [hc] at h
          have := ih3 f a s _ hp.1 hp.2.1 hs hc
          exact ih2 _ _ _ (hp.2.2 r' this.2) this.1 h
    · cases f with
      | fn i =>
        rw [call] at h
        split at h
        · exact ih5 (.entry i) a none s r (fun _ he => by cases he) rfl ha hs h
        · rename_i ht
          rcases hf with hf | hf
          · exact absurd hf ht
          · exact ih1 _ _ _ (hR.ordinary i a ha hf) hs h
      | entry i => rw [call] at h; exact ih1 _ _ _ (hR.ordinary i a ha hf) hs h
      | data m => simp only [call, Option.some.injEq] at h; subst h; exact ⟨hs, nofun⟩
      | jump j => exact hf.elim
    · cases f with
      | fn i =>
        rw [call, if_neg (by simp [hf i rfl])] at h
        exact ih2 _ _ _ (hR.tail i a ha) hs h
      | entry i => rw [call] at h; exact ih2 _ _ _ (hR.tail i a ha) hs h
      | data m => simp [callable] at hc
      | jump j => simp [callable] at hc
    · have hs' : AllSettled W (carry b s) := by cases b <;> exact hs
      rw [loop] at h
      rcases he : call W n f a (carry b s) with _ | ⟨r', s'⟩
      · simp [he] at h
      · rcases ih4 f a _ _ hf hc ha hs' he with hq | ⟨j, x, hr, hx, hg, ho⟩
        · simp only [he] at h
          cases r' with
          | error e => simp only [Option.some.injEq] at h; subst h; exact hq
          | ok v =>
            cases v with
            | jump j => exact absurd rfl (hq.2 _ rfl j)
            | data m => simp only [Option.some.injEq] at h; subst h; exact hq
            | fn m => simp only [Option.some.injEq] at h; subst h; exact hq
            | entry m => simp only [Option.some.injEq] at h; subst h; exact hq
        · simp only at hr hx ho
          subst hr
          simp only [he, hx] at h
          split at h
          · rename_i hcall
            refine ih5 _ _ _ _ _ hg.strip hcall hg.arg (fun i y hy => ?_) h
            simp only [claim, List.getElem?_set] at hy
            split at hy
            · rename_i hij
              simp only [(List.getElem?_eq_some_iff.mp hx).1, if_true, Option.some.injEq] at hy
              subst hy
              exact ⟨⟨hg.arg, hg.strip⟩, .inl rfl⟩
            · rename_i hij
              exact ho i y (Ne.symm hij) hy
          · rename_i hcall
            simp only [Option.some.injEq] at h
            subst h
            refine ⟨fun i y hy => ?_, nofun⟩
            by_cases hij : i = j
            · subst hij
              rw [hx, Option.some.injEq] at hy
              subst hy
              exact ⟨hg, .inr (by simpa using hcall)⟩
            · exact ho i y hij hy

end Unpy.JumpWarn
