import Verif.Proof.Arity
/-! # Lemmas about binding some of the arguments -/
namespace Unpy.Arity
open Unpy.Spec.Arity
variable {V : Type}

theorem phase2_part (ps : List (Param V)) (K : PyDict String V) (A : PyDict String (BVal V)) (U U' : List (Param V)) (kp : Option (Param V)) :
    phase2 true ps K A U kp = (phase2 false ps K A U' kp).map (fun s => { s with unbound := U }) := by
  induction ps generalizing K A U' kp with
  | nil => rfl
  | cons p ps ih =>
    simp only [phase2]
    split
    · exact ih _ _ _ _
    · split
      · exact ih _ _ _ _
      · cases PyDict.get? K p.name with
        | none =>
          simp only [Bool.not_true, Bool.false_and, Bool.false_eq_true, if_false]
          split <;> exact ih _ _ _ _
        | some v =>
          simp only
          split
          · rfl
          · exact ih _ _ _ _

/-- the rest of `bind` after the first loop -/
def afterPhase1 (part : Bool) (kwargs : PyDict String V) (s1 : Phase1 V) : Res (Analysis V) :=
  match phase2 part s1.params kwargs s1.arguments s1.unbound none with
  | .error e => .error e
  | .ok s2 =>
    if s2.kwargs.isEmpty then .ok ⟨s2.arguments, s2.unbound, s1.extraArgs, []⟩
    else match s2.kwargsParam with
      | some kp => .ok ⟨PyDict.set s2.arguments kp.name (.dict s2.kwargs), s2.unbound, s1.extraArgs, []⟩
      | none => .ok ⟨s2.arguments, s2.unbound, s1.extraArgs, s2.kwargs⟩

theorem bind_eq (part : Bool) (sig : Sig V) (args : List V) (kwargs : PyDict String V) :
    bind part sig args kwargs = (phase1 part kwargs args sig [] [] []).bind (afterPhase1 part kwargs) := by
  simp only [bind, afterPhase1, Except.bind]
  cases phase1 part kwargs args sig [] [] [] <;> rfl

/-- forgetting what is missing -/
def forget (r : Analysis V) : Analysis V := { r with unbound := [] }

theorem after_part (kwargs : PyDict String V) (ps : List (Param V)) (A : PyDict String (BVal V)) (U : List (Param V)) (E : List V) :
    afterPhase1 true kwargs ⟨ps, A, [], E⟩ = (afterPhase1 false kwargs ⟨ps, A, U, E⟩).map forget := by
  simp only [afterPhase1]
  rw [phase2_part ps kwargs A [] U none]
  cases phase2 false ps kwargs A U none with
  | error e => rfl
  | ok s2 =>
    simp only [Except.map]
    split
    · rfl
    · cases s2.kwargsParam <;> rfl

theorem phase1_part (kwargs : PyDict String V) (ps : List (Param V)) (hn : (ps.map (·.name)).Nodup) (args : List V) (A : PyDict String (BVal V)) (U : List (Param V)) (E : List V) :
    (phase1 true kwargs args ps A [] E).bind (afterPhase1 true kwargs) =
      ((phase1 false kwargs args ps A U E).bind (afterPhase1 false kwargs)).map forget := by
  induction ps generalizing args A U E with
  | nil =>
    simp only [phase1, Except.bind]
    exact after_part _ _ _ _ _
  | cons p ps ih =>
    have hn' : (ps.map (·.name)).Nodup := by simp only [List.map_cons, List.nodup_cons] at hn; exact hn.2
    cases args with
    | nil =>
      have hrest : phase1 true kwargs [] (p :: ps) A [] E = .ok ⟨p :: ps, A, [], E⟩ →
          (phase1 true kwargs [] (p :: ps) A [] E).bind (afterPhase1 true kwargs) =
            ((phase1 false kwargs [] (p :: ps) A U E).bind (afterPhase1 false kwargs)).map forget := by
        intro h
        rw [h]
        rcases phase1_nil kwargs (p :: ps) A U E with ⟨he, hcl⟩ | ⟨s, hs, hE, h2⟩
        · rw [he]
          simp only [Except.bind, afterPhase1]
          rw [phase2_part (p :: ps) kwargs A [] U none, phase2_clash (p :: ps) hn kwargs A U none hcl]
          rfl
        · rw [hs]
          simp only [Except.bind]
          rw [after_part kwargs (p :: ps) A U E]
          simp only [afterPhase1, h2, hE]
      by_cases h1 : p.kind = .varPos
      · simp only [phase1, h1, if_true]
        exact after_part _ _ _ _ _
      · by_cases h2 : PyDict.has kwargs p.name = true
        · by_cases h3 : p.kind = .posOnly
          · simp [phase1, h2, h3, Except.bind, Except.map]
          · exact hrest (by simp [phase1, h1, h2, h3])
        · exact hrest (by simp [phase1, h1, h2])
    | cons a as =>
      simp only [phase1]
      split
      · exact after_part _ _ _ _ _
      · split
        · rfl
        · exact ih hn' _ _ _ _

/-- `bind_partial` is `bind` that does not mind what is missing -/
theorem bind_part {sig : Sig V} (hn : (sig.map (·.name)).Nodup) (args : List V) (kwargs : PyDict String V) :
    bind true sig args kwargs = (bind false sig args kwargs).map forget := by
  rw [bind_eq, bind_eq]
  exact phase1_part kwargs sig hn args [] [] []

end Unpy.Arity
