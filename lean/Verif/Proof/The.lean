import Verif.Spec.The
/-!
# The `test[...]` and `the[...]` macros: helper lemmas
-/
namespace Unpy.Proof.The
open Unpy Unpy.The Unpy.Eff Unpy.Spec.The

variable {V σ X τ : Type}

theorem assertFunc_eq (W : World V σ X τ) (k : Nat) (src : τ) (f : M V σ X τ V) (m : V) : assertFunc W k src f m = judge W k src m f := by
  funext s
  unfold assertFunc judge
  generalize f _ = r
  obtain ⟨r, t⟩ := r
  cases r <;> rfl

theorem assertRaisesFunc_eq (W : World V σ X τ) (t : V) (src : τ) (f : M V σ X τ V) (m : V) :
    assertRaisesFunc W t src f m = judgeRaises W t src m f := by
  funext s
  unfold assertRaisesFunc judgeRaises
  generalize f s = r
  obtain ⟨_ | _, s⟩ := r
  · simp only [Eff.bind, lift]
    split
    · rcases W.isInstance _ t s.user with ⟨_ | _ | _, u⟩ <;> rfl
    · rfl
  · rfl

theorem recordValue_eq (k : Nat) (src : τ) (v : V) : (recordValue k src v : M V σ X τ V) = note k src v := rfl

/-! ## Programs that are being expanded -/

mutual
def Mix (strict : Bool) : E V → Prop
  | .lit _ | .none | .true | .name _ => True
  | .call _ args => MixEs strict args
  | .cmp l cs => Mix strict l ∧ MixCs strict cs
  | .and a b | .or a b => Mix strict a ∧ Mix strict b
  | .ite c a b => Mix strict c ∧ Mix strict a ∧ Mix strict b
  | .all e _ it => Mix strict e ∧ Mix strict it
  | .tuple es => MixEs strict es
  | .the e => Mix strict e ∧ (strict = true → hasMark e = false)
  | .test (.tuple (.cons e (.cons m .nil))) => Mix strict e ∧ Mix strict m ∧ hasMark m = false
  | .test e => Mix strict e
  | .raises t e m => (Mix strict t ∧ hasMark t = false) ∧ (Mix strict e ∧ hasMark e = false) ∧ Mix strict m ∧ hasMark m = false
  | .record _ _ e => Mix strict e
  | .assert .. | .assertRaises .. => False
def MixEs (strict : Bool) : Es V → Prop
  | .nil => True
  | .cons e es => Mix strict e ∧ MixEs strict es
def MixCs (strict : Bool) : Cs V → Prop
  | .nil => True
  | .cons _ e cs => Mix strict e ∧ MixCs strict cs
end

mutual
def MixS (strict nested : Bool) : S V → Prop
  | .expr e | .assign _ e | .ret e => Mix strict e
  | .ite c t e => Mix strict c ∧ MixSs strict nested t ∧ MixSs strict nested e
  | .test m body => Mix strict m ∧ hasMark m = false ∧ MixSs strict true body ∧ (nested = true → hasMarkSs body = false)
  | .raises t m body => (Mix strict t ∧ hasMark t = false) ∧ (Mix strict m ∧ hasMark m = false) ∧ MixSs strict nested body ∧ hasMarkSs body = false
  | .assert .. | .assertRaises .. => False
def MixSs (strict nested : Bool) : Ss V → Prop
  | .nil => True
  | .cons s ss => MixS strict nested s ∧ MixSs strict nested ss
end

/-- The expression in `test[e]` and its message. -/
inductive Two : E V → Prop
  | mk (e m) : Two (.tuple (.cons e (.cons m .nil)))

theorem two_cases (e : E V) : Two e ∨ ¬ Two e := Classical.em _

theorem fine_test {strict : Bool} {e : E V} (h : ¬ Two e) : Fine strict (.test e) = Fine strict e := by
  rw [Fine]; intro e' m he; exact h (he ▸ .mk _ _)
theorem mix_test {strict : Bool} {e : E V} (h : ¬ Two e) : Mix strict (.test e) = Mix strict e := by
  rw [Mix]; intro e' m he; exact h (he ▸ .mk _ _)
theorem eval_test {W : World V σ X τ} {d : Nat} {imp : Bool} {vars : Vars V} {e : E V} (h : ¬ Two e) : Spec.The.evalE W d imp vars (.test e) =
    judge W d (W.unparse e) W.none (Spec.The.evalE W (d + 1) (!hasMark e) vars e) := by
  rw [Spec.The.evalE]; intro e' m he; exact h (he ▸ .mk _ _)
theorem expand_test {n d : Nat} {e : E V} (h : ¬ Two e) : expand (n + 1) d (.test e) =
    .assert d e (expand n (d + 1) (implicit d (marked e) (transform d e))) .none := by
  rw [expand]; intro e' m he; exact h (he ▸ .mk _ _)

mutual
theorem mix_of_fine {strict : Bool} : ∀ e : E V, Fine strict e → Mix strict e
  | .lit _, _ | .none, _ | .true, _ | .name _, _ => by simp only [Mix]
  | .call _ args, h => by simp only [Fine] at h; simp only [Mix]; exact mixEs_of_fine args h
  | .cmp l cs, h => by simp only [Fine] at h; simp only [Mix]; exact ⟨mix_of_fine l h.1, mixCs_of_fine cs h.2⟩
  | .and a b, h | .or a b, h => by simp only [Fine] at h; simp only [Mix]; exact ⟨mix_of_fine a h.1, mix_of_fine b h.2⟩
  | .ite c a b, h => by simp only [Fine] at h; simp only [Mix]; exact ⟨mix_of_fine c h.1, mix_of_fine a h.2.1, mix_of_fine b h.2.2⟩
  | .all e _ it, h => by simp only [Fine] at h; simp only [Mix]; exact ⟨mix_of_fine e h.1, mix_of_fine it h.2⟩
  | .tuple es, h => by simp only [Fine] at h; simp only [Mix]; exact mixEs_of_fine es h
  | .the e, h => by simp only [Fine] at h; simp only [Mix]; exact ⟨mix_of_fine e h.1, h.2⟩
  | .test e, h => by
    rcases two_cases e with h2 | h2
    · match e, h2, h with
      | .tuple (.cons e (.cons m .nil)), _, h =>
        simp only [Fine] at h; simp only [Mix]
        exact ⟨mix_of_fine e h.1, mix_of_fine m h.2.1, h.2.2⟩
    · rw [fine_test h2] at h; rw [mix_test h2]; exact mix_of_fine e h
  | .raises t e m, h => by
    simp only [Fine] at h; simp only [Mix]
    exact ⟨⟨mix_of_fine t h.1.1, h.1.2⟩, ⟨mix_of_fine e h.2.1.1, h.2.1.2⟩, mix_of_fine m h.2.2.1, h.2.2.2⟩
  | .record .., h | .assert .., h | .assertRaises .., h => by simp only [Fine] at h
theorem mixEs_of_fine {strict : Bool} : ∀ es : Es V, FineEs strict es → MixEs strict es
  | .nil, _ => by simp only [MixEs]
  | .cons e es, h => by simp only [FineEs] at h; simp only [MixEs]; exact ⟨mix_of_fine e h.1, mixEs_of_fine es h.2⟩
theorem mixCs_of_fine {strict : Bool} : ∀ cs : Cs V, FineCs strict cs → MixCs strict cs
  | .nil, _ => by simp only [MixCs]
  | .cons _ e cs, h => by simp only [FineCs] at h; simp only [MixCs]; exact ⟨mix_of_fine e h.1, mixCs_of_fine cs h.2⟩
end

mutual
theorem mixS_of_fine {strict nested : Bool} : ∀ s : S V, FineS strict nested s → MixS strict nested s
  | .expr e, h | .assign _ e, h | .ret e, h => by simp only [FineS] at h; simp only [MixS]; exact mix_of_fine e h
  | .ite c t e, h => by simp only [FineS] at h; simp only [MixS]; exact ⟨mix_of_fine c h.1, mixSs_of_fine t h.2.1, mixSs_of_fine e h.2.2⟩
  | .test m body, h => by simp only [FineS] at h; simp only [MixS]; exact ⟨mix_of_fine m h.1, h.2.1, mixSs_of_fine body h.2.2.1, h.2.2.2⟩
  | .raises t m body, h => by
    simp only [FineS] at h; simp only [MixS]
    exact ⟨⟨mix_of_fine t h.1.1, h.1.2⟩, ⟨mix_of_fine m h.2.1.1, h.2.1.2⟩, mixSs_of_fine body h.2.2.1, h.2.2.2⟩
  | .assert .., h | .assertRaises .., h => by simp only [FineS] at h
theorem mixSs_of_fine {strict nested : Bool} : ∀ ss : Ss V, FineSs strict nested ss → MixSs strict nested ss
  | .nil, _ => by simp only [MixSs]
  | .cons s ss, h => by simp only [FineSs] at h; simp only [MixSs]; exact ⟨mixS_of_fine s h.1, mixSs_of_fine ss h.2⟩
end

/-! ## Marks -/

mutual
theorem marked_eq : ∀ e : E V, marked e = hasMark e
  | .lit _ | .none | .true | .name _ | .test _ | .raises .. | .the _ => by simp only [marked, hasMark]
  | .call _ args => by simp only [marked, hasMark, markedEs_eq args]
  | .cmp l cs => by simp only [marked, hasMark, marked_eq l, markedCs_eq cs]
  | .and a b | .or a b => by simp only [marked, hasMark, marked_eq a, marked_eq b]
  | .ite c a b => by simp only [marked, hasMark, marked_eq c, marked_eq a, marked_eq b]
  | .all e _ it => by simp only [marked, hasMark, marked_eq e, marked_eq it]
  | .tuple es => by simp only [marked, hasMark, markedEs_eq es]
  | .record _ _ e => by simp only [marked, hasMark, marked_eq e]
  | .assert _ _ e m => by simp only [marked, hasMark, marked_eq e, marked_eq m]
  | .assertRaises t _ e m => by simp only [marked, hasMark, marked_eq t, marked_eq e, marked_eq m]
theorem markedEs_eq : ∀ es : Es V, markedEs es = hasMarks es
  | .nil => by simp only [markedEs, hasMarks]
  | .cons e es => by simp only [markedEs, hasMarks, marked_eq e, markedEs_eq es]
theorem markedCs_eq : ∀ cs : Cs V, markedCs cs = hasMarkCs cs
  | .nil => by simp only [markedCs, hasMarkCs]
  | .cons _ e cs => by simp only [markedCs, hasMarkCs, marked_eq e, markedCs_eq cs]
end

mutual
theorem markedS_eq {strict : Bool} : ∀ s : S V, MixS strict true s → markedS s = hasMarkS s
  | .expr e, _ | .assign _ e, _ | .ret e, _ => by simp only [markedS, hasMarkS, marked_eq e]
  | .ite c t e, h => by
    simp only [MixS] at h
    simp only [markedS, hasMarkS, marked_eq c, markedSs_eq t h.2.1, markedSs_eq e h.2.2]
  | .test m body, h => by
    simp only [MixS] at h
    simp only [markedS, hasMarkS, markedSs_eq body h.2.2.1, h.2.2.2 trivial]
  | .raises t m body, h => by
    simp only [MixS] at h
    simp only [markedS, hasMarkS, markedSs_eq body h.2.2.1, h.2.2.2]
  | .assert .., h | .assertRaises .., h => by simp only [MixS] at h
theorem markedSs_eq {strict : Bool} : ∀ ss : Ss V, MixSs strict true ss → markedSs ss = hasMarkSs ss
  | .nil, _ => by simp only [markedSs, hasMarkSs]
  | .cons s ss, h => by simp only [MixSs] at h; simp only [markedSs, hasMarkSs, markedS_eq s h.1, markedSs_eq ss h.2]
end

mutual
theorem transform_unmarked (k : Nat) : ∀ e : E V, marked e = false → transform k e = e
  | .lit _, _ | .none, _ | .true, _ | .name _, _ | .test _, _ | .raises .., _ => by simp only [transform]
  | .the _, h => by simp only [marked] at h; cases h
  | .call _ args, h => by simp only [marked] at h; simp only [transform, transformEs_unmarked k args h]
  | .cmp l cs, h => by
    simp only [marked, Bool.or_eq_false_iff] at h; simp only [transform, transform_unmarked k l h.1, transformCs_unmarked k cs h.2]
  | .and a b, h | .or a b, h => by
    simp only [marked, Bool.or_eq_false_iff] at h; simp only [transform, transform_unmarked k a h.1, transform_unmarked k b h.2]
  | .ite c a b, h => by
    simp only [marked, Bool.or_eq_false_iff] at h
    simp only [transform, transform_unmarked k c h.1.1, transform_unmarked k a h.1.2, transform_unmarked k b h.2]
  | .all e _ it, h => by
    simp only [marked, Bool.or_eq_false_iff] at h; simp only [transform, transform_unmarked k e h.1, transform_unmarked k it h.2]
  | .tuple es, h => by simp only [marked] at h; simp only [transform, transformEs_unmarked k es h]
  | .record _ _ e, h => by simp only [marked] at h; simp only [transform, transform_unmarked k e h]
  | .assert _ _ e m, h => by
    simp only [marked, Bool.or_eq_false_iff] at h; simp only [transform, transform_unmarked k e h.1, transform_unmarked k m h.2]
  | .assertRaises t _ e m, h => by
    simp only [marked, Bool.or_eq_false_iff] at h
    simp only [transform, transform_unmarked k t h.1.1, transform_unmarked k e h.1.2, transform_unmarked k m h.2]
theorem transformEs_unmarked (k : Nat) : ∀ es : Es V, markedEs es = false → transformEs k es = es
  | .nil, _ => by simp only [transformEs]
  | .cons e es, h => by
    simp only [markedEs, Bool.or_eq_false_iff] at h; simp only [transformEs, transform_unmarked k e h.1, transformEs_unmarked k es h.2]
theorem transformCs_unmarked (k : Nat) : ∀ cs : Cs V, markedCs cs = false → transformCs k cs = cs
  | .nil, _ => by simp only [transformCs]
  | .cons _ e cs, h => by
    simp only [markedCs, Bool.or_eq_false_iff] at h; simp only [transformCs, transform_unmarked k e h.1, transformCs_unmarked k cs h.2]
end

mutual
theorem transformS_unmarked (k : Nat) : ∀ s : S V, markedS s = false → transformS k s = s
  | .expr e, h | .assign _ e, h | .ret e, h => by simp only [markedS] at h; simp only [transformS, transform_unmarked k e h]
  | .ite c t e, h => by
    simp only [markedS, Bool.or_eq_false_iff] at h
    simp only [transformS, transform_unmarked k c h.1.1, transformSs_unmarked k t h.1.2, transformSs_unmarked k e h.2]
  | .test m body, h => by simp only [markedS] at h; simp only [transformS, transformSs_unmarked k body h]
  | .raises t m body, h => by simp only [markedS] at h; simp only [transformS, transformSs_unmarked k body h]
  | .assert _ _ body m, h => by
    simp only [markedS, Bool.or_eq_false_iff] at h; simp only [transformS, transformSs_unmarked k body h.1, transform_unmarked k m h.2]
  | .assertRaises t _ body m, h => by
    simp only [markedS, Bool.or_eq_false_iff] at h
    simp only [transformS, transform_unmarked k t h.1.1, transformSs_unmarked k body h.1.2, transform_unmarked k m h.2]
theorem transformSs_unmarked (k : Nat) : ∀ ss : Ss V, markedSs ss = false → transformSs k ss = ss
  | .nil, _ => by simp only [transformSs]
  | .cons s ss, h => by
    simp only [markedSs, Bool.or_eq_false_iff] at h; simp only [transformSs, transformS_unmarked k s h.1, transformSs_unmarked k ss h.2]
end

mutual
theorem hasMark_transform (k : Nat) : ∀ e : E V, hasMark (transform k e) = false
  | .lit _ | .none | .true | .name _ | .test _ | .raises .. => by simp only [transform, hasMark]
  | .the e => by simp only [transform, hasMark, hasMark_transform k e]
  | .call _ args => by simp only [transform, hasMark, hasMarks_transform k args]
  | .cmp l cs => by simp only [transform, hasMark, hasMark_transform k l, hasMarkCs_transform k cs, Bool.or_self]
  | .and a b | .or a b => by simp only [transform, hasMark, hasMark_transform k a, hasMark_transform k b, Bool.or_self]
  | .ite c a b => by simp only [transform, hasMark, hasMark_transform k c, hasMark_transform k a, hasMark_transform k b, Bool.or_self]
  | .all e _ it => by simp only [transform, hasMark, hasMark_transform k e, hasMark_transform k it, Bool.or_self]
  | .tuple es => by simp only [transform, hasMark, hasMarks_transform k es]
  | .record _ _ e => by simp only [transform, hasMark, hasMark_transform k e]
  | .assert _ _ e m => by simp only [transform, hasMark, hasMark_transform k e, hasMark_transform k m, Bool.or_self]
  | .assertRaises t _ e m => by simp only [transform, hasMark, hasMark_transform k t, hasMark_transform k e, hasMark_transform k m, Bool.or_self]
theorem hasMarks_transform (k : Nat) : ∀ es : Es V, hasMarks (transformEs k es) = false
  | .nil => by simp only [transformEs, hasMarks]
  | .cons e es => by simp only [transformEs, hasMarks, hasMark_transform k e, hasMarks_transform k es, Bool.or_self]
theorem hasMarkCs_transform (k : Nat) : ∀ cs : Cs V, hasMarkCs (transformCs k cs) = false
  | .nil => by simp only [transformCs, hasMarkCs]
  | .cons _ e cs => by simp only [transformCs, hasMarkCs, hasMark_transform k e, hasMarkCs_transform k cs, Bool.or_self]
end

mutual
theorem hasMarkS_transform (k : Nat) : ∀ s : S V, hasMarkS (transformS k s) = false
  | .expr e | .assign _ e | .ret e => by simp only [transformS, hasMarkS, hasMark_transform k e]
  | .ite c t e => by simp only [transformS, hasMarkS, hasMark_transform k c, hasMarkSs_transform k t, hasMarkSs_transform k e, Bool.or_self]
  | .test _ _ | .raises .. | .assert .. | .assertRaises .. => by simp only [transformS, hasMarkS]
theorem hasMarkSs_transform (k : Nat) : ∀ ss : Ss V, hasMarkSs (transformSs k ss) = false
  | .nil => by simp only [transformSs, hasMarkSs]
  | .cons s ss => by simp only [transformSs, hasMarkSs, hasMarkS_transform k s, hasMarkSs_transform k ss, Bool.or_self]
end

mutual
theorem size_transform (k : Nat) : ∀ e : E V, sizeE (transform k e) = sizeE e
  | .lit _ | .none | .true | .name _ | .test _ | .raises .. => by simp only [transform]
  | .the e => by simp only [transform, sizeE, size_transform k e]
  | .call _ args => by simp only [transform, sizeE, sizeEs_transform k args]
  | .cmp l cs => by simp only [transform, sizeE, size_transform k l, sizeCs_transform k cs]
  | .and a b | .or a b => by simp only [transform, sizeE, size_transform k a, size_transform k b]
  | .ite c a b => by simp only [transform, sizeE, size_transform k c, size_transform k a, size_transform k b]
  | .all e _ it => by simp only [transform, sizeE, size_transform k e, size_transform k it]
  | .tuple es => by simp only [transform, sizeE, sizeEs_transform k es]
  | .record _ _ e => by simp only [transform, sizeE, size_transform k e]
  | .assert _ _ e m => by simp only [transform, sizeE, size_transform k e, size_transform k m]
  | .assertRaises t _ e m => by simp only [transform, sizeE, size_transform k t, size_transform k e, size_transform k m]
theorem sizeEs_transform (k : Nat) : ∀ es : Es V, sizeEs (transformEs k es) = sizeEs es
  | .nil => by simp only [transformEs]
  | .cons e es => by simp only [transformEs, sizeEs, size_transform k e, sizeEs_transform k es]
theorem sizeCs_transform (k : Nat) : ∀ cs : Cs V, sizeCs (transformCs k cs) = sizeCs cs
  | .nil => by simp only [transformCs]
  | .cons _ e cs => by simp only [transformCs, sizeCs, size_transform k e, sizeCs_transform k cs]
end

mutual
theorem sizeS_transform (k : Nat) : ∀ s : S V, sizeS (transformS k s) = sizeS s
  | .expr e | .assign _ e | .ret e => by simp only [transformS, sizeS, size_transform k e]
  | .ite c t e => by simp only [transformS, sizeS, size_transform k c, sizeSs_transform k t, sizeSs_transform k e]
  | .test _ body => by simp only [transformS, sizeS, sizeSs_transform k body]
  | .assert _ _ body m => by simp only [transformS, sizeS, sizeSs_transform k body, size_transform k m]
  | .raises _ _ body => by simp only [transformS, sizeS, sizeSs_transform k body]
  | .assertRaises t _ body m => by simp only [transformS, sizeS, size_transform k t, sizeSs_transform k body, size_transform k m]
theorem sizeSs_transform (k : Nat) : ∀ ss : Ss V, sizeSs (transformSs k ss) = sizeSs ss
  | .nil => by simp only [transformSs]
  | .cons s ss => by simp only [transformSs, sizeSs, sizeS_transform k s, sizeSs_transform k ss]
end

theorem size_implicit (k : Nat) (mk : Bool) (e : E V) : sizeE (implicit k mk e) ≤ sizeE e + 1 := by
  cases e <;> simp only [implicit] <;> try omega
  split <;> simp only [sizeE] <;> omega

theorem size_finish (k : Nat) (mk : Bool) : ∀ ss : Ss V, sizeSs (finish k mk ss) ≤ sizeSs ss + 4
  | .nil => by simp [finish, sizeSs, sizeS, sizeE]
  | .cons (.ret e) ss => by
    have := size_implicit k mk e
    simp only [finish, sizeSs, sizeS]; omega
  | .cons (.expr e) ss | .cons (.assign x e) ss | .cons (.ite c t e) ss | .cons (.test m b) ss | .cons (.raises t m b) ss
  | .cons (.assert n src b m) ss | .cons (.assertRaises t src b m) ss => by
    have := size_finish k mk ss
    simp only [finish, sizeSs, sizeS]; omega

mutual
theorem mix_transform {strict : Bool} (k : Nat) : ∀ e : E V, Mix strict e → Mix strict (transform k e)
  | .lit _, h | .none, h | .true, h | .name _, h | .test _, h | .raises .., h => by simp only [transform]; exact h
  | .the e, h => by simp only [Mix] at h; simp only [transform, Mix]; exact mix_transform k e h.1
  | .call _ args, h => by simp only [Mix] at h; simp only [transform, Mix]; exact mixEs_transform k args h
  | .cmp l cs, h => by simp only [Mix] at h; simp only [transform, Mix]; exact ⟨mix_transform k l h.1, mixCs_transform k cs h.2⟩
  | .and a b, h | .or a b, h => by simp only [Mix] at h; simp only [transform, Mix]; exact ⟨mix_transform k a h.1, mix_transform k b h.2⟩
  | .ite c a b, h => by
    simp only [Mix] at h; simp only [transform, Mix]; exact ⟨mix_transform k c h.1, mix_transform k a h.2.1, mix_transform k b h.2.2⟩
  | .all e _ it, h => by simp only [Mix] at h; simp only [transform, Mix]; exact ⟨mix_transform k e h.1, mix_transform k it h.2⟩
  | .tuple es, h => by simp only [Mix] at h; simp only [transform, Mix]; exact mixEs_transform k es h
  | .record _ _ e, h => by simp only [Mix] at h; simp only [transform, Mix]; exact mix_transform k e h
  | .assert .., h | .assertRaises .., h => by simp only [Mix] at h
theorem mixEs_transform {strict : Bool} (k : Nat) : ∀ es : Es V, MixEs strict es → MixEs strict (transformEs k es)
  | .nil, _ => by simp only [transformEs, MixEs]
  | .cons e es, h => by simp only [MixEs] at h; simp only [transformEs, MixEs]; exact ⟨mix_transform k e h.1, mixEs_transform k es h.2⟩
theorem mixCs_transform {strict : Bool} (k : Nat) : ∀ cs : Cs V, MixCs strict cs → MixCs strict (transformCs k cs)
  | .nil, _ => by simp only [transformCs, MixCs]
  | .cons _ e cs, h => by simp only [MixCs] at h; simp only [transformCs, MixCs]; exact ⟨mix_transform k e h.1, mixCs_transform k cs h.2⟩
end

theorem transformSs_raises {strict : Bool} (k : Nat) {t m : E V} {body : Ss V} (h : MixS strict true (.raises t m body)) :
    transformSs k body = body := by
  simp only [MixS] at h
  exact transformSs_unmarked k body ((markedSs_eq body h.2.2.1).trans h.2.2.2)

theorem transformSs_nested {strict : Bool} {nested : Bool} (k : Nat) {m : E V} {body : Ss V} (h : MixS strict nested (.test m body)) (hn : nested = true) :
    transformSs k body = body := by
  simp only [MixS] at h
  exact transformSs_unmarked k body ((markedSs_eq body h.2.2.1).trans (h.2.2.2 hn))

mutual
theorem mixS_transform {strict : Bool} (k : Nat) : ∀ s : S V, MixS strict true s → MixS strict true (transformS k s)
  | .expr e, h | .assign _ e, h | .ret e, h => by simp only [MixS] at h; simp only [transformS, MixS]; exact mix_transform k e h
  | .ite c t e, h => by
    simp only [MixS] at h; simp only [transformS, MixS]; exact ⟨mix_transform k c h.1, mixSs_transform k t h.2.1, mixSs_transform k e h.2.2⟩
  | .test m body, h => by rw [transformS, transformSs_nested k h rfl]; exact h
  | .raises t m body, h => by rw [transformS, transformSs_raises k h]; exact h
  | .assert .., h | .assertRaises .., h => by simp only [MixS] at h
theorem mixSs_transform {strict : Bool} (k : Nat) : ∀ ss : Ss V, MixSs strict true ss → MixSs strict true (transformSs k ss)
  | .nil, _ => by simp only [transformSs, MixSs]
  | .cons s ss, h => by simp only [MixSs] at h; simp only [transformSs, MixSs]; exact ⟨mixS_transform k s h.1, mixSs_transform k ss h.2⟩
end

theorem mix_implicit {strict : Bool} (k : Nat) (mk : Bool) (e : E V) (h : Mix strict e) : Mix strict (implicit k mk e) := by
  cases e <;> simp only [implicit] <;> try exact h
  split
  · exact h
  · simp only [Mix] at h ⊢; exact h
theorem hasMark_implicit (k : Nat) (mk : Bool) (e : E V) (h : hasMark e = false) : hasMark (implicit k mk e) = false := by
  cases e <;> simp only [implicit] <;> try exact h
  split
  · exact h
  · simp only [hasMark] at h ⊢; exact h

theorem mix_finish {strict nested : Bool} (k : Nat) (mk : Bool) : ∀ ss : Ss V, MixSs strict nested ss → MixSs strict nested (finish k mk ss)
  | .nil, _ => by simp only [finish, MixSs, MixS, Mix, and_self]
  | .cons (.ret e) ss, h => by
    simp only [MixSs, MixS] at h; simp only [finish, MixSs, MixS]; exact ⟨mix_implicit k mk e h.1, h.2⟩
  | .cons (.expr e) ss, h | .cons (.assign x e) ss, h | .cons (.ite c t e) ss, h | .cons (.test m b) ss, h | .cons (.raises t m b) ss, h
  | .cons (.assert n src b m) ss, h | .cons (.assertRaises t src b m) ss, h => by
    simp only [finish]; rw [MixSs] at h ⊢; exact ⟨h.1, mix_finish k mk ss h.2⟩
theorem hasMark_finish (k : Nat) (mk : Bool) : ∀ ss : Ss V, hasMarkSs ss = false → hasMarkSs (finish k mk ss) = false
  | .nil, _ => by simp only [finish, hasMarkSs, hasMarkS, hasMark, Bool.or_self]
  | .cons (.ret e) ss, h => by
    simp only [hasMarkSs, hasMarkS, Bool.or_eq_false_iff] at h
    simp only [finish, hasMarkSs, hasMarkS, hasMark_implicit k mk e h.1, h.2, Bool.or_self]
  | .cons (.expr e) ss, h | .cons (.assign x e) ss, h | .cons (.ite c t e) ss, h | .cons (.test m b) ss, h | .cons (.raises t m b) ss, h
  | .cons (.assert n src b m) ss, h | .cons (.assertRaises t src b m) ss, h => by
    rw [hasMarkSs, Bool.or_eq_false_iff] at h
    simp only [finish]
    rw [hasMarkSs, h.1, hasMark_finish k mk ss h.2, Bool.or_self]

/-! ## Assigned names -/

mutual
theorem assigned_transform (k : Nat) : ∀ s : S V, assigned (transformS k s) = assigned s
  | .expr _ | .assign .. | .ret _ | .test .. | .raises .. | .assert .. | .assertRaises .. => by simp only [transformS, assigned]
  | .ite _ t e => by simp only [transformS, assigned, assigneds_transform k t, assigneds_transform k e]
theorem assigneds_transform (k : Nat) : ∀ ss : Ss V, assigneds (transformSs k ss) = assigneds ss
  | .nil => by simp only [transformSs]
  | .cons s ss => by simp only [transformSs, assigneds, assigned_transform k s, assigneds_transform k ss]
end
theorem assigneds_finish (k : Nat) (mk : Bool) : ∀ ss : Ss V, assigneds (finish k mk ss) = assigneds ss
  | .nil => by simp only [finish, assigneds, assigned, List.append_nil]
  | .cons (.ret e) ss => by simp only [finish, assigneds, assigned]
  | .cons (.expr e) ss | .cons (.assign x e) ss | .cons (.ite c t e) ss | .cons (.test m b) ss | .cons (.raises t m b) ss
  | .cons (.assert n src b m) ss | .cons (.assertRaises t src b m) ss => by
    simp only [finish, assigneds, assigned, assigneds_finish k mk ss]

theorem assigned_expand : ∀ n : Nat, (∀ d (s : S V), assigned (expandS n d s) = assigned s) ∧ ∀ d (ss : Ss V), assigneds (expandSs n d ss) = assigneds ss
  | 0 => ⟨fun _ _ => by simp only [expandS], fun _ _ => by simp only [expandSs]⟩
  | n + 1 => by
    obtain ⟨h1, h2⟩ := assigned_expand n
    refine ⟨fun d s => ?_, fun d ss => ?_⟩
    · cases s <;> simp only [expandS, assigned, h2]
    · cases ss <;> simp only [expandSs, assigneds, h1, h2]

/-! ## The meaning of marks that have been transformed -/

section
variable (W : World V σ X τ) {strict : Bool} (hW : strict = true ∨ ∀ e e', W.unparse e = W.unparse e')
include hW

mutual
theorem eval_transform (d : Nat) : ∀ (e : E V), Mix strict e → ∀ vars,
    Spec.The.evalE W (d + 1) false vars (transform d e) = Spec.The.evalE W (d + 1) false vars e
  | .lit _, _, vars | .none, _, vars | .true, _, vars | .name _, _, vars | .test _, _, vars | .raises .., _, vars => by simp only [transform]
  | .call _ args, h, vars => by
    simp only [Mix] at h; simp only [transform, Spec.The.evalE, evals_transform d args h vars]
  | .cmp l cs, h, vars => by
    simp only [Mix] at h
    simp only [transform, Spec.The.evalE, eval_transform d l h.1 vars, evalCs_transform d cs h.2 vars, Bool.false_eq_true, if_false]
  | .and a b, h, vars | .or a b, h, vars => by
    simp only [Mix] at h; simp only [transform, Spec.The.evalE, eval_transform d a h.1 vars, eval_transform d b h.2 vars]
  | .ite c a b, h, vars => by
    simp only [Mix] at h
    simp only [transform, Spec.The.evalE, eval_transform d c h.1 vars, eval_transform d a h.2.1 vars, eval_transform d b h.2.2 vars]
  | .all e x it, h, vars => by
    simp only [Mix] at h; simp only [transform, Spec.The.evalE, eval_transform d e h.1, eval_transform d it h.2 vars]
  | .tuple es, h, vars => by simp only [Mix] at h; simp only [transform, Spec.The.evalE, evals_transform d es h vars]
  | .the e, h, vars => by
    simp only [Mix] at h
    have hu : W.unparse (transform d e) = W.unparse e := by
      rcases hW with hs | hu
      · rw [transform_unmarked d e ((marked_eq e).trans (h.2 hs))]
      · exact hu _ _
    simp only [transform, Spec.The.evalE, eval_transform d e h.1 vars, hu, Nat.add_one_ne_zero, if_false, Nat.add_sub_cancel]
  | .record _ _ e, h, vars => by simp only [Mix] at h; simp only [transform, Spec.The.evalE, eval_transform d e h vars]
  | .assert .., h, _ | .assertRaises .., h, _ => by simp only [Mix] at h
theorem evals_transform (d : Nat) : ∀ (es : Es V), MixEs strict es → ∀ vars,
    Spec.The.evalEs W (d + 1) vars (transformEs d es) = Spec.The.evalEs W (d + 1) vars es
  | .nil, _, _ => by simp only [transformEs]
  | .cons e es, h, vars => by
    simp only [MixEs] at h; simp only [transformEs, Spec.The.evalEs, eval_transform d e h.1 vars, evals_transform d es h.2 vars]
theorem evalCs_transform (d : Nat) : ∀ (cs : Cs V), MixCs strict cs → ∀ vars v,
    Spec.The.evalCs W (d + 1) vars v (transformCs d cs) = Spec.The.evalCs W (d + 1) vars v cs
  | .nil, _, _, _ => by simp only [transformCs]
  | .cons _ e .nil, h, vars, _ => by
    simp only [MixCs] at h; simp only [transformCs, Spec.The.evalCs, eval_transform d e h.1 vars]
  | .cons _ e (.cons op e' cs), h, vars, _ => by
    rw [MixCs] at h
    have := evalCs_transform d (.cons op e' cs) h.2 vars
    rw [transformCs] at this
    simp only [transformCs, Spec.The.evalCs, eval_transform d e h.1 vars, this]
end

mutual
theorem execS_transform (d : Nat) : ∀ (s : S V), MixS strict true s → ∀ vars,
    Spec.The.execS W (d + 1) false vars (transformS d s) = Spec.The.execS W (d + 1) false vars s
  | .expr e, h, vars | .assign _ e, h, vars | .ret e, h, vars => by
    simp only [MixS] at h; simp only [transformS, Spec.The.execS, eval_transform W hW d e h vars]
  | .ite c t e, h, vars => by
    simp only [MixS] at h
    simp only [transformS, Spec.The.execS, eval_transform W hW d c h.1 vars, exec_transform d t h.2.1 vars, exec_transform d e h.2.2 vars]
  | .test m body, h, vars => by rw [transformS, transformSs_nested d h rfl]
  | .raises t m body, h, vars => by rw [transformS, transformSs_raises d h]
  | .assert .., h, _ | .assertRaises .., h, _ => by simp only [MixS] at h
theorem exec_transform (d : Nat) : ∀ (ss : Ss V), MixSs strict true ss → ∀ vars,
    Spec.The.exec W (d + 1) false vars (transformSs d ss) = Spec.The.exec W (d + 1) false vars ss
  | .nil, _, _ => by simp only [transformSs]
  | .cons s ss, h, vars => by
    simp only [MixSs] at h
    simp only [transformSs, Spec.The.exec, execS_transform d s h.1 vars]
    refine bind_congr' _ fun r => ?_
    split
    · rfl
    · exact exec_transform d ss h.2 _
end

theorem eval_implicit (d : Nat) (mk : Bool) (e : E V) (hm : Mix strict e) (hmk : mk = false → hasMark e = false) (vars : Vars V) :
    Spec.The.evalE W (d + 1) false vars (implicit d mk (transform d e)) = Spec.The.evalE W (d + 1) (!mk) vars e := by
  cases mk with
  | true =>
    have : implicit d true (transform d e) = transform d e := by cases transform d e <;> rfl
    rw [this, eval_transform W hW d e hm vars]; rfl
  | false =>
    rw [transform_unmarked d e ((marked_eq e).trans (hmk rfl))]
    cases e with
    | cmp l cs =>
      simp only [implicit, Spec.The.evalE, Bool.false_eq_true, if_false, Bool.not_false, if_true, Nat.add_sub_cancel, eff_assoc]
    | test e =>
      rcases two_cases e with h2 | h2
      · cases h2; simp only [implicit, Spec.The.evalE]
      · simp only [implicit, eval_test h2]
    | _ => simp only [implicit, Spec.The.evalE]

omit hW in
theorem execS_imp (d : Nat) (imp : Bool) (s : S V) (hs : ∀ e, s ≠ .ret e) (vars : Vars V) :
    Spec.The.execS W (d + 1) imp vars s = Spec.The.execS W (d + 1) false vars s := by
  cases s with
  | ret e => exact absurd rfl (hs e)
  | _ => simp only [Spec.The.execS]

theorem finish_step (d : Nat) (mk : Bool) {s : S V} {ss : Ss V} (hs : ∀ e, s ≠ .ret e) (h : MixS strict true s) (h2 : ∀ vars,
    bind (Spec.The.exec W (d + 1) false vars (finish d mk (transformSs d ss))) (fun r => ret (r.2.getD W.none)) =
      bind (Spec.The.exec W (d + 1) (!mk) vars ss) (fun r => ret (r.2.getD W.true))) {vars : Vars V} :
    bind (Spec.The.exec W (d + 1) false vars (finish d mk (transformSs d (.cons s ss)))) (fun r => ret (r.2.getD W.none)) =
      bind (Spec.The.exec W (d + 1) (!mk) vars (.cons s ss)) (fun r => ret (r.2.getD W.true)) := by
  have h1 := execS_transform W hW d s h vars
  have hfin : finish d mk (.cons (transformS d s) (transformSs d ss)) = .cons (transformS d s) (finish d mk (transformSs d ss)) := by
    cases s with
    | ret e => exact absurd rfl (hs e)
    | _ => simp only [transformS, finish]
  rw [transformSs, hfin, Spec.The.exec, Spec.The.exec, h1, execS_imp W d (!mk) s hs vars, eff_assoc, eff_assoc]
  refine bind_congr' _ fun r => ?_
  obtain ⟨vs, _ | v⟩ := r
  · exact h2 vs
  · rfl

theorem exec_finish (d : Nat) (mk : Bool) : ∀ (ss : Ss V), MixSs strict true ss → (mk = false → markedSs ss = false) → ∀ vars,
    bind (Spec.The.exec W (d + 1) false vars (finish d mk (transformSs d ss))) (fun r => ret (r.2.getD W.none)) =
      bind (Spec.The.exec W (d + 1) (!mk) vars ss) (fun r => ret (r.2.getD W.true))
  | .nil, _, _, _ => by
    simp only [transformSs, finish, Spec.The.exec, Spec.The.execS, Spec.The.evalE, eff_ret_bind]; rfl
  | .cons (.ret e) ss, h, hmk, vars => by
    simp only [MixSs, MixS] at h
    simp only [markedSs, markedS, Bool.or_eq_false_iff] at hmk
    have := eval_implicit W hW d mk e h.1 (fun hm => (marked_eq e).symm.trans (hmk hm).1) vars
    simp only [transformSs, transformS, finish, Spec.The.exec, Spec.The.execS, this, eff_assoc, eff_ret_bind]; rfl
  | .cons (.expr e) ss, h, hmk, vars | .cons (.assign x e) ss, h, hmk, vars | .cons (.ite c t e) ss, h, hmk, vars
  | .cons (.test m b) ss, h, hmk, vars | .cons (.raises t m b) ss, h, hmk, vars | .cons (.assert n src b m) ss, h, hmk, vars
  | .cons (.assertRaises t src b m) ss, h, hmk, vars => by
    rw [MixSs] at h
    rw [markedSs] at hmk; simp only [Bool.or_eq_false_iff] at hmk
    exact finish_step W hW d mk (by intro e he; cases he) h.1 fun vars => exec_finish d mk ss h.2 (fun hm => (hmk hm).2) vars

/-! ## The expansion -/

theorem eval_expand : ∀ n,
    (∀ d (e : E V), Mix strict e → hasMark e = false → sizeE e ≤ n → ∀ vars, The.evalE W vars (expand n d e) = Spec.The.evalE W d false vars e) ∧
    (∀ d (es : Es V), MixEs strict es → hasMarks es = false → sizeEs es ≤ n → ∀ vars, The.evalEs W vars (expandEs n d es) = Spec.The.evalEs W d vars es) ∧
    (∀ d (cs : Cs V), MixCs strict cs → hasMarkCs cs = false → sizeCs cs ≤ n → ∀ vars v,
      The.evalCs W vars v (expandCs n d cs) = Spec.The.evalCs W d vars v cs)
  | 0 => by
    refine ⟨fun d e _ _ h => ?_, fun d e _ _ h => ?_, fun d e _ _ h => ?_⟩
    · cases e <;> simp only [sizeE] at h <;> omega
    · cases e <;> simp only [sizeEs] at h <;> omega
    · cases e <;> simp only [sizeCs] at h <;> omega
  | n + 1 => by
    obtain ⟨h1, h2, h3⟩ := eval_expand n
    have htest : ∀ d (e : E V), Mix strict e → sizeE e + 1 ≤ n → ∀ vars src m,
        assertFunc W d src (The.evalE W vars (expand n (d + 1) (implicit d (marked e) (transform d e)))) m =
          judge W d src m (Spec.The.evalE W (d + 1) (!hasMark e) vars e) := by
      intro d e hm hs vars src m
      rw [assertFunc_eq, h1 (d + 1) _ (mix_implicit _ _ _ (mix_transform d e hm)) (hasMark_implicit _ _ _ (hasMark_transform d e))
        (by have := size_implicit d (marked e) (transform d e); rw [size_transform] at this; omega) vars,
        eval_implicit W hW d _ e hm (fun h => (marked_eq e).symm.trans h), marked_eq]
    refine ⟨fun d e hm hk hs vars => ?_, fun d es hm hk hs vars => ?_, fun d cs hm hk hs vars v => ?_⟩
    · cases e with
      | lit v => simp only [expand, The.evalE, Spec.The.evalE]
      | none => simp only [expand, The.evalE, Spec.The.evalE]
      | true => simp only [expand, The.evalE, Spec.The.evalE]
      | name x => simp only [expand, The.evalE, Spec.The.evalE]
      | call f args =>
        simp only [Mix, hasMark, sizeE] at hm hk hs
        simp only [expand, The.evalE, Spec.The.evalE, h2 d args hm hk (by omega)]
      | cmp l cs =>
        simp only [Mix, hasMark, sizeE, Bool.or_eq_false_iff] at hm hk hs
        simp only [expand, The.evalE, Spec.The.evalE, h1 d l hm.1 hk.1 (by omega), h3 d cs hm.2 hk.2 (by omega), Bool.false_eq_true, if_false]
      | and a b =>
        simp only [Mix, hasMark, sizeE, Bool.or_eq_false_iff] at hm hk hs
        simp only [expand, The.evalE, Spec.The.evalE, h1 d a hm.1 hk.1 (by omega), h1 d b hm.2 hk.2 (by omega)]
      | or a b =>
        simp only [Mix, hasMark, sizeE, Bool.or_eq_false_iff] at hm hk hs
        simp only [expand, The.evalE, Spec.The.evalE, h1 d a hm.1 hk.1 (by omega), h1 d b hm.2 hk.2 (by omega)]
      | ite c a b =>
        simp only [Mix, hasMark, sizeE, Bool.or_eq_false_iff] at hm hk hs
        simp only [expand, The.evalE, Spec.The.evalE, h1 d c hm.1 hk.1.1 (by omega), h1 d a hm.2.1 hk.1.2 (by omega), h1 d b hm.2.2 hk.2 (by omega)]
      | all e x it =>
        simp only [Mix, hasMark, sizeE, Bool.or_eq_false_iff] at hm hk hs
        simp only [expand, The.evalE, Spec.The.evalE, h1 d e hm.1 hk.1 (by omega), h1 d it hm.2 hk.2 (by omega)]
      | tuple es =>
        simp only [Mix, hasMark, sizeE] at hm hk hs
        simp only [expand, The.evalE, Spec.The.evalE, h2 d es hm hk (by omega)]
      | the e => simp only [hasMark] at hk; cases hk
      | test e =>
        rcases two_cases e with h2 | h2
        · cases h2 with
          | mk e m =>
            simp only [Mix, sizeE, sizeEs] at hm hs
            simp only [expand, The.evalE, Spec.The.evalE, h1 d m hm.2.1 hm.2.2 (by omega), htest d e hm.1 (by omega)]
        · rw [mix_test h2] at hm
          simp only [sizeE] at hs
          rw [expand_test h2, eval_test h2]
          simp only [The.evalE, eff_ret_bind, htest d e hm (by omega)]
      | record k src e =>
        simp only [Mix, hasMark, sizeE] at hm hk hs
        simp only [expand, The.evalE, Spec.The.evalE, h1 d e hm hk (by omega), recordValue_eq]
      | raises t e m =>
        simp only [Mix, sizeE] at hm hs
        simp only [expand, The.evalE, Spec.The.evalE, h1 d t hm.1.1 hm.1.2 (by omega), h1 d e hm.2.1.1 hm.2.1.2 (by omega),
          h1 d m hm.2.2.1 hm.2.2.2 (by omega), assertRaisesFunc_eq]
      | assert => simp only [Mix] at hm
      | assertRaises => simp only [Mix] at hm
    · cases es with
      | nil => simp only [expandEs, The.evalEs, Spec.The.evalEs]
      | cons e es =>
        simp only [MixEs, hasMarks, sizeEs, Bool.or_eq_false_iff] at hm hk hs
        simp only [expandEs, The.evalEs, Spec.The.evalEs, h1 d e hm.1 hk.1 (by omega), h2 d es hm.2 hk.2 (by omega)]
    · cases cs with
      | nil => simp only [expandCs, The.evalCs, Spec.The.evalCs]
      | cons op e cs =>
        simp only [MixCs, hasMarkCs, sizeCs, Bool.or_eq_false_iff] at hm hk hs
        have hcs := h3 d cs hm.2 hk.2 (by omega)
        cases cs with
        | nil =>
          simp only [sizeCs] at hs
          cases n with
          | zero => omega
          | succ n => simp only [expandCs, The.evalCs, Spec.The.evalCs, h1 d e hm.1 hk.1 (by omega)]
        | cons op' e' cs =>
          cases n with
          | zero => simp only [sizeCs] at hs; omega
          | succ n =>
            rw [expandCs] at hcs
            simp only [expandCs, The.evalCs, Spec.The.evalCs, h1 d e hm.1 hk.1 (by omega)]
            simp only [hcs]

theorem exec_expand : ∀ n,
    (∀ nested d (s : S V), MixS strict nested s → hasMarkS s = false → sizeS s ≤ n → ∀ vars,
      The.execS W vars (expandS n d s) = Spec.The.execS W d false vars s) ∧
    (∀ nested d (ss : Ss V), MixSs strict nested ss → hasMarkSs ss = false → sizeSs ss ≤ n → ∀ vars,
      The.exec W vars (expandSs n d ss) = Spec.The.exec W d false vars ss)
  | 0 => by
    refine ⟨fun _ d e _ _ h => ?_, fun _ d e _ _ h => ?_⟩
    · cases e <;> simp only [sizeS] at h <;> omega
    · cases e <;> simp only [sizeSs] at h <;> omega
  | n + 1 => by
    obtain ⟨h1, h2⟩ := exec_expand n
    have he := (eval_expand W hW n).1
    refine ⟨fun nested d s hm hk hs vars => ?_, fun nested d ss hm hk hs vars => ?_⟩
    · cases s with
      | expr e =>
        simp only [MixS, hasMarkS, sizeS] at hm hk hs
        simp only [expandS, The.execS, Spec.The.execS, he d e hm hk (by omega)]
      | assign x e =>
        simp only [MixS, hasMarkS, sizeS] at hm hk hs
        simp only [expandS, The.execS, Spec.The.execS, he d e hm hk (by omega)]
      | ret e =>
        simp only [MixS, hasMarkS, sizeS] at hm hk hs
        simp only [expandS, The.execS, Spec.The.execS, he d e hm hk (by omega)]
      | ite c t e =>
        simp only [MixS, hasMarkS, sizeS, Bool.or_eq_false_iff] at hm hk hs
        simp only [expandS, The.execS, Spec.The.execS, he d c hm.1 hk.1.1 (by omega), h2 _ d t hm.2.1 hk.1.2 (by omega), h2 _ d e hm.2.2 hk.2 (by omega)]
      | test m body =>
        simp only [MixS, sizeS] at hm hs
        have hsz : sizeSs (finish d (markedSs body) (transformSs d body)) ≤ n := by
          have := size_finish d (markedSs body) (transformSs d body); rw [sizeSs_transform] at this; omega
        have hent : ∀ vars : Vars V, enter vars (expandSs n (d + 1) (finish d (markedSs body) (transformSs d body))) = enter vars body := by
          intro vars
          funext x
          simp only [enter, (assigned_expand n).2, assigneds_finish, assigneds_transform]
        have hx := h2 true (d + 1) _ (mix_finish d (markedSs body) _ (mixSs_transform d body hm.2.2.1))
          (hasMark_finish d _ _ (hasMarkSs_transform d body)) hsz
        have hf := exec_finish W hW d (markedSs body) body hm.2.2.1 id
        simp only [expandS, The.execS, Spec.The.execS, he d m hm.1 hm.2.1 (by omega), hent, hx, hf, assertFunc_eq]
        simp only [markedSs_eq body hm.2.2.1]
      | raises t m body =>
        simp only [MixS, sizeS] at hm hs
        have hent : ∀ vars : Vars V, enter vars (expandSs n d body) = enter vars body := by
          intro vars
          funext x
          simp only [enter, (assigned_expand n).2]
        simp only [expandS, The.execS, Spec.The.execS, he d t hm.1.1 hm.1.2 (by omega), he d m hm.2.1.1 hm.2.1.2 (by omega), hent,
          h2 _ d body hm.2.2.1 hm.2.2.2 (by omega), assertRaisesFunc_eq]
      | assert => simp only [MixS] at hm
      | assertRaises => simp only [MixS] at hm
    · cases ss with
      | nil => simp only [expandSs, The.exec, Spec.The.exec]
      | cons s ss =>
        simp only [MixSs, hasMarkSs, sizeSs, Bool.or_eq_false_iff] at hm hk hs
        simp only [expandSs, The.exec, Spec.The.exec, h1 _ d s hm.1 hk.1 (by omega)]
        refine bind_congr' _ fun r => ?_
        obtain ⟨vs, _ | v⟩ := r
        · exact h2 _ d ss hm.2 hk.2 (by omega) _
        · rfl
end

end Unpy.Proof.The
