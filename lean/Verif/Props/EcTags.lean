import Verif.Model.EcTags
import Verif.Spec.Ec
/-! C41, tags that have no hash value -/
namespace Unpy.Props
open Unpy Unpy.Ec Unpy.Spec.Ec
open Unpy.Fold (Err)
variable {ε T V : Type} [DecidableEq T]

/-- C41: as long as all tags have a hash value, what a catch point catches is what the table of the documentation says; everything else passes.
(Missing: tags without hash value, see `C41_unhashable_refuted`.) -/
theorem C41_tags_partial (hashable : T → Bool) (tags : Option (List T)) (cu : Bool) (v : V) (tag : Option T) (a : Bool)
    (ht : ∀ ts ∈ tags, ∀ t ∈ ts, hashable t = true) (hg : ∀ t ∈ tag, hashable t = true) :
    (Catches (tags.map (·.map .user)) cu (tag.map .user) a → EcTags.callCatch hashable tags cu (.error (.escape v (tag.map .user) a) : Except (Exc ε T V) V) = .ok v) ∧
    (¬ Catches (tags.map (·.map .user)) cu (tag.map .user) a →
      EcTags.callCatch hashable tags cu (.error (.escape v (tag.map .user) a) : Except (Exc ε T V) V) = .error (.escape v (tag.map .user) a)) := by
  have hm : EcTags.makeTags hashable tags = .ok tags := by
    cases tags with
    | none => rfl
    | some ts => simp only [EcTags.makeTags]; rw [if_pos (List.all_eq_true.mpr (ht ts rfl))]
  have hs : ∃ b, EcTags.shouldcatch hashable tags cu tag a = .ok b ∧ (b = true ↔ Catches (tags.map (·.map .user)) cu (tag.map .user) a) := by
    cases tags <;> cases tag <;> cases cu <;> cases a <;> simp_all [EcTags.shouldcatch, Catches, table]
  obtain ⟨b, hb, hc⟩ := hs
  rw [← hc]
  cases tag with
  | none => cases b <;> simp [EcTags.callCatch, hm, EcTags.catchpoint, hb]
  | some t => cases b <;> simp [EcTags.callCatch, hm, EcTags.catchpoint, hb]

/-- C41: with no throw, a catch point whose tags have hash values is transparent. -/
theorem C41_tags_no_throw (hashable : T → Bool) (tags : Option (List T)) (cu : Bool) (ht : ∀ ts ∈ tags, ∀ t ∈ ts, hashable t = true) :
    (∀ v : V, EcTags.callCatch hashable tags cu (.ok v : Except (Exc ε T V) V) = .ok v) ∧
    (∀ e, EcTags.callCatch hashable tags cu (.error (.err e) : Except (Exc ε T V) V) = .error (.err e)) := by
  have hm : EcTags.makeTags hashable tags = .ok tags := by
    cases tags with
    | none => rfl
    | some ts => simp only [EcTags.makeTags]; rw [if_pos (List.all_eq_true.mpr (ht ts rfl))]
  exact ⟨fun v => by simp [EcTags.callCatch, hm, EcTags.catchpoint], fun e => by simp [EcTags.callCatch, hm, EcTags.catchpoint]⟩

/-- C41 refuted for tags that have no hash value, such as lists, although the documentation asks only that tags can be compared: a `@catch` with such a tag raises TypeError when the function
is defined; and a throw with such a tag becomes a TypeError at the first catch point with tags that it passes, so the catch point for it further out, here one for everything, does not get it. -/
theorem C41_unhashable_refuted (hashable : T → Bool) (t : T) (ht : hashable t = false) (ts us : List T) (hts : ∀ t ∈ ts, hashable t = true) (cu : Bool) (v : V) :
    (∀ out : Except (Exc ε T V) V, t ∈ us → EcTags.callCatch hashable (some us) cu out = .error (.err (.py .TypeError))) ∧
    Catches (none : Option (List (Tag T))) true (some (.user t)) true ∧
    EcTags.callCatch hashable none true (EcTags.callCatch hashable (some ts) cu (.error (.escape v (some (.user t)) true) : Except (Exc ε T V) V)) = .error (.err (.py .TypeError)) := by
  refine ⟨fun out hu => ?_, by simp [Catches, table], ?_⟩
  · have : us.all hashable = false := by
      rw [List.all_eq_false]; exact ⟨t, hu, by simp [ht]⟩
    simp [EcTags.callCatch, EcTags.makeTags, this]
  · have : ts.all hashable = true := List.all_eq_true.mpr hts
    simp [EcTags.callCatch, EcTags.makeTags, this, EcTags.catchpoint, EcTags.shouldcatch, ht]

-- tags 0, 1, ... have a hash value, other than 7
example : EcTags.callCatch (fun t : Nat => t ≠ 7) (some [1, 2]) false (.error (.escape 5 (some (.user 2)) false) : Except (Exc Empty Nat Nat) Nat) = .ok 5 :=
  (C41_tags_partial (fun t => decide (t ≠ 7)) (some [1, 2]) false 5 (some 2) false (by simp) (by simp)).1 (by simp [Catches, table])
example : EcTags.callCatch (fun t : Nat => t ≠ 7) none true (EcTags.callCatch (fun t => t ≠ 7) (some [1]) true (.error (.escape 5 (some (.user 7)) true) : Except (Exc Empty Nat Nat) Nat)) =
    .error (.err (.py .TypeError)) :=
  (C41_unhashable_refuted (fun t : Nat => decide (t ≠ 7)) 7 (by simp) [1] [7] (by simp) true 5).2.2

end Unpy.Props
