import Verif.Spec.Namelambda
namespace Unpy.Namelambda.Lemmas
open Unpy.Namelambda Unpy.Namelambda.Spec

theorem beforeDot_none : {t : Text} → '.' ∉ t → beforeDot t = none
  | [], _ => rfl
  | c :: cs, h => by
    simp only [List.mem_cons, not_or] at h
    simp only [beforeDot, beforeDot_none h.2]
    rw [if_neg (fun h' => h.1 h'.symm)]

theorem beforeDot_append (n : Text) (hn : '.' ∉ n) : (s : Text) → beforeDot (s ++ '.' :: n) = some s
  | [] => by simp only [List.nil_append, beforeDot, beforeDot_none hn, if_true]
  | c :: s => by simp only [List.cons_append, beforeDot, beforeDot_append n hn s]

theorem requal_scope {s : Text} (hs : Scope s) (n t : Text) (hn : '.' ∉ n) : requal (s ++ n) t = s ++ t := by
  unfold requal
  rcases hs with rfl | ⟨s, rfl⟩
  · simp [beforeDot_none hn]
  · simp [beforeDot_append n hn s]

theorem rename_fn (t : Text) (i : Nat) (h : List Fn) : rename (.str t) (.fn i) h =
    (.ok (.fn i), h.modify i fun f => { f with name := t, qual := requal f.qual t, coName := t }) := rfl

theorem renames_eq {s : Text} (hs : Scope s) (i c : Nat) : (ts : List Text) → (n : Text) → (h : List Fn) →
    h[i]? = some (function s n c) → (∀ t ∈ (n :: ts).dropLast, '.' ∉ t) →
    ∃ h', renames ts (.fn i) h = (.ok (.fn i), h') ∧ h'[i]? = some (function s ((n :: ts).getLast (by simp)) c) ∧
      ∀ j, j ≠ i → h'[j]? = h[j]?
  | [], n, h, hi, _ => ⟨h, rfl, hi, fun _ _ => rfl⟩
  | t :: ts, n, h, hi, hd => by
    have hn : '.' ∉ n := hd n (by simp [List.dropLast])
    obtain ⟨h', h1, h2, h3⟩ := renames_eq hs i c ts t
      (h.modify i fun f => { f with name := t, qual := requal f.qual t, coName := t })
      (by simp [List.getElem?_modify, hi, function, requal_scope hs n t hn])
      (fun u hu => hd u (by simp only [List.dropLast_cons₂]; exact List.mem_cons_of_mem _ hu))
    refine ⟨h', ?_, by simpa using h2, fun j hj => ?_⟩
    · simp only [renames, rename_fn, h1]
    · rw [h3 j hj, List.getElem?_modify]; simp [hj.symm]

end Unpy.Namelambda.Lemmas
