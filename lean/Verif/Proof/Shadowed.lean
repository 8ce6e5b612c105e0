import Verif.Proof.Slices
import Verif.Model.Shadowed
import Verif.Spec.Shadowed
namespace Unpy.Shadowed
open Unpy Unpy.Slices Unpy.Spec.Slices Unpy.Spec.Shadowed
universe u
variable {α : Type u}

def SteadyS : Seq α → Prop
  | .base _ => True
  | .shadowInt s _ _ => SteadyS s
  | .shadowSlice s _ (.seq _) => SteadyS s
  | .shadowSlice _ _ _ => False

theorem normIdx_range {k : Int} {n : Nat} (h1 : -(n : Int) ≤ k) (h2 : k < n) : 0 ≤ normIdx k n ∧ normIdx k n < n := by
  unfold normIdx; split <;> omega

theorem getone_steady (s : Seq α) (hok : OK s) (hst : SteadyS s) (k : Int) (h1 : -(s.len : Int) ≤ k) (h2 : k < s.len) (cs : List Nat) :
    ∃ a, (s.getone k cs).1 = .ok a ∧ (den s)[(normIdx k s.len).toNat]? = some a := by
  have hnr := normIdx_range h1 h2
  induction s generalizing cs with
  | base l =>
    simp only [Seq.len] at h1 h2 hnr ⊢
    have hlt : (normIdx k l.length).toNat < l.length := by omega
    simp only [Seq.getone, List.getElem?_eq_getElem hlt]
    exact ⟨_, rfl, by simp [den, hlt]⟩
  | shadowInt s ix x ih =>
    simp only [Seq.len] at h1 h2 hnr ⊢
    obtain ⟨⟨h3, h4⟩, hok'⟩ := hok
    have hn : 0 < s.len := by omega
    have hin := inSlice_int (i := k) (k := ix) hn h1 (by omega) h3 (by omega)
    have hdl := den_length s
    simp only [Seq.getone, hin]
    by_cases he : normIdx k s.len = normIdx ix s.len
    · simp only [he, decide_true]
      refine ⟨x, rfl, ?_⟩
      simp only [den, Spec.Slices.apply, assignIndex, hdl]
      rw [List.getElem?_set_self (by rw [hdl]; omega)]
    · simp only [he, decide_false]
      obtain ⟨a, e1, e2⟩ := ih hok' hst h1 h2 cs.tail hnr
      rw [if_neg (by simp; omega)]
      refine ⟨a, e1, ?_⟩
      simp only [den, Spec.Slices.apply, assignIndex, hdl]
      have hnr2 := normIdx_range h3 h4
      rw [List.getElem?_set_ne (by omega), e2]
  | shadowSlice s sl v ih =>
    simp only [Seq.len] at h1 h2 hnr ⊢
    obtain ⟨⟨hacc, hen⟩, hok'⟩ := hok
    have hn : 0 < s.len := by omega
    obtain ⟨b, hb, hbm⟩ := inSlice_slice (i := k) hn hacc h1 h2
    simp only [Seq.getone, hb]
    have hdl := den_length s
    have hassign := assignSlice_getElem? (den s) sl hacc.1 (firstItems (sl.indices (den s).length).length v)
      (by rw [hdl]; exact Nat.le_of_eq (firstItems_length _ v _ hen).symm) (normIdx k s.len).toNat (by omega)
    have hcast : (((normIdx k s.len).toNat : Nat) : Int) = normIdx k s.len := Int.toNat_of_nonneg hnr.1
    rw [hcast] at hassign
    cases v with
    | item a => exact hst.elim
    | iter memo items => exact hst.elim
    | seq l =>
      cases b with
      | true =>
        obtain ⟨m, hm⟩ := List.mem_iff_getElem?.mp (hbm.mp rfl)
        have hmlt : m < (sl.indices s.len).length := by
          rcases Nat.lt_or_ge m (sl.indices s.len).length with h | h
          · exact h
          · rw [List.getElem?_eq_none h] at hm; simp at hm
        rw [indexNoCheck_spec hn hacc h1 h2 (m := m) hm]
        have hl : m < l.length := by have : (sl.indices s.len).length ≤ l.length := hen; omega
        simp only [readRepl]
        rw [if_neg (by omega)]
        simp only [Int.toNat_natCast, List.getElem?_eq_getElem hl]
        refine ⟨l[m], rfl, ?_⟩
        have := hassign.1 m (by rw [hdl]; exact hm)
        simp only [den, Spec.Slices.apply]
        rw [this, hdl]
        simp [firstItems, hmlt, hl]
      | false =>
        simp only
        obtain ⟨a, e1, e2⟩ := ih hok' hst h1 h2 cs.tail hnr
        rw [if_neg (by simp; omega)]
        refine ⟨a, e1, ?_⟩
        have hnm : normIdx k s.len ∉ sl.indices (den s).length := by rw [hdl]; intro h; exact absurd (hbm.mpr h) (by simp)
        have := hassign.2 hnm
        simp only [den, Spec.Slices.apply]
        rw [this, e2]

theorem shadows_steady (s s' : Seq α) (hst : SteadyS s) (us : List (Upd α)) (hu : ∀ u ∈ us, Steady u)
    (h : shadows s us = .ok s') : SteadyS s' := by
  induction us generalizing s with
  | nil => simp only [shadows, Except.ok.injEq] at h; rw [← h]; exact hst
  | cons u us ih =>
    simp only [shadows] at h
    have h1 := hu u (by simp)
    cases u with
    | int k a => exact ih (.shadowInt s k a) hst (fun u hu' => hu u (by simp [hu'])) h
    | slice sl v =>
      cases v with
      | seq l => exact ih (.shadowSlice s sl (.seq l)) hst (fun u hu' => hu u (by simp [hu'])) h
      | item a => exact h1.elim
      | iter m f => exact h1.elim

theorem itemsAt_steady (s : Seq α) (hok : OK s) (hst : SteadyS s) (js : List Int) (hj : ∀ j ∈ js, 0 ≤ j ∧ j < s.len) (cs : List Nat) :
    (itemsAt s js cs).1 = .ok (js.filterMap (fun j => (den s)[j.toNat]?)) := by
  induction js generalizing cs with
  | nil => rfl
  | cons j js ih =>
    obtain ⟨h0, h1⟩ := hj j (by simp)
    obtain ⟨a, e1, e2⟩ := getone_steady s hok hst j (by omega) h1 cs
    have hnorm : normIdx j s.len = j := by unfold normIdx; rw [if_neg (by omega)]
    rw [hnorm] at e2
    obtain ⟨r, cs', hr⟩ : ∃ r cs', s.getone j cs = (r, cs') := ⟨_, _, rfl⟩
    rw [hr] at e1
    simp only at e1
    subst e1
    have hi := ih (fun j hj' => hj j (by simp [hj'])) cs'
    obtain ⟨r2, cs2, hr2⟩ : ∃ r cs2, itemsAt s js cs' = (r, cs2) := ⟨_, _, rfl⟩
    rw [hr2] at hi
    simp only at hi
    simp only [itemsAt, hr, hr2, hi, List.filterMap_cons, e2]

end Unpy.Shadowed
