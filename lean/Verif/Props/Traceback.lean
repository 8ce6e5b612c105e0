import Verif.Model.Traceback
/-! # C124: a manually made traceback -/
namespace Unpy.Props
open Unpy.Traceback

/-- What Python prints of a traceback, from the first line to the last: the frame and line of each entry, following `tb_next` -/
def tbEntries : Tb Frame → List (Frame × Nat × Nat)
  | .mk next f lasti lineno => (f, lasti, lineno) :: match next with
    | none => []
    | some tb => tbEntries tb

private theorem collect_eq (stack : List Frame) (depth : Nat) (frames : List Frame) : collect stack depth frames = frames ++ stack.drop depth := by
  fun_induction collect stack depth frames with
  | case1 depth frames h ih => rw [ih, List.drop_eq_getElem_cons h]; simp
  | case2 depth frames h f hf =>
    have : stack[depth]? = none := by simp; omega
    simp [getframe, this] at hf
  | case3 depth frames h e hf => rw [List.drop_eq_nil_of_le (by omega)]; simp

private def nextEntries : Option (Tb Frame) → List (Frame × Nat × Nat)
  | none => []
  | some tb => tbEntries tb

private theorem chain_last (frames : List Frame) (nxt : Option (Tb Frame)) (tbs : List (Tb Frame)) (h : tbs.getLast? = nxt) :
    nextEntries (chain frames nxt tbs).getLast? = (frames.map (fun f => (f, f.lasti, f.lineno))).reverse ++ nextEntries nxt := by
  induction frames generalizing nxt tbs with
  | nil => simp [chain, h]
  | cons f frames ih =>
    rw [chain, ih _ _ (by simp)]
    simp [nextEntries, tbEntries]
    cases nxt <;> rfl

/-- C124: the traceback shows the call stack, from the root to the function `stacklevel` levels above `equip_with_traceback` itself, each function at the line it has reached.  There is none if there are not so many levels. -/
theorem C124_traceback (stack : List Frame) (level : Nat) :
    ∃ tb, equip true stack (.int level) = .ok tb ∧ (tb = none ↔ stack.length ≤ level) ∧
      ∀ t, tb = some t → tbEntries t = (stack.drop level).reverse.map (fun f => (f, f.lasti, f.lineno)) := by
  refine ⟨_, by simp only [equip, Bool.not_true, Bool.false_eq_true, if_false]; rw [if_neg (by omega)], ?_, ?_⟩
  · have h := chain_last (collect stack (level : Int).toNat []) none [] rfl
    rw [collect_eq] at h ⊢
    simp only [Int.toNat_natCast, List.nil_append, nextEntries, List.append_nil] at h ⊢
    constructor
    · intro hn
      rw [hn] at h
      have := congrArg List.length h
      simp at this
      omega
    · intro hle
      rw [List.drop_eq_nil_of_le hle]; rfl
  · intro t ht
    have h := chain_last (collect stack (level : Int).toNat []) none [] rfl
    rw [ht, collect_eq] at h
    simpa [nextEntries] using h

/-- C124: for something that is not an exception, or a level that is not an integer, there is a TypeError; for a negative level, a ValueError. -/
theorem C124_errors (stack : List Frame) (isExc : Bool) (n : Int) (hn : n < 0) :
    equip false stack (.int n) = .error .TypeError ∧ equip isExc stack .other = .error .TypeError ∧ equip true stack (.int n) = .error .ValueError := by
  simp [equip, hn]

/-- C124: and for something that is not an exception, whatever the level is. -/
theorem C124_not_exception (stack : List Frame) (l : Level) : equip false stack l = .error .TypeError := by
  cases l <;> rfl

/-- C124: a signaled condition has a traceback like that of a raised exception: from the root to the caller of `signal`, without the internals of `signal`. -/
theorem C124_signal (a b c : Frame) (stack : List Frame) (h : stack ≠ []) :
    ∃ t, signalTraceback a b c stack = .ok (some t) ∧ tbEntries t = stack.reverse.map (fun f => (f, f.lasti, f.lineno)) := by
  obtain ⟨tb, h1, h2, h3⟩ := C124_traceback (a :: b :: c :: stack) 3
  cases tb with
  | none =>
    have := h2.1 rfl
    have hl : 0 < stack.length := List.length_pos_iff.2 h
    simp only [List.length_cons] at this
    omega
  | some t => exact ⟨t, h1, by simpa using h3 t rfl⟩

-- the caller, its caller and the main program
example : ∃ t, equip true [⟨0, 1, 10⟩, ⟨1, 2, 20⟩, ⟨2, 3, 30⟩] (.int 1) = .ok (some t) ∧ tbEntries t = [(⟨2, 3, 30⟩, 3, 30), (⟨1, 2, 20⟩, 2, 20)] := by
  simp [equip, collect, chain, tbEntries, getframe]

end Unpy.Props
