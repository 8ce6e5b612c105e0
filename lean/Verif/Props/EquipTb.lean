import Verif.Spec.EquipTb
/-!
# C144: tracebacks of exceptions that are not raised
-/
namespace Unpy.Props
open Unpy Unpy.EquipTb Unpy.EquipTb.Spec
variable {F E : Type}

private theorem frames_drop (stack : List F) (d : Nat) : EquipTb.frames stack d = stack.drop d := by
  rw [EquipTb.frames]
  split
  · rename_i h
    rw [List.drop_eq_nil_of_le (List.getElem?_eq_none_iff.mp h)]
  · rename_i f h
    rw [frames_drop stack (d + 1)]
    obtain ⟨hd, rfl⟩ := List.getElem?_eq_some_iff.mp h
    exact (List.drop_eq_getElem_cons hd).symm
termination_by stack.length - d
decreasing_by
  rename_i f h
  have := (List.getElem?_eq_some_iff.mp h).1
  omega

private theorem shown_cons (nxt : Option (Tb F)) (f : F) : shown (some (Tb.mk nxt f)) = f :: shown nxt := by
  cases nxt <;> simp [shown, shownTb]

private theorem makeTbs_last : (fs : List F) → (nxt : Option (Tb F)) → (tbs : List (Tb F)) → tbs.getLast? = nxt → shown (makeTbs fs nxt tbs).getLast? = fs.reverse ++ shown nxt
  | [], nxt, tbs, h => by simp [makeTbs, h]
  | f :: fs, nxt, tbs, h => by
    rw [makeTbs, makeTbs_last fs _ _ (by simp), shown_cons]
    simp

private theorem shown_nil {tb : Option (Tb F)} (h : shown tb = []) : tb = none := by
  cases tb with
  | none => rfl
  | some tb => cases tb with
    | mk n f => rw [shown_cons] at h; cases h

/-- C144: for every call stack and every stacklevel, the exception is returned, and its traceback shows the frames from the root down to the one that lies so many levels below the top, each once and in order, most recent call last.  If
there are none, the traceback is None.  No other exception gets another traceback. -/
theorem C144_equip [DecidableEq E] (stack : List F) (e : E) (n : Nat) (w : World F E) :
    let r := equip stack (.exc e) (.int n) w
    r.1 = .ok e ∧ shown (r.2 e) = (stack.drop n).reverse ∧ (stack.length ≤ n → r.2 e = none) ∧ ∀ x, x ≠ e → r.2 x = w x := by
  have hn : ¬ (n : Int) < 0 := by omega
  have hs : shown (makeTbs (EquipTb.frames stack n) none []).getLast? = (stack.drop n).reverse := by
    rw [makeTbs_last _ none [] rfl, frames_drop]
    simp [shown]
  simp only [equip, if_neg hn, withTraceback, Int.toNat_natCast, if_true]
  refine ⟨trivial, hs, fun hl => ?_, fun x hx => by rw [if_neg hx]⟩
  rw [List.drop_eq_nil_of_le hl] at hs
  exact shown_nil hs

/-- C144: what is not an exception instance, or a stacklevel that is not an int, is a TypeError; a negative stacklevel is a ValueError; and no traceback changes. -/
theorem C144_refused [DecidableEq E] (stack : List F) (w : World F E) :
    (∀ l, equip stack .other l w = (.error .TypeError, w)) ∧ (∀ e, equip stack (.exc e) .other w = (.error .TypeError, w)) ∧
    ∀ e n, n < 0 → equip stack (.exc e) (.int n) w = (.error .ValueError, w) :=
  ⟨fun _ => rfl, fun _ => rfl, fun e n hn => by simp [equip, hn]⟩

/-- C144: the traceback of a signalled condition ends, as that of a raised exception would, in the function that called `signal`; the internals of `signal` are not shown.  After `error`, `cerror` and `warn`, the user's frames come first, and
then those of these functions. -/
theorem C144_signal [DecidableEq E] (lib : String → F) (user : List F) (e : E) (w : World F E) :
    shown (signalled lib .signal user e w e) = user.reverse ∧
    shown (signalled lib .error user e w e) = user.reverse ++ [lib "error", lib "_error"] ∧
    shown (signalled lib .cerror user e w e) = user.reverse ++ [lib "cerror", lib "_error"] ∧
    shown (signalled lib .warn user e w e) = user.reverse ++ [lib "warn"] := by
  have h (c : Caller) : shown (signalled lib c user e w e) = (c.frames lib ++ user).reverse := (C144_equip _ e 3 w).2.1
  refine ⟨?_, ?_, ?_, ?_⟩ <;> rw [h] <;> simp [Caller.frames]

/-! ## examples -/

private def noTb : World String Nat := fun _ => none
example : shown ((equip ["equip", "f", "g", "main"] (.exc 3) (.int 1) noTb).2 3) = ["main", "g", "f"] := (C144_equip _ 3 1 noTb).2.1
example : (equip ["equip", "f", "g", "main"] (.exc 3) (.int 4) noTb).2 3 = none := (C144_equip _ 3 4 noTb).2.2.1 (by decide)
example : shown (signalled id .error ["f", "main"] 3 noTb 3) = ["main", "f", "error", "_error"] := (C144_signal id ["f", "main"] 3 noTb).2.1

end Unpy.Props
