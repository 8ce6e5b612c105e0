import Verif.Spec.MacroUse
/-!
# C166: uses of macros are recognized by what they are bound to
-/
namespace Unpy.Props
open Unpy Unpy.MacroUse Unpy.MacroUse.Spec
variable {M : Type} [DecidableEq M]

private theorem nameOf_iff {E : Expander M} {m : M} {t : Tree} : (∃ x, nameOf E t = some x ∧ E.isbound x = some m) ↔ Refers E m t := by
  constructor
  · rintro ⟨x, hx, hb⟩
    cases t <;> simp only [nameOf, Option.some.injEq, reduceCtorEq] at hx
    · subst hx; exact .name hb
    · subst hx; exact .captured hb
  · rintro (h | h)
    · exact ⟨_, rfl, h⟩
    · exact ⟨_, rfl, h⟩

/-- C166: `m[body]` is recognized as a use of an expression macro, and its body found, exactly if what is before the bracket is bound to the macro, by whatever name, or is a capture of it.
(Missing: uses with macro arguments, see `C166_arguments_refuted`.) -/
theorem C166_expr_partial (E : Expander M) (m : M) (tree body : Tree) :
    exprMacro m E tree = some body ↔ ∃ t, Refers E m t ∧ tree = .subscript t body := by
  constructor
  · intro h
    cases tree <;> simp only [exprMacro, reduceCtorEq] at h
    rename_i t s
    split at h
    · rename_i x hx
      split at h
      · cases h; exact ⟨t, nameOf_iff.mp ⟨x, hx, by assumption⟩, rfl⟩
      · cases h
    · cases h
  · rintro ⟨t, ht, rfl⟩
    obtain ⟨x, hx, hb⟩ := nameOf_iff.mpr ht
    simp only [exprMacro, hx, hb, if_true]

/-- Macro 1 is bound to `local` and `l`, macro 2 to `delete`; the capture 0 is of macro 1. -/
private def demoExpander : Expander Nat where
  isbound x := if x = "local" ∨ x = "l" ∨ x = "_captured" then some 1 else if x = "delete" then some 2 else none
  lookup _ := "_captured"

example : Refers demoExpander 1 (.name "l") ∧ ¬ Refers demoExpander 1 (.name "delete") := by
  refine ⟨.name (by decide), ?_⟩
  rintro (h | h)
  exact absurd h (by decide)
example : exprMacro 1 demoExpander (.subscript (.captured 0) (.other 5)) = some (.other 5) := rfl
example : exprMacro 1 demoExpander (.subscript (.name "delete") (.other 5)) = none := rfl

/-- C166: `with m: …`, `with m[args]: …` and `with m(args): …` are recognized as uses of a block macro exactly if `m` is bound to it.
(Missing: other items than the first, see `C166_items_refuted`.) -/
theorem C166_block_partial (E : Expander M) (m : M) (tree : Tree) :
    blockMacro m E tree = true ↔ ∃ item others, Head E m item ∧ tree = .with_ item others := by
  have key : ∀ t, (match nameOf E t with | some x => decide (E.isbound x = some m) | none => false) = true ↔ Refers E m t := by
    intro t
    rw [← nameOf_iff]
    cases nameOf E t <;> simp
  constructor
  · intro h
    cases tree <;> simp only [blockMacro, Bool.false_eq_true] at h
    rename_i item others
    refine ⟨item, others, ?_, rfl⟩
    have h' := (key _).mp h
    cases item with
    | subscript v s => exact .brackets h'
    | call f => exact .parentheses h'
    | name x => exact .bare h'
    | captured k => exact .bare h'
    | «attribute» v x => exact .bare h'
    | with_ i o => exact .bare h'
    | other n => exact .bare h'
  · rintro ⟨item, others, hh, rfl⟩
    simp only [blockMacro]
    refine (key _).mpr ?_
    cases hh with
    | bare h => cases h with
      | name h => exact .name h
      | captured h => exact .captured h
    | brackets h => exact h
    | parentheses h => exact h

example : blockMacro 1 demoExpander (.with_ (.subscript (.name "l") (.other 3)) []) = true := rfl
example : blockMacro 1 demoExpander (.with_ (.name "delete") [.name "l"]) = false := rfl

/-- C166: importing the macros under other names, and using these, changes nothing. -/
theorem C166_rename (E E' : Expander M) (r : String → String) (h : Renamed r E E') (m : M) (tree : Tree) :
    exprMacro m E' (rename r tree) = (exprMacro m E tree).map (rename r) ∧ blockMacro m E' (rename r tree) = blockMacro m E tree := by
  have key : ∀ t, Refers E' m (rename r t) ↔ Refers E m t := by
    intro t
    constructor
    · intro ht
      cases t <;> simp only [rename] at ht <;> cases ht
      · rename_i hb; exact .name (by rw [← h.1]; exact hb)
      · rename_i hb; exact .captured (by rw [← h.2]; exact hb)
    · rintro (hb | hb)
      · rw [rename]; exact .name (by rw [h.1]; exact hb)
      · rw [rename]; exact .captured (by rw [h.2]; exact hb)
  constructor
  · apply Option.ext
    intro b
    rw [C166_expr_partial, Option.map_eq_some_iff]
    constructor
    · rintro ⟨t, ht, he⟩
      cases tree <;> simp only [rename, reduceCtorEq, Tree.subscript.injEq] at he
      rename_i v s
      obtain ⟨rfl, rfl⟩ := he
      exact ⟨s, (C166_expr_partial E m _ s).mpr ⟨v, (key v).mp ht, rfl⟩, rfl⟩
    · rintro ⟨s, hs, rfl⟩
      obtain ⟨t, ht, rfl⟩ := (C166_expr_partial E m _ s).mp hs
      exact ⟨rename r t, (key t).mpr ht, by rw [rename]⟩
  · rw [Bool.eq_iff_iff, C166_block_partial, C166_block_partial]
    constructor
    · rintro ⟨i, o, hi, he⟩
      cases tree <;> simp only [rename, reduceCtorEq, Tree.with_.injEq] at he
      rename_i item others
      obtain ⟨rfl, rfl⟩ := he
      refine ⟨item, others, ?_, rfl⟩
      generalize ht : rename r item = t at hi
      cases hi with
      | bare hb => subst ht; exact .bare ((key _).mp hb)
      | brackets hb =>
        cases item <;> simp only [rename, reduceCtorEq, Tree.subscript.injEq] at ht
        exact .brackets ((key _).mp (ht.1 ▸ hb))
      | parentheses hb =>
        cases item <;> simp only [rename, reduceCtorEq, Tree.call.injEq] at ht
        exact .parentheses ((key _).mp (ht ▸ hb))
    · rintro ⟨i, o, hi, rfl⟩
      refine ⟨rename r i, o.map (rename r), ?_, by rw [rename]⟩
      cases hi with
      | bare hb => exact .bare ((key _).mpr hb)
      | brackets hb => rw [rename]; exact .brackets ((key _).mpr hb)
      | parentheses hb => rw [rename]; exact .parentheses ((key _).mpr hb)

example : Renamed (fun x => x ++ "_") demoExpander ⟨fun x => if x = "local_" ∨ x = "l_" ∨ x = "_captured_" then some 1 else if x = "delete_" then some 2 else none, fun _ => "l_"⟩ := by
  have inj : ∀ x y : String, x ++ "_" = y ++ "_" ↔ x = y := fun x y => ⟨fun h => by simpa using h, fun h => by rw [h]⟩
  refine ⟨fun x => ?_, fun _ => rfl⟩
  simp only [demoExpander, show "local_" = "local" ++ "_" from rfl, show "l_" = "l" ++ "_" from rfl, show "_captured_" = "_captured" ++ "_" from rfl, show "delete_" = "delete" ++ "_" from rfl, inj]

/-- C166, refuted for macro arguments: `m[args][body]` is not recognized as a use of `m`, whatever it is bound to; nor is `module.m[body]`. -/
theorem C166_arguments_refuted (E : Expander M) (m : M) (t args body : Tree) (x : String) :
    exprMacro m E (.subscript (.subscript t args) body) = none ∧ exprMacro m E (.subscript (.attribute t x) body) = none := ⟨rfl, rfl⟩

/-- C166, refuted for several macros in the same `with`: only the first is recognized, though it would be if it were in a `with` of its own. -/
theorem C166_items_refuted : ∃ (E : Expander Nat) (a b : Tree), blockMacro 1 E (.with_ b []) = true ∧ blockMacro 1 E (.with_ b [a]) = true ∧ blockMacro 1 E (.with_ a [b]) = false :=
  ⟨demoExpander, .name "delete", .name "l", rfl, rfl, rfl⟩

/-- C166, refuted for the test macros: they are recognized by the names they have in the library, whatever these are bound to.  So a test macro imported under another name is not recognized, and
a subscript of a variable that has one of their names is. -/
theorem C166_test_refuted (t body : Tree) (x : String) :
    (testMacro (.subscript (.name x) body) = true ↔ x ∈ testMacros) ∧ testMacro (.subscript (.captured 0) body) = false ∧
    testMacro (.subscript (.name "t") body) = false ∧ testMacro (.subscript (.name "test") t) = true := by
  refine ⟨by simp [testMacro, asserters, testMacros], rfl, rfl, rfl⟩

end Unpy.Props
