import Verif.Spec.Doc
/-!
# Property C167: `doc` prints where an object is defined, and its docstring
-/
namespace Unpy.Props
open Unpy.Doc Unpy.Doc.Spec
variable {O : Type}

private theorem doc_skip {w : World O} {x : O} (xs : List O) (h : Unknown w x) : search w (x :: xs) = search w xs := by
  rcases h with (h | h) | ⟨⟨f, hf⟩, h | h⟩ <;> simp [search, *]

private theorem doc_found {w : World O} {x : O} (xs : List O) {file : String} {line : Nat} (h : Known w x file line) :
    ∃ src, search w (x :: xs) = .ok (some file, src, line) := by
  obtain ⟨hf, src, hs⟩ := h
  exact ⟨src, by simp [search, hf, hs]⟩

private theorem doc_shown {w : World O} {obj : O} {t : String} (h : Shown w obj t) : docstring w obj = ([t], .returns) := by
  rcases h with ⟨s, ⟨h1, h2⟩, rfl⟩ | ⟨h | h | h, rfl⟩ <;> simp [docstring, *]

/-- C167: `doc` of an object whose source is known prints the file and the first line of its definition, and then its docstring, formatted, or that there is none. -/
theorem C167_known (w : World O) (obj : O) (file : String) (line : Nat) (t : String) (h : Known w obj file line) (ht : Shown w obj t) :
    doc w obj = ([file ++ ":" ++ toString line, t], .returns) := by
  obtain ⟨src, hs⟩ := doc_found [w.cls obj] h
  simp [doc, getSource, hs, doc_shown ht, place]

example : doc demo 0 = (["a.py:7", "Do."], .returns) :=
  C167_known demo 0 "a.py" 7 "Do." ⟨rfl, _, rfl⟩ (.inl ⟨" Do.", ⟨rfl, by decide⟩, by decide⟩)

/-- C167: if its source is not known, as for instances, the place of its class is printed, if that is known, and then the docstring of the object.
(Missing: the place may then be of no use, see `C167_metaclass_refuted`.) -/
theorem C167_instance_partial (w : World O) (obj : O) (file : String) (line : Nat) (t : String) (h : Unknown w obj) (hc : Known w (w.cls obj) file line) (ht : Shown w obj t) :
    doc w obj = ([file ++ ":" ++ toString line, t], .returns) := by
  obtain ⟨src, hs⟩ := doc_found [] hc
  simp [doc, getSource, doc_skip _ h, hs, doc_shown ht, place]

example : doc demo 1 = (["b.py:3", "Text"], .returns) :=
  C167_instance_partial demo 1 "b.py" 3 "Text" (.inl (.inl rfl)) ⟨rfl, _, rfl⟩ (.inl ⟨"Text", ⟨rfl, by decide⟩, by decide⟩)

/-- C167: if neither is known, no place is printed, just the docstring, or that there is none. -/
theorem C167_unknown (w : World O) (obj : O) (t : String) (h : Unknown w obj) (hc : Unknown w (w.cls obj)) (ht : Shown w obj t) :
    doc w obj = ([t], .returns) := by
  rw [doc, getSource, doc_skip _ h, doc_skip _ hc]
  simp [search, doc_shown ht]

example : doc demo 3 = (["<no docstring>"], .returns) :=
  C167_unknown demo 3 _ (.inl (.inl rfl)) (.inl (.inl rfl)) (.inr ⟨.inr (.inl rfl), rfl⟩)

-- an object without the attribute
example : doc demo 6 = (["<no docstring>"], .returns) :=
  C167_unknown demo 6 _ (.inl (.inl rfl)) (.inl (.inl rfl)) (.inr ⟨.inl rfl, rfl⟩)

/-- C167: `doc` never fails for an object that has a docstring or none, if the source of the object and of its class are known or not known; what it prints last is the docstring, or that there is none,
and at most one line, the place, comes before.
(Missing: other values of `__doc__`, see `C167_docstring_refuted`.) -/
theorem C167_returns_partial (w : World O) (obj : O) (t : String) (h : ∀ x, Unknown w x ∨ ∃ f n, Known w x f n) (ht : Shown w obj t) :
    ∃ before, doc w obj = (before ++ [t], .returns) ∧ before.length ≤ 1 := by
  rcases h obj with h1 | ⟨f, n, h1⟩
  · rcases h (w.cls obj) with h2 | ⟨f, n, h2⟩
    · exact ⟨[], C167_unknown w obj t h1 h2 ht, by simp⟩
    · exact ⟨[_], C167_instance_partial w obj f n t h1 h2 ht, by simp⟩
  · exact ⟨[_], C167_known w obj f n t h1 ht, by simp⟩

example : ∃ before, doc demo 4 = (before ++ ["Text"], .returns) ∧ before.length ≤ 1 := by
  refine C167_returns_partial demo 4 "Text" (fun x => ?_) (.inl ⟨"Text", ⟨rfl, by decide⟩, by decide⟩)
  by_cases h0 : x = 0
  · subst h0; exact .inr ⟨"a.py", 7, rfl, _, rfl⟩
  by_cases h2 : x = 2
  · subst h2; exact .inr ⟨"b.py", 3, rfl, _, rfl⟩
  by_cases h4 : x = 4
  · subst h4; exact .inl (.inr ⟨⟨none, rfl⟩, .inr rfl⟩)
  · exact .inl (.inl (.inl (by simp [demo, h0, h2, h4])))

/-- C167, refuted for classes whose source is not known (as those made by calling a metaclass in a session): the place printed is that of the metaclass, if this one is known, as if the class were defined there. -/
theorem C167_metaclass_refuted : Unknown demo 4 ∧ doc demo 4 = (["b.py:3", "Text"], .returns) :=
  ⟨.inr ⟨⟨none, rfl⟩, .inr rfl⟩, by decide +kernel⟩

/-- C167, refuted for objects whose `__doc__` is not a string (any object may be assigned to it), but counts as true: then `doc` raises AttributeError, and no docstring is printed. -/
theorem C167_docstring_refuted (w : World O) (obj : O) (h : Unknown w obj) (hc : Unknown w (w.cls obj)) (hd : w.docAttr obj = some (.other true)) :
    doc w obj = ([], .notString) := by
  rw [doc, getSource, doc_skip _ h, doc_skip _ hc]
  simp [search, docstring, hd]

example : doc demo 5 = ([], .notString) := C167_docstring_refuted demo 5 (.inl (.inl rfl)) (.inl (.inl rfl)) rfl

end Unpy.Props
