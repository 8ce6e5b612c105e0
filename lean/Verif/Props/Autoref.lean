import Verif.Proof.Autoref
/-!
# C100: names in a `with autoref` block are attributes of its object
-/
namespace Unpy.Props
open Unpy.Autoref Unpy.Autoref.Lemmas

/-- What the expanded program does, from the start: how it ends, and all one sees afterwards. -/
def c100Code (n : Nat) (w : Spec.World) (ss : List S) :=
  let r := execTs n (expandSs ss) (w.start V.int V.obj)
  (r.1, Spec.seen Spec.seenV r.2)

/-- What it should do. -/
def c100Spec (careful : Bool) (n : Nat) (w : Spec.World) (ss : List S) :=
  let r := Spec.execs careful n [] ss (w.start Spec.RV.int Spec.RV.obj)
  (r.1, Spec.seen Spec.seenRV r.2)

/-- C100, partial.  A program with `with autoref` blocks, nested in any way, does what it does if each name that is read is the attribute
of the innermost object around that has one, at the time, and else the variable: it ends in the same way, with the same output, the same
variables and the same objects.  The expression for the object is evaluated once, and assignments and deletions are not redirected.

What is missing: runs where the careful specification stops, namely where an object has an attribute with a name that the macro never
looks up, where a name is a property, where a name in the key of a target is an attribute, where a function is called after the variable
made for a block around it holds something else, and where the object of an inner block is computed from a name that its as-part gives;
see the refutations. -/
theorem C100_autoref_partial (n : Nat) (w : Spec.World) (ss : List S) (h : (c100Spec true n w ss).1 ≠ .error .stopped) :
    c100Code n w ss = c100Spec false n w ss := by
  unfold c100Code c100Spec at *
  simp only at h ⊢
  rw [expands_eq]
  have h1 := execs_sim n [] ss _ _ (start_rel w)
  have h2 := (execs_le n [] ss (w.start Spec.RV.int Spec.RV.obj)).resolve_left h
  rw [h2]
  simp only [List.map_nil] at h1
  revert h1 h
  match Spec.execs true n [] ss (w.start Spec.RV.int Spec.RV.obj) with
  | (.ok (), t') =>
    rintro - ⟨a, t, hm, -, ht⟩
    rw [hm]
    simp only [seen_rel ht]
  | (.error e, t') =>
    intro h h1
    obtain ⟨t, hm, ht⟩ := h1 (fun he => h (by rw [he]))
    rw [hm]
    simp only [seen_rel ht]

/-- C100, plain programs.  If no block has an as-part, no object has properties, no name is one of those that the macro never looks up,
nothing is called, and keys in targets are numbers, then the program does what it should, whatever it is. -/
theorem C100_plain (n : Nat) (w : Spec.World) (ss : List S) (hw : ∀ o ∈ w.heap, o.2.1 = []) (hs : Spec.PlainSs [] ss) :
    c100Code n w ss = c100Spec false n w ss :=
  C100_autoref_partial n w ss
    ((execs_free n [] [] (by simp) ss hs _ ⟨start_noprop w hw, by simp [Held]⟩).1)

/-! ## Cases -/

private def nm (x : String) : S := .expr (.name x)

/-- Variables `o`, `p`, `d` for three objects, `x` and `k`; `o` has `a`, `b` and `k`, `p` has `b`, and `d` is empty but for an item. -/
def c100World : Spec.World where
  vars := [("o", .obj 0), ("p", .obj 1), ("d", .obj 2), ("x", .int 5), ("k", .int 1)]
  heap := [([("a", .int 10), ("b", .int 11), ("k", .int 2)], [], []), ([("b", .int 21)], [], []), ([], [], [(3, .int 30)])]

/-- `with autoref[o]: a; x; with autoref[p]: a; b; x = b; x` and, after the blocks, `x`. -/
def c100Nested : List S :=
  [.autoref 0 none (.name "o")
    [nm "a", nm "x",
      .autoref 1 none (.name "p") [nm "a", nm "b", .assign (.name (.user "x")) (.name "b"), nm "x",
        .assign (.attr "p" "x") (.int 7), nm "x", .expr (.item (.name "d") (.int 3))]],
    nm "x"]

example : Spec.PlainSs [] c100Nested := by
  simp only [c100Nested, nm, Spec.PlainSs, Spec.PlainS, Spec.PlainE, Spec.PlainTarget, and_true, true_and, List.mem_nil_iff, not_false_eq_true]
  decide +kernel

example : (c100Code 9 c100World c100Nested).2.2.2.reverse = [some 10, some 5, some 10, some 21, some 21, some 7, some 30, some 21] := by
  decide +kernel

example : (c100Code 9 c100World c100Nested).1 = .ok () := rfl

/-- `with autoref[o] as q: q.a; (lambda x: b)(1); d[x] = 1`: not plain, yet nothing stops. -/
def c100Named : List S :=
  [.autoref 0 (some "q") (.name "o")
    [.expr (.attr (.name "q") "a"), .expr (.call (.lam "x" (.name "b")) (.int 1)), .assign (.item "d" (.name "x")) (.int 1),
      .assign (.name (.user "q")) (.name "p"), nm "b", .del "q", nm "b"]]

example : (c100Spec true 9 c100World c100Named).1 = .error .name := rfl
example : (c100Code 9 c100World c100Named).2.2.2.reverse = [some 10, some 11, some 21] := by decide +kernel

/-- C100, refuted for keys: in `d[k] = 5` the key is not looked up in the object, though it is read; `autoref` skips all of the target. -/
theorem C100_key_refuted : ∃ ss,
    ss = [.autoref 0 none (.name "o") [nm "k", .assign (.item "d" (.name "k")) (.int 5), .expr (.item (.name "d") (.name "k"))]] ∧
    (c100Spec false 9 c100World ss).1 = .ok () ∧ (c100Code 9 c100World ss).1 = .error .key :=
  ⟨_, rfl, rfl, rfl⟩

/-- C100, refuted for the names on the list: an attribute of the object named as one of the helpers of other macros, such as `lazy` or
`curry`, is never found. -/
theorem C100_skipped_refuted : ∃ w ss,
    w = ({ vars := [("o", .obj 0), ("lazy", .int 1)], heap := [([("lazy", .int 2)], [], [])] } : Spec.World) ∧
    ss = [.autoref 0 none (.name "o") [nm "lazy"]] ∧
    (c100Spec false 9 w ss).2.2.2 = [some 2] ∧ (c100Code 9 w ss).2.2.2 = [some 1] :=
  ⟨_, _, rfl, rfl, by decide +kernel, by decide +kernel⟩

/-- C100, refuted for properties: a name that is a property of the object evaluates it twice, first for `hasattr`. -/
theorem C100_property_refuted : ∃ w ss,
    w = ({ vars := [("o", .obj 0)], heap := [([], ["f"], [])] } : Spec.World) ∧
    ss = [.autoref 0 none (.name "o") [nm "f", nm "f"]] ∧
    (c100Spec false 9 w ss).2.2.2.reverse = [some 0, some 1] ∧ (c100Code 9 w ss).2.2.2.reverse = [some 1, some 3] :=
  ⟨_, _, rfl, rfl, by decide +kernel, by decide +kernel⟩

/-- C100, refuted for functions in loops: a block in a loop has one variable, so a function made in it refers to the object of the last
round, not to that of the round that made it.  Here each of two objects is given a function `f` made in a block for it; the `f` of the
first then returns the `b` of the second. -/
theorem C100_loop_refuted : ∃ w ss,
    w = ({ vars := [("o", .obj 0)], heap := [([("b", .int 1), ("next", .obj 1)], [], []), ([("b", .int 2), ("next", .obj 0)], [], [])] } : Spec.World) ∧
    ss = [.repeat 2 [.autoref 0 none (.name "o") [.assign (.attr "o" "f") (.lam "x" (.name "b"))], .assign (.name (.user "o")) (.attr (.name "o") "next")],
      .expr (.call (.attr (.name "o") "f") (.int 0))] ∧
    (c100Spec false 9 w ss).2.2.2 = [some 1] ∧ (c100Code 9 w ss).2.2.2 = [some 2] :=
  ⟨_, _, rfl, rfl, by decide +kernel, by decide +kernel⟩

/-- C100, refuted for an object computed from the name it is given: in `with autoref[o]:`, the `p` in brackets of `with autoref[p] as p:`
is not looked up in `o`, though it is read before the inner block begins. -/
theorem C100_own_name_refuted : ∃ w ss,
    w = ({ vars := [("o", .obj 0), ("p", .obj 1)], heap := [([("p", .obj 2)], [], []), ([("a", .int 1)], [], []), ([("a", .int 2)], [], [])] } : Spec.World) ∧
    ss = [.autoref 0 none (.name "o") [.autoref 1 (some "p") (.name "p") [nm "a"]]] ∧
    (c100Spec false 9 w ss).2.2.2 = [some 2] ∧ (c100Code 9 w ss).2.2.2 = [some 1] :=
  ⟨_, _, rfl, rfl, by decide +kernel, by decide +kernel⟩

end Unpy.Props
