import Verif.Proof.Shim
/-!
# C109: boxes and shims
-/
namespace Unpy.Props
open Unpy.Shim Unpy.Spec.Shim Unpy.Proof.Shim

/-! ## Boxes as containers -/

/-- Equality: boxes of any kind, nested to any depth, are equal to anything that has an equal item in it.  So equality is an equivalence, a box is equal to its content, and two boxes are
equal if and only if their contents are.  (In particular, `Some(None) == None`.) -/
theorem C109_equality (a b x y : V) :
    eq a b = decide (core a = core b) ∧ eq a a = true ∧ eq a b = eq b a ∧ eq (.box x) x = true ∧ eq (.tlbox x) x = true ∧ eq (.some x) x = true ∧
    eq (.box x) (.box y) = eq x y ∧ eq (.some x) (.some y) = eq x y ∧ eq (.tlbox x) (.tlbox y) = eq x y := by
  simp only [eq_core, core, decide_true, true_and, and_true]
  exact ⟨decide_eq_decide.2 ⟨fun h => h.symm, fun h => h.symm⟩, rfl, rfl, rfl⟩

example : eq (.box (.some (.item 4))) (.tlbox (.item 4)) = true := by simp [eq_core, core]
example : eq (.box (.item 4)) (.item 5) = false := by simp [eq_core, core]

/-- `unbox(b)`, `b.get()`, `list(b)`, `len(b)` and `item in b` agree: there is exactly one item.  `unbox` of anything else is a TypeError. -/
theorem C109_container (x y : V) (n : Nat) :
    (∀ b ∈ [V.box x, V.tlbox x, V.some x], unbox b = some x ∧ items b = some [x] ∧ len b = some 1 ∧ contains b y = some (eq x y)) ∧ unbox (.item n) = none := by
  refine ⟨fun b hb => ?_, rfl⟩
  simp only [List.mem_cons, List.not_mem_nil, or_false] at hb
  rcases hb with rfl | rfl | rfl <;> exact ⟨rfl, rfl, rfl, rfl⟩

example : contains (.box (.item 4)) (.some (.item 4)) = some true := by simp [contains, unbox, eq_core, core]

/-! ## Histories -/

/-- A box has what was put last into it, by any thread; a thread-local box has what the thread itself has put last into it since it has cleared it, or else the default. -/
theorem C109_content (c : Static) (i : Init) (ops : List Op) (t : Thread) (b : Box) :
    (run c i ops).get c t b = inBox c.isLocal i.x ops.reverse t b := (agree_run c i ops).get t b

/-- Writing an attribute of a shim writes it to the object that is in its primary box then, in this thread, and to no other object. -/
theorem C109_shim_write (c : Static) (i : Init) (ops : List Op) (o : Obj) (k : String) :
    (run c i ops).attrs o k = attr c.isLocal i ops.reverse o k := ((agree_run c i ops).attrs o k).symm

/-- Reading an attribute of a shim gives that of the object that is in its primary box now, in this thread, if it has this attribute; otherwise, the fallbacks are tried in order, as they are
now.  (Not for the names that any object has, and if the fallbacks given without a box do not count as false.)
(Missing: these, see `C109_special_names_refuted` and `C109_falsy_fallback_refuted`.) -/
theorem C109_shim_read_partial (c : Static) (i : Init) (ops : List Op) (t : Thread) (s : Shim) (k : String) (hk : ¬ special k) (hs : ∀ o ∈ bare s, c.falsy o = false) :
    (run c i ops).getattr c t k s = firstOf (attr c.isLocal i ops.reverse) k (tried (inBox c.isLocal i.x ops.reverse t) s) := by
  rw [getattr_first c _ t k hk s hs]
  have h1 : (run c i ops).get c t = inBox c.isLocal i.x ops.reverse t := funext fun b => C109_content c i ops t b
  have h2 : (run c i ops).attrs = attr c.isLocal i ops.reverse := by
    funext o k; exact C109_shim_write c i ops o k
  rw [h1, h2]

/-- Box 0 is thread-local, the others are not; object 0 counts as false. -/
private def stat : Static := ⟨fun b => b == 0, fun o => o == 0⟩
/-- All boxes have object 1 in them; object `n` has an attribute `x`, whose value is `n`; only object 2 has an attribute `y`. -/
private def ini : Init := ⟨fun _ => 1, fun o k => if k = "x" then some o else if k = "y" ∧ o = 2 then some 7 else none⟩
/-- Thread 5 puts object 3 into box 0; an attribute is written by a shim, in both threads. -/
private def hist : List Op := [.set 5 0 3, .setattrShim 5 (.single 0) "z" 8, .setattrShim 6 (.single 0) "z" 9, .set 6 1 2]

example : (run stat ini hist).getattr stat 5 "x" (.shim 0 (.boxed 2 1)) = .value 3 := by decide
example : (run stat ini hist).getattr stat 6 "x" (.shim 0 (.boxed 2 1)) = .value 1 := by decide
example : (run stat ini hist).getattr stat 5 "y" (.shim 0 (.boxed 2 1)) = .value 7 := by decide
example : (run stat ini hist).getattr stat 5 "z" (.single 0) = .value 8 ∧ (run stat ini hist).getattr stat 6 "z" (.single 0) = .value 9 := by decide
example : ¬ special "x" ∧ ∀ o ∈ bare (.shim 0 (.object 2 4)), stat.falsy o = false := by unfold special; decide

/-- What is written by a shim can be read by it. -/
theorem C109_shim_roundtrip (c : Static) (i : Init) (ops : List Op) (t : Thread) (s : Shim) (k : String) (v : Obj) (hk : ¬ special k) :
    (run c i (ops ++ [.setattrShim t s k v])).getattr c t k s = .value v := by
  have hb : ∀ w : W, (w.step c (.setattrShim t s k v)).attrs ((w.step c (.setattrShim t s k v)).get c t s.box) k = some v := by
    intro w
    have : (w.step c (.setattrShim t s k v)).get c t s.box = w.get c t s.box := rfl
    rw [this]
    simp [W.step, W.put]
  have hr : run c i (ops ++ [.setattrShim t s k v]) = (run c i ops).step c (.setattrShim t s k v) := by
    simp [run, List.foldl_append]
  rw [hr]
  have := hb (run c i ops)
  have hk' : k ∉ ownNames := hk
  cases s <;> simp only [Shim.box] at this <;> simp only [W.getattr, hk', if_false, this, Option.isSome_some, Bool.or_true, if_true, Unpy.Shim.read]

example : ¬ special "color" := by unfold special; decide

/-! ## Refutations -/

/-- A fallback that counts as false, such as an empty list, is not tried. -/
theorem C109_falsy_fallback_refuted (c : Static) (i : Init) (ops : List Op) (t : Thread) (b : Box) (o : Obj) (k : String) (hk : ¬ special k) (hf : c.falsy o = true)
    (h1 : attr c.isLocal i ops.reverse (inBox c.isLocal i.x ops.reverse t b) k = none) (v : Obj) (h2 : attr c.isLocal i ops.reverse o k = some v) :
    (run c i ops).getattr c t k (.object b o) = .attributeError ∧
    firstOf (attr c.isLocal i ops.reverse) k (tried (inBox c.isLocal i.x ops.reverse t) (.object b o)) = .value v := by
  have hk' : k ∉ ownNames := hk
  constructor
  · rw [← C109_content, ← C109_shim_write] at h1
    simp only [W.getattr, hk', if_false, hf, Bool.true_or, if_true, h1, Unpy.Shim.read]
  · simp only [tried, firstOf, h1, h2]

example : (run stat ⟨fun _ => 1, fun o k => if o = 0 ∧ k = "append" then some 5 else none⟩ []).getattr stat 0 "append" (.object 1 0) = .attributeError := by decide

/-- A shim is not transparent for the names that any object has, for example `__doc__`: these are written to the object in the box, but they are read from the shim itself. -/
theorem C109_special_names_refuted (c : Static) (i : Init) (ops : List Op) (t : Thread) (s : Shim) (k : String) (v : Obj) (hk : special k)
    (_ : k ≠ "_shim_box" ∧ k ≠ "_shim_fallback") :
    (run c i (ops ++ [.setattrShim t s k v])).getattr c t k s = .own ∧
    (run c i (ops ++ [.setattrShim t s k v])).attrs (inBox c.isLocal i.x ops.reverse t (primary s)) k = some v := by
  have hk' : k ∈ ownNames := hk
  constructor
  · cases s <;> simp only [W.getattr, hk', if_true]
  · rw [C109_shim_write]
    simp [attr]

example : special "__doc__" ∧ "__doc__" ≠ "_shim_box" ∧ "__doc__" ≠ "_shim_fallback" := by unfold special; decide

end Unpy.Props
