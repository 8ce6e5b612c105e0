import Verif.Model.ArityGeneric
import Verif.Props.Arity
import Verif.Props.Dispatch
/-! # C123: the arities and named arguments of a generic function -/
namespace Unpy.Props
open Unpy Unpy.Arity Unpy.Spec.Arity Unpy.Dispatch Unpy.Spec.Dispatch
variable {C V T : Type}

/-- `a ≤ b`, where `none` is infinity -/
def LeInf (a b : Option Int) : Prop := b = none ∨ ∃ x y, a = some x ∧ b = some y ∧ x ≤ y

private theorem ltInf_false {a b : Option Int} : ltInf a b = false ↔ LeInf b a := by
  cases a <;> cases b <;> simp [ltInf, LeInf]

private theorem ltInf_true {a b : Option Int} : ltInf a b = true → LeInf a b := by
  cases a <;> cases b <;> simp [ltInf, LeInf]
  omega

private theorem LeInf.refl (a : Option Int) : LeInf a a := by cases a <;> simp [LeInf]

private theorem LeInf.trans {a b c : Option Int} (h1 : LeInf a b) (h2 : LeInf b c) : LeInf a c := by
  rcases h2 with rfl | ⟨x, y, rfl, rfl, h⟩
  · exact .inl rfl
  · rcases h1 with h1 | ⟨x', y', rfl, h1, h'⟩
    · simp at h1
    · cases h1; exact .inr ⟨x', y, rfl, rfl, by omega⟩

private theorem arities_lower (sig : Sig V) : ∃ l u, arities false sig = (l, u) ∧ 0 ≤ l ∧ LeInf (some 0) u := by
  suffices ∀ (acc : Int × Option Int), 0 ≤ acc.1 → LeInf (some 0) acc.2 →
      let r := sig.foldl (fun (lu : Int × Option Int) p =>
        if p.kind = .posOnly ∨ p.kind = .posOrKw then
          (if p.default.isNone then lu.1 + 1 else lu.1, lu.2.map (· + 1))
        else if p.kind = .varPos then (lu.1, none)
        else lu) acc
      0 ≤ r.1 ∧ LeInf (some 0) r.2 by
    have := this (0, some 0) (by simp) (LeInf.refl _)
    exact ⟨_, _, rfl, by simpa [arities] using this.1, by simpa [arities] using this.2⟩
  induction sig with
  | nil => exact fun acc h1 h2 => ⟨h1, h2⟩
  | cons p sig ih =>
    intro acc h1 h2
    simp only [List.foldl_cons]
    apply ih
    · by_cases hk : p.kind = .posOnly ∨ p.kind = .posOrKw
      · simp only [hk, if_true]; cases hh : p.default.isNone <;> simp <;> omega
      · simp only [hk, if_false]; split <;> exact h1
    · by_cases hk : p.kind = .posOnly ∨ p.kind = .posOrKw
      · simp only [hk, if_true]
        rcases h2 with h2 | ⟨x, y, hx, hy, hxy⟩
        · simp [h2, LeInf]
        · cases hx; rw [hy]; exact .inr ⟨0, y + 1, rfl, rfl, by omega⟩
      · simp only [hk, if_false]; split
        · exact .inl rfl
        · exact h2

private theorem hull_fold (ms : List (MM V T)) (acc : Option Int × Option Int) :
    let r := ms.foldl (fun acc m =>
      let r := arities false m.sig
      (if ltInf (some r.1) acc.1 then some r.1 else acc.1, if ltInf acc.2 r.2 then r.2 else acc.2)) acc
    LeInf r.1 acc.1 ∧ LeInf acc.2 r.2 ∧
    (∀ m ∈ ms, LeInf r.1 (some (arities false m.sig).1) ∧ LeInf (arities false m.sig).2 r.2) ∧
    (r.1 = acc.1 ∨ ∃ m ∈ ms, r.1 = some (arities false m.sig).1) ∧ (r.2 = acc.2 ∨ ∃ m ∈ ms, r.2 = (arities false m.sig).2) := by
  induction ms generalizing acc with
  | nil => exact ⟨LeInf.refl _, LeInf.refl _, by simp, .inl rfl, .inl rfl⟩
  | cons m ms ih =>
    simp only [List.foldl_cons]
    obtain ⟨l, u⟩ := acc
    generalize hacc : ((if ltInf (some (arities false m.sig).1) l then some (arities false m.sig).1 else l), (if ltInf u (arities false m.sig).2 then (arities false m.sig).2 else u)) = acc'
    obtain ⟨h1, h2, h3, h4, h5⟩ := ih acc'
    have l1 : LeInf acc'.1 l ∧ LeInf acc'.1 (some (arities false m.sig).1) ∧ (acc'.1 = l ∨ acc'.1 = some (arities false m.sig).1) := by
      rw [← hacc]
      cases hb : ltInf (some (arities false m.sig).1) l with
      | true => simpa using ⟨ltInf_true hb, LeInf.refl _⟩
      | false => simpa using ⟨LeInf.refl _, ltInf_false.1 hb⟩
    have l2 : LeInf u acc'.2 ∧ LeInf (arities false m.sig).2 acc'.2 ∧ (acc'.2 = u ∨ acc'.2 = (arities false m.sig).2) := by
      rw [← hacc]
      cases hb : ltInf u (arities false m.sig).2 with
      | true => simpa using ⟨ltInf_true hb, LeInf.refl _⟩
      | false => simpa using ⟨LeInf.refl _, ltInf_false.1 hb⟩
    refine ⟨h1.trans l1.1, l2.1.trans h2, ?_, ?_, ?_⟩
    · intro m' hm'
      rcases List.mem_cons.1 hm' with rfl | hm'
      · exact ⟨h1.trans l1.2.1, l2.2.1.trans h2⟩
      · exact h3 m' hm'
    · rcases h4 with h4 | ⟨m', hm', h4⟩
      · rcases l1.2.2 with h | h
        · exact .inl (h4.trans h)
        · exact .inr ⟨m, by simp, h4.trans h⟩
      · exact .inr ⟨m', by simp [hm'], h4⟩
    · rcases h5 with h5 | ⟨m', hm', h5⟩
      · rcases l2.2.2 with h | h
        · exact .inl (h5.trans h)
        · exact .inr ⟨m, by simp, h5.trans h⟩
      · exact .inr ⟨m', by simp [hm'], h5⟩

private theorem list_raw (w : World C V) (st : Reg V T) (n : String) (hm : methodsOf st n ≠ []) : listMethods w st (.raw n) = .ok (methodsOf st n).reverse := by
  cases hg : PyDict.get? st n with
  | none => simp [methodsOf, hg] at hm
  | some d => simp [listMethods, Callable.fullname, hg, listMultimethods, methodsOf]

/-- C123: for a generic function, `arities` gives the smallest and the largest number of positional arguments, over all its multimethods.
(Missing: bound methods and inherited multimethods, see `C123_bound_refuted` and `C123_base_refuted`.) -/
theorem C123_arities_partial (w : World C V) (st : Reg V T) (n : String) (hm : methodsOf st n ≠ []) :
    ∃ lo hi, aritiesG w st (.raw n) = .ok (some lo, hi) ∧
      (∃ m ∈ methodsOf st n, (arities false m.sig).1 = lo) ∧ (∀ m ∈ methodsOf st n, lo ≤ (arities false m.sig).1) ∧
      (∃ m ∈ methodsOf st n, (arities false m.sig).2 = hi) ∧ (∀ m ∈ methodsOf st n, LeInf (arities false m.sig).2 hi) := by
  simp only [aritiesG, Callable.fullname, list_raw w st n hm]
  generalize hms : (methodsOf st n).reverse = ms
  have hmem : ∀ m, m ∈ ms ↔ m ∈ methodsOf st n := by intro m; rw [← hms]; simp
  have hne : ms ≠ [] := by rw [← hms]; simpa using hm
  simp only [← hmem]
  obtain ⟨_, h2, h3, h4, h5⟩ := hull_fold ms (none, some 0)
  obtain ⟨m0, hm0⟩ := List.exists_mem_of_ne_nil ms hne
  have e : hull ms = ms.foldl (fun acc m =>
      let r := arities false m.sig
      (if ltInf (some r.1) acc.1 then some r.1 else acc.1, if ltInf acc.2 r.2 then r.2 else acc.2)) (none, some 0) := rfl
  rw [← e] at h2 h3 h4 h5
  obtain ⟨lo, hi, hr⟩ : ∃ lo hi, hull ms = (lo, hi) := ⟨_, _, rfl⟩
  rw [hr] at h2 h3 h4 h5
  simp only at h2 h3 h4 h5
  have hlo : ∃ m ∈ ms, lo = some (arities false m.sig).1 := by
    rcases h4 with h4 | h4
    · exfalso
      rcases (h3 m0 hm0).1 with h | ⟨x, y, h, _⟩
      · simp at h
      · rw [h4] at h; simp at h
    · exact h4
  obtain ⟨m1, hm1, rfl⟩ := hlo
  refine ⟨(arities false m1.sig).1, hi, by rw [hr], ⟨m1, hm1, rfl⟩, ?_, ?_, fun m hm => (h3 m hm).2⟩
  · intro m hm
    rcases (h3 m hm).1 with h | ⟨x, y, h, h', hle⟩
    · simp at h
    · cases h; cases h'; exact hle
  · rcases h5 with h5 | ⟨m, hm, h5⟩
    · refine ⟨m0, hm0, ?_⟩
      obtain ⟨l, u, hlu, _, hu⟩ := arities_lower m0.sig
      have hle := (h3 m0 hm0).2
      rw [hlu] at hle ⊢
      simp only at hle ⊢
      rw [h5] at hle ⊢
      rcases hle with h | ⟨x, y, h, h', hxy⟩
      · simp at h
      · cases h'
        rw [h] at hu ⊢
        rcases hu with hu | ⟨a, b, ha, hb, hab⟩
        · simp at hu
        · cases ha; cases hb; congr 1; omega
    · exact ⟨m, hm, h5.symm⟩

/-- C123: if a call of a generic function goes to one of its own multimethods, and all that is passed by name are keyword-only arguments, then `arity_includes` is true of the number of positional arguments.
(Missing: multimethods of a base class and bound methods, see `C123_base_refuted` and `C123_bound_refuted`; positional parameters passed by name.) -/
theorem C123_calls_partial (anyT : T) (isof : T → BVal V → Res Bool) (w : World C V) (ops : List (Op V T)) (hw : ∀ op ∈ ops, WF op.fn.sig) (n : String) (d : Disp V T)
    (hd : PyDict.get? (run anyT [] ops) n = some d) (args : List V) (kwargs : PyDict String V) (m : MM V T)
    (h : call isof w (run anyT [] ops) d args kwargs = .ok m) (hm : m ∈ methodsOf (run anyT [] ops) n)
    (hdef : ∃ a b, positional m.sig = a ++ b ∧ (∀ p ∈ a, p.default = none) ∧ ∀ p ∈ b, p.default ≠ none)
    (hkw : ∀ k ∈ PyDict.keys kwargs, k ∈ kwargsOf false m.sig ∨ k ∈ kwargsOf true m.sig) :
    arityIncludesG w (run anyT [] ops) (.raw n) args.length = .ok true := by
  have hwf : WF m.sig := (dispatch_run_good anyT ops hw n m hm).1
  have hacc : Accepts m.sig args kwargs := (C45_runs_match anyT isof w ops hw n d hd args kwargs m h).1.1
  obtain ⟨hreq, hiff⟩ := C75_arity hwf hdef args kwargs
  have hinc := (hiff (hreq hacc) hkw).1 hacc
  obtain ⟨lo, hi, ha, _, hlo, _, hhi⟩ := C123_arities_partial w (run anyT [] ops) n (List.ne_nil_of_mem hm)
  simp only [arityIncludesG, ha]
  have h1 := hlo m hm
  have h2 := hhi m hm
  simp only [arityIncludes, Bool.and_eq_true, decide_eq_true_eq] at hinc
  congr 1
  rw [Bool.and_eq_true, Bool.not_eq_true', Bool.not_eq_true', ltInf_false, ltInf_false]
  refine ⟨.inr ⟨lo, args.length, rfl, rfl, by omega⟩, ?_⟩
  refine LeInf.trans ?_ h2
  cases hu : (arities false m.sig).2 with
  | none => exact .inl rfl
  | some u => rw [hu] at hinc; exact .inr ⟨_, u, rfl, rfl, by simpa using hinc.2⟩

private theorem update_error {d : PyDict String String} {l : List String} {s : String} (hs : s ∈ l) (hl : s.toList.length ≠ 2) : updateFromSet d l = .error .ValueError := by
  induction l generalizing d with
  | nil => simp at hs
  | cons x l ih =>
    unfold updateFromSet
    rcases List.mem_cons.1 hs with rfl | hs
    · split
      · rename_i h; simp [h] at hl
      · rfl
    · split
      · exact ih hs
      · rfl

private theorem update_value_error {d : PyDict String String} {l : List String} {e : PyErr} (h : updateFromSet d l = .error e) : e = .ValueError := by
  induction l generalizing d with
  | nil => simp [updateFromSet] at h
  | cons x l ih =>
    unfold updateFromSet at h
    split at h
    · exact ih h
    · cases h; rfl

/-- C123: if no multimethod has named arguments of the asked kind, then there are none (but what is returned is an empty dict, not a set).
(Missing: multimethods that have such arguments, see `C123_kwargs_refuted` and `C123_letters_refuted`.) -/
theorem C123_kwargs_partial (optionals : Bool) (w : World C V) (st : Reg V T) (n : String) (hm : methodsOf st n ≠ []) (hk : ∀ m ∈ methodsOf st n, kwargsOf optionals m.sig = []) :
    kwargsG optionals w st (.raw n) = .ok [] := by
  simp only [kwargsG, Callable.fullname, list_raw w st n hm]
  have : ∀ ms : List (MM V T), (∀ m ∈ ms, kwargsOf optionals m.sig = []) → ms.foldlM (fun d m => updateFromSet d (kwargsOf optionals m.sig)) [] = (.ok [] : Res _) := by
    intro ms
    induction ms with
    | nil => intro _; rfl
    | cons m ms ih =>
      intro h
      rw [List.foldlM_cons, h m (by simp)]
      exact ih (fun m hm => h m (by simp [hm]))
  exact this _ (by simpa using hk)

/-- C123 is violated: if any multimethod of a generic function has a keyword-only argument of the asked kind whose name is not exactly two characters long, then `required_kwargs` or `optional_kwargs` raises ValueError. -/
theorem C123_kwargs_refuted (optionals : Bool) (w : World C V) (st : Reg V T) (f : Callable V) (n : String) (hf : f.fullname = some n) (m : MM V T) (hm : m ∈ methodsOf st n) (k : String)
    (hk : k ∈ kwargsOf optionals m.sig) (hl : k.toList.length ≠ 2) : kwargsG optionals w st f = .error .ValueError := by
  simp only [kwargsG, hf, list_raw w st n (List.ne_nil_of_mem hm)]
  have : ∀ (ms : List (MM V T)) (d : PyDict String String), m ∈ ms → ms.foldlM (fun d m => updateFromSet d (kwargsOf optionals m.sig)) d = (.error .ValueError : Res _) := by
    intro ms
    induction ms with
    | nil => simp
    | cons x ms ih =>
      intro d hx
      rw [List.foldlM_cons]
      rcases List.mem_cons.1 hx with rfl | hx
      · rw [update_error hk hl]; rfl
      · cases hu : updateFromSet d (kwargsOf optionals x.sig) with
        | error e => rw [update_value_error hu]; rfl
        | ok d' => exact ih d' hx
  exact this _ _ (by simpa using hm)

private def kwFn : Fn Nat Nat := ⟨"f", [⟨"x", .posOrKw, none⟩, ⟨"ab", .kwOnly, none⟩, ⟨"key", .kwOnly, some 1⟩], [("x", 5), ("ab", 5), ("key", 5)], 1⟩

/-- C123 is violated: and if the name is two characters long, then what is returned is a dict with the first one as key and the second one as value. -/
theorem C123_letters_refuted : kwargsG false chainWorld (run 0 [] [.generic "f" kwFn]) (.raw "f") = .ok [("a", "b")] := by decide

example : kwargsG true chainWorld (run 0 [] [.generic "f" kwFn]) (.raw "f") = .error .ValueError := by decide

/-- C123 is violated: `self` counts for a bound method that is generic: for `@generic def f(self, x)`, `arities(obj.f)` is (2, 2), but `obj.f(x)` works, and `obj.f(x, y)` raises TypeError. -/
theorem C123_bound_refuted :
    let st := run 0 [] [.generic "A.f" (demoFn 5 1)]
    aritiesG chainWorld st (.bound "A.f" 1) = .ok (some 2, some 2) ∧ (∃ m, callIt demoIsof chainWorld st (.bound "A.f" 1) [5] [] = some (.ok m)) ∧
    ∀ v w, callIt demoIsof chainWorld st (.bound "A.f" 1) [v, w] [] = some (.error .TypeError) := by
  refine ⟨by decide, ⟨⟨demoSig, [("self", 0), ("x", 5)], 1⟩, by decide⟩, ?_⟩
  intro v w
  rfl

private theorem includes_iff (w : World C V) (st : Reg V T) (n : String) (hm : methodsOf st n ≠ []) (k : Int) (lo : Int) (hi : Option Int)
    (h : aritiesG w st (.raw n) = .ok (some lo, hi)) : arityIncludesG w st (.raw n) k = .ok (decide (lo ≤ k) && !ltInf hi (some k)) := by
  simp only [arityIncludesG, h]
  congr 2
  by_cases hlk : lo ≤ k
  · simp [ltInf, hlk, Int.not_lt.2 hlk]
  · simp [ltInf, hlk, Int.lt_of_not_ge hlk]

/-- C123: a generic function as a handler of conditions gets the condition if any of its multimethods can be called with one positional argument; if none of them takes any positional argument, then it is called without.
(Missing: bound methods, see `C123_handler_refuted`, and generic functions of which some multimethods take positional arguments, but none just one.) -/
theorem C123_handler_partial (isof : T → BVal V → Res Bool) (w : World C V) (st : Reg V T) (n : String) (condition : V) :
    (∀ m ∈ methodsOf st n, arityIncludes false m.sig 1 = true → callHandler isof w st (.raw n) condition = callIt isof w st (.raw n) [condition] []) ∧
    (methodsOf st n ≠ [] → (∀ m ∈ methodsOf st n, (arities false m.sig).2 = some 0) → callHandler isof w st (.raw n) condition = callIt isof w st (.raw n) [] []) := by
  constructor
  · intro m hm hinc
    obtain ⟨lo, hi, ha, _, hlo, _, hhi⟩ := C123_arities_partial w st n (List.ne_nil_of_mem hm)
    have h1 := hlo m hm
    have h2 := hhi m hm
    simp only [arityIncludes, Bool.and_eq_true, decide_eq_true_eq] at hinc
    have hu : ltInf hi (some 1) = false := by
      rw [ltInf_false]
      refine LeInf.trans ?_ h2
      cases hu : (arities false m.sig).2 with
      | none => exact .inl rfl
      | some u => rw [hu] at hinc; exact .inr ⟨_, u, rfl, rfl, by simpa using hinc.2⟩
    have hl : lo ≤ 1 := by omega
    simp only [callHandler, includes_iff w st n (List.ne_nil_of_mem hm) 1 lo hi ha, hu, decide_eq_true hl]
    rfl
  · intro hne h0
    obtain ⟨lo, hi, ha, _, _, ⟨m, hm, hhi⟩, _⟩ := C123_arities_partial w st n hne
    rw [h0 m hm] at hhi
    subst hhi
    simp only [callHandler, includes_iff w st n hne 1 lo (some 0) ha, ltInf]
    simp

/-- C123 is violated: so a bound generic method `f(self, condition)` is of no use as a handler of conditions: `signal` calls it without the condition, which raises TypeError. -/
theorem C123_handler_refuted :
    let st := run 0 [] [.generic "A.f" (demoFn 5 1)]
    (∃ m, callIt demoIsof chainWorld st (.bound "A.f" 1) [5] [] = some (.ok m)) ∧ callHandler demoIsof chainWorld st (.bound "A.f" 1) 5 = some (.error .TypeError) :=
  ⟨⟨⟨demoSig, [("self", 0), ("x", 5)], 1⟩, by decide⟩, by decide⟩

private def threeFn : Fn Nat Nat := ⟨"f", [⟨"self", .posOrKw, none⟩, ⟨"x", .posOrKw, none⟩, ⟨"y", .posOrKw, none⟩], [("x", 5), ("y", 5)], 2⟩

/-- C123 is violated: the multimethods of base classes, which a call can go to, do not count: with `A.f(self, x)` and `B.f(self, x, y)` for a subclass B, `arities(B.f)` is (3, 3), but `B.f(obj, x)` works; and so it is for `obj.f`. -/
theorem C123_base_refuted :
    let st := run 0 [] [.generic "A.f" (demoFn 5 1), .generic "B.f" threeFn]
    (aritiesG chainWorld st (.raw "B.f") = .ok (some 3, some 3) ∧ ∃ m, callIt demoIsof chainWorld st (.raw "B.f") [2, 5] [] = some (.ok m) ∧ m.body = 1) ∧
    aritiesG chainWorld st (.bound "B.f" 2) = .ok (some 3, some 3) ∧ ∃ m, callIt demoIsof chainWorld st (.bound "B.f" 2) [5] [] = some (.ok m) ∧ m.body = 1 :=
  ⟨⟨by decide, ⟨⟨demoSig, [("self", 0), ("x", 5)], 1⟩, by decide, rfl⟩⟩, by decide, ⟨⟨demoSig, [("self", 0), ("x", 5)], 1⟩, by decide, rfl⟩⟩

/-- C123 is violated: for a bound method whose `self` is in its `*args`, the smallest number of arguments is given as -1. -/
theorem C123_negative_refuted (name : String) : arities true ([⟨name, .varPos, none⟩] : Sig V) = (-1, none) := rfl

private def printSig : Sig Nat := [⟨"args", .varPos, none⟩, ⟨"sep", .kwOnly, some 0⟩, ⟨"end", .kwOnly, some 0⟩, ⟨"file", .kwOnly, some 0⟩, ⟨"flush", .kwOnly, some 0⟩]

/-- C123 is violated for `print`: by the table at least one argument is needed; but `print(*args, sep=' ', end='\n', file=None, flush=False)` can be called without any. -/
theorem C123_builtin_refuted : builtinArities "print" = some (1, none) ∧ Accepts printSig [] [] ∧ arityIncludes false printSig 0 = true := by
  refine ⟨by decide, by decide, by decide⟩

-- two multimethods, with 2 and with 3 parameters
example : methodsOf (run 0 [] [.generic "A.f" (demoFn 5 1), .generic "A.f" threeFn]) "A.f" ≠ [] := by decide
example : aritiesG chainWorld (run 0 [] [.generic "A.f" (demoFn 5 1), .generic "A.f" threeFn]) (.raw "A.f") = .ok (some 2, some 3) := by decide
example : arityIncludes false ([⟨"c", .posOrKw, none⟩] : Sig Nat) 1 = true ∧ (arities false ([] : Sig Nat)).2 = some 0 := by decide
example : ∃ m, call demoIsof chainWorld (run 0 [] [.generic "A.f" (demoFn 5 1), .generic "A.f" threeFn]) ⟨"f", demoSig, [⟨demoSig, [("self", 0), ("x", 5)], 1⟩, ⟨threeFn.sig, [("self", 0), ("x", 5), ("y", 5)], 2⟩], false⟩ [1, 5] [] = .ok m ∧
    m ∈ methodsOf (run 0 [] [.generic "A.f" (demoFn 5 1), .generic "A.f" threeFn]) "A.f" := ⟨⟨demoSig, [("self", 0), ("x", 5)], 1⟩, by decide, by decide⟩

end Unpy.Props
