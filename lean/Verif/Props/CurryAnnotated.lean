import Verif.Proof.CurryAnnotated
import Verif.Proof.Curry
/-! # C131: partial application and currying of functions with type annotations -/
namespace Unpy.Props
open Unpy Unpy.Arity Unpy.Spec.Arity Unpy.Spec.CurryGeneric Unpy.Spec.CurryAnnotated Unpy.CurryAnnotated Unpy.CurryGeneric
open Unpy.Curry (Action decideAction partialOk decide_keep decide_call partialOk_of)
variable {V T : Type}

/-- C131: `partial(f, *args, **kwargs)` of a function with annotations returns exactly if there is a parameter for each argument, and all that is bound to the annotated parameters,
also by defaults, is of the right type.  Otherwise there is a TypeError at once. -/
theorem C131_apply (isof : T → BVal V → Res Bool) (hq : ∀ t b e, isof t b = .error e → e = .TypeError) (F : AFn V T) (hw : WF F.sig) (hh : F.hints ≠ []) (args : List V) (kwargs : PyDict String V)
    (hk : (PyDict.keys kwargs).Nodup) :
    (partialA isof F .plain args kwargs = .ok (.part args kwargs) ∧ Fits isof F.hints F.sig args kwargs) ∨
    (partialA isof F .plain args kwargs = .error .TypeError ∧ ¬ Fits isof F.hints F.sig args kwargs) := by
  have he : PyDict.update ([] : PyDict String V) kwargs = kwargs := update_nil hk
  have h := check_spec hq F hh .plain args kwargs rfl hw
  simp only [Obj.args, Obj.kwargs, List.nil_append, he] at h
  rcases h with ⟨h1, h2⟩ | ⟨h1, h2⟩
  · exact .inl ⟨h2, h1⟩
  · exact .inr ⟨h2, h1⟩

/-- C131: without annotations nothing is checked. -/
theorem C131_unannotated (isof : T → BVal V → Res Bool) (F : AFn V T) (hh : F.hints = []) (func : Obj V) (args : List V) (kwargs : PyDict String V) :
    partialA isof F func args kwargs = .ok (.part (func.args ++ args) (PyDict.update func.kwargs kwargs)) := by
  simp [partialA, hh]

/-- C131: when more arguments are given to a partial application, and all the arguments are given by name, then the check is that of giving all of them at once.
(Missing: positional arguments, see `C131_shift_refuted`; functions with `*args`.) -/
theorem C131_named_partial (isof : T → BVal V → Res Bool) (hq : ∀ t b e, isof t b = .error e → e = .TypeError) (F : AFn V T) (hw : WF F.sig) (hv : ¬ hasKind .varPos F.sig) (hh : F.hints ≠ [])
    (before kwargs : PyDict String V) (hb : Takes F.sig [] before) :
    (partialA isof F (.part [] before) [] kwargs = .ok (.part [] (PyDict.update before kwargs)) ∧ Fits isof F.hints F.sig [] (PyDict.update before kwargs)) ∨
    (partialA isof F (.part [] before) [] kwargs = .error .TypeError ∧ ¬ Fits isof F.hints F.sig [] (PyDict.update before kwargs)) := by
  obtain ⟨sig', h1, h2, h3⟩ := signature_named hw hv hb
  have h := check_spec hq F hh (.part [] before) [] kwargs h1 h2
  simp only [Obj.args, Obj.kwargs, List.append_nil] at h
  have hf : Fits isof F.hints sig' [] (PyDict.update before kwargs) ↔ Fits isof F.hints F.sig [] (PyDict.update before kwargs) :=
    becomes_fits h3 (fun n hn => by rw [PyDict.has_update]; simp [hn])
  rw [hf] at h
  rcases h with ⟨h1, h2⟩ | ⟨h1, h2⟩
  · exact .inl ⟨h2, h1⟩
  · exact .inr ⟨h2, h1⟩

/-- C131 refuted for positional arguments: when `before` are given and then `args`, all of them are checked again, but against the parameters that are left; the first argument against the
annotation of the first parameter that has none yet, and so on. -/
theorem C131_shift_refuted (isof : T → BVal V → Res Bool) (hq : ∀ t b e, isof t b = .error e → e = .TypeError) (F : AFn V T) (hw : WF F.sig) (k : Nat) (hp : Plain k F.sig) (hh : F.hints ≠ [])
    (before args : List V) (hb : before.length ≤ k) :
    (partialA isof F (.part before []) args [] = .ok (.part (before ++ args) []) ∧ Fits isof F.hints (F.sig.drop before.length) (before ++ args) []) ∨
    (partialA isof F (.part before []) args [] = .error .TypeError ∧ ¬ Fits isof F.hints (F.sig.drop before.length) (before ++ args) []) := by
  have h := check_spec hq F hh (.part before []) args [] (signature_plain hp hw hb) (wf_drop hw)
  simp only [Obj.args, Obj.kwargs] at h
  rcases h with ⟨h1, h2⟩ | ⟨h1, h2⟩
  · exact .inl ⟨h2, h1⟩
  · exact .inr ⟨h2, h1⟩

/-- C131 refuted: so if more than half of the arguments are given, and then another one, there is a TypeError, whatever they are. -/
theorem C131_half_refuted (isof : T → BVal V → Res Bool) (hq : ∀ t b e, isof t b = .error e → e = .TypeError) (F : AFn V T) (hw : WF F.sig) (k : Nat) (hp : Plain k F.sig) (hh : F.hints ≠ [])
    (before args : List V) (hb : before.length ≤ k) (hl : k < 2 * before.length + args.length) : partialA isof F (.part before []) args [] = .error .TypeError := by
  rcases C131_shift_refuted isof hq F hw k hp hh before args hb with ⟨_, h, _⟩ | ⟨h, _⟩
  · have hd := plain_drop (j := before.length) hp
    have := h.2.2.1
    rw [extraArgs, if_neg (plain_nokind hd (by simp)), overflow, plain_positional hd, List.drop_eq_nil_iff, hd.1, List.length_append] at this
    omega
  · exact h

/-- C131: as long as there are parameters for all of them again, and the annotations of all the parameters are the same type, the check is right.
(Missing: as `C131_shift_refuted` shows, any other case.) -/
theorem C131_same_partial (isof : T → BVal V → Res Bool) (hq : ∀ t b e, isof t b = .error e → e = .TypeError) (F : AFn V T) (hw : WF F.sig) (k : Nat) (hp : Plain k F.sig) (hh : F.hints ≠ []) (t : T)
    (ht : ∀ p ∈ F.sig, PyDict.get? F.hints p.name = some t) (before args : List V) (hl : 2 * before.length + args.length ≤ k) :
    (partialA isof F (.part before []) args [] = .ok (.part (before ++ args) []) ∧ ∀ v ∈ before ++ args, isof t (.val v) = .ok true) ∨
    (partialA isof F (.part before []) args [] = .error .TypeError ∧ ∃ v ∈ before ++ args, isof t (.val v) ≠ .ok true) := by
  have hd := plain_drop (j := before.length) hp
  have hwd := wf_drop (j := before.length) hw
  have hfit : Fits isof F.hints (F.sig.drop before.length) (before ++ args) [] ↔ ∀ v ∈ before ++ args, isof t (.val v) = .ok true := by
    generalize hs : F.sig.drop before.length = sig at *
    have hlen : (before ++ args).length ≤ sig.length := by rw [hd.1, List.length_append]; omega
    have hsub : ∀ p ∈ sig, p ∈ F.sig := fun p h => List.mem_of_mem_drop (hs ▸ h)
    generalize before ++ args = all at *
    have hseen : ∀ p ∈ sig, seen sig all [] p = (posArg sig all p.name).map .val := by
      intro p h
      have := hd.2 p h
      have hv : p.kind ≠ .varPos ∧ p.kind ≠ .varKw := by rcases this.1 with e | e <;> simp [e]
      simp only [seen, hv.1, hv.2, this.2, if_false, given]
      cases posArg sig all p.name <;> simp [PyDict.get?]
    have hpos : positional sig = sig := plain_positional hd
    constructor
    · rintro ⟨_, h⟩ v hv
      obtain ⟨i, hi, rfl⟩ := List.getElem_of_mem hv
      have hi' : i < sig.length := by omega
      have hm : sig[i] ∈ sig := List.getElem_mem hi'
      have hpa : posArg sig all sig[i].name = some all[i] := by
        unfold posArg
        rw [hpos]
        have hz : (sig[i].name, all[i]) ∈ (sig.map (·.name)).zip all := by
          rw [List.mem_iff_getElem]
          exact ⟨i, by simp; omega, by simp⟩
        exact lookup_nodup (fst_zip_nodup hwd.names _) hz
      exact h _ hm _ (by rw [hseen _ hm, hpa]; rfl) t (ht _ (hsub _ hm))
    · intro h
      refine ⟨plain_takes hd (by rw [← hd.1]; exact hlen), ?_⟩
      intro p hpm b hb t' ht'
      rw [ht p (hsub p hpm)] at ht'
      cases ht'
      rw [hseen p hpm] at hb
      cases hpa : posArg sig all p.name with
      | none => rw [hpa] at hb; cases hb
      | some v =>
        rw [hpa] at hb
        cases hb
        apply h
        unfold posArg at hpa
        exact (List.of_mem_zip (mem_of_lookup hpa)).2
  rcases C131_shift_refuted isof hq F hw k hp hh before args (by omega) with ⟨h1, h2⟩ | ⟨h1, h2⟩
  · exact .inl ⟨h1, hfit.mp h2⟩
  · exact .inr ⟨h1, by rw [hfit] at h2; simpa using h2⟩

/-- C131: when the arguments are given in two calls of the curried function, the first of which does not complete them, the function is called with all of them exactly if the arguments of
the first call fit the annotations; otherwise there is a TypeError at the first call.  (Missing: more than two calls, see `C131_one_by_one_refuted`.) -/
theorem C131_curry_partial (isof : T → BVal V → Res Bool) (hq : ∀ t b e, isof t b = .error e → e = .TypeError) (F : AFn V T) (hw : WF F.sig) (hh : F.hints ≠ [])
    (c d : List V × PyDict String V) (hk : (PyDict.keys c.2).Nodup) (hm : missing F.sig c.1 c.2 ≠ []) (ha : Accepts F.sig (c.1 ++ d.1) (PyDict.update c.2 d.2))
    (hp : ¬ PosOnlyClash F.sig c.1 c.2) (hp' : ¬ PosOnlyClash F.sig (c.1 ++ d.1) (PyDict.update c.2 d.2)) :
    (chainA isof F .plain [c, d] = .ok (.called (c.1 ++ d.1) (PyDict.update c.2 d.2) [] [], []) ∧ Fits isof F.hints F.sig c.1 c.2) ∨
    (callCurriedA isof F .plain c.1 c.2 = .error .TypeError ∧ ¬ Fits isof F.hints F.sig c.1 c.2) := by
  have he : PyDict.update ([] : PyDict String V) c.2 = c.2 := update_nil hk
  have hhas : ∀ n, PyDict.has c.2 n = true → PyDict.has (PyDict.update c.2 d.2) n = true := fun n hn => by rw [PyDict.has_update]; simp [hn]
  have hc : ¬ Conflict F.sig c.1 c.2 := fun h => ha.1 (Curry.conflict_mono hw hhas h)
  have hx := Curry.extraArgs_mono ha.2.2.1
  have hxk := Curry.extraKwargs_mono hhas ha.2.2.2
  have hdec := decide_keep hw hx hc hp hm
  have hok := partialOk_of hw hx hxk hc hp
  have hdec' := decide_call hw hp' ha
  rcases C131_apply isof hq F hw hh c.1 c.2 hk with ⟨h1, h2⟩ | ⟨h1, h2⟩
  · refine .inl ⟨?_, h2⟩
    have e1 : callCurriedA isof F .plain c.1 c.2 = .ok (.waits (.part c.1 c.2)) := by
      simp [callCurriedA, Obj.args, Obj.kwargs, he, hdec, h1, hok]
    have e2 : callCurriedA isof F (.part c.1 c.2) d.1 d.2 = .ok (.called (c.1 ++ d.1) (PyDict.update c.2 d.2) [] []) := by
      simp [callCurriedA, Obj.args, Obj.kwargs, hdec']
    simp [chainA, e1, e2]
  · exact .inr ⟨by simp [callCurriedA, Obj.args, Obj.kwargs, he, hdec, h1], h2⟩

/-- C131: when all parameters that need an argument have one, but there are others left over, the function is called without these, and they are passed on; nothing is checked.
(Missing: superfluous positional arguments of functions with keyword-only parameters, see `C34_overflow_refuted`; arguments left over of which some came with an earlier call.) -/
theorem C131_pass_partial (isof : T → BVal V → Res Bool) (F : AFn V T) (hw : WF F.sig) (func : Obj V) (args : List V) (kwargs : PyDict String V) (all : List V) (named : PyDict String V)
    (hall : all = func.args ++ args) (hnamed : named = PyDict.update func.kwargs kwargs)
    (hc : ¬ Conflict F.sig all named) (hp : ¬ PosOnlyClash F.sig all named) (hx : extraArgs F.sig all = [] ∨ (¬ hasKind .kwOnly F.sig ∧ ¬ hasKind .varKw F.sig))
    (hm : missing F.sig all named = []) (he : extraArgs F.sig all ≠ [] ∨ extraKwargs F.sig named ≠ [])
    (hl : (extraArgs F.sig all).length ≤ args.length) (hk : ∀ k, PyDict.has (extraKwargs F.sig named) k = true → PyDict.has func.kwargs k = false) :
    callCurriedA isof F func args kwargs =
      .ok (.called (all.take (all.length - (extraArgs F.sig all).length)) (named.filter (fun kv => !PyDict.has (extraKwargs F.sig named) kv.1)) (extraArgs F.sig all) (extraKwargs F.sig named)) := by
  have hdec : decideAction F.sig all named = .ok (.callWithPassthrough (extraArgs F.sig all) (extraKwargs F.sig named)) := by
    obtain ⟨r, e0, e1, e2, e3, e4⟩ := bind_main hw all named hx hc hp
    have : (r.extraArgs.isEmpty && r.extraKwargs.isEmpty) = false := by
      rw [e2, e3]
      rcases he with h | h
      · cases hh : extraArgs F.sig all with
        | nil => exact absurd hh h
        | cons => rfl
      · cases hh : extraKwargs F.sig named with
        | nil => exact absurd hh h
        | cons => simp
    simp only [decideAction, e0, e1, hm, List.isEmpty_nil, Bool.true_and, this, Bool.false_eq_true, if_false, if_true]
    rw [e2, e3]
  have ea : func.args ++ (if (extraArgs F.sig all).isEmpty then args else args.take (args.length - (extraArgs F.sig all).length)) = all.take (all.length - (extraArgs F.sig all).length) := by
    have : all.take (all.length - (extraArgs F.sig all).length) = func.args ++ args.take (args.length - (extraArgs F.sig all).length) := by
      rw [hall, List.take_append, List.length_append, ← hall, List.take_of_length_le (by omega)]
      congr 2
      omega
    rw [this]
    split
    · next h => rw [List.isEmpty_iff] at h; simp [h]
    · rfl
  have ek : PyDict.update func.kwargs (kwargs.filter (fun kv => !PyDict.has (extraKwargs F.sig named) kv.1)) = named.filter (fun kv => !PyDict.has (extraKwargs F.sig named) kv.1) := by
    rw [hnamed, Curry.filter_update (fun k => !PyDict.has (extraKwargs F.sig (PyDict.update func.kwargs kwargs)) k)]
    rw [← hnamed]
    congr 1
    symm
    rw [List.filter_eq_self]
    intro kv hkv
    cases hh : PyDict.has (extraKwargs F.sig named) kv.1 with
    | false => rfl
    | true =>
      have h1 := hk _ hh
      have : PyDict.has func.kwargs kv.1 = true := by
        rw [← PyDict.mem_keys]; exact List.mem_map.mpr ⟨kv, hkv, rfl⟩
      rw [this] at h1; cases h1
  simp only [callCurriedA, ← hall, ← hnamed, hdec, ea, ek]

/-- C131: if some parameters lack an argument, and there are also arguments that no parameter takes, the call raises: a function without annotations a ValueError, and one with annotations,
that has got no arguments before, a TypeError. -/
theorem C131_too_many (isof : T → BVal V → Res Bool) (hq : ∀ t b e, isof t b = .error e → e = .TypeError) (F : AFn V T) (hw : WF F.sig) (func : Obj V) (args : List V) (kwargs : PyDict String V)
    (all : List V) (named : PyDict String V) (hall : all = func.args ++ args) (hnamed : named = PyDict.update func.kwargs kwargs)
    (hc : ¬ Conflict F.sig all named) (hp : ¬ PosOnlyClash F.sig all named) (hx : extraArgs F.sig all = [] ∨ (¬ hasKind .kwOnly F.sig ∧ ¬ hasKind .varKw F.sig))
    (hm : missing F.sig all named ≠ []) (he : extraArgs F.sig all ≠ [] ∨ extraKwargs F.sig named ≠ []) :
    (F.hints = [] → callCurriedA isof F func args kwargs = .error .ValueError) ∧
    (F.hints ≠ [] → func = .plain → callCurriedA isof F func args kwargs = .error .TypeError) := by
  obtain ⟨r, e0, e1, e2, e3, e4⟩ := bind_main hw all named hx hc hp
  have hdec : decideAction F.sig all named = .ok .keepCurrying := by
    rw [← e1] at hm
    simp [decideAction, e0, hm]
  constructor
  · intro hh
    have hno : partialOk F.sig all named = false := by
      simp only [partialOk, bind_part hw.names, e0, Except.map, forget, e2, e3]
      rcases he with h | h
      · cases hE : extraArgs F.sig all with
        | nil => exact absurd hE h
        | cons => rfl
      · cases hE : extraKwargs F.sig named with
        | nil => exact absurd hE h
        | cons => simp
    simp only [callCurriedA, ← hall, ← hnamed, hdec, C131_unannotated isof F hh]
    show (if partialOk F.sig all named then _ else _) = _
    rw [hno]; rfl
  · intro hh hf
    subst hf
    have hs : ¬ Fits isof F.hints F.sig all named := by
      intro h
      have ht := h.1
      rcases he with h | h
      · exact h ht.2.2.1
      · exact h ht.2.2.2
    rcases check_spec hq F hh .plain args kwargs rfl hw with ⟨h1, h2⟩ | ⟨h1, h2⟩
    · rw [hall, hnamed] at hs; exact absurd h1 hs
    · simp only [callCurriedA, ← hall, ← hnamed, hdec, h2]

private theorem one_by_one (isof : T → BVal V → Res Bool) (hq : ∀ t b e, isof t b = .error e → e = .TypeError) (F : AFn V T) (hw : WF F.sig) (k : Nat) (hp : Plain k F.sig) (hh : F.hints ≠ [])
    (args rest : List V) (func : Obj V) (hf : func = .part args [] ∨ (func = .plain ∧ args = [])) (h4 : 4 ≤ k) (hl : args.length + rest.length = k) (hr : 2 ≤ rest.length) :
    chainA isof F func (rest.map (fun v => ([v], []))) = .error .TypeError := by
  induction rest generalizing args func with
  | nil => simp at hr
  | cons v rest ih =>
    simp only [List.length_cons] at hl hr
    have hfa : func.args = args := by rcases hf with rfl | ⟨rfl, rfl⟩ <;> rfl
    have hfk : func.kwargs = [] := by rcases hf with rfl | ⟨rfl, rfl⟩ <;> rfl
    have hu : PyDict.update ([] : PyDict String V) [] = [] := rfl
    have ht : Takes F.sig (args ++ [v]) [] := plain_takes hp (by simp; omega)
    have hdec : decideAction F.sig (args ++ [v]) [] = .ok .keepCurrying :=
      decide_keep hw ht.2.2.1 ht.1 ht.2.1 (plain_missing hp hw (by simp; omega))
    have hcheck : partialA isof F func [v] [] = .error .TypeError ∨ partialA isof F func [v] [] = .ok (.part (args ++ [v]) []) := by
      rcases hf with rfl | ⟨rfl, rfl⟩
      · rcases C131_shift_refuted isof hq F hw k hp hh args [v] (by omega) with ⟨h, _⟩ | ⟨h, _⟩
        · exact .inr h
        · exact .inl h
      · rcases C131_apply isof hq F hw hh [v] [] (by simp [PyDict.keys]) with ⟨h, _⟩ | ⟨h, _⟩
        · exact .inr h
        · exact .inl h
    have hok := partialOk_of hw ht.2.2.1 ht.2.2.2 ht.1 ht.2.1
    simp only [List.map_cons, chainA, callCurriedA, hfa, hfk, hu, hdec]
    rcases hcheck with h | h
    · simp [h]
    · simp only [h, Obj.args, Obj.kwargs, hok, if_true]
      by_cases hr2 : 2 ≤ rest.length
      · exact ih (args ++ [v]) _ (.inl rfl) (by simp; omega) hr2
      · exfalso
        rcases hf with rfl | ⟨rfl, rfl⟩
        · have := C131_half_refuted isof hq F hw k hp hh args [v] (by omega) (by simp; omega)
          rw [this] at h; cases h
        · simp at hl; omega

/-- C131 refuted for more than two calls: a curried function of four or more parameters, of which any is annotated, can not be called with one argument at a time. -/
theorem C131_one_by_one_refuted (isof : T → BVal V → Res Bool) (hq : ∀ t b e, isof t b = .error e → e = .TypeError) (F : AFn V T) (hw : WF F.sig) (k : Nat) (hp : Plain k F.sig) (hh : F.hints ≠ [])
    (h4 : 4 ≤ k) (args : List V) (hl : args.length = k) :
    chainA isof F .plain (args.map (fun v => ([v], []))) = .error .TypeError :=
  one_by_one isof hq F hw k hp hh [] args .plain (.inr ⟨rfl, rfl⟩) h4 (by simpa using hl) (by omega)

/-- Values and types: `v` is of type `v / 10`; type 0 is `Any`. -/
private def tensA : Nat → BVal Nat → Res Bool
  | 0, _ => .ok true
  | t, .val v => .ok (v / 10 == t)
  | _, _ => .ok false

private def prmA (n : String) : Param Nat := ⟨n, .posOrKw, none⟩

/-- C131 refuted: with `def f(x: int, y: str, z: str)`, `partial(partial(f, 1), "a")` is a TypeError, although both arguments are right; and with `def g(x, y: str, z: int)`,
`partial(partial(g, "b"), 5)` is accepted, although `y` is not a string. -/
theorem C131_types_refuted :
    let f : AFn Nat Nat := ⟨[prmA "x", prmA "y", prmA "z"], [("x", 1), ("y", 2), ("z", 2)]⟩
    let g : AFn Nat Nat := ⟨[prmA "x", prmA "y", prmA "z"], [("y", 2), ("z", 1)]⟩
    ((partialA tensA f .plain [10] []).toOption = some (.part [10] []) ∧ partialA tensA f (.part [10] []) [20] [] = .error .TypeError ∧ (partialA tensA f .plain [10, 20] []).toOption = some (.part [10, 20] [])) ∧
    ((partialA tensA g (.part [20] []) [15] []).toOption = some (.part [20, 15] []) ∧ partialA tensA g .plain [20, 15] [] = .error .TypeError) := by
  refine ⟨⟨rfl, rfl, rfl⟩, rfl, rfl⟩

/-- C131 refuted for `flip`: `partial(flip(f), *args)` returns exactly if `args` are of the types of the first parameters of `f`; but when it is called with the arguments that are missing, the last
parameters get `args`, the last one the first of them. -/
theorem C131_flip_refuted (isof : T → BVal V → Res Bool) (hq : ∀ t b e, isof t b = .error e → e = .TypeError) (F : AFn V T) (hw : WF F.sig) (k : Nat) (hp : Plain k F.sig) (hh : F.hints ≠ [])
    (args more : List V) (hl : args.length + more.length = k) :
    ((partialA isof (flipped F) .plain args [] = .ok (.part args []) ∧ Fits isof F.hints F.sig args []) ∨
      (partialA isof (flipped F) .plain args [] = .error .TypeError ∧ ¬ Fits isof F.hints F.sig args [])) ∧
    ∀ (i : Nat) (v : V), args[i]? = some v →
      (callFlipped (.part args []) more []).1[k - 1 - i]? = some v ∧ ∃ p, F.sig[k - 1 - i]? = some p ∧ seen F.sig (callFlipped (.part args []) more []).1 [] p = some (.val v) := by
  refine ⟨C131_apply isof hq (flipped F) hw hh args [] (by simp [PyDict.keys]), fun i v hv => ?_⟩
  obtain ⟨hi, he⟩ := List.getElem?_eq_some_iff.mp hv
  have hlen : (args ++ more).reverse.length = k := by simp; omega
  have hget : (args ++ more).reverse[k - 1 - i]? = some v := by
    rw [List.getElem?_reverse (by simp; omega)]
    have : (args ++ more).length - 1 - (k - 1 - i) = i := by simp; omega
    rw [this, List.getElem?_append_left hi, hv]
  have hsl : F.sig.length = k := hp.1
  have hj : k - 1 - i < F.sig.length := by omega
  refine ⟨hget, F.sig[k - 1 - i], List.getElem?_eq_getElem hj, ?_⟩
  have hm : F.sig[k - 1 - i] ∈ F.sig := List.getElem_mem hj
  have hkind := hp.2 _ hm
  have hv : F.sig[k - 1 - i].kind ≠ .varPos ∧ F.sig[k - 1 - i].kind ≠ .varKw := by rcases hkind.1 with e | e <;> simp [e]
  have hpa : posArg F.sig (args ++ more).reverse F.sig[k - 1 - i].name = some v := by
    unfold posArg
    rw [plain_positional hp]
    refine lookup_nodup (fst_zip_nodup hw.names _) ?_
    rw [List.mem_iff_getElem]
    obtain ⟨h1, h2⟩ := List.getElem?_eq_some_iff.mp hget
    exact ⟨k - 1 - i, by simp; omega, by simp only [List.getElem_zip, List.getElem_map, h2]⟩
  simp only [callFlipped, Obj.args, seen, hv.1, hv.2, if_false, given, hpa]
  rfl

/-- C131 refuted for `flip`: with `def f(x: int, y: str)`, `partial(flip(f), "a")` is a TypeError, although `flip(f)("a", 1)` gives `f` the right arguments; and `partial(flip(f), 1)` is accepted,
although the 1 can only become `y`. -/
theorem C131_flip_types_refuted :
    let f : AFn Nat Nat := ⟨[prmA "x", prmA "y"], [("x", 1), ("y", 2)]⟩
    (partialA tensA (flipped f) .plain [20] [] = .error .TypeError ∧ callFlipped .plain [20, 10] [] = ([10, 20], [])) ∧
    (partialA tensA (flipped f) .plain [10] []).toOption = some (.part [10] []) ∧ ∀ v, (callFlipped (.part [10] []) [v] []).1 = [v, 10] :=
  ⟨⟨rfl, rfl⟩, rfl, fun _ => rfl⟩

private theorem get_set (d : PyDict String V) (k : String) (v : V) (x : String) :
    PyDict.get? (PyDict.set d k v) x = if k = x then some v else PyDict.get? d x := by
  induction d with
  | nil => simp [PyDict.set, PyDict.get?]
  | cons kv d ih =>
    obtain ⟨k', v'⟩ := kv
    by_cases h : k' = k
    · subst h; by_cases hx : k' = x <;> simp [PyDict.set, PyDict.get?, hx]
    · by_cases hx : k' = x
      · subst hx; simp [PyDict.set, PyDict.get?, h, Ne.symm h]
      · simp only [PyDict.set, PyDict.get?, h, hx, if_false, ih]

private theorem get_update (m : PyDict String V) (hn : (PyDict.keys m).Nodup) (d : PyDict String V) (x : String) :
    PyDict.get? (PyDict.update d m) x = (PyDict.get? m x).or (PyDict.get? d x) := by
  induction m generalizing d with
  | nil => simp [PyDict.update, PyDict.get?]
  | cons kv m ih =>
    obtain ⟨k, v⟩ := kv
    have hn' : k ∉ PyDict.keys m ∧ (PyDict.keys m).Nodup := by simpa [PyDict.keys] using hn
    have hk : ∀ (m : PyDict String V), k ∉ PyDict.keys m → PyDict.get? m k = none := by
      intro m h
      induction m with
      | nil => rfl
      | cons p m ih =>
        simp only [PyDict.keys, List.map_cons, List.mem_cons, not_or] at h
        simp only [PyDict.get?, Ne.symm h.1, if_false]
        exact ih h.2
    have : PyDict.update d ((k, v) :: m) = PyDict.update (PyDict.set d k v) m := rfl
    rw [this, ih hn'.2, get_set]
    by_cases hx : k = x
    · subst hx; simp [hk m hn'.1, PyDict.get?]
    · simp [PyDict.get?, hx]

/-- C131, `flip`: named arguments are not flipped; one that is given again replaces the one that was given to `partial`. -/
theorem C131_flip_named (args more : List V) (kwargs kwargs' : PyDict String V) (hn : (PyDict.keys kwargs').Nodup) (x : String) :
    PyDict.get? (callFlipped (.part args kwargs) more kwargs').2 x = (PyDict.get? kwargs' x).or (PyDict.get? kwargs x) :=
  get_update kwargs' hn kwargs x

example : PyDict.get? (callFlipped (.part [1] [("a", 2), ("b", 3)]) [] [("b", 4)]).2 "b" = some 4 :=
  C131_flip_named [1] [] [("a", 2), ("b", 3)] [("b", 4)] (by simp [PyDict.keys]) "b"

/-- The hypotheses of the theorems are met: `def f(a: int, b: int, c: int, d: int)` -/
private def fourA : AFn Nat Nat := ⟨[prmA "a", prmA "b", prmA "c", prmA "d"], [("a", 1), ("b", 1), ("c", 1), ("d", 1)]⟩

private theorem fourPlain : Plain 4 fourA.sig := ⟨rfl, by simp [fourA, prmA]⟩
private theorem fourWF : WF fourA.sig where
  shape := ⟨[], fourA.sig, [], [], [], by simp, by simp, by simp [fourA, prmA], by simp, by simp, by simp, by simp, by simp⟩
  names := by decide
  stars := by simp [fourA, prmA]

example : chainA tensA fourA .plain ([11, 12, 13, 14].map (fun v => ([v], []))) = .error .TypeError :=
  C131_one_by_one_refuted tensA (by intro t b e; unfold tensA; split <;> intro h <;> cases h) fourA fourWF 4 fourPlain (by simp [fourA]) (by omega) _ rfl
example : (chainA tensA fourA .plain [([11, 12], []), ([13], [("d", 14)])]).toOption = some (.called [11, 12, 13] [("d", 14)] [] [], []) := rfl
example : (callCurriedA tensA fourA (.part [11, 12] []) [13, 14, 15] [("e", 16)]).toOption = some (.called [11, 12, 13, 14] [] [15] [("e", 16)]) := by
  have := C131_pass_partial tensA fourA fourWF (.part [11, 12] []) [13, 14, 15] [("e", 16)] _ _ rfl rfl (by decide) (by simp [PosOnlyClash, fourA, prmA])
    (.inr ⟨plain_nokind fourPlain (by simp), plain_nokind fourPlain (by simp)⟩) (by rfl) (.inl (by decide)) (by decide) (fun _ _ => rfl)
  rw [this]; rfl
example : callCurriedA tensA fourA .plain [11, 22] [] = .error .TypeError := rfl
example : callCurriedA tensA fourA .plain [11] [("e", 16)] = .error .TypeError :=
  (C131_too_many tensA (by intro t b e; unfold tensA; split <;> intro h <;> cases h) fourA fourWF .plain [11] [("e", 16)] _ _ rfl rfl (by decide) (by simp [PosOnlyClash, fourA, prmA]) (.inl rfl) (by decide)
    (.inr (by decide))).2 (by simp [fourA]) rfl
example : callCurriedA tensA { fourA with hints := [] } (.part [11] []) [] [("e", 16)] = .error .ValueError := rfl
example : (partialA tensA fourA (.part [] [("a", 11)]) [] [("c", 12)]).toOption = some (.part [] [("a", 11), ("c", 12)]) ∧ partialA tensA fourA (.part [] [("a", 11)]) [] [("c", 22)] = .error .TypeError :=
  ⟨rfl, rfl⟩
example : (partialA tensA fourA (.part [11] []) [12, 13] []).toOption = some (.part [11, 12, 13] []) := rfl

end Unpy.Props
