import Verif.Proof.Typecheck
/-!
# C46: `isoftype` decides membership in the set that a type specification denotes
-/
namespace Unpy.Props
open Unpy Unpy.Typecheck Unpy.Spec.Typecheck Unpy.Proof.Typecheck
variable {C V : Type} [DecidableEq C]

/-! A small world for the examples: integers, nonempty strings, tuples, lists, dicts and functions, with the
classes of the standard library and, for each of them, a subclass. -/

inductive DemoClass where
  | std (s : Std)
  | subclass (parent : Std)
  deriving DecidableEq

inductive DemoVal where
  | int | str | fn
  | tup (xs : List DemoVal)
  | list (xs : List DemoVal)
  | dict (kvs : List (DemoVal × DemoVal))

def DemoVal.cls : DemoVal → Std
  | .int => .int | .str => .str | .fn => .callable | .tup _ => .tuple | .list _ => .list | .dict _ => .dict

def demoTypes : World DemoClass DemoVal where
  std := .std
  sub c d := match c, d with
    | .std a, .std b => decide (b = a ∨ b ∈ ancestors a)
    | .subclass a, .std b => decide (b = a ∨ b ∈ ancestors a)
    | .std _, .subclass _ => false
    | .subclass a, .subclass b => decide (a = b)
  inst v c := match c with
    | .std k => decide (k = v.cls ∨ k ∈ ancestors v.cls)
    | .subclass _ => false
  iter v := match v with
    | .str => [.str]
    | .tup xs => xs
    | .list xs => xs
    | .dict kvs => kvs.map (·.1)
    | _ => []
  pairs v := match v with
    | .dict kvs => kvs
    | _ => []
  truthy v := match v with
    | .tup xs => !xs.isEmpty
    | .list xs => !xs.isEmpty
    | .dict kvs => !kvs.isEmpty
    | _ => true
  isCallable v := match v with | .fn => true | _ => false
  hasReversed v := match v with | .list _ => true | .dict _ => true | _ => false
  isReversible v := match v with | .list _ => true | .dict _ => true | _ => false
  supports v p := match v with | .int => p != .bytes | _ => false

theorem demoTypes_real : Real demoTypes where
  sub a b hb := by
    cases a <;> cases b <;> first | rfl | (exfalso; revert hb; decide)
  tuple v h := by cases v <;> simp [demoTypes, DemoVal.cls, ancestors] at h ⊢
  coll k v h := by cases v <;> cases k <;> simp [demoTypes, DemoVal.cls, ancestors, collClass] at h ⊢
  map k v h := by cases v <;> cases k <;> simp [demoTypes, DemoVal.cls, ancestors, mapClass] at h ⊢
  items v h := by cases v <;> simp [demoTypes, DemoVal.cls, ancestors] at h
  bytes v h := by cases v <;> simp [demoTypes, DemoVal.cls, ancestors] at h

private theorem plain_eval {w : World C V} (hr : Real w) {c : C} (hp : Plain w c) (v : V) :
    isoftype w (.cls c) v = .ok (w.inst v c) := by
  have hs := hr.sub
  unfold isoftype
  rcases hp with rfl | rfl | rfl | hp
  · simp [byClass, hs .str .str (by decide), ancestors]
  · have a1 := hs .bytes .str (by decide)
    have a2 := hs .bytes .tuple (by decide)
    have a3 := hs .bytes .dict (by decide)
    have a4 := hs .bytes .mutableMapping (by decide)
    have a5 := hs .bytes .mapping (by decide)
    have a6 := hs .bytes .itemsView (by decide)
    have a7 := hs .bytes .callable (by decide)
    simp only [ancestors] at a1 a2 a3 a4 a5 a6 a7
    simp [byClass, a1, a2, a3, a4, a5, a6, a7, mapKinds, MapKind.std]
  · have a1 := hs .tuple .str (by decide)
    have a2 := hs .tuple .tuple (by decide)
    simp only [ancestors] at a1 a2
    simp [byClass, a1, a2]
  · have hm : mapKinds.find? (fun k => w.sub c (w.std k.std)) = none := by
      rw [List.find?_eq_none]
      intro k _
      cases k <;> simp only [MapKind.std, Bool.not_eq_true] <;> exact hp _ (by decide)
    have hc : collKinds.find? (fun k => w.sub c (w.std k.std)) = none := by
      rw [List.find?_eq_none]
      intro k _
      cases k <;> simp only [CollKind.std, Bool.not_eq_true] <;> exact hp _ (by decide)
    have h1 := hp .str (by decide)
    have h2 := hp .tuple (by decide)
    have h3 := hp .itemsView (by decide)
    have h4 := hp .callable (by decide)
    simp [byClass, h1, h2, h3, h4, hm, hc]

/-- Whenever `isoftype` answers for a type specification built, to any depth, from the covered forms, the
answer is True exactly when the value belongs to the set that the specification denotes.  Missing for the
full C46: subclasses of the classes that `isoftype` treats specially, bounds of type variables and
`Tuple[()]`, for which the answers are wrong (see the refutations below). -/
theorem C46_sound_partial {w : World C V} (hr : Real w) {T : Ty C} (hT : Covered w T) :
    ∀ (v : V) (b : Bool), isoftype w T v = .ok b → (b = true ↔ Has w v T) := by
  induction hT with
  | any => intro v b h; simp only [isoftype, Except.ok.injEq] at h; simp [← h, Has.any]
  | @typevar ts bd hts hb ih =>
    intro v b h
    cases ts with
    | nil =>
      simp only [isoftype, Except.ok.injEq] at h
      rw [hb rfl]
      simp [← h, Has.typevarFree]
    | cons t ts =>
      simp only [isoftype, anyOf_eq] at h
      rw [anyM_sound (P := fun t => Has w v t) (fun t ht b => ih t ht v b) h]
      constructor
      · rintro ⟨t, ht, hh⟩; exact .typevarConstraint ht hh
      · intro hh
        cases hh with
        | typevarConstraint ht hh => exact ⟨_, ht, hh⟩
  | @union ts hts ih =>
    intro v b h
    simp only [isoftype, anyOf_eq] at h
    rw [anyM_sound (P := fun t => Has w v t) (fun t ht b => ih t ht v b) h]
    constructor
    · rintro ⟨t, ht, hh⟩; exact .union ht hh
    · intro hh
      cases hh with
      | union ht hh => exact ⟨_, ht, hh⟩
  | bareUnion =>
    intro v b h
    simp only [isoftype, Except.ok.injEq] at h
    subst h
    refine ⟨fun h => (by cases h), fun h => (by cases h)⟩
  | @newtype t ht =>
    intro v b h
    simp only [isoftype] at h
    rw [checkable_sound ht v b h]
    exact ⟨.newtype, fun h => by cases h; assumption⟩
  | @pony p =>
    have e : p.std = ponyClass p := by cases p <;> rfl
    intro v b h; simp only [isoftype, Except.ok.injEq, e] at h; subst h
    exact ⟨.pony, fun h => by cases h; assumption⟩
  | reversible =>
    intro v b h; simp only [isoftype, Except.ok.injEq] at h; subst h
    exact ⟨.reversible, fun h => by cases h; assumption⟩
  | supports =>
    intro v b h; simp only [isoftype, Except.ok.injEq] at h; subst h
    exact ⟨.supports, fun h => by cases h; assumption⟩
  | @bare k hk =>
    intro v b h
    simp only [isoftype] at h
    rw [byClass_bare hr v _ hk] at h
    have hmap : ∀ (k : MapKind), ismapping w (w.std k.std) unconstrained unconstrained v = .ok b →
        (b = true ↔ w.inst v (w.std k.std) = true ∧ w.pairs v ≠ []) := by
      intro k hh
      have e : k.std = mapClass k := by cases k <;> rfl
      rw [e] at hh ⊢
      rw [ismapping_sound (hr.map k v) unconstrained_sound unconstrained_sound hh]
      simp
    have hcoll : ∀ (k : CollKind), iscollection w (w.std k.std) unconstrained v = .ok b →
        (b = true ↔ w.inst v (w.std k.std) = true ∧ w.iter v ≠ []) := by
      intro k hh
      have e : k.std = collClass k := by cases k <;> rfl
      rw [e] at hh ⊢
      rw [iscollection_sound (hr.coll k v) unconstrained_sound hh]
      simp
    have hinv : Has w v (.bare k) ↔ bareMeaning w v k :=
      ⟨fun h => by cases h; assumption, .bare⟩
    rw [hinv]
    cases k with
    | tuple => simp only [Except.ok.injEq] at h; subst h; exact Iff.rfl
    | callable => simp only [Except.ok.injEq] at h; subst h; exact Iff.rfl
    | byteString =>
      rw [iscollection_sound (P := fun x => w.inst x (w.std .int) = true) (hr.coll .byteString v)
        (fun x b hb => by cases hb; exact Iff.rfl) h]
      exact ⟨fun h => ⟨h.1, h.2.1⟩, fun h => ⟨h.1, h.2, hr.bytes v h.1⟩⟩
    | dict => exact hmap .dict h
    | mutableMapping => exact hmap .mutableMapping h
    | mapping => exact hmap .mapping h
    | itemsView =>
      rw [ismapping_sound (hr.items v) unconstrained_sound unconstrained_sound h]
      simp [bareMeaning]
    | list => exact hcoll .list h
    | frozenset => exact hcoll .frozenset h
    | set => exact hcoll .set h
    | deque => exact hcoll .deque h
    | mutableSet => exact hcoll .mutableSet h
    | keysView => exact hcoll .keysView h
    | valuesView => exact hcoll .valuesView h
    | mappingView => exact hcoll .mappingView h
    | abstractSet => exact hcoll .abstractSet h
    | mutableSequence => exact hcoll .mutableSequence h
    | sequence => exact hcoll .sequence h
    | _ => exact absurd hk (by decide)
  | @tupleAll t _ ih =>
    intro v b h
    simp only [isoftype] at h
    have : iscollection w (w.std .tuple) (isoftype w t) v = .ok b := h
    rw [iscollection_sound (P := fun x => Has w x t) (hr.tuple v) ih this]
    constructor
    · rintro ⟨h1, h2, h3⟩; exact .tupleAll h1 h2 h3
    · intro hh; cases hh with | tupleAll h1 h2 h3 => exact ⟨h1, h2, h3⟩
  | @tupleOf ts hts hne ih =>
    intro v b h
    simp only [isoftype] at h
    cases hi : w.inst v (w.std .tuple)
    · simp only [hi, Bool.not_false, if_true, Except.ok.injEq] at h
      subst h
      refine ⟨fun h => (by cases h), fun h => ?_⟩
      cases h with | tupleOf h => simp [hi] at h
    · simp only [hi, Bool.not_true, Bool.false_eq_true, if_false] at h
      rw [if_neg (by simpa using hne)] at h
      by_cases hl : (w.iter v).length = ts.length
      · rw [if_neg (not_not_intro hl), allOf_eq] at h
        rw [allM_sound (P := fun p => Has w p.1 p.2) (fun p hp b => ih p.2 (List.of_mem_zip hp).2 p.1 b) h]
        exact ⟨fun h => .tupleOf hi hl h, fun h => by cases h; assumption⟩
      · rw [if_pos hl, Except.ok.injEq] at h
        subst h
        refine ⟨fun h => (by cases h), fun h => ?_⟩
        cases h with | tupleOf _ h => exact absurd h hl
  | @map tk tv k _ _ ihk ihv =>
    have e : k.std = mapClass k := by cases k <;> rfl
    intro v b h
    simp only [isoftype, e] at h
    rw [ismapping_sound (P := fun x => Has w x tk) (Q := fun x => Has w x tv) (hr.map k v) ihk ihv h]
    constructor
    · rintro ⟨h1, h2, h3, h4⟩; exact .map h1 h2 h3 h4
    · intro hh; cases hh with | map h1 h2 h3 h4 => exact ⟨h1, h2, h3, h4⟩
  | @items tk tv _ _ ihk ihv =>
    intro v b h
    simp only [isoftype] at h
    rw [ismapping_sound (P := fun x => Has w x tk) (Q := fun x => Has w x tv) (hr.items v) ihk ihv h]
    constructor
    · rintro ⟨h1, h2, h3, h4⟩; exact .items h1 h2 h3 h4
    · intro hh; cases hh with | items h1 h2 h3 h4 => exact ⟨h1, h2, h3, h4⟩
  | @coll t k _ hk ih =>
    have e : k.std = collClass k := by cases k <;> rfl
    intro v b h
    simp only [isoftype, if_neg hk, e] at h
    rw [iscollection_sound (P := fun x => Has w x t) (hr.coll k v) ih h]
    constructor
    · rintro ⟨h1, h2, h3⟩; exact .coll h1 h2 h3
    · intro hh; cases hh with | coll h1 h2 h3 => exact ⟨h1, h2, h3⟩
  | callable =>
    intro v b h; simp only [isoftype, Except.ok.injEq] at h; subst h
    exact ⟨.callable, fun h => by cases h; assumption⟩
  | cls hp =>
    intro v b h
    rw [plain_eval hr hp, Except.ok.injEq] at h
    subst h
    exact ⟨.cls, fun h => by cases h; assumption⟩
  | other => intro v b h; simp [isoftype] at h

/-- `isoftype((1, "a"), Tuple[int, Union[List[int], str]])`, and a dict of nonempty lists. -/
example : Real demoTypes ∧
    Covered demoTypes (.tupleOf [.cls (.std .int), .union [.coll .list (.cls (.std .int)), .cls (.std .str)]]) ∧
    isoftype demoTypes (.tupleOf [.cls (.std .int), .union [.coll .list (.cls (.std .int)), .cls (.std .str)]])
      (.tup [.int, .str]) = .ok true ∧
    isoftype demoTypes (.map .mapping (.cls (.std .str)) (.coll .sequence (.cls (.std .int))))
      (.dict [(.str, .list [.int]), (.str, .list [])]) = .ok false := by
  refine ⟨demoTypes_real, ?_, by decide +kernel, by decide +kernel⟩
  have hint : Covered demoTypes (.cls (.std .int)) := .cls (.inr (.inr (.inr (by decide))))
  refine .tupleOf ?_ (by simp)
  intro t ht
  simp only [List.mem_cons, List.not_mem_nil, or_false] at ht
  rcases ht with rfl | rfl
  · exact hint
  · refine .union ?_
    intro t ht
    simp only [List.mem_cons, List.not_mem_nil, or_false] at ht
    rcases ht with rfl | rfl
    · exact .coll hint (by decide)
    · exact .cls (.inl rfl)

/-- For every supported type specification, `isoftype` answers, for every value: it raises nothing. -/
theorem C46_answers {w : World C V} (hr : Real w) {T : Ty C} (hT : Supported T) :
    ∀ v : V, ∃ b, isoftype w T v = .ok b := by
  induction hT with
  | @typevar ts bd _ ih =>
    intro v
    cases ts with
    | nil => simp only [isoftype]; exact ⟨_, rfl⟩
    | cons t ts =>
      simp only [isoftype, anyOf_eq]
      exact anyM_answers (fun t ht => ih t ht v)
  | union _ ih =>
    intro v
    simp only [isoftype, anyOf_eq]
    exact anyM_answers (fun t ht => ih t ht v)
  | bare hk =>
    intro v
    simp only [isoftype]
    rw [byClass_bare hr v _ hk]
    repeat' split
    all_goals first
      | exact ⟨_, rfl⟩
      | exact iscollection_answers (fun x => ⟨_, rfl⟩)
      | exact ismapping_answers (fun _ => ⟨_, rfl⟩) (fun _ => ⟨_, rfl⟩)
  | @tupleAll t _ ih =>
    intro v
    have := iscollection_answers (w := w) (c := w.std .tuple) (v := v) ih
    simp only [isoftype]
    exact this
  | tupleOf _ ih =>
    intro v
    simp only [isoftype, allOf_eq]
    repeat' split
    all_goals first
      | exact ⟨_, rfl⟩
      | exact allM_answers (fun p hp => ih p.2 (List.of_mem_zip hp).2 p.1)
  | map _ _ ihk ihv => intro v; simp only [isoftype]; exact ismapping_answers ihk ihv
  | items _ _ ihk ihv => intro v; simp only [isoftype]; exact ismapping_answers ihk ihv
  | coll _ ih =>
    intro v
    simp only [isoftype]
    refine iscollection_answers (fun x => ?_)
    split
    · exact ⟨_, rfl⟩
    · exact ih x
  | cls => intro v; simp only [isoftype]; exact byClass_answers ⟨_, rfl⟩
  | newtype ht => intro v; simp only [isoftype]; exact checkable_answers ht v
  | _ => intro v; simp only [isoftype]; exact ⟨_, rfl⟩

example : isoftype demoTypes (.union [.bare .callable, .tupleAll (.typevar [] none)]) (.tup [.fn]) = .ok true := by
  decide +kernel

/-- For `str`, `bytes`, `tuple` and every class unrelated to the collection types, `isoftype` is
`isinstance`. -/
theorem C46_isinstance {w : World C V} (hr : Real w) {c : C} (hp : Plain w c) (v : V) :
    isoftype w (.cls c) v = .ok (w.inst v c) := plain_eval hr hp v

example : Plain demoTypes (.std .int) ∧ isoftype demoTypes (.cls (.std .int)) .int = .ok true ∧
    isoftype demoTypes (.cls (.std .int)) .str = .ok false :=
  ⟨.inr (.inr (.inr (by decide))), by decide +kernel, by decide +kernel⟩

/-- A `Union` does not depend on the order of its members, nor on how unions are nested, as long as every
member is supported. -/
theorem C46_union_perm {w : World C V} (hr : Real w) {ts us : List (Ty C)}
    (hs : ∀ t ∈ ts, Supported t) (hsame : ∀ t, t ∈ ts ↔ t ∈ us) (v : V) :
    isoftype w (.union ts) v = isoftype w (.union us) v := by
  have ha := fun t ht => C46_answers hr (hs t ht) v
  obtain ⟨b, hb⟩ := anyM_answers (f := fun t => isoftype w t v) (l := ts) ha
  obtain ⟨b', hb'⟩ := anyM_answers (f := fun t => isoftype w t v) (l := us)
    (fun t ht => ha t ((hsame t).mpr ht))
  simp only [isoftype, anyOf_eq, hb, hb']
  have e1 := anyM_sound (P := fun t => isoftype w t v = .ok true) (l := ts)
    (fun t _ b h => by rw [h]; simp) hb
  have e2 := anyM_sound (P := fun t => isoftype w t v = .ok true) (l := us)
    (fun t _ b h => by rw [h]; simp) hb'
  have : b = true ↔ b' = true := by
    rw [e1, e2]
    exact ⟨fun ⟨t, h, h'⟩ => ⟨t, (hsame t).mp h, h'⟩, fun ⟨t, h, h'⟩ => ⟨t, (hsame t).mpr h, h'⟩⟩
  rw [Bool.eq_iff_iff.mpr this]

example : isoftype demoTypes (.union [.cls (.std .str), .cls (.std .int)]) .int =
    isoftype demoTypes (.union [.cls (.std .int), .cls (.std .str), .cls (.std .int)]) .int := by decide +kernel

/-! ## Where the answer is wrong -/

/-- With a subclass of `str` as the type, every string is accepted, also one that is no instance of the
subclass. -/
theorem C46_str_subclass_refuted {w : World C V} {c : C} (hc : w.sub c (w.std .str) = true) {v : V}
    (hv : w.inst v (w.std .str) = true) (hn : w.inst v c = false) :
    isoftype w (.cls c) v = .ok true ∧ ¬ Has w v (.cls c) := by
  refine ⟨by simp [isoftype, byClass, hc, hv], fun h => ?_⟩
  cases h with
  | cls h => simp [hn] at h

example : demoTypes.sub (.subclass .str) (demoTypes.std .str) = true ∧
    demoTypes.inst .str (demoTypes.std .str) = true ∧ demoTypes.inst .str (.subclass .str) = false := by decide

/-- With a subclass of `tuple` (say, a named tuple) as the type, every tuple is accepted. -/
theorem C46_tuple_subclass_refuted {w : World C V} {c : C} (hs : w.sub c (w.std .str) = false)
    (hc : w.sub c (w.std .tuple) = true) {v : V}
    (hv : w.inst v (w.std .tuple) = true) (hn : w.inst v c = false) :
    isoftype w (.cls c) v = .ok true ∧ ¬ Has w v (.cls c) := by
  refine ⟨by simp [isoftype, byClass, hc, hv, hs], fun h => ?_⟩
  cases h with
  | cls h => simp [hn] at h

example : demoTypes.sub (.subclass .tuple) (demoTypes.std .str) = false ∧
    demoTypes.sub (.subclass .tuple) (demoTypes.std .tuple) = true ∧
    demoTypes.inst (.tup []) (demoTypes.std .tuple) = true ∧
    demoTypes.inst (.tup []) (.subclass .tuple) = false := by decide

/-- With a subclass of `dict` as the type, every nonempty dict is accepted, and an empty instance of the
subclass is not. -/
theorem C46_dict_subclass_refuted {w : World C V} {c : C} (hs : w.sub c (w.std .str) = false)
    (ht : w.sub c (w.std .tuple) = false) (hc : w.sub c (w.std .dict) = true) :
    (∀ v, w.inst v (w.std .dict) = true → w.truthy v = true → isoftype w (.cls c) v = .ok true) ∧
    (∀ v, w.inst v c = true → w.truthy v = false → isoftype w (.cls c) v = .ok false) := by
  have hall : ∀ l : List (V × V), allM (both unconstrained unconstrained) l = .ok true := by
    intro l
    induction l with
    | nil => rfl
    | cons p ps ih => simpa [allM, both, unconstrained] using ih
  constructor
  · intro v hv hb
    simp [isoftype, byClass, hs, ht, hc, mapKinds, MapKind.std, ismapping, hv, hb, hall]
  · intro v hv hb
    simp [isoftype, byClass, hs, ht, hc, mapKinds, MapKind.std, ismapping, hb]

/-- In particular, `isoftype({}, dict)` is False, and so is `isoftype([], list)`, although the builtin
classes are no type specifications but concrete types. -/
theorem C46_empty_builtin_refuted : ∃ w : World DemoClass DemoVal, Real w ∧
    (Has w (.dict []) (.cls (w.std .dict)) ∧ isoftype w (.cls (w.std .dict)) (.dict []) = .ok false) ∧
    (Has w (.list []) (.cls (w.std .list)) ∧ isoftype w (.cls (w.std .list)) (.list []) = .ok false) :=
  ⟨demoTypes, demoTypes_real, ⟨.cls (by decide), by decide +kernel⟩, ⟨.cls (by decide), by decide +kernel⟩⟩

/-- With a class whose instances can be called as the type, every callable is accepted. -/
theorem C46_callable_class_refuted : ∃ (w : World DemoClass DemoVal) (c : DemoClass), Real w ∧
    ¬ Has w .fn (.cls c) ∧ isoftype w (.cls c) .fn = .ok true :=
  ⟨demoTypes, .subclass .callable, demoTypes_real,
    fun h => by cases h with | cls h => revert h; decide, by decide +kernel⟩

/-- With a class that inherits from `Sequence` (say, `range`) as the type, every nonempty sequence is
accepted. -/
theorem C46_sequence_class_refuted : ∃ (w : World DemoClass DemoVal) (c : DemoClass), Real w ∧
    ¬ Has w (.list [.int]) (.cls c) ∧ isoftype w (.cls c) (.list [.int]) = .ok true :=
  ⟨demoTypes, .subclass .sequence, demoTypes_real,
    fun h => by cases h with | cls h => revert h; decide, by decide +kernel⟩

/-- The bound of a type variable is ignored. -/
theorem C46_bound_refuted (w : World C V) (c : C) (v : V) (hv : w.inst v c = false) :
    isoftype w (.typevar [] (some c)) v = .ok true ∧ ¬ Has w v (.typevar [] (some c)) := by
  refine ⟨by simp [isoftype], fun h => ?_⟩
  cases h with
  | typevarBound h => simp [hv] at h
  | typevarConstraint h => cases h

example : demoTypes.inst .str (.std .int) = false := by decide

/-- `Tuple[()]`, the type of the empty tuple, accepts every tuple. -/
theorem C46_empty_tuple_type_refuted (w : World C V) (v : V) (hv : w.inst v (w.std .tuple) = true)
    (hne : w.iter v ≠ []) :
    isoftype w (.tupleOf []) v = .ok true ∧ ¬ Has w v (.tupleOf []) := by
  refine ⟨by simp [isoftype, hv], fun h => ?_⟩
  cases h with
  | tupleOf _ h => exact hne (List.length_eq_zero_iff.mp h)

example : demoTypes.inst (.tup [.int]) (demoTypes.std .tuple) = true ∧ (demoTypes.iter (.tup [.int])).length = 1 := by
  decide

/-- A `NewType` over a generic with type arguments, over another `NewType` or over a type variable raises TypeError, whether the value belongs to it or not. -/
theorem C46_newtype_refuted (w : World C V) (v : V) (t : Ty C) (h : Refused t) :
    isoftype w (.newtype t) v = .error .TypeError := by
  cases t <;> first | exact h.elim | simp [isoftype, pyIsinstance]

/-- A `NewType` over `typing.List`, say, accepts an empty list, which `typing.List` does not. -/
theorem C46_newtype_empty_refuted : ∃ w : World DemoClass DemoVal, Real w ∧ isoftype w (.newtype (.bare .list)) (.list []) = .ok true ∧ isoftype w (.bare .list) (.list []) = .ok false :=
  ⟨demoTypes, demoTypes_real, by decide +kernel, by decide +kernel⟩

example : Refused (.newtype (.cls (.std .int)) : Ty DemoClass) ∧ Checkable (.union [.pony .hashable, .cls (.std .int)] : Ty DemoClass) :=
  ⟨trivial, .union (by intro t h; simp at h; rcases h with rfl | rfl <;> constructor)⟩

end Unpy.Props
