import Verif.Spec.Autoref
/-!
# Helper lemmas for `autoref`
-/
namespace Unpy.Autoref.Lemmas
open Unpy.Autoref Spec

/-! ## The expansion, directly -/

/-- A name that is read, inside blocks with these variables, the innermost first; `pl` are further names that are left alone. -/
def trName (ps pl : List Name) (x : Name) : T :=
  if ps.isEmpty || ps.contains x || skip.contains x || pl.contains x then .name x else .look ps x

def trE (ps pl : List Name) : E → T
  | .int n => .int n
  | .name x => trName ps pl (.user x)
  | .attr e a => .attr (trE ps pl e) a
  | .item e k => .item (trE ps pl e) (trE ps pl k)
  | .lam x e => .lam x (trE ps pl e)
  | .call f a => .call (trE ps pl f) (trE ps pl a)

mutual
def trS (ps : List Name) : S → TS
  | .expr e => .expr (trE ps [] e)
  | .assign t e => .assign t (trE ps [] e)
  | .del x => .del x
  | .repeat n body => .repeat n (trSs ps body)
  | .autoref i x e body =>
    .marker (varName i x) (.assign (.name (varName i x)) (trE ps [varName i x] e) :: trSs (varName i x :: ps) body)
def trSs (ps : List Name) : List S → List TS
  | [] => []
  | s :: ss => trS ps s :: trSs ps ss
end

theorem embed_eq (pl : List Name) : (e : E) → embed e = trE [] pl e
  | .int _ => rfl
  | .name x => by simp [embed, trE, trName]
  | .attr e a => by simp only [embed, trE, embed_eq pl e]
  | .item e k => by simp only [embed, trE, embed_eq pl e, embed_eq pl k]
  | .lam x e => by simp only [embed, trE, embed_eq pl e]
  | .call f a => by simp only [embed, trE, embed_eq pl f, embed_eq pl a]

theorem skip_eq : skip = helpers := rfl

/-- What the outer block does to names after the inner ones. -/
theorem auto_name {o : Name} {ps pl refs : List Name} (hr : ∀ x, x ∈ refs ↔ x ∈ skip ∨ x = o ∨ x ∈ ps ∨ x ∈ pl) (x : Name) :
    autoE o refs (trName ps pl x) = trName (ps ++ [o]) pl x := by
  have hx := hr x
  unfold trName
  by_cases h1 : x ∈ ps
  · simp [h1, autoE, hx]
  · by_cases h2 : x ∈ skip
    · simp [h2, autoE, hx]
    · by_cases h4 : x ∈ pl
      · simp [h4, autoE, hx]
      · by_cases h3 : x = o
        · subst h3
          cases ps with
          | nil => simp [autoE, hx]
          | cons p ps => simp only [List.mem_cons, not_or] at h1; simp [autoE, hx, h1, h2, h4]
        · cases ps with
          | nil => simp [autoE, hx, h2, h3, h4]
          | cons p ps => simp only [List.mem_cons, not_or] at h1; simp [autoE, hx, h1, h2, h3, h4]

theorem auto_E {o : Name} {ps pl refs : List Name} (hr : ∀ x, x ∈ refs ↔ x ∈ skip ∨ x = o ∨ x ∈ ps ∨ x ∈ pl) : (e : E) →
    autoE o refs (trE ps pl e) = trE (ps ++ [o]) pl e
  | .int _ => rfl
  | .name x => auto_name hr _
  | .attr e a => by simp only [autoE, trE, auto_E hr e]
  | .item e k => by simp only [autoE, trE, auto_E hr e, auto_E hr k]
  | .lam x e => by simp only [autoE, trE, auto_E hr e]
  | .call f a => by simp only [autoE, trE, auto_E hr f, auto_E hr a]

mutual
theorem auto_S {o : Name} : {ps refs : List Name} → (∀ x, x ∈ refs ↔ x ∈ skip ∨ x = o ∨ x ∈ ps) → (s : S) →
    autoS o refs (trS ps s) = trS (ps ++ [o]) s
  | ps, refs, hr, .expr e => by simp only [autoS, trS, auto_E (pl := []) (refs := refs) (by simpa using hr) e]
  | ps, refs, hr, .assign t e => by simp only [autoS, trS, auto_E (pl := []) (refs := refs) (by simpa using hr) e]
  | _, _, _, .del x => by simp only [autoS, trS]
  | _, _, hr, .repeat n body => by simp only [autoS, trS, auto_Ss hr body]
  | ps, refs, hr, .autoref i x e body => by
    simp only [autoS, trS, autoSs]
    rw [auto_E (pl := [varName i x]) (by intro y; simp [hr y]; grind) e,
      auto_Ss (ps := varName i x :: ps) (by intro y; simp [hr y]; grind) body]
    simp
theorem auto_Ss {o : Name} : {ps refs : List Name} → (∀ x, x ∈ refs ↔ x ∈ skip ∨ x = o ∨ x ∈ ps) → (ss : List S) →
    autoSs o refs (trSs ps ss) = trSs (ps ++ [o]) ss
  | _, _, _, [] => by simp only [autoSs, trSs]
  | _, _, hr, s :: ss => by simp only [autoSs, trSs, auto_S hr s, auto_Ss hr ss]
end

mutual
theorem expand_eq : (s : S) → expandS s = trS [] s
  | .expr e => by simp only [expandS, trS, embed_eq [] e]
  | .assign t e => by simp only [expandS, trS, embed_eq [] e]
  | .del x => by simp only [expandS, trS]
  | .repeat n body => by simp only [expandS, trS, expands_eq body]
  | .autoref i x e body => by
    simp only [expandS, trS, embed_eq [varName i x] e, expands_eq body]
    rw [auto_Ss (ps := []) (by intro y; simp) body]
    simp
theorem expands_eq : (ss : List S) → expandSs ss = trSs [] ss
  | [] => by simp only [expandSs, trSs]
  | s :: ss => by simp only [expandSs, trSs, expand_eq s, expands_eq ss]
end

theorem trE_absent (ps : List Name) (x : String) : (e : E) → occurs x e = false → trE ps [.user x] e = trE ps [] e
  | .int _, _ => rfl
  | .name y, h => by
    have : ¬ y = x := by simpa [occurs] using h
    simp [trE, trName, this]
  | .attr e a, h => by simp only [trE, trE_absent ps x e h]
  | .item e k, h => by
    simp only [occurs, Bool.or_eq_false_iff] at h
    simp only [trE, trE_absent ps x e h.1, trE_absent ps x k h.2]
  | .lam _ e, h => by simp only [trE, trE_absent ps x e h]
  | .call e k, h => by
    simp only [occurs, Bool.or_eq_false_iff] at h
    simp only [trE, trE_absent ps x e h.1, trE_absent ps x k h.2]

theorem trE_gen (ps : List Name) (i : Nat) : (e : E) → trE ps [.gen i] e = trE ps [] e
  | .int _ => rfl
  | .name y => by simp [trE, trName]
  | .attr e a => by simp only [trE, trE_gen ps i e]
  | .item e k => by simp only [trE, trE_gen ps i e, trE_gen ps i k]
  | .lam _ e => by simp only [trE, trE_gen ps i e]
  | .call e k => by simp only [trE, trE_gen ps i e, trE_gen ps i k]

/-! ## Values and states -/

/-- Lists with the same keys and related values. -/
inductive ARel {K A B : Type} (R : A → B → Prop) : List (K × A) → List (K × B) → Prop
  | nil : ARel R [] []
  | cons {k : K} {a : A} {b : B} {l : List (K × A)} {l' : List (K × B)} : R a b → ARel R l l' → ARel R ((k, a) :: l) ((k, b) :: l')

inductive VRel : V → RV → Prop
  | int (n : Int) : VRel (.int n) (.int n)
  | obj (i : Nat) : VRel (.obj i) (.obj i)
  | clo (x : String) (e : E) {loc : List (Name × V)} {loc' ctx : List (Name × RV)} : ARel VRel loc loc' →
      VRel (.clo x (trE (ctx.map (·.1)) [] e) loc) (.clo x e loc' ctx)

inductive AttrRel : Attr V → Attr RV → Prop
  | val {v : V} {v' : RV} : VRel v v' → AttrRel (.val v) (.val v')
  | prop (n : Nat) : AttrRel (.prop n) (.prop n)

structure ObjRel (o : Obj V) (o' : Obj RV) : Prop where
  attrs : ARel AttrRel o.attrs o'.attrs
  items : ARel VRel o.items o'.items

inductive HRel : List (Obj V) → List (Obj RV) → Prop
  | nil : HRel [] []
  | cons {o : Obj V} {o' : Obj RV} {h : List (Obj V)} {h' : List (Obj RV)} : ObjRel o o' → HRel h h' → HRel (o :: h) (o' :: h')

structure SRel (s : St V) (s' : St RV) : Prop where
  vars : ARel VRel s.vars s'.vars
  heap : HRel s.heap s'.heap
  out : s.out = s'.out

inductive ORel {A B : Type} (R : A → B → Prop) : Option A → Option B → Prop
  | none : ORel R none none
  | some {a : A} {b : B} : R a b → ORel R (some a) (some b)

theorem find_rel {K A B : Type} [DecidableEq K] {R : A → B → Prop} (k : K) : {l : List (K × A)} → {l' : List (K × B)} → ARel R l l' →
    ORel R (find k l) (find k l')
  | _, _, .nil => .none
  | _, _, .cons h hs => by
    simp only [find]
    split
    · exact .some h
    · exact find_rel k hs

theorem set_rel {K A B : Type} [DecidableEq K] {R : A → B → Prop} (k : K) {a : A} {b : B} (hab : R a b) :
    {l : List (K × A)} → {l' : List (K × B)} → ARel R l l' → ARel R (set k a l) (set k b l')
  | _, _, .nil => .cons hab .nil
  | _, _, .cons h hs => by
    simp only [set]
    split
    · exact .cons hab hs
    · exact .cons h (set_rel k hab hs)

theorem remove_rel {K A B : Type} [DecidableEq K] {R : A → B → Prop} (k : K) :
    {l : List (K × A)} → {l' : List (K × B)} → ARel R l l' → ARel R (remove k l) (remove k l')
  | _, _, .nil => .nil
  | _, _, .cons h hs => by
    simp only [remove]
    split
    · exact remove_rel k hs
    · exact .cons h (remove_rel k hs)

theorem heap_rel : {h : List (Obj V)} → {h' : List (Obj RV)} → HRel h h' → (i : Nat) → ORel ObjRel h[i]? h'[i]?
  | _, _, .nil, i => by simp; exact .none
  | _, _, .cons ho hs, 0 => by simp; exact .some ho
  | _, _, .cons ho hs, i + 1 => by simpa using heap_rel hs i

theorem heap_set_rel : {h : List (Obj V)} → {h' : List (Obj RV)} → HRel h h' → (i : Nat) → {o : Obj V} → {o' : Obj RV} → ObjRel o o' →
    HRel (h.set i o) (h'.set i o')
  | _, _, .nil, i, _, _, _ => by simp; exact .nil
  | _, _, .cons ho hs, 0, _, _, h => by simp; exact .cons h hs
  | _, _, .cons ho hs, i + 1, _, _, h => by simp; exact .cons ho (heap_set_rel hs i h)

/-- The code does what the specification says, if that does not stop. -/
def MRel {α β : Type} (R : α → β → Prop) (m : M V α) (m' : M RV β) : Prop :=
  ∀ s s', SRel s s' → match m' s' with
    | (.ok b, t') => ∃ a t, m s = (.ok a, t) ∧ R a b ∧ SRel t t'
    | (.error e, t') => e ≠ .stopped → ∃ t, m s = (.error e, t) ∧ SRel t t'

theorem mrel_pure {α β : Type} {R : α → β → Prop} {a : α} {b : β} (h : R a b) : MRel R (M.pure a) (M.pure b) :=
  fun s _ hs => ⟨a, s, rfl, h, hs⟩

theorem mrel_fail {α β : Type} {R : α → β → Prop} (e : Err) : MRel R (M.fail e : M V α) (M.fail e : M RV β) :=
  fun s _ hs _ => ⟨s, rfl, hs⟩

theorem mrel_stopped {α β : Type} {R : α → β → Prop} (m : M V α) : MRel R m (M.fail .stopped : M RV β) :=
  fun _ _ _ h => (h rfl).elim

theorem mrel_bind {α β γ δ : Type} {R : α → β → Prop} {R' : γ → δ → Prop} {m : M V α} {m' : M RV β} {k : α → M V γ} {k' : β → M RV δ}
    (h : MRel R m m') (hk : ∀ a b, R a b → MRel R' (k a) (k' b)) : MRel R' (m.bind k) (m'.bind k') := by
  intro s s' hs
  have h1 := h s s' hs
  unfold M.bind
  revert h1
  match m' s' with
  | (.ok b, t') =>
    rintro ⟨a, t, hm, hr, ht⟩
    rw [hm]
    exact hk a b hr t t' ht
  | (.error e, t') =>
    intro h1 hne
    obtain ⟨t, hm, ht⟩ := h1 hne
    exact ⟨t, by rw [hm], ht⟩

theorem readName_rel {loc : List (Name × V)} {loc' : List (Name × RV)} (hl : ARel VRel loc loc') (x : Name) :
    MRel VRel (readName loc x) (readName loc' x) := by
  intro s s' hs
  unfold readName
  have h1 := find_rel x hl
  have h2 := find_rel x hs.vars
  revert h1
  generalize find x loc = a, find x loc' = b
  intro h1
  cases h1 with
  | some h => exact ⟨_, s, rfl, h, hs⟩
  | none =>
    revert h2
    generalize find x s.vars = a, find x s'.vars = b
    intro h2
    cases h2 with
    | some h => exact ⟨_, s, rfl, h, hs⟩
    | none => exact fun _ => ⟨s, rfl, hs⟩

theorem getAttr_rel (i : Nat) (a : String) : MRel VRel (getAttr V.int i a) (getAttr RV.int i a) := by
  intro s s' hs
  unfold getAttr
  have h1 := heap_rel hs.heap i
  revert h1
  generalize s.heap[i]? = o, s'.heap[i]? = o'
  intro h1
  cases h1 with
  | none => exact fun _ => ⟨s, rfl, hs⟩
  | @some o o' ho =>
    have h2 := find_rel a ho.attrs
    revert h2
    simp only
    generalize find a o.attrs = x, find a o'.attrs = y
    intro h2
    cases h2 with
    | none => exact fun _ => ⟨s, rfl, hs⟩
    | some h => cases h with
      | val h => exact ⟨_, s, rfl, h, hs⟩
      | prop n =>
        exact ⟨_, _, rfl, .int n, hs.vars, heap_set_rel hs.heap i ⟨set_rel a (.prop (n + 1)) ho.attrs, ho.items⟩, hs.out⟩

theorem attrOf_rel (a : String) {v : V} {v' : RV} (h : VRel v v') : MRel VRel (Autoref.attrOf a v) (Spec.attrOf a v') := by
  cases h with
  | int n => exact mrel_fail _
  | obj i => exact getAttr_rel i a
  | clo x e hl => exact mrel_fail _

theorem itemOf_rel {v : V} {v' : RV} (h : VRel v v') {k : V} {k' : RV} (hk : VRel k k') :
    MRel VRel (Autoref.itemOf v k) (Spec.itemOf v' k') := by
  cases h with
  | int n => exact mrel_fail _
  | clo x e hl => exact mrel_fail _
  | obj i => cases hk with
    | obj i => exact mrel_fail _
    | clo x e hl => exact mrel_fail _
    | int k =>
      intro s s' hs
      unfold Autoref.itemOf Spec.itemOf
      have h1 := heap_rel hs.heap i
      revert h1
      simp only
      generalize s.heap[i]? = o, s'.heap[i]? = o'
      intro h1
      cases h1 with
      | none => exact fun _ => ⟨s, rfl, hs⟩
      | @some o o' ho =>
        have h2 := find_rel k ho.items
        revert h2
        simp only
        generalize find k o.items = x, find k o'.items = y
        intro h2
        cases h2 with
        | none => exact fun _ => ⟨s, rfl, hs⟩
        | some h => exact ⟨_, s, rfl, h, hs⟩

theorem setVar_rel (x : Name) {v : V} {v' : RV} (h : VRel v v') : MRel (fun _ _ => True) (setVar x v) (setVar x v') :=
  fun _ _ hs => ⟨_, _, rfl, trivial, set_rel x h hs.vars, hs.heap, hs.out⟩

theorem setAttr_rel (i : Nat) (a : String) {v : V} {v' : RV} (h : VRel v v') :
    MRel (fun _ _ => True) (setAttr i a v) (setAttr i a v') := by
  intro s s' hs
  unfold setAttr
  have h1 := heap_rel hs.heap i
  revert h1
  generalize s.heap[i]? = o, s'.heap[i]? = o'
  intro h1
  cases h1 with
  | none => exact fun _ => ⟨s, rfl, hs⟩
  | @some o o' ho =>
    have hok : SRel { s with heap := s.heap.set i { o with attrs := set a (.val v) o.attrs } }
        { s' with heap := s'.heap.set i { o' with attrs := set a (.val v') o'.attrs } } :=
      ⟨hs.vars, heap_set_rel hs.heap i ⟨set_rel a (.val h) ho.attrs, ho.items⟩, hs.out⟩
    have h2 := find_rel a ho.attrs
    revert h2
    simp only
    generalize find a o.attrs = x, find a o'.attrs = y
    intro h2
    cases h2 with
    | none => exact ⟨_, _, rfl, trivial, hok⟩
    | some h => cases h with
      | val h => exact ⟨_, _, rfl, trivial, hok⟩
      | prop n => exact fun _ => ⟨s, rfl, hs⟩

theorem setItem_rel (i : Nat) (k : Int) {v : V} {v' : RV} (h : VRel v v') :
    MRel (fun _ _ => True) (setItem i k v) (setItem i k v') := by
  intro s s' hs
  unfold setItem
  have h1 := heap_rel hs.heap i
  revert h1
  generalize s.heap[i]? = o, s'.heap[i]? = o'
  intro h1
  cases h1 with
  | none => exact fun _ => ⟨s, rfl, hs⟩
  | @some o o' ho => exact ⟨_, _, rfl, trivial, hs.vars, heap_set_rel hs.heap i ⟨ho.attrs, set_rel k h ho.items⟩, hs.out⟩

theorem delVar_rel (x : Name) : MRel (fun _ _ => True) (delVar x : M V Unit) (delVar x : M RV Unit) := by
  intro s s' hs
  unfold delVar
  have h2 := find_rel x hs.vars
  revert h2
  generalize find x s.vars = a, find x s'.vars = b
  intro h2
  cases h2 with
  | some h => exact ⟨_, _, rfl, trivial, remove_rel x hs.vars, hs.heap, hs.out⟩
  | none => exact fun _ => ⟨s, rfl, hs⟩

theorem emit_rel {o o' : Option Int} (h : o = o') : MRel (fun _ _ => True) (emit o : M V Unit) (emit o' : M RV Unit) := by
  subst h
  exact fun _ _ hs => ⟨_, _, rfl, trivial, hs.vars, hs.heap, by simp [hs.out]⟩

theorem ref_rel {v : V} {v' : RV} (h : VRel v v') : v.ref = v'.ref := by cases h <;> rfl

/-! ## Names -/

/-- What `v.a` is, if it is anything, in the code. -/
def attrNowT (s : St V) (a : String) (v : V) : Option (Attr V) :=
  match v.ref with
  | none => none
  | some i => match s.heap[i]? with
    | none => none
    | some o => find a o.attrs

theorem attrNow_rel {s : St V} {s' : St RV} (hs : SRel s s') (a : String) {v : V} {v' : RV} (h : v.ref = v'.ref) :
    ORel AttrRel (attrNowT s a v) (attrNow s' a v') := by
  unfold attrNowT attrNow
  rw [h]
  cases v'.ref with
  | none => exact .none
  | some i =>
    have h1 := heap_rel hs.heap i
    revert h1
    simp only
    generalize s.heap[i]? = o, s'.heap[i]? = o'
    intro h1
    cases h1 with
    | none => exact .none
    | some ho => exact find_rel a ho.attrs

theorem attrOf_val {s : St V} {a : String} {v w : V} (h : attrNowT s a v = some (.val w)) : Autoref.attrOf a v s = (.ok w, s) := by
  cases v with
  | obj i =>
    simp only [attrNowT, V.ref] at h
    simp only [Autoref.attrOf, getAttr]
    cases ho : s.heap[i]? with
    | none => rw [ho] at h; cases h
    | some o => rw [ho] at h; simp only at h; simp only [h]
  | _ => simp [attrNowT, V.ref] at h

theorem attrOf_none {s : St V} {a : String} {v : V} (h : attrNowT s a v = none) : Autoref.attrOf a v s = (.error .attribute, s) := by
  cases v with
  | obj i =>
    simp only [attrNowT, V.ref] at h
    simp only [Autoref.attrOf, getAttr]
    cases ho : s.heap[i]? with
    | none => rfl
    | some o => rw [ho] at h; simp only at h; simp only [h]
  | _ => rfl

theorem attrOf_val' {s : St RV} {a : String} {v w : RV} (h : attrNow s a v = some (.val w)) : Spec.attrOf a v s = (.ok w, s) := by
  cases v with
  | obj i =>
    simp only [attrNow, RV.ref] at h
    simp only [Spec.attrOf, getAttr]
    cases ho : s.heap[i]? with
    | none => rw [ho] at h; cases h
    | some o => rw [ho] at h; simp only at h; simp only [h]
  | _ => simp [attrNow, RV.ref] at h

theorem readName_now {s : St V} {s' : St RV} (hs : SRel s s') {loc : List (Name × V)} {loc' : List (Name × RV)}
    (hl : ARel VRel loc loc') (x : Name) : match varNow loc' s' x with
      | some v' => ∃ v, readName loc x s = (.ok v, s) ∧ VRel v v'
      | none => readName loc x s = (.error .name, s) := by
  unfold readName varNow
  have h1 := find_rel x hl
  have h2 := find_rel x hs.vars
  revert h1
  generalize find x loc = a, find x loc' = b
  intro h1
  cases h1 with
  | some h => exact ⟨_, rfl, h⟩
  | none =>
    revert h2
    simp only
    generalize find x s.vars = a, find x s'.vars = b
    intro h2
    cases h2 with
    | some h => exact ⟨_, rfl, h⟩
    | none => rfl

/-- The objects around, read from their variables. -/
theorem readNames_held {s : St V} {s' : St RV} (hs : SRel s s') {loc : List (Name × V)} {loc' : List (Name × RV)}
    (hl : ARel VRel loc loc') : (ctx : List (Name × RV)) → held loc' s' ctx = true → match objects loc' s' ctx with
      | some vs' => ∃ vs, readNames loc (ctx.map (·.1)) s = (.ok vs, s) ∧ vs.map V.ref = vs'.map RV.ref
      | none => readNames loc (ctx.map (·.1)) s = (.error .name, s)
  | [], _ => ⟨[], rfl, rfl⟩
  | (.gen i, v') :: ctx, h => by
    simp only [held, Bool.and_eq_true] at h
    have ih := readNames_held hs hl ctx h.2
    have h1 := readName_now hs hl (.gen i)
    have h3 := h.1
    revert h1 h3
    cases varNow loc' s' (.gen i) with
    | none => intro _ h3; simp at h3
    | some w =>
      rintro ⟨v, hv, hrel⟩ h3
      simp only [objects, List.map_cons, readNames, M.bind, hv]
      revert ih
      cases objects loc' s' ctx with
      | none => intro ih; simp only at ih; simp only [Option.map_none, ih]
      | some vs' =>
        rintro ⟨vs, ih, hr⟩
        simp only [Option.map_some, ih, M.pure]
        exact ⟨v :: vs, rfl, by simp only [List.map_cons, hr, ref_rel hrel, eq_of_beq h3]⟩
  | (.user x, v') :: ctx, h => by
    simp only [held] at h
    have ih := readNames_held hs hl ctx h
    have h1 := readName_now hs hl (.user x)
    simp only [objects]
    revert h1
    cases varNow loc' s' (.user x) with
    | none => intro h1; simp only at h1; simp only [List.map_cons, readNames, M.bind, h1]
    | some w =>
      rintro ⟨v, hv, hrel⟩
      simp only [List.map_cons, readNames, M.bind, hv]
      revert ih
      cases objects loc' s' ctx with
      | none => intro ih; simp only at ih; simp only [Option.map_none, ih]
      | some vs' =>
        rintro ⟨vs, ih, hr⟩
        simp only [Option.map_some, ih, M.pure]
        exact ⟨v :: vs, rfl, by simp only [List.map_cons, hr, ref_rel hrel]⟩

/-- `_autoref_resolve` finds what the innermost object that has it has, if that is no property. -/
theorem resolve_owner {s : St V} {s' : St RV} (hs : SRel s s') (x : String) : (vs' : List RV) → (vs : List V) →
    vs.map V.ref = vs'.map RV.ref → match owner s' x vs' with
      | none => resolve x vs s = (.ok none, s)
      | some v' => isProp (attrNow s' x v') = false →
        ∃ w w', resolve x vs s = (.ok (some w), s) ∧ VRel w w' ∧ attrNow s' x v' = some (.val w')
  | [], [], _ => rfl
  | [], _ :: _, h => by simp at h
  | _ :: _, [], h => by simp at h
  | v' :: vs', v :: vs, h => by
    simp only [List.map_cons, List.cons.injEq] at h
    have h1 := attrNow_rel hs x h.1
    have ih := resolve_owner hs x vs' vs h.2
    simp only [owner]
    cases hn : attrNow s' x v' with
    | none =>
      rw [hn] at h1
      cases hn' : attrNowT s x v with
      | some w => rw [hn'] at h1; cases h1
      | none =>
        have hr : resolve x (v :: vs) s = resolve x vs s := by
          simp only [resolve, M.bind, hasAttr, attrOf_none hn', Bool.false_eq_true, if_false]
        rw [hr]
        simpa using ih
    | some a =>
      simp only [Option.isSome_some, if_true, hn]
      intro hp
      cases a with
      | prop n => simp [isProp] at hp
      | val w' =>
        rw [hn] at h1
        cases hn' : attrNowT s x v with
        | none => rw [hn'] at h1; cases h1
        | some b =>
          rw [hn'] at h1
          cases h1 with
          | some h1 => cases h1 with
            | val hw =>
              refine ⟨_, w', ?_, hw, rfl⟩
              simp only [resolve, M.bind, hasAttr, attrOf_val hn', if_true, M.pure]

theorem name_sim {ctx loc' : List (Name × RV)} {loc : List (Name × V)} (hl : ARel VRel loc loc') (x : String) (n : Nat) :
    MRel VRel (evalT (n + 1) loc (trName (ctx.map (·.1)) [] (.user x))) (Spec.name true ctx loc' x) := by
  intro s s' hs
  have hplain := readName_rel hl (.user x) s s' hs
  by_cases hc : (ctx.map (·.1)).contains (.user x) = true
  · have ht : trName (ctx.map (·.1)) [] (.user x) = .name (.user x) := by
      have : Name.user x ∈ ctx.map (·.1) := by simpa using hc
      unfold trName; rw [if_pos (by rw [hc]; simp only [Bool.or_true, Bool.true_or])]
    have hn : Spec.name true ctx loc' x s' = readName loc' (.user x) s' := by
      unfold Spec.name; rw [if_pos hc]
    rw [ht, hn]; exact hplain
  · by_cases hsk : skip.contains (.user x) = true
    · have ht : trName (ctx.map (·.1)) [] (.user x) = .name (.user x) := by
        unfold trName; rw [if_pos (by simp only [hsk, Bool.or_true, Bool.true_or])]
      rw [ht]
      unfold Spec.name
      rw [if_neg hc, ← skip_eq]
      simp only [hsk, Bool.not_true, Bool.true_and, Bool.true_or, Bool.false_and, Bool.and_false, Bool.false_eq_true, if_false, if_true]
      cases objects loc' s' ctx with
      | none => exact fun h => (h rfl).elim
      | some vs =>
        simp only
        cases owner s' x vs with
        | none => exact hplain
        | some v => exact fun h => (h rfl).elim
    · have hsk' : skip.contains (.user x) = false := by simpa using hsk
      unfold Spec.name
      rw [if_neg hc, ← skip_eq]
      simp only [hsk', Bool.not_false, Bool.true_and, Bool.false_or]
      cases hh : held loc' s' ctx with
      | false => exact fun h => (h rfl).elim
      | true =>
        simp only [Bool.not_true, Bool.false_eq_true, if_false]
        cases ctx with
        | nil => exact hplain
        | cons p ctx =>
          have ht : trName ((p :: ctx).map (·.1)) [] (.user x) = .look ((p :: ctx).map (·.1)) (.user x) := by
            unfold trName; rw [if_neg (by
              have hc' : ((p :: ctx).map (·.1)).contains (.user x) = false := by simpa using hc
              rw [hc', hsk']; simp)]
          rw [ht]
          have hro := readNames_held hs hl _ hh
          revert hro
          simp only [evalT, M.bind, Name.str]
          cases objects loc' s' (p :: ctx) with
          | none =>
            intro hro
            simp only at hro
            rw [hro]
            exact fun _ => ⟨s, rfl, hs⟩
          | some vs' =>
            rintro ⟨vs, hvs, hrefs⟩
            have ho := resolve_owner hs x vs' vs hrefs
            simp only [hvs]
            revert ho
            cases owner s' x vs' with
            | none =>
              intro ho
              simp only at ho
              simp only [ho]
              exact hplain
            | some v' =>
              intro ho
              simp only at ho ⊢
              cases hp : isProp (attrNow s' x v') with
              | true => exact fun h => (h rfl).elim
              | false =>
                obtain ⟨w, w', hr, hw, ha⟩ := ho hp
                simp only [hr, Bool.false_eq_true, if_false, attrOf_val' ha]
                exact ⟨w, s, rfl, hw, hs⟩

theorem eval_sim : (n : Nat) → (ctx loc' : List (Name × RV)) → (loc : List (Name × V)) → ARel VRel loc loc' → (e : E) →
    MRel VRel (evalT n loc (trE (ctx.map (·.1)) [] e)) (Spec.eval true n ctx loc' e)
  | 0, _, _, _, _, _ => mrel_fail _
  | n + 1, _, _, _, _, .int k => mrel_pure (.int k)
  | n + 1, ctx, loc', loc, hl, .name x => name_sim hl x n
  | n + 1, ctx, loc', loc, hl, .attr e a => mrel_bind (eval_sim n ctx loc' loc hl e) fun _ _ h => attrOf_rel a h
  | n + 1, ctx, loc', loc, hl, .item e k =>
    mrel_bind (eval_sim n ctx loc' loc hl e) fun _ _ h => mrel_bind (eval_sim n ctx loc' loc hl k) fun _ _ h' => itemOf_rel h h'
  | n + 1, ctx, loc', loc, hl, .lam x e => mrel_pure (.clo x e hl)
  | n + 1, ctx, loc', loc, hl, .call f a =>
    mrel_bind (eval_sim n ctx loc' loc hl f) fun _ _ h => mrel_bind (eval_sim n ctx loc' loc hl a) fun _ _ h' => by
      cases h with
      | int n => exact mrel_fail _
      | obj i => exact mrel_fail _
      | clo x e hl' => exact eval_sim n _ _ _ (.cons h' hl') e

theorem inKey_sim (ctx : List (Name × RV)) (x : String) : MRel VRel (readName [] (.user x)) (inKey true ctx x) := by
  intro s s' hs
  have hplain := readName_rel .nil (.user x) s s' hs
  unfold inKey
  by_cases hc : (ctx.map (·.1)).contains (.user x) = true
  · rw [if_pos hc]; exact hplain
  · rw [if_neg hc]
    cases objects [] s' ctx with
    | none => exact fun h => (h rfl).elim
    | some vs =>
      simp only
      cases owner s' x vs with
      | none => exact hplain
      | some v => exact fun h => (h rfl).elim

theorem key_sim (ctx : List (Name × RV)) : (k : Key) → MRel VRel (evalKey k) (Spec.key true ctx k)
  | .int n => mrel_pure (.int n)
  | .name x => inKey_sim ctx x

theorem assign_sim (ctx : List (Name × RV)) : (t : Target) → {v : V} → {v' : RV} → VRel v v' →
    MRel (fun _ _ => True) (assignT t v) (Spec.assign true ctx t v')
  | .name x, _, _, h => setVar_rel x h
  | .attr x a, _, _, h => mrel_bind (readName_rel .nil (.user x)) fun _ _ ho => by
      cases ho with
      | obj i => exact setAttr_rel i a h
      | int n => exact mrel_fail _
      | clo x e hl' => exact mrel_fail _
  | .item x k, _, _, h => mrel_bind (readName_rel .nil (.user x)) fun _ _ ho => mrel_bind (key_sim ctx k) fun _ _ hk => by
      cases ho with
      | obj i => cases hk with
        | int k => exact setItem_rel i k h
        | obj i => exact mrel_fail _
        | clo x e hl' => exact mrel_fail _
      | int n => exact mrel_fail _
      | clo x e hl' => exact mrel_fail _

theorem times_rel {m : M V Unit} {m' : M RV Unit} (h : MRel (fun _ _ => True) m m') : (n : Nat) →
    MRel (fun _ _ => True) (times m n) (times m' n)
  | 0 => mrel_pure trivial
  | n + 1 => mrel_bind h fun _ _ _ => times_rel h n

theorem shown_rel {v : V} {v' : RV} (h : VRel v v') : v.shown = v'.shown := by cases h <;> rfl

mutual
theorem exec_sim (n : Nat) : (ctx : List (Name × RV)) → (st : S) →
    MRel (fun _ _ => True) (execT n (trS (ctx.map (·.1)) st)) (Spec.exec true n ctx st)
  | ctx, .expr e => by
    simp only [trS, execT, Spec.exec]
    exact mrel_bind (eval_sim n ctx [] [] .nil e) fun _ _ h => emit_rel (shown_rel h)
  | ctx, .assign t e => by
    simp only [trS, execT, Spec.exec]
    exact mrel_bind (eval_sim n ctx [] [] .nil e) fun _ _ h => assign_sim ctx t h
  | ctx, .del x => by
    simp only [trS, execT, Spec.exec]
    exact delVar_rel _
  | ctx, .repeat k body => by
    simp only [trS, execT, Spec.exec]
    exact times_rel (execs_sim n ctx body) k
  | ctx, .autoref i x e body => by
    simp only [trS, execT, execTs, Spec.exec, Bool.true_and]
    cases ho : ownName ctx x e with
    | true => exact mrel_stopped _
    | false =>
      have harg : trE (ctx.map (·.1)) [varName i x] e = trE (ctx.map (·.1)) [] e := by
        cases x with
        | none => exact trE_gen _ i e
        | some x =>
          cases ctx with
          | nil => rw [List.map_nil, ← embed_eq, ← embed_eq]
          | cons p ctx => exact trE_absent _ x e (by simpa [ownName] using ho)
      rw [harg]
      simp only [Bool.false_eq_true, if_false]
      have h1 : ∀ (m : M V V) (k : M V Unit), (m.bind (assignT (.name (varName i x)))).bind (fun _ => k) =
          m.bind fun v => (setVar (varName i x) v).bind fun _ => k := by
        intro m k; funext s
        simp only [M.bind]
        cases hm : m s with
        | mk r t => cases r <;> rfl
      rw [h1]
      exact mrel_bind (eval_sim n ctx [] [] .nil e) fun _ v' h => mrel_bind (setVar_rel _ h) fun _ _ _ =>
        execs_sim n ((varName i x, v') :: ctx) body
theorem execs_sim (n : Nat) : (ctx : List (Name × RV)) → (ss : List S) →
    MRel (fun _ _ => True) (execTs n (trSs (ctx.map (·.1)) ss)) (Spec.execs true n ctx ss)
  | _, [] => by simp only [trSs, execTs, Spec.execs]; exact mrel_pure trivial
  | ctx, s :: ss => by
    simp only [trSs, execTs, Spec.execs]
    exact mrel_bind (exec_sim n ctx s) fun _ _ _ => execs_sim n ctx ss
end

/-! ## Care -/

/-- The same, unless the first stops. -/
def Le {α : Type} (m m' : M RV α) : Prop := ∀ s, (m s).1 = .error .stopped ∨ m' s = m s

theorem le_refl {α : Type} (m : M RV α) : Le m m := fun _ => .inr rfl

theorem le_bind {α β : Type} {m m' : M RV α} {k k' : α → M RV β} (h : Le m m') (hk : ∀ a, Le (k a) (k' a)) :
    Le (m.bind k) (m'.bind k') := by
  intro s
  unfold M.bind
  rcases h s with h | h
  · revert h
    match m s with
    | (.ok a, t) => intro h; cases h
    | (.error e, t) => intro h; cases h; exact .inl rfl
  · rw [h]
    match m s with
    | (.ok a, t) => exact hk a t
    | (.error e, t) => exact .inr rfl

theorem name_le (ctx loc : List (Name × RV)) (x : String) : Le (Spec.name true ctx loc x) (Spec.name false ctx loc x) := by
  intro s
  simp only [Spec.name, Bool.true_and, Bool.false_and, Bool.false_eq_true, if_false]
  split
  · exact .inr rfl
  · split
    · exact .inl rfl
    · cases objects loc s ctx with
      | none =>
        simp only
        split
        · exact .inl rfl
        · exact .inr rfl
      | some vs =>
        simp only
        cases owner s x vs with
        | none => exact .inr rfl
        | some v =>
          simp only
          split
          · exact .inl rfl
          · exact .inr rfl

theorem eval_le : (n : Nat) → (ctx loc : List (Name × RV)) → (e : E) → Le (Spec.eval true n ctx loc e) (Spec.eval false n ctx loc e)
  | 0, _, _, _ => le_refl _
  | n + 1, _, _, .int k => le_refl _
  | n + 1, ctx, loc, .name x => name_le ctx loc x
  | n + 1, ctx, loc, .attr e a => le_bind (eval_le n ctx loc e) fun _ => le_refl _
  | n + 1, ctx, loc, .item e k => le_bind (eval_le n ctx loc e) fun _ => le_bind (eval_le n ctx loc k) fun _ => le_refl _
  | n + 1, ctx, loc, .lam x e => le_refl _
  | n + 1, ctx, loc, .call f a => le_bind (eval_le n ctx loc f) fun f => le_bind (eval_le n ctx loc a) fun a => by
      cases f with
      | clo x e loc ctx => exact eval_le n _ _ e
      | _ => exact le_refl _

theorem key_le (ctx : List (Name × RV)) : (k : Key) → Le (Spec.key true ctx k) (Spec.key false ctx k)
  | .int n => le_refl _
  | .name x => by
    intro s
    simp only [Spec.key, inKey, Bool.false_eq_true, if_false, if_true]
    split
    · exact .inr rfl
    · cases objects [] s ctx with
      | none => exact .inl rfl
      | some vs =>
        simp only
        cases owner s x vs with
        | none => exact .inr rfl
        | some v => exact .inl rfl

theorem assign_le (ctx : List (Name × RV)) : (t : Target) → (v : RV) → Le (Spec.assign true ctx t v) (Spec.assign false ctx t v)
  | .name x, _ => le_refl _
  | .attr x a, _ => le_refl _
  | .item x k, _ => le_bind (le_refl _) fun _ => le_bind (key_le ctx k) fun _ => le_refl _

theorem times_le {m m' : M RV Unit} (h : Le m m') : (n : Nat) → Le (times m n) (times m' n)
  | 0 => le_refl _
  | n + 1 => le_bind h fun _ => times_le h n

mutual
theorem exec_le (n : Nat) : (ctx : List (Name × RV)) → (st : S) → Le (Spec.exec true n ctx st) (Spec.exec false n ctx st)
  | ctx, .expr e => by
    simp only [Spec.exec]
    exact le_bind (eval_le n ctx [] e) fun _ => le_refl _
  | ctx, .assign t e => by
    simp only [Spec.exec]
    exact le_bind (eval_le n ctx [] e) fun _ => assign_le ctx t _
  | ctx, .del x => by simp only [Spec.exec]; exact le_refl _
  | ctx, .repeat k body => by simp only [Spec.exec]; exact times_le (execs_le n ctx body) k
  | ctx, .autoref i x e body => by
    simp only [Spec.exec, Bool.true_and, Bool.false_and, Bool.false_eq_true, if_false]
    split
    · exact fun _ => .inl rfl
    · exact le_bind (eval_le n ctx [] e) fun v => le_bind (le_refl _) fun _ => execs_le n ((varName i x, v) :: ctx) body
theorem execs_le (n : Nat) : (ctx : List (Name × RV)) → (ss : List S) → Le (Spec.execs true n ctx ss) (Spec.execs false n ctx ss)
  | _, [] => by simp only [Spec.execs]; exact le_refl _
  | ctx, s :: ss => by
    simp only [Spec.execs]
    exact le_bind (exec_le n ctx s) fun _ => execs_le n ctx ss
end

/-! ## The start, and what is seen -/

theorem start_vars : (l : List (String × Init)) →
    ARel VRel (l.map fun (x, i) => (Name.user x, i.val V.int V.obj)) (l.map fun (x, i) => (Name.user x, i.val RV.int RV.obj))
  | [] => .nil
  | (x, .int n) :: l => .cons (.int n) (start_vars l)
  | (x, .obj n) :: l => .cons (.obj n) (start_vars l)

theorem start_items : (l : List (Int × Init)) →
    ARel VRel (l.map fun (x, i) => (x, i.val V.int V.obj)) (l.map fun (x, i) => (x, i.val RV.int RV.obj))
  | [] => .nil
  | (x, .int n) :: l => .cons (.int n) (start_items l)
  | (x, .obj n) :: l => .cons (.obj n) (start_items l)

theorem start_attrs (ps : List String) : (l : List (String × Init)) →
    ARel AttrRel (l.map (fun (a, i) => (a, Attr.val (i.val V.int V.obj))) ++ ps.map (fun a => (a, Attr.prop 0)))
      (l.map (fun (a, i) => (a, Attr.val (i.val RV.int RV.obj))) ++ ps.map (fun a => (a, Attr.prop 0)))
  | [] => by
    simp only [List.map_nil, List.nil_append]
    induction ps with
    | nil => exact .nil
    | cons p ps ih => exact .cons (.prop 0) ih
  | (x, .int n) :: l => .cons (.val (.int n)) (start_attrs ps l)
  | (x, .obj n) :: l => .cons (.val (.obj n)) (start_attrs ps l)

theorem start_rel (w : World) : SRel (w.start V.int V.obj) (w.start RV.int RV.obj) where
  vars := start_vars w.vars
  out := rfl
  heap := by
    unfold World.start
    simp only
    induction w.heap with
    | nil => exact .nil
    | cons o h ih => exact .cons ⟨start_attrs _ _, start_items _⟩ ih

theorem seen_val {v : V} {v' : RV} (h : VRel v v') : seenV v = seenRV v' := by cases h <;> rfl

theorem seen_attr {v : Attr V} {v' : Attr RV} (h : AttrRel v v') : seenAttr seenV v = seenAttr seenRV v' := by
  cases h with
  | val h => simp only [seenAttr, seen_val h]
  | prop n => rfl

theorem seen_list {K A B C : Type} {R : A → B → Prop} {f : A → C} {g : B → C} (hfg : ∀ {a b}, R a b → f a = g b) :
    {l : List (K × A)} → {l' : List (K × B)} → ARel R l l' → (l.map fun (k, v) => (k, f v)) = l'.map fun (k, v) => (k, g v)
  | _, _, .nil => rfl
  | _, _, .cons h hs => by simp only [List.map_cons, hfg h, seen_list @hfg hs]

theorem seen_heap : {h : List (Obj V)} → {h' : List (Obj RV)} → HRel h h' →
    (h.map fun o => (o.attrs.map fun (a, v) => (a, seenAttr seenV v), o.items.map fun (k, v) => (k, seenV v))) =
    h'.map fun o => (o.attrs.map fun (a, v) => (a, seenAttr seenRV v), o.items.map fun (k, v) => (k, seenRV v))
  | _, _, .nil => rfl
  | _, _, .cons ho hs => by
    simp only [List.map_cons, seen_heap hs, seen_list @seen_attr ho.attrs, seen_list @seen_val ho.items]

theorem seen_rel {s : St V} {s' : St RV} (h : SRel s s') : seen seenV s = seen seenRV s' := by
  simp only [seen, seen_list @seen_val h.vars, seen_heap h.heap, h.out]

/-! ## Plain programs -/

def NoProp (s : St RV) : Prop := ∀ o ∈ s.heap, ∀ a, isProp (find a o.attrs) = false

/-- The variables of the blocks around hold their objects. -/
def Held (ctx : List (Name × RV)) (s : St RV) : Prop :=
  ∀ p ∈ ctx, ∃ i w, p.1 = .gen i ∧ find (.gen i) s.vars = some w ∧ w.ref = p.2.ref

/-- It does not stop, and keeps this. -/
def Free {α : Type} (P : St RV → Prop) (m : M RV α) : Prop := ∀ s, P s → (m s).1 ≠ .error .stopped ∧ P (m s).2

theorem free_pure {α : Type} {P : St RV → Prop} (a : α) : Free P (M.pure a) := fun _ h => ⟨nofun, h⟩

theorem free_fail {α : Type} {P : St RV → Prop} {e : Err} (he : e ≠ .stopped) : Free P (M.fail e : M RV α) :=
  fun _ h => ⟨(by intro h; cases h; exact he rfl), h⟩

theorem free_bind {α β : Type} {P : St RV → Prop} {m : M RV α} {k : α → M RV β} (h : Free P m) (hk : ∀ a, Free P (k a)) :
    Free P (m.bind k) := by
  intro s hs
  have h1 := h s hs
  unfold M.bind
  revert h1
  match m s with
  | (.ok a, t) => exact fun h1 => hk a t h1.2
  | (.error e, t) => exact fun h1 => ⟨(by intro h; cases h; exact h1.1 rfl), h1.2⟩

theorem held_true {s : St RV} : {ctx : List (Name × RV)} → Held ctx s → held [] s ctx = true ∧ ∃ vs, objects [] s ctx = some vs
  | [], _ => ⟨rfl, [], rfl⟩
  | p :: ctx, h => by
    obtain ⟨h2, vs, h3⟩ := held_true (ctx := ctx) (fun q hq => h q (List.mem_cons_of_mem _ hq))
    obtain ⟨i, w, h1, hw, hr⟩ := h p (List.mem_cons_self ..)
    obtain ⟨x, v⟩ := p
    simp only at h1 hr
    subst h1
    simp [held, objects, varNow, find, hw, hr, h2, h3]

def Inv (ctx : List (Name × RV)) (s : St RV) : Prop := NoProp s ∧ Held ctx s

theorem attrNow_noprop {s : St RV} (h : NoProp s) (x : String) (v : RV) : isProp (attrNow s x v) = false := by
  unfold attrNow
  split
  · rfl
  · split
    · rfl
    · next o ho => exact h o (List.mem_of_getElem? ho) x

theorem readName_free {P : St RV → Prop} (loc : List (Name × RV)) (x : Name) : Free P (readName loc x) := by
  intro s hs
  unfold readName
  split
  · exact ⟨nofun, hs⟩
  · split
    · exact ⟨nofun, hs⟩
    · exact ⟨nofun, hs⟩

theorem attrOf_free {ctx : List (Name × RV)} (a : String) : (v : RV) → Free (Inv ctx) (Spec.attrOf a v)
  | .int _ => free_fail nofun
  | .clo _ _ _ _ => free_fail nofun
  | .obj i => by
    intro s hs
    simp only [Spec.attrOf, getAttr]
    cases ho : s.heap[i]? with
    | none => exact ⟨nofun, hs⟩
    | some o =>
      simp only
      have := hs.1 o (List.mem_of_getElem? ho) a
      revert this
      cases find a o.attrs with
      | none => exact fun _ => ⟨nofun, hs⟩
      | some at' => cases at' with
        | val v => exact fun _ => ⟨nofun, hs⟩
        | prop n => exact nofun

theorem name_free {ctx : List (Name × RV)} (x : String) (hx : helpers.contains (.user x) = false) :
    Free (Inv ctx) (Spec.name true ctx [] x) := by
  intro s hs
  obtain ⟨h1, vs, h2⟩ := held_true hs.2
  simp only [Spec.name, hx, h1, h2, Bool.not_true, Bool.and_false, Bool.false_eq_true, if_false, Bool.false_or, Bool.true_and]
  split
  · exact readName_free _ _ s hs
  · cases owner s x vs with
    | none => exact readName_free _ _ s hs
    | some v =>
      simp only [attrNow_noprop hs.1, Bool.false_eq_true, if_false]
      exact attrOf_free x v s hs

theorem itemOf_free {P : St RV → Prop} : (v k : RV) → Free P (Spec.itemOf v k)
  | .int _, _ => free_fail nofun
  | .clo _ _ _ _, _ => free_fail nofun
  | .obj _, .obj _ => free_fail nofun
  | .obj _, .clo _ _ _ _ => free_fail nofun
  | .obj i, .int k => by
    intro s hs
    simp only [Spec.itemOf]
    cases ho : s.heap[i]? with
    | none => exact ⟨nofun, hs⟩
    | some o =>
      simp only
      cases find k o.items with
      | none => exact ⟨nofun, hs⟩
      | some v => exact ⟨nofun, hs⟩

theorem eval_free {ctx : List (Name × RV)} : (n : Nat) → (e : E) → PlainE e → Free (Inv ctx) (Spec.eval true n ctx [] e)
  | 0, _, _ => free_fail nofun
  | n + 1, .int k, _ => free_pure _
  | n + 1, .name x, h => name_free x h
  | n + 1, .attr e a, h => free_bind (eval_free n e h) (attrOf_free a)
  | n + 1, .item e k, h => free_bind (eval_free n e h.1) fun _ => free_bind (eval_free n k h.2) fun _ => itemOf_free _ _
  | n + 1, .lam x e, _ => free_pure _

theorem find_set {K A : Type} [DecidableEq K] (k k' : K) (a : A) : (l : List (K × A)) →
    find k (set k' a l) = if k' = k then some a else find k l
  | [] => by simp only [set, find]
  | (j, b) :: l => by
    simp only [set]
    by_cases h : j = k'
    · subst h; simp only [if_true, find]; split <;> rfl
    · rw [if_neg h]
      simp only [find, find_set k k' a l]
      by_cases h2 : j = k
      · subst h2; rw [if_pos rfl, if_pos rfl, if_neg (fun h3 => h h3.symm)]
      · rw [if_neg h2, if_neg h2]

theorem find_remove {K A : Type} [DecidableEq K] {k k' : K} (h : k' ≠ k) : (l : List (K × A)) →
    find k (remove k' l) = find k l
  | [] => rfl
  | (j, b) :: l => by
    simp only [remove]
    by_cases h1 : j = k'
    · rw [if_pos h1]; simp only [find]; rw [if_neg (by rw [h1]; exact h)]; exact find_remove h l
    · rw [if_neg h1]; simp only [find, find_remove h l]

theorem setVar_free {ctx : List (Name × RV)} (x : String) (v : RV) : Free (Inv ctx) (setVar (.user x) v) := by
  intro s hs
  refine ⟨nofun, hs.1, fun p hp => ?_⟩
  obtain ⟨i, w, h1, h2, h3⟩ := hs.2 p hp
  exact ⟨i, w, h1, by simp only [setVar, find_set]; rw [if_neg (by simp)]; exact h2, h3⟩

theorem inv_heap {ctx : List (Name × RV)} {s : St RV} (hs : Inv ctx s) {i : Nat} {o : Obj RV}
    (ho : ∀ a, isProp (find a o.attrs) = false) : Inv ctx { s with heap := s.heap.set i o } := by
  refine ⟨fun o' ho' a => ?_, hs.2⟩
  rcases List.mem_or_eq_of_mem_set ho' with h | h
  · exact hs.1 o' h a
  · rw [h]; exact ho a

theorem setAttr_free {ctx : List (Name × RV)} (i : Nat) (a : String) (v : RV) : Free (Inv ctx) (setAttr i a v) := by
  intro s hs
  unfold setAttr
  cases ho : s.heap[i]? with
  | none => exact ⟨nofun, hs⟩
  | some o =>
    have h1 := hs.1 o (List.mem_of_getElem? ho)
    have h2 : Inv ctx { s with heap := s.heap.set i { o with attrs := set a (.val v) o.attrs } } :=
      inv_heap hs (by intro b; simp only [find_set]; split; rfl; exact h1 b)
    simp only
    cases find a o.attrs with
    | none => exact ⟨nofun, h2⟩
    | some b => cases b with
      | val w => exact ⟨nofun, h2⟩
      | prop n => exact ⟨nofun, hs⟩

theorem setItem_free {ctx : List (Name × RV)} (i : Nat) (k : Int) (v : RV) : Free (Inv ctx) (setItem i k v) := by
  intro s hs
  unfold setItem
  cases ho : s.heap[i]? with
  | none => exact ⟨nofun, hs⟩
  | some o => exact ⟨nofun, inv_heap hs (hs.1 o (List.mem_of_getElem? ho))⟩

theorem assign_free {ctx : List (Name × RV)} : (t : Target) → PlainTarget t → (v : RV) → Free (Inv ctx) (Spec.assign true ctx t v)
  | .name (.user x), _, v => setVar_free x v
  | .attr x a, _, v => free_bind (readName_free _ _) fun o => by
      cases o with
      | obj i => exact setAttr_free i a v
      | _ => exact free_fail nofun
  | .item x (.int k), _, v => free_bind (readName_free _ _) fun o => free_bind (free_pure _) fun k => by
      cases o with
      | obj i => cases k with
        | int k => exact setItem_free i k v
        | _ => exact free_fail nofun
      | _ => exact free_fail nofun

theorem delVar_free {ctx : List (Name × RV)} (x : String) : Free (Inv ctx) (delVar (.user x)) := by
  intro s hs
  unfold delVar
  cases find (Name.user x) s.vars with
  | none => exact ⟨nofun, hs⟩
  | some w =>
    refine ⟨nofun, hs.1, fun p hp => ?_⟩
    obtain ⟨i, w, h1, h2, h3⟩ := hs.2 p hp
    exact ⟨i, w, h1, by simp only []; rw [find_remove (by simp)]; exact h2, h3⟩

theorem times_free {P : St RV → Prop} {m : M RV Unit} (h : Free P m) : (n : Nat) → Free P (times m n)
  | 0 => free_pure _
  | n + 1 => free_bind h fun _ => times_free h n

mutual
theorem exec_free (n : Nat) : (ctx : List (Name × RV)) → (is : List Nat) → (∀ i, Name.gen i ∈ ctx.map (·.1) → i ∈ is) → (st : S) →
    PlainS is st → Free (Inv ctx) (Spec.exec true n ctx st)
  | ctx, is, _, .expr e, h => by
    simp only [Spec.exec]
    exact free_bind (eval_free n e (by simpa [PlainS] using h)) fun _ s hs => ⟨nofun, hs⟩
  | ctx, is, _, .assign t e, h => by
    simp only [PlainS] at h
    simp only [Spec.exec]
    exact free_bind (eval_free n e h.2) (assign_free t h.1)
  | ctx, is, _, .del x, _ => by
    simp only [Spec.exec]; exact delVar_free x
  | ctx, is, hi, .repeat k body, h => by
    simp only [PlainS] at h
    simp only [Spec.exec]; exact times_free (execs_free n ctx is hi body h) k
  | ctx, is, hi, .autoref i x e body, h => by
    simp only [PlainS] at h
    obtain ⟨h1, h2, h3, h4⟩ := h
    subst h1
    simp only [Spec.exec, ownName, Bool.and_false, Bool.false_eq_true, if_false]
    refine free_bind (eval_free n e h3) fun v => ?_
    intro s hs
    have hb := execs_free n ((varName i none, v) :: ctx) (i :: is) (by
      intro j hj
      simp only [varName, List.map_cons, List.mem_cons, Name.gen.injEq] at hj ⊢
      rcases hj with hj | hj
      · exact .inl hj
      · exact .inr (hi j hj)) body h4 { s with vars := set (varName i none) v s.vars } ⟨hs.1, by
        intro p hp
        rcases List.mem_cons.1 hp with hp | hp
        · exact ⟨i, v, by rw [hp]; rfl, by simp only [varName, find_set, if_true], by rw [hp]⟩
        · obtain ⟨j, w, hj, h5, h6⟩ := hs.2 p hp
          have hne : i ≠ j := by
            intro hij
            exact h2 (hi i (by rw [hij, ← hj]; exact List.mem_map_of_mem hp))
          exact ⟨j, w, hj, by simp only [varName, find_set]; rw [if_neg (by simpa using hne)]; exact h5, h6⟩⟩
    refine ⟨hb.1, hb.2.1, fun p hp => hb.2.2 p (List.mem_cons_of_mem _ hp)⟩
theorem execs_free (n : Nat) : (ctx : List (Name × RV)) → (is : List Nat) → (∀ i, Name.gen i ∈ ctx.map (·.1) → i ∈ is) → (ss : List S) →
    PlainSs is ss → Free (Inv ctx) (Spec.execs true n ctx ss)
  | _, _, _, [], _ => by simp only [Spec.execs]; exact free_pure _
  | ctx, is, hi, s :: ss, h => by
    simp only [PlainSs] at h
    simp only [Spec.execs]
    exact free_bind (exec_free n ctx is hi s h.1) fun _ => execs_free n ctx is hi ss h.2
end

theorem start_noprop (w : World) (hw : ∀ o ∈ w.heap, o.2.1 = []) : NoProp (w.start RV.int RV.obj) := by
  intro o ho a
  simp only [World.start, List.mem_map] at ho
  obtain ⟨⟨as, ps, is⟩, h1, h2⟩ := ho
  have := hw _ h1
  simp only at this
  subst this
  subst h2
  simp only [List.map_nil, List.append_nil]
  clear h1
  induction as with
  | nil => rfl
  | cons p as ih =>
    simp only [List.map_cons, find]
    split
    · rfl
    · exact ih

end Unpy.Autoref.Lemmas
