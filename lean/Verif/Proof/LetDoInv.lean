import Verif.Proof.LetDoMain
/-!
# Variables that nothing assigns to keep their values
-/
namespace Unpy.LetDo
open Unpy.PyExpr
open Unpy.Spec.LetDo (assigns assignsAny)
variable {β ω ε : Type}

/-- The expression, run in this environment, cannot assign to the variable `r` of frame `a`. -/
def Adm (r : String) (a : Option Nat) (ρ : Name → Option (SRef β)) (as : Bool) : Prop :=
  ∀ i, a = some i → as = false ∨ ρ (.user r) ≠ some (.var i)

mutual
/-- Objects that refer to the first `K` frames only, and whose functions cannot assign to the variable. -/
inductive VOk (r : String) (a : Option Nat) (K : Nat) : SVal β → Prop
  | base (b : β) : VOk r a K (.base b)
  | ext (k : Nat) : VOk r a K (.ext k)
  | tup {vs} : VsOk r a K vs → VOk r a K (.tup vs)
  | lst {vs} : VsOk r a K vs → VOk r a K (.lst vs)
  | clo {ps ds b ρ} : VsOk r a K ds → (∀ x i, ρ x = some (.var i) → i < K) → (∀ x v, ρ x = some (.val v) → VOk r a K v) →
      Adm r a ρ (assigns (.user r) b) → VOk r a K (.clo ps ds b ρ)
inductive VsOk (r : String) (a : Option Nat) (K : Nat) : List (SVal β) → Prop
  | nil : VsOk r a K []
  | cons {v vs} : VOk r a K v → VsOk r a K vs → VsOk r a K (v :: vs)
end

section
variable {r : String} {a : Option Nat}

mutual
theorem VOk.mono {K K' : Nat} (hK : K ≤ K') : ∀ {v : SVal β}, VOk r a K v → VOk r a K' v
  | _, .base b => .base b
  | _, .ext k => .ext k
  | _, .tup h => .tup (h.mono hK)
  | _, .lst h => .lst (h.mono hK)
  | _, .clo h1 h2 h3 h4 => .clo (h1.mono hK) (fun x i hi => Nat.lt_of_lt_of_le (h2 x i hi) hK)
      (fun x v hv => (h3 x v hv).mono hK) h4
theorem VsOk.mono {K K' : Nat} (hK : K ≤ K') : ∀ {vs : List (SVal β)}, VsOk r a K vs → VsOk r a K' vs
  | _, .nil => .nil
  | _, .cons h hs => .cons (h.mono hK) (hs.mono hK)
end

structure EOk (r : String) (a : Option Nat) (K : Nat) (ρ : Name → Option (SRef β)) : Prop where
  var : ∀ x i, ρ x = some (.var i) → i < K
  val : ∀ x v, ρ x = some (.val v) → VOk r a K v

theorem EOk.mono {K K' : Nat} {ρ : Name → Option (SRef β)} (h : EOk r a K ρ) (hK : K ≤ K') : EOk r a K' ρ :=
  ⟨fun x i hi => Nat.lt_of_lt_of_le (h.var x i hi) hK, fun x v hv => (h.val x v hv).mono hK⟩

/-- All that is stored in the frames. -/
structure SOk (r : String) (a : Option Nat) (s : SSt β ω) : Prop where
  vals : ∀ f ∈ s.frames, ∀ x v, f.vars x = some v → VOk r a s.frames.length v
  old : ∀ i, a = some i → i < s.frames.length

/-- The variable has the same value in both states. -/
def Same (r : String) (a : Option Nat) (s s' : SSt β ω) : Prop :=
  ∀ i, a = some i → i < s.frames.length → ∀ f, s.frames[i]? = some f → ∃ f', s'.frames[i]? = some f' ∧ f'.vars r = f.vars r

theorem Same.refl (s : SSt β ω) : Same r a s s := fun _ _ _ f hf => ⟨f, hf, rfl⟩
theorem Same.trans {s s' s'' : SSt β ω} (hl : s.frames.length ≤ s'.frames.length) (h : Same r a s s') (h' : Same r a s' s'') :
    Same r a s s'' := by
  intro i hi hl' f hf
  obtain ⟨f', h1, h2⟩ := h i hi hl' f hf
  obtain ⟨f'', h3, h4⟩ := h' i hi (by omega) f' h1
  exact ⟨f'', h3, h4.trans h2⟩

/-- What holds after a computation from `s`. -/
def Res {α : Type} (r : String) (a : Option Nat) (Q : Nat → α → Prop) (s : SSt β ω) :
    Option (Except (Err ε) α × SSt β ω) → Prop
  | none => True
  | some (.error _, s') => s.frames.length ≤ s'.frames.length ∧ SOk r a s' ∧ Same r a s s'
  | some (.ok v, s') => s.frames.length ≤ s'.frames.length ∧ SOk r a s' ∧ Same r a s s' ∧ Q s'.frames.length v

variable {α γ : Type} {Q : Nat → α → Prop} {Q' : Nat → γ → Prop}

theorem Res.ret {v : α} {s : SSt β ω} (hs : SOk r a s) (h : Q s.frames.length v) :
    Res (ε := ε) r a Q s (ret v s) := ⟨Nat.le_refl _, hs, Same.refl s, h⟩
theorem Res.raise {x : Err ε} {s : SSt β ω} (hs : SOk r a s) : Res r a Q s (raise x s) := ⟨Nat.le_refl _, hs, Same.refl s⟩

theorem Res.bind {m : M (SSt β ω) ε α} {f : α → M (SSt β ω) ε γ} {s : SSt β ω} (h : Res r a Q s (m s))
    (hf : ∀ v s1, s.frames.length ≤ s1.frames.length → SOk r a s1 → Q s1.frames.length v → Res r a Q' s1 (f v s1)) :
    Res r a Q' s (PyExpr.bind m f s) := by
  unfold PyExpr.bind
  rcases hm : m s with _ | ⟨_ | v, s1⟩ <;> rw [hm] at h
  · trivial
  · exact h
  · obtain ⟨h1, h2, h3, h4⟩ := h
    have := hf v s1 h1 h2 h4
    simp only
    rcases hv : f v s1 with _ | ⟨_ | w, s2⟩ <;> rw [hv] at this
    · trivial
    · exact ⟨Nat.le_trans h1 this.1, this.2.1, h3.trans h1 this.2.2⟩
    · exact ⟨Nat.le_trans h1 this.1, this.2.1, h3.trans h1 this.2.2.1, this.2.2.2⟩

theorem Res.imp {Q2 : Nat → α → Prop} {s : SSt β ω} {o : Option (Except (Err ε) α × SSt β ω)} (h : Res r a Q s o)
    (hq : ∀ K v, Q K v → Q2 K v) : Res r a Q2 s o := by
  rcases o with _ | ⟨_ | _, _⟩
  · trivial
  · exact h
  · exact ⟨h.1, h.2.1, h.2.2.1, hq _ _ h.2.2.2⟩

theorem bind_getFrame (i : Nat) (f : Spec.LetDo.Frame β → M (SSt β ω) ε α) (s : SSt β ω) :
    PyExpr.bind (Spec.LetDo.getFrame i) f s =
      match s.frames[i]? with
      | some fr => f fr s
      | none => raise .unmodelled s := by
  unfold Spec.LetDo.getFrame PyExpr.bind
  cases h : s.frames[i]? <;> simp [h, raise]

theorem sput_eq (i : Nat) (x : String) (v : Option (SVal β)) (s : SSt β ω) :
    Spec.LetDo.put (ε := ε) i x v s =
      match s.frames[i]? with
      | some f => some (.ok (), { s with frames := s.frames.set i { f with vars := fun y => if y = x then v else f.vars y } })
      | none => raise .unmodelled s := bind_getFrame _ _ _

theorem read_ok {i : Nat} {x : String} {s : SSt β ω} (hs : SOk r a s) :
    Res (ε := ε) r a (VOk r a) s (Spec.LetDo.read i x s) := by
  unfold Spec.LetDo.read
  rw [bind_getFrame]
  cases h : s.frames[i]? with
  | none => exact Res.raise hs
  | some f =>
    simp only
    cases hv : f.vars x with
    | none => exact Res.raise hs
    | some v => exact Res.ret hs (hs.vals f (List.mem_of_getElem? h) x v hv)

theorem put_ok {i : Nat} {x : String} {v : Option (SVal β)} {s : SSt β ω} (hs : SOk r a s)
    (hv : ∀ w, v = some w → VOk r a s.frames.length w) (hx : a = some i → x ≠ r) :
    Res (ε := ε) r a (fun _ _ => True) s (Spec.LetDo.put i x v s) := by
  rw [sput_eq]
  cases h : s.frames[i]? with
  | none => exact Res.raise hs
  | some f =>
    refine ⟨by simp, ⟨?_, ?_⟩, ?_, trivial⟩
    · intro g hg y w hw
      simp only [List.length_set] at *
      rcases List.mem_or_eq_of_mem_set hg with hg | rfl
      · exact hs.vals g hg y w hw
      · simp only at hw
        split at hw
        · exact hv w hw
        · exact hs.vals f (List.mem_of_getElem? h) y w hw
    · simpa using hs.old
    · intro j hj hl g hg
      simp only [List.getElem?_set]
      by_cases hij : i = j
      · subst hij
        rw [h] at hg; cases hg
        simp only [if_true, hl]
        exact ⟨_, rfl, by simp [Ne.symm (hx hj)]⟩
      · simp only [hij, if_false]
        exact ⟨g, hg, rfl⟩

theorem write_ok {i : Nat} {x : String} {v : SVal β} {s : SSt β ω} (hs : SOk r a s)
    (hv : VOk r a s.frames.length v) (hx : a = some i → x ≠ r) :
    Res (ε := ε) r a (fun _ _ => True) s (Spec.LetDo.write i x v s) := by
  unfold Spec.LetDo.write
  rw [bind_getFrame]
  cases h : s.frames[i]? with
  | none => exact Res.raise hs
  | some f =>
    simp only
    split
    · exact put_ok hs (by intro w hw; cases hw; exact hv) hx
    · exact Res.raise hs

theorem VsOk.mem {K : Nat} : ∀ {vs : List (SVal β)}, VsOk r a K vs → ∀ v ∈ vs, VOk r a K v
  | _, .cons h hs, v, hv => by
    rcases List.mem_cons.1 hv with rfl | hv
    · exact h
    · exact hs.mem v hv
theorem VsOk.of_mem {K : Nat} : ∀ {vs : List (SVal β)}, (∀ v ∈ vs, VOk r a K v) → VsOk r a K vs
  | [], _ => .nil
  | v :: vs, h => .cons (h v (by simp)) (VsOk.of_mem fun w hw => h w (by simp [hw]))

theorem new_ok {k : Bool} {xs : List String} {vs : List (SVal β)} {s : SSt β ω} (hs : SOk r a s)
    (hv : VsOk r a s.frames.length vs) :
    Res (ε := ε) r a (fun K i => i = s.frames.length ∧ K = s.frames.length + 1) s (Spec.LetDo.new k xs vs s) := by
  refine ⟨by simp, ⟨?_, ?_⟩, ?_, rfl, by simp⟩
  · intro f hf x v hx
    simp only [List.length_append, List.length_singleton]
    rcases List.mem_append.1 hf with hf | hf
    · exact (hs.vals f hf x v hx).mono (by omega)
    · simp only [List.mem_singleton] at hf; subst hf
      simp only at hx
      have : v ∈ vs := by
        have : ∀ (xs : List String) (vs : List (SVal β)), (xs.zip vs).lookup x = some v → v ∈ vs := by
          intro xs
          induction xs with
          | nil => intro vs h; simp at h
          | cons y ys ih =>
            intro vs h
            cases vs with
            | nil => simp at h
            | cons w ws =>
              simp only [List.zip_cons_cons, List.lookup_cons] at h
              split at h
              · cases h; simp
              · simp [ih ws h]
        exact this xs vs hx
      exact (hv.mem v this).mono (by omega)
  · intro i hi
    have := hs.old i hi
    simp only [List.length_append, List.length_singleton]; omega
  · intro i hi hl f hf
    exact ⟨f, by simp only [List.getElem?_append_left hl]; exact hf, rfl⟩

theorem scope_ok {K i : Nat} {ρ : Name → Option (SRef β)} (h : EOk r a K ρ) (hi : i < K) (xs : List String) :
    EOk r a K (Spec.LetDo.scope ρ xs i) := by
  constructor
  · intro x j hj
    cases x with
    | gen n => exact h.var _ _ hj
    | user x =>
      simp only [Spec.LetDo.scope] at hj
      split at hj
      · cases hj; exact hi
      · exact h.var _ _ hj
  · intro x v hv
    cases x with
    | gen n => exact h.val _ _ hv
    | user x =>
      simp only [Spec.LetDo.scope] at hv
      split at hv
      · cases hv
      · exact h.val _ _ hv

theorem adm_scope {ρ : Name → Option (SRef β)} {as : Bool} {i : Nat} (h : Adm r a ρ as) (hi : a ≠ some i) (xs : List String) :
    Adm r a (Spec.LetDo.scope ρ xs i) as := by
  intro j hj
  rcases h j hj with h | h
  · exact .inl h
  · refine .inr ?_
    simp only [Spec.LetDo.scope]
    split
    · intro hc; cases hc; exact hi hj
    · exact h

theorem extend_ok {K : Nat} {ρ : Name → Option (SRef β)} (h : EOk r a K ρ) : ∀ (ps : List Name) (vs : List (SVal β)),
    VsOk r a K vs → EOk r a K (extend ρ ps (vs.map .val))
  | p :: ps, _, .cons (v := v) hv hvs => by
    have ih := extend_ok h ps _ hvs
    constructor
    · intro x i hx
      simp only [List.map_cons, extend] at hx
      split at hx
      · cases hx
      · exact ih.var x i hx
    · intro x w hx
      simp only [List.map_cons, extend] at hx
      split at hx
      · cases hx; exact hv
      · exact ih.val x w hx
  | [], _, _ => by simpa [extend] using h
  | p :: ps, _, .nil => by simpa [extend] using h

theorem adm_extend {ρ : Name → Option (SRef β)} {as : Bool} (h : Adm r a ρ as) : ∀ (ps : List Name) (vs : List (SVal β)),
    Adm r a (extend ρ ps (vs.map .val)) as
  | p :: ps, v :: vs => by
    have ih := adm_extend h ps vs
    intro i hi
    rcases ih i hi with h | h
    · exact .inl h
    · refine .inr ?_
      simp only [List.map_cons, extend]
      split
      · simp
      · exact h
  | [], _ => by simpa [extend] using h
  | p :: ps, [] => by simpa [extend] using h

theorem adm_le {ρ : Name → Option (SRef β)} {as bs : Bool} (h : Adm r a ρ as) (hb : bs = true → as = true) : Adm r a ρ bs := by
  intro i hi
  rcases h i hi with h | h
  · left; cases bs with
    | false => rfl
    | true => rw [hb rfl] at h; exact h
  · exact .inr h

/-- Calls keep to it. -/
def ApOk (r : String) (a : Option Nat) (ap : SVal β → List (SVal β) → M (SSt β ω) ε (SVal β)) : Prop :=
  ∀ f args s, VOk r a s.frames.length f → VsOk r a s.frames.length args → SOk r a s → Res r a (VOk r a) s (ap f args s)

variable {P : World β ω ε} {ap : SVal β → List (SVal β) → M (SSt β ω) ε (SVal β)}

theorem run_ok (hap : ApOk r a ap) {ρ : Name → Option (SRef β)} {t : Ex β} {s : SSt β ω} (he : EOk r a s.frames.length ρ)
    (ha : Adm r a ρ (assigns (.user r) t)) (hs : SOk r a s) : Res r a (VOk r a) s (Spec.LetDo.run ap ρ t s) :=
  hap _ _ _ (.clo .nil he.var he.val ha) .nil hs

theorem recLoop_ok (hap : ApOk r a ap) {ρ : Name → Option (SRef β)} {i : Nat} (hi : a ≠ some i) : ∀ (xs : List String)
    (ts : List (Ex β)) (s : SSt β ω), EOk r a s.frames.length ρ → Adm r a ρ (assignsAny (.user r) ts) → SOk r a s →
    Res r a (fun _ _ => True) s (Spec.LetDo.recLoop ap ρ i xs ts s)
  | x :: xs, t :: ts, s, he, ha, hs => by
    simp only [Spec.LetDo.recLoop]
    refine (run_ok hap he (adm_le ha (by simp +contextual [assignsAny])) hs).bind fun v s1 hl hs1 hv => ?_
    refine (put_ok hs1 (by intro w hw; cases hw; exact hv) (fun h => absurd h hi)).bind fun _ s2 hl2 hs2 _ => ?_
    exact recLoop_ok hap hi xs ts s2 (he.mono (by omega)) (adm_le ha (by simp +contextual [assignsAny])) hs2
  | [], _, s, _, _, hs => by simp only [Spec.LetDo.recLoop]; exact Res.ret hs trivial
  | _ :: _, [], s, _, _, hs => by simp only [Spec.LetDo.recLoop]; exact Res.ret hs trivial

theorem putAll_ok {i : Nat} {v : SVal β} : ∀ (xs : List String) (s : SSt β ω), (a = some i → r ∉ xs) →
    VOk r a s.frames.length v → SOk r a s → Res (ε := ε) r a (fun _ _ => True) s (Spec.LetDo.putAll i v xs s)
  | [], s, _, _, hs => Res.ret hs trivial
  | x :: xs, s, hx, hv, hs => by
    simp only [Spec.LetDo.putAll]
    refine (putAll_ok xs s (fun h hm => hx h (by simp [hm])) hv hs).bind fun _ s1 hl hs1 _ => ?_
    exact put_ok hs1 (by intro w hw; cases hw; exact hv.mono hl) (fun h hxr => hx h (by simp [hxr]))

/-- No item declares or deletes `r`. -/
def Leaves (r : String) (tags : List Tag) : Prop :=
  ∀ t ∈ tags, match t with
    | .loc xs => r ∉ xs
    | .del x => x ≠ r

theorem doLoop_ok (hap : ApOk r a ap) {ρ : Name → Option (SRef β)} {i : Nat} : ∀ (tags : List Tag)
    (ts : List (Ex β)) (names : List String) (last : SVal β) (s : SSt β ω), (a = some i → Leaves r tags ∧ assignsAny (.user r) ts = false) →
    i < s.frames.length → EOk r a s.frames.length ρ → Adm r a ρ (assignsAny (.user r) ts) → VOk r a s.frames.length last →
    SOk r a s → Res r a (VOk r a) s (Spec.LetDo.doLoop ap ρ i names last tags ts s)
  | .loc xs :: tags, t :: ts, names, last, s, hi, hil, he, ha, hlast, hs => by
    simp only [Spec.LetDo.doLoop]
    have ha' : Adm r a (Spec.LetDo.scope ρ names i) (assigns (.user r) t) := by
      by_cases h : a = some i
      · intro j hj; left
        have := (hi h).2
        simp only [assignsAny, Bool.or_eq_false_iff] at this
        exact this.1
      · exact adm_scope (adm_le ha (by simp +contextual [assignsAny])) h names
    refine (run_ok hap (scope_ok he hil names) ha' hs).bind fun v s1 hl hs1 hv => ?_
    refine (putAll_ok xs s1 (fun h => (hi h).1 (.loc xs) (by simp)) hv hs1).bind fun _ s2 hl2 hs2 _ => ?_
    refine doLoop_ok hap tags ts _ _ s2 (fun h => ⟨fun t ht => (hi h).1 t (by simp [ht]), ?_⟩) (by omega) (he.mono (by omega))
      (adm_le ha (by simp +contextual [assignsAny])) (hv.mono hl2) hs2
    have := (hi h).2
    simp only [assignsAny, Bool.or_eq_false_iff] at this
    exact this.2
  | .del x :: tags, t :: ts, names, last, s, hi, hil, he, ha, hlast, hs => by
    simp only [Spec.LetDo.doLoop]
    rw [bind_getFrame]
    cases hf : s.frames[i]? with
    | none => exact Res.raise hs
    | some f =>
      simp only
      cases hv : f.vars x with
      | none => exact Res.raise hs
      | some v =>
        simp only
        refine (put_ok hs (by intro w hw; cases hw) (fun h => (hi h).1 (.del x) (by simp))).bind fun _ s2 hl2 hs2 _ => ?_
        refine doLoop_ok hap tags ts _ _ s2 (fun h => ⟨fun t ht => (hi h).1 t (by simp [ht]), ?_⟩) (by omega) (he.mono (by omega))
          (adm_le ha (by simp +contextual [assignsAny])) ((hs.vals f (List.mem_of_getElem? hf) x v hv).mono hl2) hs2
        have := (hi h).2
        simp only [assignsAny, Bool.or_eq_false_iff] at this
        exact this.2
  | [], _, _, _, s, _, _, _, _, hlast, hs => by simp only [Spec.LetDo.doLoop]; exact Res.ret hs hlast
  | .loc _ :: _, [], _, _, s, _, _, _, _, hlast, hs => by simp only [Spec.LetDo.doLoop]; exact Res.ret hs hlast
  | .del _ :: _, [], _, _, s, _, _, _, _, hlast, hs => by simp only [Spec.LetDo.doLoop]; exact Res.ret hs hlast

theorem callVal_ok (hap : ApOk r a ap) {f : SVal β} {args : List (SVal β)} {s : SSt β ω} (hf : VOk r a s.frames.length f)
    (hv : VsOk r a s.frames.length args) (hs : SOk r a s) : Res r a (VOk r a) s (Spec.LetDo.callVal P ap f args s) := by
  unfold Spec.LetDo.callVal
  cases f with
  | clo => exact hap _ _ _ hf hv hs
  | ext k =>
    simp only
    cases Spec.LetDo.bases args with
    | none => exact Res.raise hs
    | some bs =>
      simp only
      rcases P.call k bs s.world with ⟨_ | b, w⟩
      · exact ⟨Nat.le_refl _, ⟨hs.vals, hs.old⟩, Same.refl s⟩
      · exact ⟨Nat.le_refl _, ⟨hs.vals, hs.old⟩, Same.refl s, .base b⟩
  | base => exact Res.raise hs
  | tup => exact Res.raise hs
  | lst => exact Res.raise hs

mutual
theorem eval_ok (hap : ApOk r a ap) : ∀ (t : Ex β) (ρ : Name → Option (SRef β)) (s : SSt β ω), EOk r a s.frames.length ρ →
    Adm r a ρ (assigns (.user r) t) → SOk r a s → Res r a (VOk r a) s (Spec.LetDo.eval P ap ρ t s)
  | .cst c, ρ, s, he, ha, hs => by simp only [Spec.LetDo.eval]; exact Res.ret hs (.base c)
  | .name x, ρ, s, he, ha, hs => by
    simp only [Spec.LetDo.eval]
    cases hx : ρ x with
    | none => exact Res.raise hs
    | some v =>
      cases v with
      | val v => exact Res.ret hs (he.val x v hx)
      | var i =>
        cases x with
        | user y => exact read_ok hs
        | gen n => exact Res.raise hs
  | .call f args, ρ, s, he, ha, hs => by
    simp only [Spec.LetDo.eval]
    refine (eval_ok hap f ρ s he (adm_le ha (by simp +contextual [assigns])) hs).bind fun v s1 hl hs1 hv => ?_
    refine (evals_ok hap args ρ s1 (he.mono hl) (adm_le ha (by simp +contextual [assigns])) hs1).bind fun vs s2 hl2 hs2 hvs => ?_
    exact callVal_ok hap (hv.mono hl2) hvs hs2
  | .lam ps ds b, ρ, s, he, ha, hs => by
    simp only [Spec.LetDo.eval]
    refine (evals_ok hap ds ρ s he (adm_le ha (by simp +contextual [assigns])) hs).bind fun vs s1 hl hs1 hvs => ?_
    exact Res.ret hs1 (.clo hvs (he.mono hl).var (he.mono hl).val (adm_le ha (by simp +contextual [assigns])))
  | .ife c t e, ρ, s, he, ha, hs => by
    simp only [Spec.LetDo.eval]
    refine (eval_ok hap c ρ s he (adm_le ha (by simp +contextual [assigns])) hs).bind fun v s1 hl hs1 hv => ?_
    split
    · exact eval_ok hap t ρ s1 (he.mono hl) (adm_le ha (by simp +contextual [assigns])) hs1
    · exact eval_ok hap e ρ s1 (he.mono hl) (adm_le ha (by simp +contextual [assigns])) hs1
  | .tup ts, ρ, s, he, ha, hs => by
    simp only [Spec.LetDo.eval]
    refine (evals_ok hap ts ρ s he (adm_le ha (by simp +contextual [assigns])) hs).bind fun vs s1 hl hs1 hvs => ?_
    exact Res.ret hs1 (.tup hvs)
  | .lst ts, ρ, s, he, ha, hs => by
    simp only [Spec.LetDo.eval]
    refine (evals_ok hap ts ρ s he (adm_le ha (by simp +contextual [assigns])) hs).bind fun vs s1 hl hs1 hvs => ?_
    exact Res.ret hs1 (.lst hvs)
  | .assign (.user x) v, ρ, s, he, ha, hs => by
    simp only [Spec.LetDo.eval]
    cases hx : ρ (.user x) with
    | none => exact Res.raise hs
    | some w =>
      cases w with
      | val _ => exact Res.raise hs
      | var i =>
        simp only
        refine (eval_ok hap v ρ s he (adm_le ha (by simp +contextual [assigns])) hs).bind fun w s1 hl hs1 hw => ?_
        refine (write_ok hs1 hw ?_).bind fun _ s2 hl2 hs2 _ => Res.ret hs2 (hw.mono hl2)
        intro hi hxr
        subst hxr
        rcases ha i hi with h | h
        · simp [assigns] at h
        · exact h hx
  | .letx false xs vs b, ρ, s, he, ha, hs => by
    simp only [Spec.LetDo.eval]
    refine (evals_ok hap vs ρ s he (adm_le ha (by simp +contextual [assigns])) hs).bind fun ws s1 hl hs1 hws => ?_
    refine (new_ok hs1 hws).bind fun i s2 hl2 hs2 hi => ?_
    refine run_ok hap (scope_ok (he.mono (by omega)) (by omega) xs) (adm_scope (adm_le ha (by simp +contextual [assigns])) ?_ xs) hs2
    intro h; have := hs1.old i h; omega
  | .letx true xs vs b, ρ, s, he, ha, hs => by
    simp only [Spec.LetDo.eval]
    refine (new_ok hs .nil).bind fun i s1 hl hs1 hi => ?_
    have hai : a ≠ some i := by intro h; have := hs.old i h; omega
    have he1 := scope_ok (he.mono (K' := s1.frames.length) (by omega)) (i := i) (by omega) xs
    refine (recLoop_ok hap hai xs vs s1 he1 (adm_scope (adm_le ha (by simp +contextual [assigns])) hai xs) hs1).bind
      fun _ s2 hl2 hs2 _ => ?_
    exact run_ok hap (he1.mono hl2) (adm_scope (adm_le ha (by simp +contextual [assigns])) hai xs) hs2
  | .doe tags ts, ρ, s, he, ha, hs => by
    simp only [Spec.LetDo.eval]
    refine (new_ok hs .nil).bind fun i s1 hl hs1 hi => ?_
    have hai : a ≠ some i := by intro h; have := hs.old i h; omega
    exact doLoop_ok hap tags ts [] _ s1 (fun h => absurd h hai) (by omega) (he.mono (by omega))
      (adm_le ha (by simp +contextual [assigns])) (.tup .nil) hs1
  | .str _, ρ, s, _, _, hs => by simp only [Spec.LetDo.eval]; exact Res.raise hs
  | .cap _, ρ, s, _, _, hs => by simp only [Spec.LetDo.eval]; exact Res.raise hs
  | .attr _ _, ρ, s, _, _, hs => by simp only [Spec.LetDo.eval]; exact Res.raise hs
  | .assign (.gen _) _, ρ, s, _, _, hs => by simp only [Spec.LetDo.eval]; exact Res.raise hs
  | .bad, ρ, s, _, _, hs => by simp only [Spec.LetDo.eval]; exact Res.raise hs
theorem evals_ok (hap : ApOk r a ap) : ∀ (ts : List (Ex β)) (ρ : Name → Option (SRef β)) (s : SSt β ω), EOk r a s.frames.length ρ →
    Adm r a ρ (assignsAny (.user r) ts) → SOk r a s → Res r a (VsOk r a) s (Spec.LetDo.evals P ap ρ ts s)
  | [], ρ, s, _, _, hs => by simp only [Spec.LetDo.evals]; exact Res.ret hs .nil
  | t :: ts, ρ, s, he, ha, hs => by
    simp only [Spec.LetDo.evals]
    refine (eval_ok hap t ρ s he (adm_le ha (by simp +contextual [assignsAny])) hs).bind fun v s1 hl hs1 hv => ?_
    refine (evals_ok hap ts ρ s1 (he.mono hl) (adm_le ha (by simp +contextual [assignsAny])) hs1).bind fun vs s2 hl2 hs2 hvs => ?_
    exact Res.ret hs2 (.cons (hv.mono hl2) hvs)
end

theorem apply_ok : ∀ n, ApOk r a (Spec.LetDo.apply P n)
  | 0 => by intro f args s _ _ _; rw [sapply_zero]; trivial
  | n + 1 => by
    intro f args s hf hargs hs
    cases hf with
    | base => exact Res.raise hs
    | ext => exact Res.raise hs
    | tup => exact Res.raise hs
    | lst => exact Res.raise hs
    | clo h1 h2 h3 h4 =>
      rename_i ps ds b ρ
      rw [sapply_succ]
      cases hp : params ps.length ds args with
      | none => exact Res.raise hs
      | some vs =>
        have hvs : VsOk r a s.frames.length vs := by
          unfold params at hp
          split at hp
          · cases hp
            refine VsOk.of_mem fun v hv => ?_
            rcases List.mem_append.1 hv with hv | hv
            · exact hargs.mem v hv
            · exact h1.mem v (List.mem_of_mem_drop hv)
          · cases hp
        exact eval_ok (apply_ok n) b _ s (extend_ok ⟨h2, h3⟩ ps vs hvs) (adm_extend h4 ps vs) hs

/-! ## Scoped states -/

mutual
theorem within_vok {K i : Nat} (hi : K ≤ i) : ∀ {v : SVal β}, Spec.LetDo.Within K v → VOk r (some i) K v
  | _, .base b => .base b
  | _, .ext k => .ext k
  | _, .tup h => .tup (within_vsok hi h)
  | _, .lst h => .lst (within_vsok hi h)
  | _, .clo h1 h2 h3 => .clo (within_vsok hi h1) h2 (fun x v hv => within_vok hi (h3 x v hv)) (by
      intro j hj; cases hj; right; intro hc; have := h2 _ _ hc; omega)
theorem within_vsok {K i : Nat} (hi : K ≤ i) : ∀ {vs : List (SVal β)}, Spec.LetDo.Withins K vs → VsOk r (some i) K vs
  | _, .nil => .nil
  | _, .cons h hs => .cons (within_vok hi h) (within_vsok hi hs)
end

mutual
theorem within_none {K : Nat} : ∀ {v : SVal β}, Spec.LetDo.Within K v → VOk r none K v
  | _, .base b => .base b
  | _, .ext k => .ext k
  | _, .tup h => .tup (withins_none h)
  | _, .lst h => .lst (withins_none h)
  | _, .clo h1 h2 h3 => .clo (withins_none h1) h2 (fun x v hv => within_none (h3 x v hv)) (by intro j hj; cases hj)
theorem withins_none {K : Nat} : ∀ {vs : List (SVal β)}, Spec.LetDo.Withins K vs → VsOk r none K vs
  | _, .nil => .nil
  | _, .cons h hs => .cons (within_none h) (withins_none hs)
end

mutual
theorem none_within {K : Nat} : ∀ {v : SVal β}, VOk r none K v → Spec.LetDo.Within K v
  | _, .base b => .base b
  | _, .ext k => .ext k
  | _, .tup h => .tup (nones_within h)
  | _, .lst h => .lst (nones_within h)
  | _, .clo h1 h2 h3 _ => .clo (nones_within h1) h2 (fun x v hv => none_within (h3 x v hv))
theorem nones_within {K : Nat} : ∀ {vs : List (SVal β)}, VsOk r none K vs → Spec.LetDo.Withins K vs
  | _, .nil => .nil
  | _, .cons h hs => .cons (none_within h) (nones_within hs)
end

theorem scoped_eval {n : Nat} {ρ : Name → Option (SRef β)} {t : Ex β} {s s' : SSt β ω} {o : Except (Err ε) (SVal β)}
    (hs : Spec.LetDo.Scoped ρ s) (h : Spec.LetDo.eval P (Spec.LetDo.apply P n) ρ t s = some (o, s')) :
    Spec.LetDo.Scoped ρ s' ∧ ∀ v, o = .ok v → Spec.LetDo.Within s'.frames.length v := by
  have := eval_ok (r := "") (a := none) (P := P) (apply_ok (P := P) n) t ρ s ⟨hs.var, fun x v hv => within_none (hs.val x v hv)⟩
    (by intro i hi; cases hi) ⟨fun f hf x v hv => within_none (hs.frames f hf x v hv), by intro i hi; cases hi⟩
  rw [h] at this
  rcases o with e | v
  · refine ⟨⟨fun x i hi => Nat.lt_of_lt_of_le (hs.var x i hi) this.1, fun x v hv => ?_, fun f hf x v hv => ?_⟩, by intro v hv; cases hv⟩
    · exact none_within ((within_none (r := "") (hs.val x v hv)).mono this.1)
    · exact none_within (this.2.1.vals f hf x v hv)
  · refine ⟨⟨fun x i hi => Nat.lt_of_lt_of_le (hs.var x i hi) this.1, fun x v hv => ?_, fun f hf x v hv => ?_⟩, ?_⟩
    · exact none_within ((within_none (r := "") (hs.val x v hv)).mono this.1)
    · exact none_within (this.2.1.vals f hf x v hv)
    · intro v hv; cases hv; exact none_within this.2.2.2

theorem bind_some {m : M (SSt β ω) ε α} {f : α → M (SSt β ω) ε γ} {s s' : SSt β ω} {w : γ}
    (h : PyExpr.bind m f s = some (.ok w, s')) : ∃ v s1, m s = some (.ok v, s1) ∧ f v s1 = some (.ok w, s') := by
  unfold PyExpr.bind at h
  rcases hm : m s with _ | ⟨_ | v, s1⟩ <;> rw [hm] at h
  · cases h
  · simp at h
  · exact ⟨v, s1, rfl, h⟩

theorem doLoop_append {i : Nat} {ρ : Name → Option (SRef β)} {x : String} : ∀ (tags : List Tag) (ts : List (Ex β))
    (names : List String) (last w : SVal β) (s s' : SSt β ω), ts.length = tags.length → Leaves x tags → x ∈ names →
    Spec.LetDo.doLoop ap ρ i names last (tags ++ [.loc []]) (ts ++ [.name (.user x)]) s = some (.ok w, s') →
    ∃ names' last' s1, x ∈ names' ∧ Spec.LetDo.doLoop ap ρ i names last tags ts s = some (.ok last', s1) ∧
      Spec.LetDo.run ap (Spec.LetDo.scope ρ names' i) (.name (.user x)) s1 = some (.ok w, s')
  | [], [], names, last, w, s, s', _, _, hn, h => by
    simp only [List.nil_append, Spec.LetDo.doLoop] at h
    obtain ⟨v, s1, h1, h2⟩ := bind_some h
    obtain ⟨_, s2, h3, h4⟩ := bind_some h2
    cases h3
    cases h4
    exact ⟨names, last, s, hn, rfl, h1⟩
  | .loc xs :: tags, t :: ts, names, last, w, s, s', hl, hv, hn, h => by
    simp only [List.cons_append, Spec.LetDo.doLoop] at h ⊢
    obtain ⟨v, s1, h1, h2⟩ := bind_some h
    obtain ⟨_, s2, h3, h4⟩ := bind_some h2
    obtain ⟨names', last', s3, h5, h6, h7⟩ := doLoop_append tags ts (names ++ xs) v w s2 s' (by simpa using hl)
      (fun t ht => hv t (by simp [ht])) (by simp [hn]) h4
    refine ⟨names', last', s3, h5, ?_, h7⟩
    simp only [PyExpr.bind, h1, h3, h6]
  | .del y :: tags, t :: ts, names, last, w, s, s', hl, hv, hn, h => by
    simp only [List.cons_append, Spec.LetDo.doLoop] at h ⊢
    rw [bind_getFrame] at h ⊢
    cases hf : s.frames[i]? with
    | none => rw [hf] at h; simp [raise] at h
    | some f =>
      rw [hf] at h
      simp only at h ⊢
      cases hy : f.vars y with
      | none => rw [hy] at h; simp [raise] at h
      | some v =>
        rw [hy] at h
        simp only at h ⊢
        obtain ⟨_, s2, h3, h4⟩ := bind_some h
        have hne := hv (.del y) (by simp)
        obtain ⟨names', last', s3, h5, h6, h7⟩ := doLoop_append tags ts (names.filter (· ≠ y)) v w s2 s' (by simpa using hl)
          (fun t ht => hv t (by simp [ht])) (by simp [hn, Ne.symm hne]) h4
        refine ⟨names', last', s3, h5, ?_, h7⟩
        simp only [PyExpr.bind, h3, h6]
  | [], _ :: _, _, _, _, _, _, hl, _, _, _ => by simp at hl
  | .loc _ :: _, [], _, _, _, _, _, hl, _, _, _ => by simp at hl
  | .del _ :: _, [], _, _, _, _, _, hl, _, _, _ => by simp at hl

theorem do0_value {n : Nat} {ρ : Name → Option (SRef β)} {xs : List String} {tags : List Tag} {t : Ex β} {ts : List (Ex β)} {t' : Ex β}
    {s s' : SSt β ω} {w : SVal β} (hd : do0 (.loc xs :: tags) (t :: ts) = .ok t') (hl : ts.length = tags.length)
    (hx : r = "_do0_result") (hxs : r ∉ xs) (htags : Leaves r tags) (hts : assignsAny (.user r) ts = false)
    (ht : assigns (.user r) t = false)
    (hs : Spec.LetDo.Scoped ρ s) (h : Spec.LetDo.eval P (Spec.LetDo.apply P n) ρ t' s = some (.ok w, s')) :
    ∃ s1, Spec.LetDo.run (Spec.LetDo.apply P n) ρ t { s with frames := s.frames ++ [⟨true, fun _ => none⟩] } =
      some (.ok w, s1) := by
  simp only [do0, Except.ok.injEq] at hd
  subst hd
  simp only [Spec.LetDo.eval] at h
  obtain ⟨i, s1, h1, h2⟩ := bind_some h
  cases h1
  simp only [List.cons_append, Spec.LetDo.doLoop] at h2
  obtain ⟨v, s2, h3, h4⟩ := bind_some h2
  obtain ⟨_, s3, h5, h6⟩ := bind_some h4
  clear h h2 h4
  rw [← hx] at h5 h6
  obtain ⟨names, last, s4, h7, h8, h9⟩ := doLoop_append tags ts _ v w s3 s' hl htags (by simp) h6
  clear h6
  have hscope : (Spec.LetDo.scope ρ [] s.frames.length) = ρ := by
    funext x; cases x <;> simp [Spec.LetDo.scope]
  rw [hscope] at h3
  refine ⟨s2, ?_⟩
  suffices hvw : w = v by rw [hvw]; exact h3
  -- the state before the first item
  have hs0 : SOk r (some s.frames.length) (⟨s.frames ++ [⟨true, fun x => (([] : List String).zip []).lookup x⟩], s.world⟩ : SSt β ω) := by
    constructor
    · intro f hf x u hu
      rcases List.mem_append.1 hf with hf | hf
      · exact (within_vok (Nat.le_refl _) (hs.frames f hf x u hu)).mono (by simp)
      · simp only [List.mem_singleton] at hf; subst hf; simp at hu
    · intro i hi; cases hi; simp
  have he0 : EOk r (some s.frames.length) (s.frames.length + 1) ρ :=
    ⟨fun x i hi => Nat.lt_succ_of_lt (hs.var x i hi), fun x u hu => (within_vok (Nat.le_refl _) (hs.val x u hu)).mono (by omega)⟩
  have r1 := run_ok (apply_ok (P := P) (r := r) (a := some s.frames.length) n) (ρ := ρ) (t := t) (by simpa using he0)
    (by intro i _; exact .inl ht) hs0
  have h3' : Spec.LetDo.run (Spec.LetDo.apply P n) ρ t
    (⟨s.frames ++ [⟨true, fun x => (([] : List String).zip []).lookup x⟩], s.world⟩ : SSt β ω) = some (.ok v, s2) := h3
  rw [h3'] at r1
  obtain ⟨hl1, hs1, _, hv1⟩ := r1
  simp only [List.length_append, List.length_singleton] at hl1
  -- the variables are set
  simp only [Spec.LetDo.putAll] at h5
  obtain ⟨_, s5, h10, h11⟩ := bind_some h5
  have r2 := putAll_ok (ε := ε) (r := r) (a := some s.frames.length) (i := s.frames.length) xs s2 (fun _ => hxs) hv1 hs1
  rw [h10] at r2
  obtain ⟨hl2, hs2, _, _⟩ := r2
  rw [sput_eq] at h11
  cases hf : s5.frames[s.frames.length]? with
  | none => rw [hf] at h11; simp [raise] at h11
  | some f =>
    rw [hf] at h11
    simp only [Option.some.injEq, Prod.mk.injEq, Except.ok.injEq, true_and] at h11
    subst h11
    have hlt : s.frames.length < s5.frames.length := by omega
    have hs3 : SOk r (some s.frames.length) (⟨s5.frames.set s.frames.length
        { f with vars := fun y => if y = r then some v else f.vars y }, s5.world⟩ : SSt β ω) := by
      constructor
      · intro g hg x u hu
        simp only [List.length_set]
        rcases List.mem_or_eq_of_mem_set hg with hg | rfl
        · exact hs2.vals g hg x u hu
        · simp only at hu
          split at hu
          · cases hu; exact hv1.mono hl2
          · exact hs2.vals f (List.mem_of_getElem? hf) x u hu
      · intro i hi; cases hi; simpa using hlt
    have r3 := doLoop_ok (apply_ok (P := P) (r := r) (a := some s.frames.length) n) (ρ := ρ) (i := s.frames.length) tags ts
      ([] ++ r :: xs) v _ (fun _ => ⟨htags, hts⟩) (by simpa using hlt) (he0.mono (by simp only [List.length_set]; omega))
      (by intro i _; exact .inl hts) (by simp only [List.length_set]; exact hv1.mono hl2) hs3
    rw [h8] at r3
    obtain ⟨hl3, _, hsame, _⟩ := r3
    obtain ⟨f', hf', hr'⟩ := hsame _ rfl (by simpa using hlt) _ (List.getElem?_set_self hlt)
    simp only [if_true] at hr'
    -- the last item
    cases n with
    | zero => simp only [Spec.LetDo.run, sapply_zero] at h9; cases h9
    | succ n =>
      simp only [Spec.LetDo.run, sapply_succ, params, List.length_nil, Nat.le_refl, List.drop_nil, List.append_nil, and_self, if_true,
        List.map_nil, extend, Spec.LetDo.eval, Spec.LetDo.scope, h7, Spec.LetDo.read] at h9
      rw [bind_getFrame, hf'] at h9
      simp only [hr', ret] at h9
      cases h9
      rfl

end
end Unpy.LetDo
