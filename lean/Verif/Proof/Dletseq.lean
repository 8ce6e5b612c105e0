import Verif.Spec.Dletseq
/-! # Proofs about `dletseq` and `bletseq` -/
namespace Unpy.Dletseq
open Unpy.Spec.Dletseq (Vars update sets reads Source Silent expOf Chain Written Calm assigned)

/-! ## The form of the expansion -/

/-- all the transformations of one piece of code: the names, from the innermost environment on, whose number is `i` -/
def trsE : Nat → List String → E → E
  | _, [], e => e
  | i, x :: xs, e => trsE (i + 1) xs (transE i x e)

def trsS : Nat → List String → S → S
  | _, [], s => s
  | i, x :: xs, s => trsS (i + 1) xs (transS i x s)

def trsBody : Nat → List String → Body → Body
  | _, [], b => b
  | i, x :: xs, b => trsBody (i + 1) xs (transBody i x b)

/-- the nested functions, from the outside; `done`: the names of the environments around -/
def nest (c : Bool) (ds : List String) (b : Body) (i : Nat) : List String → List (String × E) → Body
  | done, [] => trsBody i done b
  | done, (x, v) :: fwd => .inner (.mk [] (if fwd.isEmpty then ds else []) (some (fwd.length + i, x, trsE (fwd.length + i + 1) done v)) (nest c ds b i (x :: done) fwd)) c

theorem trsBody_inner (i : Nat) (xs : List String) (ds : List String) (j : Nat) (x : String) (v : E) (b : Body) (c : Bool) :
    trsBody i xs (.inner (.mk [] ds (some (j, x, v)) b) c) = .inner (.mk [] ds (some (j, x, trsE i xs v)) (trsBody i xs b)) c := by
  induction xs generalizing i v b with
  | nil => rfl
  | cons y ys ih => simp [trsBody, transBody, transFn, ih, trsE]

theorem nest_snoc (c : Bool) (ds : List String) (b : Body) (i : Nat) (x : String) (v : E) (done : List String) (fwd : List (String × E)) :
    nest c [] (.inner (.mk [] ds (some (i, x, v)) (transBody i x b)) c) (i + 1) done fwd = nest c ds b i done (fwd ++ [(x, v)]) := by
  induction fwd generalizing done with
  | nil => simp [nest, trsBody_inner, trsBody]
  | cons p fwd ih =>
    obtain ⟨y, w⟩ := p
    simp only [nest, List.cons_append, ih]
    have h1 : fwd.length + (i + 1) = (fwd ++ [(x, v)]).length + i := by simp; omega
    rw [h1]
    simp

theorem dletseqImpl_eq (c : Bool) (i : Nat) (B : List (String × E)) (ps ds : List String) (b : Body) (x : String) (v : E) (fwd : List (String × E)) (h : B.reverse = (x, v) :: fwd) :
    dletseqImpl c i B (.mk ps ds none b) = .mk ps (if fwd.isEmpty then ds else []) (some (fwd.length + i, x, v)) (nest c ds b i [x] fwd) := by
  induction B generalizing i ds b fwd with
  | nil => simp at h
  | cons p rest ih =>
    obtain ⟨y, w⟩ := p
    cases rest with
    | nil =>
      simp at h
      obtain ⟨⟨rfl, rfl⟩, rfl⟩ := h
      simp [dletseqImpl, dlet, withParams, paramsOf, transFn, nest, trsBody]
    | cons q rest =>
      rw [show dletseqImpl c i ((y, w) :: q :: rest) (.mk ps ds none b) = dletseqImpl c (i + 1) (q :: rest) (.mk ps [] none (.inner (dlet i y w (withParams [] (.mk ps ds none b))) c)) from rfl]
      have hr : ∃ fwd', (q :: rest).reverse = (x, v) :: fwd' ∧ fwd = fwd' ++ [(y, w)] := by
        rw [List.reverse_cons] at h
        cases hq : (q :: rest).reverse with
        | nil => simp at hq
        | cons a as =>
          rw [hq] at h
          simp at h
          exact ⟨as, by rw [h.1], h.2.symm⟩
      obtain ⟨fwd', h1, rfl⟩ := hr
      have := ih (i + 1) [] (.inner (dlet i y w (withParams [] (.mk ps ds none b))) c) fwd' h1
      rw [this]
      simp only [dlet, withParams, transFn]
      have h2 := nest_snoc c ds b i y w [x] fwd'
      simp only [List.not_mem_nil, if_false]
      rw [h2]
      have h3 : fwd'.length + (i + 1) = (fwd' ++ [(y, w)]).length + i := by simp; omega
      rw [h3]
      simp

theorem expand_eq (c : Bool) (x : String) (v : E) (fwd : List (String × E)) (ps ds : List String) (ss : List S) :
    expand c ((x, v) :: fwd) ps ds ss = .mk ps (if fwd.isEmpty then ds else []) (some (fwd.length, x, v)) (nest c ds (.user ss) 0 [x] fwd) := by
  rw [expand, dletseqImpl_eq c 0 _ ps ds (.user ss) x v fwd (by simp)]
  simp

theorem trsBody_user (i : Nat) (xs : List String) (ss : List S) : trsBody i xs (.user ss) = .user (ss.map (trsS i xs)) := by
  induction xs generalizing i ss with
  | nil => simp [trsBody, trsS]
  | cons x xs ih => simp only [trsBody, transBody, ih, List.map_map]; congr 1

/-! ## What the transformed code does -/

/-- the first place of a name -/
def pos : List String → String → Option Nat
  | [], _ => none
  | y :: ys, x => if x = y then some 0 else (pos ys x).map (· + 1)

theorem pos_none {xs : List String} {x : String} : pos xs x = none ↔ x ∉ xs := by
  induction xs with
  | nil => simp [pos]
  | cons y ys ih => by_cases h : x = y <;> simp [pos, h, ih]

@[simp] theorem trsE_int (i xs n) : trsE i xs (.int n) = .int n := by induction xs generalizing i <;> simp_all [trsE, transE]
@[simp] theorem trsE_envget (i xs j y) : trsE i xs (.envget j y) = .envget j y := by induction xs generalizing i <;> simp_all [trsE, transE]
@[simp] theorem trsE_add (i xs a b) : trsE i xs (.add a b) = .add (trsE i xs a) (trsE i xs b) := by induction xs generalizing i a b <;> simp_all [trsE, transE]
@[simp] theorem trsE_show (i xs e) : trsE i xs (.show e) = .show (trsE i xs e) := by induction xs generalizing i e <;> simp_all [trsE, transE]
@[simp] theorem trsE_envset (i xs j y e) : trsE i xs (.envset j y e) = .envset j y (trsE i xs e) := by induction xs generalizing i e <;> simp_all [trsE, transE]

theorem trsE_var (i xs x) : trsE i xs (.var x) = match pos xs x with
    | some j => .envget (i + j) x
    | none => .var x := by
  induction xs generalizing i with
  | nil => rfl
  | cons y ys ih =>
    by_cases h : x = y
    · simp [trsE, transE, pos, h]
    · simp only [trsE, transE, h, if_false, ih, pos]
      cases pos ys x with
      | none => rfl
      | some j => simp; omega

theorem trsE_set (i xs x e) : trsE i xs (.set x e) = match pos xs x with
    | some j => .envset (i + j) x (trsE i xs e)
    | none => .set x (trsE i xs e) := by
  induction xs generalizing i e with
  | nil => rfl
  | cons y ys ih =>
    by_cases h : x = y
    · simp [trsE, transE, pos, h]
    · simp only [trsE, transE, h, if_false, ih, pos]
      cases pos ys x with
      | none => rfl
      | some j => simp; omega

/-- the environments from number `i` on hold these variables -/
def EnvRel (envs : List (Nat × Nat)) (heap : List Int) : Nat → Vars → List Nat → Prop
  | _, [], [] => True
  | i, (_, n) :: ls, a :: as => envs.lookup i = some a ∧ heap[a]? = some n ∧ a ∉ as ∧ EnvRel envs heap (i + 1) ls as
  | _, _, _ => False

theorem envRel_get {envs heap i ls as} (h : EnvRel envs heap i ls as) {x j} (hj : pos (ls.map Prod.fst) x = some j) :
    ∃ a n, a ∈ as ∧ envs.lookup (i + j) = some a ∧ heap[a]? = some n ∧ ls.lookup x = some n := by
  induction ls generalizing i as j with
  | nil => simp [pos] at hj
  | cons p ls ih =>
    obtain ⟨y, m⟩ := p
    cases as with
    | nil => simp [EnvRel] at h
    | cons a as =>
      simp only [EnvRel] at h
      by_cases hx : x = y
      · simp [pos, hx] at hj
        subst hj
        exact ⟨a, m, by simp, h.1, h.2.1, by simp [hx]⟩
      · simp only [List.map_cons, pos, hx, if_false] at hj
        cases hp : pos (ls.map Prod.fst) x with
        | none => simp [hp] at hj
        | some k =>
          simp [hp] at hj
          subst hj
          obtain ⟨b, n, h1, h2, h3, h4⟩ := ih h.2.2.2 hp
          have hb : (x == y) = false := by simp [hx]
          exact ⟨b, n, by simp [h1], by rw [← h2]; congr 1; omega, h3, by simp [List.lookup, hb, h4]⟩

theorem envRel_mono {envs heap i ls as} (h : EnvRel envs heap i ls as) {heap' : List Int} (hh : ∀ a ∈ as, heap'[a]? = heap[a]?) : EnvRel envs heap' i ls as := by
  induction ls generalizing i as with
  | nil => cases as <;> simp_all [EnvRel]
  | cons p ls ih =>
    cases as with
    | nil => simp [EnvRel] at h
    | cons a as =>
      obtain ⟨y, n⟩ := p
      simp only [EnvRel] at h ⊢
      exact ⟨h.1, by rw [hh a (by simp)]; exact h.2.1, h.2.2.1, ih h.2.2.2 (fun b hb => hh b (by simp [hb]))⟩

theorem envRel_set {envs heap i ls as} (h : EnvRel envs heap i ls as) {x j} (hj : pos (ls.map Prod.fst) x = some j) {a m} (ha : envs.lookup (i + j) = some a) :
    EnvRel envs (heap.set a m) i (update x m ls) as := by
  induction ls generalizing i as j with
  | nil => simp [pos] at hj
  | cons p ls ih =>
    obtain ⟨y, n⟩ := p
    cases as with
    | nil => simp [EnvRel] at h
    | cons b as =>
      simp only [EnvRel] at h
      by_cases hx : x = y
      · simp [pos, hx] at hj
        subst hj
        have hb : b = a := by have := h.1; rw [show i = i + 0 from rfl, ha] at this; exact (Option.some.inj this).symm
        subst hb
        simp only [update, hx, if_true, EnvRel]
        refine ⟨h.1, ?_, h.2.2.1, envRel_mono h.2.2.2 (fun c hc => ?_)⟩
        · have := h.2.1
          rw [List.getElem?_set_self (by have := List.getElem?_eq_some_iff.1 this; exact this.1)]
        · have hne : b ≠ c := fun he => h.2.2.1 (he ▸ hc)
          rw [List.getElem?_set_ne hne]
      · simp only [List.map_cons, pos, hx, if_false] at hj
        cases hp : pos (ls.map Prod.fst) x with
        | none => simp [hp] at hj
        | some k =>
          simp [hp] at hj
          subst hj
          have ha' : envs.lookup (i + 1 + k) = some a := by rw [← ha]; congr 1; omega
          obtain ⟨c, _, h1, h2, _, _⟩ := envRel_get h.2.2.2 hp
          have hca : c = a := by rw [h2] at ha'; exact Option.some.inj ha'
          have hba : a ≠ b := fun he => h.2.2.1 (by rw [← he, ← hca]; exact h1)
          have hyx : y ≠ x := fun h => hx h.symm
          simp only [update, hyx, if_false, EnvRel]
          refine ⟨h.1, ?_, h.2.2.1, ih h.2.2.2 hp ha'⟩
          rw [List.getElem?_set_ne hba]; exact h.2.1

theorem update_names (x m) (ls : Vars) : (update x m ls).map Prod.fst = ls.map Prod.fst := by
  induction ls with
  | nil => rfl
  | cons p ls ih => obtain ⟨y, n⟩ := p; by_cases h : y = x <;> simp [update, h, ih]

theorem lookup_none {ls : Vars} {x : String} (h : x ∉ ls.map Prod.fst) : ls.lookup x = none := by
  induction ls with
  | nil => rfl
  | cons p ls ih =>
    obtain ⟨y, n⟩ := p
    simp at h
    have : (x == y) = false := by simp [h.1]
    simp only [List.lookup, this]
    exact ih (by simp; exact h.2)

/-- the value of an expression, and all else, is that of the specification -/
theorem eval_rel {sc : Scope} {g : String → Option Int} {locals : List String} {vals : String → Option Int} {i : Nat} {as : List Nat} {xs : List String} (e : E) :
    ∀ (ls : Vars) (s : St), ls.map Prod.fst = xs → EnvRel sc.envs s.heap i ls as → Source e → (∀ x ∈ sets e, x ∈ xs) →
      (∀ x ∈ reads e, x ∈ xs → x ∉ locals) → (∀ x ∈ reads e, x ∉ xs → sc.name x = Spec.Dletseq.name g locals vals [] x) →
      ∃ r ls' t heap', Spec.Dletseq.eval g locals vals e ls = (r, ls', t) ∧ eval sc (trsE i xs e) s = (r, ⟨heap', s.trace ++ t⟩) ∧
        ls'.map Prod.fst = xs ∧ EnvRel sc.envs heap' i ls' as ∧ heap'.length = s.heap.length ∧ (∀ a, a ∉ as → heap'[a]? = s.heap[a]?) := by
  induction e with
  | int n => intro ls s hn hr _ _ _ _; exact ⟨.ok n, ls, [], s.heap, rfl, by simp [eval], hn, hr, rfl, fun _ _ => rfl⟩
  | var x =>
    intro ls s hn hr _ _ h1 h2
    refine ⟨_, ls, [], s.heap, rfl, ?_, hn, hr, rfl, fun _ _ => rfl⟩
    rw [trsE_var]
    cases hp : pos xs x with
    | none =>
      have hx := pos_none.1 hp
      simp only [eval, h2 x (by simp [reads]) hx, List.append_nil, Prod.mk.injEq, and_true]
      simp only [Spec.Dletseq.name, List.lookup, lookup_none (ls := ls) (x := x) (by rw [hn]; exact hx)]
    | some j =>
      have hx : x ∈ xs := by
        refine Classical.byContradiction fun hx => ?_
        rw [pos_none.2 hx] at hp; cases hp
      subst hn
      obtain ⟨a, n, _, h3, h4, h5⟩ := envRel_get hr hp
      simp [eval, h3, h4, Spec.Dletseq.name, h1 x (by simp [reads]) hx, h5]
  | add a b iha ihb =>
    intro ls s hn hr hs h0 h1 h2
    obtain ⟨ra, la, ta, ha, e1, e2, e3, e4, e5, e6⟩ := iha ls s hn hr hs.1 (fun x h => h0 x (by simp [sets, h])) (fun x h => h1 x (by simp [reads, h])) (fun x h => h2 x (by simp [reads, h]))
    rw [trsE_add]
    cases ra with
    | error er => exact ⟨.error er, la, ta, ha, by simp [Spec.Dletseq.eval, e1], by simp [eval, e2], e3, e4, e5, e6⟩
    | ok m =>
      obtain ⟨rb, lb, tb, hb, f1, f2, f3, f4, f5, f6⟩ := ihb la ⟨ha, s.trace ++ ta⟩ e3 e4 hs.2 (fun x h => h0 x (by simp [sets, h])) (fun x h => h1 x (by simp [reads, h])) (fun x h => h2 x (by simp [reads, h]))
      have hlen : hb.length = s.heap.length := f5.trans e5
      have hrest : ∀ a, a ∉ as → hb[a]? = s.heap[a]? := fun a h => (f6 a h).trans (e6 a h)
      cases rb with
      | error er => exact ⟨.error er, lb, ta ++ tb, hb, by simp [Spec.Dletseq.eval, e1, f1], by simp [eval, e2, f2], f3, f4, hlen, hrest⟩
      | ok k => exact ⟨.ok (m + k), lb, ta ++ tb, hb, by simp [Spec.Dletseq.eval, e1, f1], by simp [eval, e2, f2], f3, f4, hlen, hrest⟩
  | «show» e ih =>
    intro ls s hn hr hs h0 h1 h2
    obtain ⟨r, l, t, h, e1, e2, e3, e4, e5, e6⟩ := ih ls s hn hr hs (fun x h => h0 x (by simpa [sets] using h)) (fun x h => h1 x (by simpa [reads] using h)) (fun x h => h2 x (by simpa [reads] using h))
    rw [trsE_show]
    cases r with
    | error er => exact ⟨.error er, l, t, h, by simp [Spec.Dletseq.eval, e1], by simp [eval, e2], e3, e4, e5, e6⟩
    | ok n => exact ⟨.ok n, l, t ++ [.shown n], h, by simp [Spec.Dletseq.eval, e1], by simp [eval, e2], e3, e4, e5, e6⟩
  | set x e ih =>
    intro ls s hn hr hs h0 h1 h2
    obtain ⟨r, l, t, h, e1, e2, e3, e4, e5, e6⟩ := ih ls s hn hr hs (fun x h => h0 x (by simp [sets, h])) (fun x h => h1 x (by simpa [reads] using h)) (fun x h => h2 x (by simpa [reads] using h))
    rw [trsE_set]
    have hx : x ∈ xs := h0 x (by simp [sets])
    cases hp : pos xs x with
    | none => exact absurd hx (pos_none.1 hp)
    | some j =>
      cases r with
      | error er => exact ⟨.error er, l, t, h, by simp [Spec.Dletseq.eval, e1], by simp [eval, e2], e3, e4, e5, e6⟩
      | ok n =>
        have hp' : pos (l.map Prod.fst) x = some j := by rw [e3]; exact hp
        obtain ⟨a, _, ha, h3, _, _⟩ := envRel_get e4 hp'
        refine ⟨.ok n, update x n l, t, h.set a n, by simp [Spec.Dletseq.eval, e1], by simp [eval, e2, h3], by rw [update_names, e3], envRel_set e4 hp' h3, by simp [e5], ?_⟩
        intro b hb
        have hne : a ≠ b := fun he => hb (he ▸ ha)
        rw [List.getElem?_set_ne hne]; exact e6 b hb
  | envget => intro ls s _ _ hs; exact absurd hs (by simp [Source])
  | envset => intro ls s _ _ hs; exact absurd hs (by simp [Source])

theorem trsS_assign (i xs x e) : trsS i xs (.assign x e) = .assign x (trsE i xs e) := by induction xs generalizing i e <;> simp_all [trsS, transS, trsE]
theorem trsS_expr (i xs e) : trsS i xs (.expr e) = .expr (trsE i xs e) := by induction xs generalizing i e <;> simp_all [trsS, transS, trsE]
theorem trsS_ret (i xs e) : trsS i xs (.ret e) = .ret (trsE i xs e) := by induction xs generalizing i e <;> simp_all [trsS, transS, trsE]

theorem assign_lookup {x : String} {v : Int} {L : List (String × Option Int)} (h : L.lookup x ≠ none) (y : String) :
    (assign x v L).lookup y = if y = x then some (some v) else L.lookup y := by
  induction L with
  | nil => simp at h
  | cons p L ih =>
    obtain ⟨z, w⟩ := p
    by_cases hz : z = x
    · subst hz
      by_cases hy : y = z
      · simp [assign, hy]
      · have : (y == z) = false := by simp [hy]
        simp [assign, List.lookup, this, hy]
    · have hxz : (x == z) = false := by simp; exact fun h => hz h.symm
      have h' : L.lookup x ≠ none := by simpa [List.lookup, hxz] using h
      simp only [assign, hz, if_false]
      by_cases hy : y = z
      · subst hy
        simp [hz]
      · have : (y == z) = false := by simp [hy]
        simp only [List.lookup, this]
        exact ih h'

/-- the same for bodies -/
theorem exec_rel {g : String → Option Int} {locals : List String} {i : Nat} {as : List Nat} {xs : List String} (ss : List S) :
    ∀ (sc : Scope) (vals : String → Option Int) (ls : Vars) (s : St), ls.map Prod.fst = xs → EnvRel sc.envs s.heap i ls as →
      (∀ st ∈ ss, Source (expOf st) ∧ ∀ x ∈ sets (expOf st), x ∈ xs) → (∀ x ∈ xs, x ∉ locals) →
      (∀ x ∈ stores ss, sc.locals.lookup x ≠ none ∧ x ∈ locals) → (∀ x, x ∉ xs → sc.name x = Spec.Dletseq.name g locals vals [] x) →
      ∃ r ls' t heap', Spec.Dletseq.exec g locals vals ss ls = (r, ls', t) ∧ exec sc (ss.map (trsS i xs)) s = (r, ⟨heap', s.trace ++ t⟩) ∧
        ls'.map Prod.fst = xs ∧ EnvRel sc.envs heap' i ls' as ∧ heap'.length = s.heap.length ∧ (∀ a, a ∉ as → heap'[a]? = s.heap[a]?) := by
  induction ss with
  | nil => intro sc vals ls s hn hr _ _ _ _; exact ⟨.ok none, ls, [], s.heap, rfl, by simp [exec], hn, hr, rfl, fun _ _ => rfl⟩
  | cons st ss ih =>
    intro sc vals ls s hn hr hs hd hst hnm
    have hhead := hs st (by simp)
    have htail : ∀ st ∈ ss, Source (expOf st) ∧ ∀ x ∈ sets (expOf st), x ∈ xs := fun u hu => hs u (by simp [hu])
    obtain ⟨r, l, t, h, e1, e2, e3, e4, e5, e6⟩ := eval_rel (sc := sc) (g := g) (locals := locals) (vals := vals) (i := i) (as := as) (xs := xs) (expOf st) ls s hn hr hhead.1 hhead.2
      (fun x _ hx => hd x hx) (fun x _ hx => hnm x hx)
    cases st with
    | ret e =>
      simp only [expOf] at e1 e2
      cases r with
      | error er => exact ⟨.error er, l, t, h, by simp [Spec.Dletseq.exec, e1], by simp [trsS_ret, exec, e2], e3, e4, e5, e6⟩
      | ok v => exact ⟨.ok (some v), l, t, h, by simp [Spec.Dletseq.exec, e1], by simp [trsS_ret, exec, e2], e3, e4, e5, e6⟩
    | expr e =>
      simp only [expOf] at e1 e2
      cases r with
      | error er => exact ⟨.error er, l, t, h, by simp [Spec.Dletseq.exec, e1], by simp [trsS_expr, exec, e2], e3, e4, e5, e6⟩
      | ok v =>
        obtain ⟨r', l', t', h', f1, f2, f3, f4, f5, f6⟩ := ih sc vals l ⟨h, s.trace ++ t⟩ e3 e4 htail hd (fun x hx => hst x (by simpa [stores] using hx)) hnm
        exact ⟨r', l', t ++ t', h', by simp [Spec.Dletseq.exec, e1, f1], by simp [trsS_expr, exec, e2, f2], f3, f4, f5.trans e5, fun a ha => (f6 a ha).trans (e6 a ha)⟩
    | assign x e =>
      simp only [expOf] at e1 e2
      cases r with
      | error er => exact ⟨.error er, l, t, h, by simp [Spec.Dletseq.exec, e1], by simp [trsS_assign, exec, e2], e3, e4, e5, e6⟩
      | ok v =>
        have hx := hst x (by simp [stores])
        have hlk := assign_lookup (v := v) hx.1
        obtain ⟨r', l', t', h', f1, f2, f3, f4, f5, f6⟩ := ih { sc with locals := assign x v sc.locals } (fun y => if y = x then some v else vals y) l ⟨h, s.trace ++ t⟩ e3 e4 htail hd
          (by
            intro y hy
            refine ⟨?_, (hst y (by simp [stores, hy])).2⟩
            rw [hlk y]; split
            · simp
            · exact (hst y (by simp [stores, hy])).1)
          (by
            intro y hy
            by_cases hyx : y = x
            · subst hyx
              simp [Scope.name, hlk, Spec.Dletseq.name, hx.2]
            · have := hnm y hy
              simp only [Scope.name, hlk, hyx, if_false, Spec.Dletseq.name] at this ⊢
              exact this)
        exact ⟨r', l', t ++ t', h', by simp [Spec.Dletseq.exec, e1, f1], by simp [trsS_assign, exec, e2, f2], f3, f4, f5.trans e5, fun a ha => (f6 a ha).trans (e6 a ha)⟩

theorem stores_map (i xs) (ss : List S) : stores (ss.map (trsS i xs)) = stores ss := by
  induction ss with
  | nil => rfl
  | cons s ss ih => cases s <;> simp [trsS_assign, trsS_expr, trsS_ret, stores, ih]

theorem stores_assigned (ss : List S) : stores ss = Spec.Dletseq.assigned ss := by
  induction ss with
  | nil => rfl
  | cons s ss ih => cases s <;> simp [stores, Spec.Dletseq.assigned] <;> exact ih

theorem envRel_push {envs heap i ls as} (h : EnvRel envs heap (i + 1) ls as) (x n) (hlt : ∀ a ∈ as, a < heap.length) (hlow : ∀ j, i < j → ((i, heap.length) :: envs).lookup j = envs.lookup j) :
    EnvRel ((i, heap.length) :: envs) (heap ++ [n]) i ((x, n) :: ls) (heap.length :: as) := by
  refine ⟨by simp, by simp, fun hm => Nat.lt_irrefl _ (hlt _ hm), ?_⟩
  suffices ∀ (ls : Vars) (as : List Nat) (k : Nat), i < k → (∀ a ∈ as, a < heap.length) → EnvRel envs heap k ls as → EnvRel ((i, heap.length) :: envs) (heap ++ [n]) k ls as from
    this ls as (i + 1) (by omega) hlt h
  intro ls
  induction ls with
  | nil => intro as k _ _ h; cases as <;> simp_all [EnvRel]
  | cons p ls ih =>
    intro as k hk hlt h
    cases as with
    | nil => simp [EnvRel] at h
    | cons a as =>
      obtain ⟨y, m⟩ := p
      simp only [EnvRel] at h ⊢
      refine ⟨by rw [hlow k hk]; exact h.1, ?_, h.2.2.1, ih as (k + 1) (by omega) (fun b hb => hlt b (by simp [hb])) h.2.2.2⟩
      rw [List.getElem?_append_left (hlt a (by simp))]; exact h.2.1

theorem lookup_low (i a : Nat) (envs : List (Nat × Nat)) (j : Nat) (h : i < j) : ((i, a) :: envs).lookup j = envs.lookup j := by
  have : (j == i) = false := by simp; omega
  simp [List.lookup, this]

/-! ## Nested functions -/

theorem decorate_nil (s : St) : decorate [] s = s := by simp [decorate]

/-- the names that a binding reads are not those of parameters around -/
def Clear (out : List (String × Int)) : List String → List (String × E) → Prop
  | _, [] => True
  | done, (x, v) :: fwd => (∀ y ∈ reads v, y ∉ done → out.lookup y = none) ∧ Clear out (x :: done) fwd

theorem clear_nil (done fwd) : Clear [] done fwd := by
  induction fwd generalizing done with
  | nil => trivial
  | cons p fwd ih => exact ⟨fun _ _ _ => rfl, ih _⟩

theorem locals_lookup (ss : List S) (x : String) : ((stores ss).map (fun x => (x, (none : Option Int)))).lookup x = if x ∈ stores ss then some none else none := by
  induction stores ss with
  | nil => rfl
  | cons y ys ih =>
    by_cases h : x = y
    · simp [h]
    · have : (x == y) = false := by simp [h]
      simp only [List.map_cons, List.lookup, this, ih, List.mem_cons, h, false_or]

/-- the decorators, if they are applied here -/
def evs (b : Bool) (ds : List String) : List Event := if b then ds.reverse.map .applied else []

theorem nest_run {g : String → Option Int} {out : List (String × Int)} {ps : List String} {c : Bool} {ds : List String} {ss : List S} {vals : String → Option Int}
    (hps : ∀ x, x ∈ ps ↔ out.lookup x ≠ none) (hvals : ∀ x, vals x = out.lookup x) (hout : ∀ x ∈ stores ss, x ∉ ps) (fwd : List (String × E)) :
    ∀ (done : List String) (ls : Vars) (s : St) (as : List Nat) (envs : List (Nat × Nat)),
      ls.map Prod.fst = done → EnvRel envs s.heap fwd.length ls as → (∀ a ∈ as, a < s.heap.length) →
      Chain done fwd → Clear out done fwd → Written ((fwd.map Prod.fst).reverse ++ done) ss → (∀ x ∈ (fwd.map Prod.fst).reverse ++ done, x ∉ ps) →
      ∃ heap', callBody ⟨g, out, [], envs⟩ [] (nest c ds (.user ss) 0 done fwd) s =
        match Spec.Dletseq.bind g fwd ls with
        | (.error e, t) => (.error e, ⟨heap', s.trace ++ t⟩)
        | (.ok ls1, t) => match Spec.Dletseq.exec g (ps ++ assigned ss) vals ss ls1 with
          | (.error e, _, t2) => (.error e, ⟨heap', s.trace ++ t ++ evs (c && !fwd.isEmpty) ds ++ t2⟩)
          | (.ok v, _, t2) => (.ok v, ⟨heap', s.trace ++ t ++ evs (c && !fwd.isEmpty) ds ++ t2 ++ evs (!c && !fwd.isEmpty) ds⟩) := by
  induction fwd with
  | nil =>
    intro done ls s as envs hn hr hlt _ _ hw hd
    simp only [nest, trsBody_user, callBody, List.map_nil, List.nil_append, List.contains_nil, Bool.not_false, show ∀ l : List String, l.filter (fun _ => true) = l from fun l => by simp, stores_map]
    obtain ⟨r, l, t, h, e1, e2, _, _, _, _⟩ := exec_rel (g := g) (locals := ps ++ assigned ss) (i := 0) (as := as) (xs := done) ss
      ⟨g, out, (stores ss).map (fun x => (x, none)), envs⟩ vals ls s hn hr (by simpa using hw.1)
      (by
        intro x hx hm
        rcases List.mem_append.1 hm with h | h
        · exact hd x (by simpa using hx) h
        · exact hw.2 x h (by simpa using hx))
      (by
        intro x hx
        refine ⟨by rw [locals_lookup]; simp [hx], ?_⟩
        rw [← stores_assigned]; simp [hx])
      (by
        intro x hx
        simp only [Scope.name, locals_lookup, Spec.Dletseq.name, ← stores_assigned, List.mem_append, hvals]
        by_cases h1 : x ∈ stores ss
        · have h2 : out.lookup x = none := by
            refine Classical.byContradiction fun h => hout x h1 ((hps x).2 h)
          simp [h1, h2]
        · by_cases h2 : x ∈ ps
          · cases h3 : out.lookup x with
            | none => exact absurd h3 ((hps x).1 h2)
            | some v => simp [h1, h2]
          · have h3 : out.lookup x = none := by
              refine Classical.byContradiction fun h => h2 ((hps x).2 h)
            simp only [h1, h2, h3, if_false, or_self, List.lookup]
            cases g x <;> rfl)
    refine ⟨h, ?_⟩
    simp only [List.length_nil] at *
    rw [e2]
    simp only [Spec.Dletseq.bind, e1, List.isEmpty_nil, Bool.not_true, Bool.and_false, evs, Bool.false_eq_true, if_false, List.append_nil]
    cases r <;> rfl
  | cons p fwd ih =>
    intro done ls s as envs hn hr hlt hc hcl hw hd
    obtain ⟨x, v⟩ := p
    simp only [Chain, Clear] at hc hcl
    simp only [nest, callBody, List.nil_append, define, Nat.add_zero]
    obtain ⟨r, l, t, h, e1, e2, e3, e4, e5, e6⟩ := eval_rel (sc := ⟨g, out, [], envs⟩) (g := g) (locals := []) (vals := fun _ => none) (i := fwd.length + 1) (as := as) (xs := done) v ls s hn hr hc.1 hc.2.1
      (by simp) (by
        intro y hy hyd
        simp only [Scope.name, Spec.Dletseq.name, hcl.1 y hy hyd, List.lookup, List.not_mem_nil, if_false]
        cases g y <;> rfl)
    simp only [Spec.Dletseq.bind, e1, e2]
    cases r with
    | error er => exact ⟨h, by simp⟩
    | ok n =>
      simp only
      have hlt' : ∀ a ∈ as, a < h.length := fun a ha => by rw [e5]; exact hlt a ha
      have hr' := envRel_push e4 x n hlt' (fun j hj => lookup_low _ _ _ j hj)
      have hlt2 : ∀ a ∈ h.length :: as, a < (h ++ [n]).length := by
        intro a ha
        rcases List.mem_cons.1 ha with rfl | ha
        · simp
        · have := hlt' a ha; simp; omega
      have happ : ((fwd.map Prod.fst).reverse ++ x :: done) = (((x, v) :: fwd).map Prod.fst).reverse ++ done := by simp
      have key := fun s (hs : s.heap = h ++ [n]) => ih (x :: done) ((x, n) :: l) s (h.length :: as) ((fwd.length, h.length) :: envs) (by simp [e3]) (by rw [hs]; exact hr') (by rw [hs]; exact hlt2)
        hc.2.2 hcl.2 (by rw [happ]; exact hw) (by rw [happ]; exact hd)
      cases c with
      | true =>
        obtain ⟨heap', hk⟩ := key (decorate (if fwd.isEmpty then ds else []) ⟨h ++ [n], s.trace ++ t⟩) rfl
        refine ⟨heap', ?_⟩
        simp only [if_true, call, List.length_nil, List.zip_nil_left]
        rw [hk]
        cases fwd with
        | nil =>
          simp only [Spec.Dletseq.bind, decorate, evs, List.isEmpty_nil, List.isEmpty_cons]
          obtain ⟨⟨q, l2, t2⟩, hq⟩ : ∃ q, Spec.Dletseq.exec g (ps ++ assigned ss) vals ss ((x, n) :: l) = q := ⟨_, rfl⟩
          cases q <;> simp [hq]
        | cons p' fwd' =>
          simp only [decorate, evs, List.isEmpty_cons]
          obtain ⟨⟨q, t1⟩, hq⟩ : ∃ q, Spec.Dletseq.bind g (p' :: fwd') ((x, n) :: l) = q := ⟨_, rfl⟩
          rw [hq]
          cases q with
          | error er => simp
          | ok l1 =>
            obtain ⟨⟨q, l2, t2⟩, hq⟩ : ∃ q, Spec.Dletseq.exec g (ps ++ assigned ss) vals ss l1 = q := ⟨_, rfl⟩
            cases q <;> simp [hq]
      | false =>
        obtain ⟨heap', hk⟩ := key ⟨h ++ [n], s.trace ++ t⟩ rfl
        refine ⟨heap', ?_⟩
        simp only [Bool.false_eq_true, if_false, call, List.length_nil, if_true, List.zip_nil_left]
        rw [hk]
        cases fwd with
        | nil =>
          simp only [Spec.Dletseq.bind, evs, List.isEmpty_nil, List.isEmpty_cons]
          obtain ⟨⟨q, l2, t2⟩, hq⟩ : ∃ q, Spec.Dletseq.exec g (ps ++ assigned ss) vals ss ((x, n) :: l) = q := ⟨_, rfl⟩
          cases q <;> simp [hq, decorate]
        | cons p' fwd' =>
          simp only [evs, List.isEmpty_cons]
          obtain ⟨⟨q, t1⟩, hq⟩ : ∃ q, Spec.Dletseq.bind g (p' :: fwd') ((x, n) :: l) = q := ⟨_, rfl⟩
          rw [hq]
          cases q with
          | error er => simp
          | ok l1 =>
            obtain ⟨⟨q, l2, t2⟩, hq⟩ : ∃ q, Spec.Dletseq.exec g (ps ++ assigned ss) vals ss l1 = q := ⟨_, rfl⟩
            cases q <;> simp [hq, decorate]

theorem bletseq_eq (b : String × E) (bs : List (String × E)) (ds : List String) (ss : List S) (g : String → Option Int)
    (hc : Chain [] (b :: bs)) (hw : Written ((b :: bs).map Prod.fst).reverse ss) :
    runB (b :: bs) ds ss g = Spec.Dletseq.runB (b :: bs) ds ss g := by
  obtain ⟨x, v⟩ := b
  simp only [Chain] at hc
  obtain ⟨r, l, t, h, e1, e2, e3, e4, e5, e6⟩ := eval_rel (sc := { globals := g }) (g := g) (locals := []) (vals := fun _ => none) (i := bs.length + 1) (as := []) (xs := []) v [] {} rfl trivial hc.1 hc.2.1
    (by simp) (by
      intro y _ _
      simp only [Scope.name, Spec.Dletseq.name, List.lookup, List.not_mem_nil, if_false]
      cases g y <;> rfl)
  have hl : l = [] := by simpa using e3
  have hh : h = [] := by simpa using e5
  subst hl hh
  simp only [trsE] at e2
  simp only [runB, expand_eq, define, e2, Spec.Dletseq.runB, Spec.Dletseq.bind, e1]
  cases r with
  | error er => simp
  | ok n =>
    simp only [call, List.length_nil, if_true, List.zip_nil_left]
    have hr : EnvRel [(bs.length, 0)] [n] bs.length [(x, n)] [0] := by simp [EnvRel]
    obtain ⟨heap', hk⟩ := nest_run (g := g) (out := []) (ps := []) (c := false) (ds := ds) (ss := ss) (vals := fun _ => none) (by simp) (by simp) (by simp) bs
      [x] [(x, n)] ⟨[n], t⟩ [0] [(bs.length, 0)] rfl hr (by simp) hc.2.2 (clear_nil _ _) (by simpa using hw) (by simp)
    simp only [List.nil_append, List.length_nil] at hk ⊢
    rw [hk]
    obtain ⟨⟨q, t1⟩, hq⟩ : ∃ q, Spec.Dletseq.bind g bs [(x, n)] = q := ⟨_, rfl⟩
    simp only [hq]
    cases q with
    | error er => simp
    | ok l1 =>
      simp only [Spec.Dletseq.call, List.length_nil, if_true, List.zip_nil_left, List.nil_append, List.lookup]
      obtain ⟨⟨q, l2, t2⟩, hq⟩ : ∃ q, Spec.Dletseq.exec g (assigned ss) (fun _ => none) ss l1 = q := ⟨_, rfl⟩
      simp only [hq]
      cases q with
      | error er => simp [evs]
      | ok w => cases bs <;> simp [evs, decorate]

/-! ## One binding -/

theorem args_lookup (ps : List String) (args : List Int) (ys : List String) (x : String) (h : ps.length = args.length) :
    ((ps.zip args).map (fun ((x, v) : String × Int) => (x, some v)) ++ (ys.filter (fun x => !((ps.zip args).map Prod.fst).contains x)).map (fun x => (x, (none : Option Int)))).lookup x =
      if x ∈ ps then some ((ps.zip args).lookup x) else if x ∈ ys then some none else none := by
  have hz : (ps.zip args).map Prod.fst = ps := List.map_fst_zip (by omega)
  rw [hz]
  have h1 : ∀ zs : List String, (zs.map (fun x => (x, (none : Option Int)))).lookup x = if x ∈ zs then some none else none := by
    intro zs
    induction zs with
    | nil => rfl
    | cons y zs ih =>
      by_cases hy : x = y
      · simp [hy]
      · have : (x == y) = false := by simp [hy]
        simp only [List.map_cons, List.lookup, this, ih, List.mem_cons, hy, false_or]
  have h2 : ∀ (l : List (String × Int)) (r : List (String × Option Int)), (l.map (fun ((x, v) : String × Int) => (x, some v)) ++ r).lookup x = if x ∈ l.map Prod.fst then some (l.lookup x) else r.lookup x := by
    intro l r
    induction l with
    | nil => simp
    | cons p l ih =>
      obtain ⟨y, v⟩ := p
      by_cases hy : x = y
      · simp [hy]
      · have : (x == y) = false := by simp [hy]
        simp only [List.map_cons, List.cons_append, List.lookup, this, ih, List.mem_cons, hy, false_or]
  rw [h2, h1, hz]
  by_cases hp : x ∈ ps
  · simp [hp]
  · simp [hp]

theorem zip_lookup (ps : List String) (args : List Int) (h : ps.length = args.length) (x : String) : x ∈ ps ↔ (ps.zip args).lookup x ≠ none := by
  induction ps generalizing args with
  | nil => simp
  | cons p ps ih =>
    cases args with
    | nil => simp at h
    | cons a args =>
      by_cases hx : x = p
      · simp [hx]
      · have : (x == p) = false := by simp [hx]
        simp only [List.zip_cons_cons, List.lookup, this, List.mem_cons, hx, false_or]
        exact ih args (by simpa using h)

theorem single_calls {x : String} {ps : List String} {ss : List S} (hx : x ∉ ps) (hw : Written [x] ss) (ds lb)
    (cs : List ((String → Option Int) × List Int)) : ∀ (ls : Vars) (s : St), ls.map Prod.fst = [x] → EnvRel [(0, 0)] s.heap 0 ls [0] →
      ∃ rs t heap', Spec.Dletseq.calls ps ss cs ls = (rs, t) ∧
        runCalls [(0, 0)] (.mk ps ds lb (.user (ss.map (trsS 0 [x])))) cs s = (rs, ⟨heap', s.trace ++ t⟩) := by
  induction cs with
  | nil => intro ls s _ _; exact ⟨[], [], s.heap, rfl, by simp [runCalls]⟩
  | cons q cs ih =>
    obtain ⟨g, args⟩ := q
    intro ls s hn hr
    by_cases hl : ps.length = args.length
    · obtain ⟨r, l, t, h, e1, e2, e3, e4, e5, e6⟩ := exec_rel (g := g) (locals := ps ++ assigned ss) (i := 0) (as := [0]) (xs := [x]) ss
        ⟨g, [], (ps.zip args).map (fun (x, v) => (x, some v)) ++ ((stores ss).filter (fun x => !((ps.zip args).map Prod.fst).contains x)).map (fun x => (x, none)), [(0, 0)]⟩
        ((ps.zip args).lookup ·) ls s hn hr hw.1
        (by
          intro y hy hm
          rcases List.mem_append.1 hm with h | h
          · have : y = x := by simpa using hy
            exact hx (this ▸ h)
          · exact hw.2 y h hy)
        (by
          intro y hy
          refine ⟨?_, by rw [← stores_assigned]; simp [hy]⟩
          rw [args_lookup ps args _ y hl]
          split
          · simp
          · simp [hy])
        (by
          intro y hy
          simp only [Scope.name, Spec.Dletseq.name, ← stores_assigned, List.mem_append]
          rw [args_lookup ps args _ y hl]
          by_cases h1 : y ∈ ps
          · simp only [h1, if_true, true_or]
            cases List.lookup y (ps.zip args) <;> rfl
          · have hz : (ps.zip args).lookup y = none := Classical.byContradiction fun h => h1 ((zip_lookup ps args hl y).2 h)
            by_cases h2 : y ∈ stores ss
            · simp [h1, h2, hz]
            · simp only [h1, h2, if_false, or_self, List.lookup]
              cases g y <;> rfl)
      obtain ⟨rs, t', heap', f1, f2⟩ := ih l ⟨h, s.trace ++ t⟩ e3 e4
      refine ⟨r :: rs, t ++ t', heap', ?_, ?_⟩
      · simp [Spec.Dletseq.calls, Spec.Dletseq.call, hl, e1, f1]
      · simp only [runCalls, call, hl, if_true, callBody, stores_map]
        rw [e2]
        simp [f2]
    · obtain ⟨rs, t', heap', f1, f2⟩ := ih ls s hn hr
      refine ⟨.error .type :: rs, t', heap', ?_, ?_⟩
      · simp [Spec.Dletseq.calls, Spec.Dletseq.call, hl, f1]
      · simp [runCalls, call, hl, f2]

theorem single_eq (x : String) (v : E) (ps ds : List String) (ss : List S) (g : String → Option Int) (cs : List ((String → Option Int) × List Int))
    (hc : Chain [] [(x, v)]) (hw : Written [x] ss) (hx : x ∉ ps) :
    runD [(x, v)] ps ds ss g cs = Spec.Dletseq.runD [(x, v)] ps ds ss g cs := by
  simp only [Chain] at hc
  obtain ⟨r, l, t, h, e1, e2, e3, e4, e5, e6⟩ := eval_rel (sc := { globals := g }) (g := g) (locals := []) (vals := fun _ => none) (i := 1) (as := []) (xs := []) v [] {} rfl trivial hc.1 hc.2.1
    (by simp) (by
      intro y _ _
      simp only [Scope.name, Spec.Dletseq.name, List.lookup, List.not_mem_nil, if_false]
      cases g y <;> rfl)
  have hl : l = [] := by simpa using e3
  have hh : h = [] := by simpa using e5
  subst hl hh
  simp only [trsE] at e2
  simp only [runD, expand_eq, define, e2, Spec.Dletseq.runD, Spec.Dletseq.bind, e1]
  cases r with
  | error er => simp
  | ok n =>
    simp only [List.isEmpty_nil, if_true, nest, trsBody_user, List.length_nil, List.nil_append]
    obtain ⟨rs, t', heap', f1, f2⟩ := single_calls hx hw ds (some (0, x, v)) cs [(x, n)] (decorate ds ⟨[n], t⟩) rfl (by simp [EnvRel, decorate])
    rw [f1, f2]
    simp [decorate]

/-! ## Calm bindings -/

theorem eval_heap (sc : Scope) (i : Nat) (xs : List String) (e : E) (hs : Source e) (h0 : sets e = []) (s : St) : (eval sc (trsE i xs e) s).2.heap = s.heap := by
  induction e generalizing s with
  | int n => simp [eval]
  | var x =>
    rw [trsE_var]
    cases pos xs x with
    | none => simp [eval]
    | some j =>
      simp only [eval]
      split
      · rfl
      · split <;> rfl
  | add a b iha ihb =>
    simp [sets] at h0
    simp only [trsE_add, eval]
    obtain ⟨⟨r, s1⟩, h1⟩ : ∃ p, eval sc (trsE i xs a) s = p := ⟨_, rfl⟩
    have ha := iha hs.1 h0.1 s
    rw [h1] at ha
    cases r with
    | error e => simp only [h1]; exact ha
    | ok m =>
      obtain ⟨⟨r, s2⟩, h2⟩ : ∃ p, eval sc (trsE i xs b) s1 = p := ⟨_, rfl⟩
      have hb := ihb hs.2 h0.2 s1
      rw [h2] at hb
      simp only at ha hb
      cases r <;> simp only [h1, h2] <;> rw [hb, ha]
  | «show» e ih =>
    simp [sets] at h0
    simp only [trsE_show, eval]
    obtain ⟨⟨r, s1⟩, h1⟩ : ∃ p, eval sc (trsE i xs e) s = p := ⟨_, rfl⟩
    have ha := ih hs h0 s
    rw [h1] at ha
    cases r <;> simp only [h1] <;> exact ha
  | set x e => simp [sets] at h0
  | envget => exact absurd hs (by simp [Source])
  | envset => exact absurd hs (by simp [Source])

theorem exec_heap (i : Nat) (xs : List String) (ss : List S) (h : ∀ st ∈ ss, Source (expOf st) ∧ sets (expOf st) = []) :
    ∀ (sc : Scope) (s : St), (exec sc (ss.map (trsS i xs)) s).2.heap = s.heap := by
  induction ss with
  | nil => intro sc s; rfl
  | cons st ss ih =>
    intro sc s
    have hh := h st (by simp)
    have ih := ih (fun u hu => h u (by simp [hu]))
    have ha := eval_heap sc i xs (expOf st) hh.1 hh.2 s
    cases st with
    | ret e =>
      simp only [expOf] at ha
      obtain ⟨⟨r, s1⟩, h1⟩ : ∃ p, eval sc (trsE i xs e) s = p := ⟨_, rfl⟩
      rw [h1] at ha
      cases r <;> simp only [List.map_cons, trsS_ret, exec, h1] <;> exact ha
    | expr e =>
      simp only [expOf] at ha
      obtain ⟨⟨r, s1⟩, h1⟩ : ∃ p, eval sc (trsE i xs e) s = p := ⟨_, rfl⟩
      rw [h1] at ha
      cases r <;> simp only [List.map_cons, trsS_expr, exec, h1]
      · exact ha
      · rw [ih]; exact ha
    | assign x e =>
      simp only [expOf] at ha
      obtain ⟨⟨r, s1⟩, h1⟩ : ∃ p, eval sc (trsE i xs e) s = p := ⟨_, rfl⟩
      rw [h1] at ha
      cases r <;> simp only [List.map_cons, trsS_assign, exec, h1]
      · exact ha
      · rw [ih]; exact ha

/-- the environments that are there already stay as they are -/
theorem nest_heap {ss : List S} (h : ∀ st ∈ ss, Source (expOf st) ∧ sets (expOf st) = []) (fwd : List (String × E)) :
    ∀ (before done : List String) (sc : Scope) (args : List (String × Int)) (s : St), Calm before fwd →
      ∃ more, (callBody sc args (nest true [] (.user ss) 0 done fwd) s).2.heap = s.heap ++ more := by
  induction fwd with
  | nil =>
    intro before done sc args s _
    refine ⟨[], ?_⟩
    simp only [nest, trsBody_user, callBody]
    rw [exec_heap 0 done ss h]; simp
  | cons p fwd ih =>
    intro before done sc args s hc
    obtain ⟨x, v⟩ := p
    simp only [Calm] at hc
    simp only [nest, callBody, define]
    have ha := eval_heap { sc with outer := args ++ sc.outer } (fwd.length + 0 + 1) done v hc.1 hc.2.2.1 s
    obtain ⟨⟨r, s1⟩, h1⟩ : ∃ p, eval { sc with outer := args ++ sc.outer } (trsE (fwd.length + 0 + 1) done v) s = p := ⟨_, rfl⟩
    rw [h1] at ha
    simp only at ha
    simp only [h1]
    cases r with
    | error e => exact ⟨[], by simp [ha]⟩
    | ok n =>
      simp only [if_true, call, List.length_nil, List.zip_nil_left, ite_self, decorate_nil]
      obtain ⟨more, hm⟩ := ih (x :: before) (x :: done) ⟨sc.globals, args ++ sc.outer, sc.locals, (fwd.length + 0, s1.heap.length) :: sc.envs⟩ [] ⟨s1.heap ++ [n], s1.trace⟩ hc.2.2.2.2
      exact ⟨[n] ++ more, by rw [hm, ha]; simp⟩

/-- the values of calm bindings, whatever the global variables are -/
theorem calm_eval {before : List String} {ls : Vars} (hn : ls.map Prod.fst = before) (e : E) (hs : Source e) (hq : Silent e) (h0 : sets e = []) (hr : ∀ y ∈ reads e, y ∈ before) :
    ∃ n, ∀ g, Spec.Dletseq.eval g [] (fun _ => none) e ls = (.ok n, ls, []) := by
  induction e with
  | int n => exact ⟨n, fun _ => rfl⟩
  | var x =>
    have hx : x ∈ ls.map Prod.fst := by rw [hn]; exact hr x (by simp [reads])
    have : ∃ n, ls.lookup x = some n := by
      clear hn
      induction ls with
      | nil => simp at hx
      | cons p ls ih =>
        obtain ⟨y, m⟩ := p
        by_cases h : x = y
        · exact ⟨m, by simp [h]⟩
        · have hb : (x == y) = false := by simp [h]
          simp only [List.lookup, hb]
          exact ih (by simpa [h] using hx)
    obtain ⟨n, h⟩ := this
    exact ⟨n, fun g => by simp [Spec.Dletseq.eval, Spec.Dletseq.name, h]⟩
  | add a b iha ihb =>
    simp [sets] at h0
    obtain ⟨m, hm⟩ := iha hs.1 hq.1 h0.1 (fun y hy => hr y (by simp [reads, hy]))
    obtain ⟨n, hn⟩ := ihb hs.2 hq.2 h0.2 (fun y hy => hr y (by simp [reads, hy]))
    exact ⟨m + n, fun g => by simp [Spec.Dletseq.eval, hm, hn]⟩
  | «show» e => exact absurd hq (by simp [Silent])
  | set x e => simp [sets] at h0
  | envget => exact absurd hs (by simp [Source])
  | envset => exact absurd hs (by simp [Source])

theorem calm_bind (fwd : List (String × E)) : ∀ (before : List String) (ls : Vars), ls.map Prod.fst = before → Calm before fwd →
    ∃ ls1, ∀ g, Spec.Dletseq.bind g fwd ls = (.ok ls1, []) := by
  induction fwd with
  | nil => intro before ls _ _; exact ⟨ls, fun _ => rfl⟩
  | cons p fwd ih =>
    intro before ls hn hc
    obtain ⟨x, v⟩ := p
    simp only [Calm] at hc
    obtain ⟨n, h⟩ := calm_eval hn v hc.1 hc.2.1 hc.2.2.1 hc.2.2.2.1
    obtain ⟨ls1, h1⟩ := ih (x :: before) ((x, n) :: ls) (by simp [hn]) hc.2.2.2.2
    exact ⟨ls1, fun g => by simp [Spec.Dletseq.bind, h, h1]⟩

theorem spec_eval_ls (g locals vals) (e : E) (h0 : sets e = []) (ls : Vars) : (Spec.Dletseq.eval g locals vals e ls).2.1 = ls := by
  induction e generalizing ls with
  | int n => rfl
  | var x => rfl
  | add a b iha ihb =>
    simp [sets] at h0
    obtain ⟨⟨r, l1, t1⟩, h1⟩ : ∃ p, Spec.Dletseq.eval g locals vals a ls = p := ⟨_, rfl⟩
    have ha := iha h0.1 ls
    rw [h1] at ha
    simp only at ha
    subst ha
    cases r with
    | error e => simp [Spec.Dletseq.eval, h1]
    | ok m =>
      obtain ⟨⟨r, l2, t2⟩, h2⟩ : ∃ p, Spec.Dletseq.eval g locals vals b l1 = p := ⟨_, rfl⟩
      have hb := ihb h0.2 l1
      rw [h2] at hb
      cases r <;> simpa [Spec.Dletseq.eval, h1, h2] using hb
  | «show» e ih =>
    simp [sets] at h0
    obtain ⟨⟨r, l1, t1⟩, h1⟩ : ∃ p, Spec.Dletseq.eval g locals vals e ls = p := ⟨_, rfl⟩
    have ha := ih h0 ls
    rw [h1] at ha
    cases r <;> simpa [Spec.Dletseq.eval, h1] using ha
  | set x e => simp [sets] at h0
  | envget => rfl
  | envset => rfl

theorem spec_exec_ls (g locals) (ss : List S) (h0 : ∀ st ∈ ss, sets (expOf st) = []) (vals) (ls : Vars) : (Spec.Dletseq.exec g locals vals ss ls).2.1 = ls := by
  induction ss generalizing vals ls with
  | nil => rfl
  | cons st ss ih =>
    have ha := spec_eval_ls g locals vals (expOf st) (h0 st (by simp)) ls
    have ih := ih (fun u hu => h0 u (by simp [hu]))
    obtain ⟨⟨r, l1, t1⟩, h1⟩ : ∃ p, Spec.Dletseq.eval g locals vals (expOf st) ls = p := ⟨_, rfl⟩
    rw [h1] at ha
    simp only at ha
    subst ha
    cases st <;> simp only [expOf] at h1 <;> cases r <;> simp [Spec.Dletseq.exec, h1, ih]

theorem calm_chain {before fwd} (h : Calm before fwd) : Chain before fwd := by
  induction fwd generalizing before with
  | nil => trivial
  | cons p fwd ih =>
    obtain ⟨x, v⟩ := p
    simp only [Calm] at h
    exact ⟨h.1, by rw [h.2.2.1]; simp, ih h.2.2.2.2⟩

theorem calm_clear {before fwd} (out) (h : Calm before fwd) : Clear out before fwd := by
  induction fwd generalizing before with
  | nil => trivial
  | cons p fwd ih =>
    obtain ⟨x, v⟩ := p
    simp only [Calm] at h
    exact ⟨fun y hy hn => absurd (h.2.2.2.1 y hy) hn, ih h.2.2.2.2⟩

/-- a call gives the arguments to the functions inside -/
theorem callBody_args (g : String → Option Int) (envs : List (Nat × Nat)) (args : List (String × Int)) (done : List String) (p : String × E) (fwd : List (String × E)) (b : Body) (s : St) :
    callBody ⟨g, [], [], envs⟩ args (nest true [] b 0 done (p :: fwd)) s = callBody ⟨g, args, [], envs⟩ [] (nest true [] b 0 done (p :: fwd)) s := by
  obtain ⟨x, v⟩ := p
  simp [nest, callBody]

theorem calm_calls {x : String} {p : String × E} {fwd : List (String × E)} {ps : List String} {ss : List S} {n : Int} {ls1 : Vars} (hcalm : Calm [x] (p :: fwd))
    (hw : Written (((p :: fwd).map Prod.fst).reverse ++ [x]) ss) (h0 : ∀ st ∈ ss, sets (expOf st) = []) (hps : ∀ y ∈ ((p :: fwd).map Prod.fst).reverse ++ [x], y ∉ ps)
    (hst : ∀ y ∈ assigned ss, y ∉ ps) (hb : ∀ g, Spec.Dletseq.bind g (p :: fwd) [(x, n)] = (.ok ls1, [])) (lb)
    (cs : List ((String → Option Int) × List Int)) : ∀ (s : St), s.heap[0]? = some n →
      ∃ rs t heap', Spec.Dletseq.calls ps ss cs ls1 = (rs, t) ∧
        runCalls [((p :: fwd).length, 0)] (.mk ps [] lb (nest true [] (.user ss) 0 [x] (p :: fwd))) cs s = (rs, ⟨heap', s.trace ++ t⟩) := by
  induction cs with
  | nil => intro s _; exact ⟨[], [], s.heap, rfl, by simp [runCalls]⟩
  | cons q cs ih =>
    obtain ⟨g, args⟩ := q
    intro s hr
    by_cases hl : ps.length = args.length
    · obtain ⟨heap', hk⟩ := nest_run (g := g) (out := ps.zip args) (ps := ps) (c := true) (ds := []) (ss := ss) (vals := ((ps.zip args).lookup ·)) (zip_lookup ps args hl) (fun _ => rfl)
        (by intro y hy; rw [stores_assigned] at hy; exact hst y hy) (p :: fwd) [x] [(x, n)] s [0] [((p :: fwd).length, 0)] rfl (by simp [EnvRel, hr])
        (by have := (List.getElem?_eq_some_iff.1 hr).1; simpa using this) (calm_chain hcalm) (calm_clear _ hcalm) hw hps
      obtain ⟨more, hm⟩ := nest_heap (ss := ss) (fun st hst => ⟨(hw.1 st hst).1, h0 st hst⟩) (p :: fwd) [x] [x] ⟨g, ps.zip args, [], [((p :: fwd).length, 0)]⟩ [] s hcalm
      have hls := spec_exec_ls g (ps ++ assigned ss) ss h0 ((ps.zip args).lookup ·) ls1
      obtain ⟨⟨r, l2, t2⟩, hq⟩ : ∃ q, Spec.Dletseq.exec g (ps ++ assigned ss) ((ps.zip args).lookup ·) ss ls1 = q := ⟨_, rfl⟩
      rw [hq] at hls
      simp only at hls
      subst hls
      rw [hb g] at hk
      simp only [hq] at hk
      have hk' : callBody ⟨g, ps.zip args, [], [((p :: fwd).length, 0)]⟩ [] (nest true [] (.user ss) 0 [x] (p :: fwd)) s = (r, ⟨heap', s.trace ++ t2⟩) := by
        rw [hk]; cases r <;> simp [evs]
      rw [hk'] at hm
      simp only at hm
      subst hm
      obtain ⟨rs, t', heap'', f1, f2⟩ := ih ⟨s.heap ++ more, s.trace ++ t2⟩ (by
        have := (List.getElem?_eq_some_iff.1 hr).1
        simp only
        rw [List.getElem?_append_left this]; exact hr)
      refine ⟨r :: rs, t2 ++ t', heap'', ?_, ?_⟩
      · simp [Spec.Dletseq.calls, Spec.Dletseq.call, hl, hq, f1]
      · simp only [runCalls, call, hl, if_true]
        rw [callBody_args, hk']
        simp only [f2, List.append_assoc]
    · obtain ⟨rs, t', heap', f1, f2⟩ := ih s hr
      refine ⟨.error .type :: rs, t', heap', ?_, ?_⟩
      · simp [Spec.Dletseq.calls, Spec.Dletseq.call, hl, f1]
      · simp only [runCalls, call, hl, if_false, f2]

theorem calm_eq (x : String) (v : E) (p : String × E) (fwd : List (String × E)) (ps : List String) (ss : List S) (g : String → Option Int) (cs : List ((String → Option Int) × List Int))
    (hv : Source v ∧ sets v = []) (hcalm : Calm [x] (p :: fwd)) (hw : Written (((x, v) :: p :: fwd).map Prod.fst).reverse ss) (h0 : ∀ st ∈ ss, sets (expOf st) = [])
    (hps : ∀ y ∈ ((x, v) :: p :: fwd).map Prod.fst, y ∉ ps) (hst : ∀ y ∈ assigned ss, y ∉ ps) :
    runD ((x, v) :: p :: fwd) ps [] ss g cs = Spec.Dletseq.runD ((x, v) :: p :: fwd) ps [] ss g cs := by
  obtain ⟨r, l, t, h, e1, e2, e3, e4, e5, e6⟩ := eval_rel (sc := { globals := g }) (g := g) (locals := []) (vals := fun _ => none) (i := 1) (as := []) (xs := []) v [] {} rfl trivial hv.1 (by rw [hv.2]; simp)
    (by simp) (by
      intro y _ _
      simp only [Scope.name, Spec.Dletseq.name, List.lookup, List.not_mem_nil, if_false]
      cases g y <;> rfl)
  have hl : l = [] := by simpa using e3
  have hh : h = [] := by simpa using e5
  subst hl hh
  simp only [trsE] at e2
  rw [Spec.Dletseq.runD, Spec.Dletseq.bind]
  simp only [runD, expand_eq, define, e2, e1]
  cases r with
  | error er => simp
  | ok n =>
    obtain ⟨ls1, hb⟩ := calm_bind (p :: fwd) [x] [(x, n)] rfl hcalm
    simp only [hb, List.isEmpty_cons, Bool.false_eq_true, if_false, List.length_nil, List.nil_append, decorate_nil]
    obtain ⟨rs, t', heap', f1, f2⟩ := calm_calls hcalm (by simpa using hw) h0 (by intro y hy; exact hps y (by simp at hy ⊢; rcases hy with h | h | h <;> simp [h])) hst hb
      (some ((p :: fwd).length, x, v)) cs ⟨[n], t⟩ rfl
    rw [f1, f2]
    simp

end Unpy.Dletseq
