import Verif.Spec.LazyOrder
/-! # Helper lemmas about `lazyrec[...]` and `force` with effects -/
namespace Unpy.LazyOrder
open Unpy.Spec.LazyOrder
variable {σ X V : Type} {W : World σ X V}

/-! ## Which leaves are promises -/

mutual
def leaves : Ex → List Nat
  | .leaf i => [i]
  | .lazy i => [i]
  | .seq _ es => leavesOf es
  | .dict es => leavesIn es
def leavesOf : Exs → List Nat
  | .nil => []
  | .cons e es => leaves e ++ leavesOf es
def leavesIn : Ents → List Nat
  | .nil => []
  | .cons _ e es => leaves e ++ leavesIn es
end

theorem run_append (is js : List Nat) (u : σ) : run W (is ++ js) u =
    match run W is u with
    | (some x, u) => (some x, u)
    | (none, u) => run W js u := by
  induction is generalizing u with
  | nil => rfl
  | cons i is ih =>
    simp only [List.cons_append, run]
    rcases W.leaf i u with ⟨(x | v), u'⟩
    · rfl
    · exact ih u'

/-- What `eval` of a delayed expression does. -/
def NowGood {O : Type} (W : World σ X V) (ks ls : List Nat) (s : St σ X V) (r : Except X O × St σ X V) : Prop :=
  match run W ks s.user with
  | (some x, u) => r.1 = .error x ∧ r.2.user = u ∧ ∃ ps, r.2.promises = s.promises ++ ps
  | (none, u) => (∃ o, r.1 = .ok o) ∧ r.2 = ⟨u, s.promises ++ ls.map .pending⟩

mutual
theorem now_ex : ∀ (e : Ex) (s : St σ X V), NowGood W (keys e) (leaves e) s (eval W (lazyrec e) s)
  | .leaf i, s => ⟨⟨_, rfl⟩, rfl⟩
  | .lazy i, s => ⟨⟨_, rfl⟩, rfl⟩
  | .seq k es, s => by
    have h := now_exs es s
    simp only [NowGood, keys, leaves, lazyrec, eval] at h ⊢
    rcases hr : run W (keysOf es) s.user with ⟨(_ | x), u⟩ <;> rcases he : evals W (lazyrecs es) s with ⟨(y | os), s'⟩ <;>
      simp only [hr, he] at h ⊢ <;> simp_all
  | .dict es, s => by
    have h := now_ents es s
    simp only [NowGood, keys, leaves, lazyrec, eval] at h ⊢
    rcases hr : run W (keysIn es) s.user with ⟨(_ | x), u⟩ <;> rcases he : evalD W (lazyrecD es) s with ⟨(y | os), s'⟩ <;>
      simp only [hr, he] at h ⊢ <;> simp_all
theorem now_exs : ∀ (es : Exs) (s : St σ X V), NowGood W (keysOf es) (leavesOf es) s (evals W (lazyrecs es) s)
  | .nil, s => ⟨⟨_, rfl⟩, by simp [evals, lazyrecs, leavesOf]⟩
  | .cons e es, s => by
    have h := now_ex e s
    simp only [NowGood, keysOf, leavesOf, lazyrecs, evals, run_append] at h ⊢
    rcases hr : run W (keys e) s.user with ⟨(_ | x), u⟩ <;> rcases he : eval W (lazyrec e) s with ⟨(y | o), s'⟩ <;>
      simp only [hr, he] at h ⊢
    · simp at h
    · obtain ⟨_, rfl⟩ := h
      have h2 := now_exs es ⟨u, s.promises ++ (leaves e).map .pending⟩
      simp only [NowGood] at h2
      rcases hr2 : run W (keysOf es) u with ⟨(_ | x), u2⟩ <;> simp only [hr2] at h2 ⊢ <;>
        rcases he2 : evals W (lazyrecs es) ⟨u, s.promises ++ (leaves e).map .pending⟩ with ⟨(y | os), s2⟩ <;> simp only [he2] at h2 ⊢
      · simp at h2
      · exact ⟨⟨_, rfl⟩, by rw [h2.2]; simp⟩
      · obtain ⟨a, b, ps, c⟩ := h2
        exact ⟨by simpa using a, b, (leaves e).map .pending ++ ps, by rw [c, List.append_assoc]⟩
      · simp at h2
    · exact ⟨by simpa using h.1, h.2.1, h.2.2⟩
    · simp at h
theorem now_ents : ∀ (es : Ents) (s : St σ X V), NowGood W (keysIn es) (leavesIn es) s (evalD W (lazyrecD es) s)
  | .nil, s => ⟨⟨_, rfl⟩, by simp [evalD, lazyrecD, leavesIn]⟩
  | .cons key e es, s => by
    simp only [NowGood, keysIn, leavesIn, lazyrecD, evalD, run]
    rcases hk : W.leaf key s.user with ⟨(x | v), u0⟩ <;> simp only
    · exact ⟨trivial, trivial, [], by simp⟩
    have h := now_ex e { s with user := u0 }
    simp only [NowGood, run_append] at h ⊢
    rcases hr : run W (keys e) u0 with ⟨(_ | x), u⟩ <;> rcases he : eval W (lazyrec e) { s with user := u0 } with ⟨(y | o), s'⟩ <;>
      simp only [hr, he] at h ⊢
    · simp at h
    · obtain ⟨_, rfl⟩ := h
      have h2 := now_ents es ⟨u, s.promises ++ (leaves e).map .pending⟩
      simp only [NowGood] at h2
      rcases hr2 : run W (keysIn es) u with ⟨(_ | x), u2⟩ <;> simp only [hr2] at h2 ⊢ <;>
        rcases he2 : evalD W (lazyrecD es) ⟨u, s.promises ++ (leaves e).map .pending⟩ with ⟨(y | os), s2⟩ <;> simp only [he2] at h2 ⊢
      · simp at h2
      · exact ⟨⟨_, rfl⟩, by rw [h2.2]; simp⟩
      · obtain ⟨a, b, ps, c⟩ := h2
        exact ⟨by simpa using a, b, (leaves e).map .pending ++ ps, by rw [c, List.append_assoc]⟩
      · simp at h2
    · exact ⟨by simpa using h.1, h.2.1, h.2.2⟩
    · simp at h
end

/-! ## Dictionaries with different keys -/

def itemKeys : Items V → List V
  | .nil => []
  | .cons k _ os => k :: itemKeys os

def Items.append : Items V → Items V → Items V
  | .nil, b => b
  | .cons k o a, b => .cons k o (a.append b)

theorem itemKeys_append : ∀ a b : Items V, itemKeys (a.append b) = itemKeys a ++ itemKeys b
  | .nil, _ => rfl
  | .cons k o a, b => by simp [Items.append, itemKeys, itemKeys_append a b]

theorem put_new (k : V) (o : Obj V) : ∀ d : Items V, (∀ k' ∈ itemKeys d, W.eqv k' k = false) → put W k o d = d.append (.cons k o .nil)
  | .nil, _ => rfl
  | .cons k' o' a, h => by
    simp only [itemKeys, List.mem_cons, forall_eq_or_imp] at h
    simp [put, h.1, Items.append, put_new k o a h.2]

theorem append_assoc : ∀ a b c : Items V, (a.append b).append c = a.append (b.append c)
  | .nil, _, _ => rfl
  | .cons k o a, b, c => by simp [Items.append, append_assoc a b c]

theorem append_nil : ∀ a : Items V, a.append .nil = a
  | .nil => rfl
  | .cons k o a => by simp [Items.append, append_nil a]

theorem putAll_new : ∀ (os d : Items V), (itemKeys d ++ itemKeys os).Pairwise (fun v w => W.eqv v w = false) → putAll W d os = d.append os
  | .nil, d, _ => (append_nil d).symm
  | .cons k o os, d, h => by
    simp only [putAll]
    rw [put_new k o d, putAll_new os, append_assoc]
    · rfl
    · rw [itemKeys_append]; simpa [itemKeys] using h
    · intro k' hk'
      rw [List.pairwise_append] at h
      exact h.2.2 k' hk' k (by simp [itemKeys])

theorem putAll_nil {os : Items V} (h : (itemKeys os).Pairwise (fun v w => W.eqv v w = false)) : putAll W .nil os = os := putAll_new os .nil h

/-! ## Delayed and forced, or evaluated at once -/

/-- `o` is what the delayed expression evaluates to, when there are `n` promises; forcing it does what evaluating the expression does. -/
def Delays (W : World σ X V) {O : Type} (ev lz : St σ X V → Except X O × St σ X V) (fc : O → St σ X V → Except X O × O × St σ X V) (ls : List Nat) (t : Bool) (n : Nat) (o : O) : Prop :=
  (∀ u ps, ps.length = n → lz ⟨u, ps⟩ = (.ok o, ⟨u, ps ++ ls.map .pending⟩)) ∧
  ∀ u, ∃ r u', (∀ ps, ev ⟨u, ps⟩ = (r, ⟨u', ps⟩)) ∧ ∀ pre post, pre.length = n → ∃ r' o' ds,
    fc o ⟨u, pre ++ ls.map .pending ++ post⟩ = (r', o', ⟨u', pre ++ ds ++ post⟩) ∧ ds.length = ls.length ∧ Same W t r r'

theorem same_of_error {O O' : Type} {t t' : Bool} {x : X} {r : Except X O} (h : Same W t (.error x) r) (ht : t = true → t' = true) :
    ∃ x', r = .error x' ∧ Same W t' (.error x : Except X O') (.error x') := by
  cases r with
  | error x' =>
    refine ⟨x', rfl, fun hx => h (hx.imp_left fun h' => ?_)⟩
    cases t
    · rfl
    · simp [ht rfl] at h'
  | ok o => exact (nomatch h)

theorem same_of_ok {O : Type} {t : Bool} {o : O} {r : Except X O} (h : Same W t (.ok o) r) : r = .ok o := by
  cases r with
  | error x' => exact (nomatch h)
  | ok o' => exact congrArg _ (Eq.symm h)

theorem same_fromItem {O : Type} {t : Bool} {k : Kind} {x x' : X} (h : Same W t (.error x : Except X O) (.error x')) (hk : k = .tuple → t = true) :
    Same W t (.error x : Except X O) (.error (fromItem W k x')) := by
  intro hx
  have := h hx
  subst this
  unfold fromItem
  split
  · rename_i g
    exact hx.resolve_left (by simp [hk g])
  · rfl

mutual
theorem delays_ex : ∀ (e : Ex), noLazy e = true → PlainKeys W e → ∀ n, ∃ o, Delays W (eval W e) (eval W (lazyrec e)) (force W) (leaves e) (hasTuple e) n o
  | .leaf i, _, _, n => by
    refine ⟨.promise n, fun u ps hn => by subst hn; rfl, fun u => ?_⟩
    rcases hl : W.leaf i u with ⟨(x | v), u'⟩
    · refine ⟨.error x, u', fun ps => by simp only [eval, hl], fun pre post hn =>
        ⟨.error x, .promise n, [if W.isException x then .failed x else .pending i], ?_, rfl, fun _ => rfl⟩⟩
      have : (pre ++ ([i] : List Nat).map (Promise.pending (X := X) (V := V)) ++ post)[n]? = some (.pending i) := by subst hn; simp
      simp only [force, force1, leaves, this, hl]
      subst hn
      cases W.isException x <;> simp
    · refine ⟨.ok (.val v), u', fun ps => by simp only [eval, hl], fun pre post hn =>
        ⟨.ok (.val v), .promise n, [.done v], ?_, rfl, rfl⟩⟩
      have : (pre ++ ([i] : List Nat).map (Promise.pending (X := X) (V := V)) ++ post)[n]? = some (.pending i) := by subst hn; simp
      simp only [force, force1, leaves, this, hl]
      subst hn
      simp
  | .lazy _, h, _, _ => by simp [noLazy] at h
  | .seq k es, h, hk, n => by
    obtain ⟨os, h1, h2⟩ := delays_exs es (by simpa [noLazy] using h) (by simpa [PlainKeys] using hk) n
    refine ⟨.seq k os, fun u ps hn => by simp only [lazyrec, eval, h1 u ps hn, leaves], fun u => ?_⟩
    obtain ⟨r, u', h3, h4⟩ := h2 u
    cases r with
    | error x =>
      refine ⟨.error x, u', fun ps => by simp only [eval, h3], fun pre post hn => ?_⟩
      obtain ⟨r', os', ds, h5, h6, h7⟩ := h4 pre post hn
      obtain ⟨x', rfl, h8⟩ := same_of_error (O' := Obj V) (t' := hasTuple (.seq k es)) h7 (by simp +contextual [hasTuple])
      exact ⟨.error (fromItem W k x'), .seq k os', ds, by simp only [force, leaves, h5], h6, same_fromItem h8 (by simp +contextual [hasTuple])⟩
    | ok rs =>
      refine ⟨.ok (.seq k rs), u', fun ps => by simp only [eval, h3], fun pre post hn => ?_⟩
      obtain ⟨r', os', ds, h5, h6, h7⟩ := h4 pre post hn
      rw [same_of_ok h7] at h5
      exact ⟨.ok (.seq k rs), .seq k (if k.mutable then rs else os'), ds, by simp only [force, leaves, h5], h6, rfl⟩
  | .dict es, h, hk, n => by
    simp only [PlainKeys] at hk
    obtain ⟨⟨vs, hv, hp⟩, hk⟩ := hk
    obtain ⟨os, h0, h1, h2⟩ := delays_ents es (by simpa [noLazy] using h) hk vs hv n
    have hos : putAll W .nil os = os := putAll_nil (by rw [h0]; exact hp)
    refine ⟨.dict os, fun u ps hn => by simp only [lazyrec, eval, h1 u ps hn, leaves, hos], fun u => ?_⟩
    obtain ⟨r, u', h3, hr, h4⟩ := h2 u
    cases r with
    | error x =>
      refine ⟨.error x, u', fun ps => by simp only [eval, h3], fun pre post hn => ?_⟩
      obtain ⟨r', os', ds, h5, h6, h7⟩ := h4 pre post hn
      obtain ⟨x', rfl, h8⟩ := same_of_error (O' := Obj V) (t' := hasTuple (.dict es)) h7 (by simp +contextual [hasTuple])
      exact ⟨.error x', .dict os', ds, by simp only [force, leaves, h5], h6, h8⟩
    | ok rs =>
      have hrs : putAll W .nil rs = rs := putAll_nil (by rw [hr rs rfl]; exact hp)
      refine ⟨.ok (.dict rs), u', fun ps => by simp only [eval, h3, hrs], fun pre post hn => ?_⟩
      obtain ⟨r', os', ds, h5, h6, h7⟩ := h4 pre post hn
      rw [same_of_ok h7] at h5
      exact ⟨.ok (.dict rs), .dict rs, ds, by simp only [force, leaves, h5], h6, rfl⟩
theorem delays_exs : ∀ (es : Exs), noLazy.noLazys es = true → PlainKeysOf W es → ∀ n, ∃ o, Delays W (evals W es) (evals W (lazyrecs es)) (forces W) (leavesOf es) (hasTuple.hasTuples es) n o
  | .nil, _, _, n => ⟨.nil, fun u ps hn => by simp [lazyrecs, evals, leavesOf], fun u => ⟨.ok .nil, u, fun ps => rfl, fun pre post hn =>
      ⟨.ok .nil, .nil, [], by simp [forces, leavesOf], rfl, rfl⟩⟩⟩
  | .cons e es, h, hk, n => by
    simp only [noLazy.noLazys, Bool.and_eq_true] at h
    simp only [PlainKeysOf] at hk
    obtain ⟨o, g1, g2⟩ := delays_ex e h.1 hk.1 n
    obtain ⟨os, h1, h2⟩ := delays_exs es h.2 hk.2 (n + (leaves e).length)
    refine ⟨.cons o os, fun u ps hn => ?_, fun u => ?_⟩
    · simp only [lazyrecs, evals, g1 u ps hn]
      rw [h1 u _ (by simp [hn])]
      simp [leavesOf]
    obtain ⟨r, u', g3, g4⟩ := g2 u
    cases r with
    | error x =>
      refine ⟨.error x, u', fun ps => by simp only [evals, g3], fun pre post hn => ?_⟩
      obtain ⟨r', o', ds, g5, g6, g7⟩ := g4 pre ((leavesOf es).map .pending ++ post) hn
      obtain ⟨x', rfl, g8⟩ := same_of_error (O' := Objs V) (t' := hasTuple.hasTuples (.cons e es)) g7 (by simp +contextual [hasTuple.hasTuples])
      refine ⟨.error x', .cons o' os, ds ++ (leavesOf es).map .pending, ?_, by simp [leavesOf, g6], g8⟩
      have := g5
      simp only [List.append_assoc] at this
      simp only [forces, leavesOf, List.map_append, List.append_assoc, this]
    | ok t =>
      obtain ⟨r2, u2, h3, h4⟩ := h2 u'
      refine ⟨match r2 with | .error x => .error x | .ok ts => .ok (.cons t ts), u2, fun ps => ?_, fun pre post hn => ?_⟩
      · simp only [evals, g3, h3]; cases r2 <;> rfl
      obtain ⟨r', o', ds, g5, g6, g7⟩ := g4 pre ((leavesOf es).map .pending ++ post) hn
      rw [same_of_ok g7] at g5
      obtain ⟨r2', os', ds2, h5, h6, h7⟩ := h4 (pre ++ ds) post (by simp [hn, g6])
      simp only [List.append_assoc] at g5 h5
      cases r2 with
      | error x =>
        obtain ⟨x', rfl, h8⟩ := same_of_error (O' := Objs V) (t' := hasTuple.hasTuples (.cons e es)) h7 (by simp +contextual [hasTuple.hasTuples])
        exact ⟨.error x', .cons o' os', ds ++ ds2, by simp only [forces, leavesOf, List.map_append, List.append_assoc, g5, h5], by simp [leavesOf, g6, h6], h8⟩
      | ok ts =>
        rw [same_of_ok h7] at h5
        exact ⟨.ok (.cons t ts), .cons o' os', ds ++ ds2, by simp only [forces, leavesOf, List.map_append, List.append_assoc, g5, h5], by simp [leavesOf, g6, h6], rfl⟩
theorem delays_ents : ∀ (es : Ents), noLazy.noLazyD es = true → PlainKeysIn W es → ∀ vs, Constants W (ownKeys es) vs → ∀ n, ∃ os : Items V, itemKeys os = vs ∧
    (∀ u ps, ps.length = n → evalD W (lazyrecD es) ⟨u, ps⟩ = (.ok os, ⟨u, ps ++ (leavesIn es).map .pending⟩)) ∧
    ∀ u, ∃ r u', (∀ ps, evalD W es ⟨u, ps⟩ = (r, ⟨u', ps⟩)) ∧ (∀ rs, r = .ok rs → itemKeys rs = vs) ∧ ∀ pre post, pre.length = n → ∃ r' o' ds,
      forceD W os ⟨u, pre ++ (leavesIn es).map .pending ++ post⟩ = (r', o', ⟨u', pre ++ ds ++ post⟩) ∧ ds.length = (leavesIn es).length ∧ Same W (hasTuple.hasTupleD es) r r'
  | .nil, _, _, vs, hv, n => by
    cases vs with
    | cons v vs => exact (nomatch hv)
    | nil =>
      exact ⟨.nil, rfl, fun u ps hn => by simp [lazyrecD, evalD, leavesIn], fun u => ⟨.ok .nil, u, fun ps => rfl, fun rs h => by cases h; rfl, fun pre post hn =>
        ⟨.ok .nil, .nil, [], by simp [forceD, leavesIn], rfl, rfl⟩⟩⟩
  | .cons key e es, h, hk, vs, hv, n => by
    cases vs with
    | nil => exact (nomatch hv)
    | cons v vs =>
    simp only [noLazy.noLazyD, Bool.and_eq_true] at h
    simp only [PlainKeysIn] at hk
    have hc : ∀ u, W.leaf key u = (.ok v, u) := hv.1
    obtain ⟨o, g1, g2⟩ := delays_ex e h.1 hk.1 n
    obtain ⟨os, h0, h1, h2⟩ := delays_ents es h.2 hk.2 vs hv.2 (n + (leaves e).length)
    refine ⟨.cons v o os, by simp [itemKeys, h0], fun u ps hn => ?_, fun u => ?_⟩
    · simp only [lazyrecD, evalD, hc, g1 u ps hn]
      rw [h1 u _ (by simp [hn])]
      simp [leavesIn]
    obtain ⟨r, u', g3, g4⟩ := g2 u
    cases r with
    | error x =>
      refine ⟨.error x, u', fun ps => by simp only [evalD, hc, g3], fun _ h => (nomatch h), fun pre post hn => ?_⟩
      obtain ⟨r', o', ds, g5, g6, g7⟩ := g4 pre ((leavesIn es).map .pending ++ post) hn
      obtain ⟨x', rfl, g8⟩ := same_of_error (O' := Items V) (t' := hasTuple.hasTupleD (.cons key e es)) g7 (by simp +contextual [hasTuple.hasTupleD])
      refine ⟨.error x', .cons v o' os, ds ++ (leavesIn es).map .pending, ?_, by simp [leavesIn, g6], g8⟩
      have := g5
      simp only [List.append_assoc] at this
      simp only [forceD, leavesIn, List.map_append, List.append_assoc, this]
    | ok t =>
      obtain ⟨r2, u2, h3, hr, h4⟩ := h2 u'
      refine ⟨match r2 with | .error x => .error x | .ok ts => .ok (.cons v t ts), u2, fun ps => ?_, ?_, fun pre post hn => ?_⟩
      · simp only [evalD, hc, g3, h3]; cases r2 <;> rfl
      · intro rs hrs
        cases r2 with
        | error x => exact (nomatch hrs)
        | ok ts => cases hrs; simp [itemKeys, hr ts rfl]
      obtain ⟨r', o', ds, g5, g6, g7⟩ := g4 pre ((leavesIn es).map .pending ++ post) hn
      rw [same_of_ok g7] at g5
      obtain ⟨r2', os', ds2, h5, h6, h7⟩ := h4 (pre ++ ds) post (by simp [hn, g6])
      simp only [List.append_assoc] at g5 h5
      cases r2 with
      | error x =>
        obtain ⟨x', rfl, h8⟩ := same_of_error (O' := Items V) (t' := hasTuple.hasTupleD (.cons key e es)) h7 (by simp +contextual [hasTuple.hasTupleD])
        exact ⟨.error x', .cons v o' os', ds ++ ds2, by simp only [forceD, leavesIn, List.map_append, List.append_assoc, g5, h5], by simp [leavesIn, g6, h6], h8⟩
      | ok ts =>
        rw [same_of_ok h7] at h5
        exact ⟨.ok (.cons v t ts), .cons v o' os', ds ++ ds2, by simp only [forceD, leavesIn, List.map_append, List.append_assoc, g5, h5], by simp [leavesIn, g6, h6], rfl⟩
end

/-! ## Forcing again -/

/-- Promises that have been evaluated stay as they are. -/
def Later (s s' : St σ X V) : Prop := s.promises.length = s'.promises.length ∧
  ∀ p : Nat, (∀ v, s.promises[p]? = some (.done v) → s'.promises[p]? = some (.done v)) ∧ ∀ x, s.promises[p]? = some (.failed x) → s'.promises[p]? = some (.failed x)

theorem later_refl (s : St σ X V) : Later s s := ⟨rfl, fun _ => ⟨fun _ h => h, fun _ h => h⟩⟩

theorem later_trans {a b c : St σ X V} (h : Later a b) (h' : Later b c) : Later a c :=
  ⟨h.1.trans h'.1, fun p => ⟨fun v g => (h'.2 p).1 v ((h.2 p).1 v g), fun x g => (h'.2 p).2 x ((h.2 p).2 x g)⟩⟩

theorem later_set {u u' : σ} {ps : List (Promise X V)} {p i : Nat} (h : ps[p]? = some (.pending i)) (q : Promise X V) : Later ⟨u, ps⟩ ⟨u', ps.set p q⟩ := by
  refine ⟨by simp, fun p' => ?_⟩
  by_cases hp : p = p'
  · subst hp
    exact ⟨fun v g => by simp [h] at g, fun x g => by simp [h] at g⟩
  · simp only [List.getElem?_set, if_neg hp]
    exact ⟨fun _ h => h, fun _ h => h⟩

theorem later_force1 (W : World σ X V) (p : Nat) (s : St σ X V) : Later s (force1 W p s).2 := by
  unfold force1
  cases hp : s.promises[p]? with
  | none => exact later_refl s
  | some q =>
    cases q with
    | done v => exact later_refl s
    | failed x => exact later_refl s
    | pending i =>
      simp only
      rcases W.leaf i s.user with ⟨(x | v), u⟩
      · simp only
        split
        · exact later_set hp _
        · exact ⟨rfl, fun _ => ⟨fun _ h => h, fun _ h => h⟩⟩
      · exact later_set hp _

mutual
theorem later_force : ∀ (o : Obj V) (s : St σ X V), Later s (force W o s).2.2
  | .val _, s => later_refl s
  | .promise p, s => later_force1 W p s
  | .seq k os, s => by
    have h := later_forces os s
    simp only [force]
    rcases he : forces W os s with ⟨(x | rs), os', s'⟩ <;> rw [he] at h <;> exact h
  | .dict os, s => by
    have h := later_forceD os s
    simp only [force]
    rcases he : forceD W os s with ⟨(x | rs), os', s'⟩ <;> rw [he] at h <;> exact h
theorem later_forces : ∀ (os : Objs V) (s : St σ X V), Later s (forces W os s).2.2
  | .nil, s => later_refl s
  | .cons o os, s => by
    have h := later_force o s
    simp only [forces]
    rcases he : force W o s with ⟨(x | r), o', s'⟩ <;> rw [he] at h
    · exact h
    · have h2 := later_forces os s'
      simp only
      rcases he2 : forces W os s' with ⟨(x | rs), os', s2⟩ <;> rw [he2] at h2 <;> exact later_trans h h2
theorem later_forceD : ∀ (os : Items V) (s : St σ X V), Later s (forceD W os s).2.2
  | .nil, s => later_refl s
  | .cons key o os, s => by
    have h := later_force o s
    simp only [forceD]
    rcases he : force W o s with ⟨(x | r), o', s'⟩ <;> rw [he] at h
    · exact h
    · have h2 := later_forceD os s'
      simp only
      rcases he2 : forceD W os s' with ⟨(x | rs), os', s2⟩ <;> rw [he2] at h2 <;> exact later_trans h h2
end

theorem again1_ok {p : Nat} {s s' s2 : St σ X V} {r : Obj V} (h : force1 W p s = (.ok r, s')) (hl : Later s' s2) :
    force1 W p s2 = (.ok r, s2) ∧ force W r s2 = (.ok r, r, s2) := by
  unfold force1 at h
  cases hp : s.promises[p]? with
  | none =>
    simp only [hp, Prod.mk.injEq, Except.ok.injEq] at h
    obtain ⟨rfl, rfl⟩ := h
    have : s2.promises[p]? = none := by
      rw [List.getElem?_eq_none_iff] at hp ⊢
      rw [← hl.1]; exact hp
    simp [force1, force, this]
  | some q =>
    cases q with
    | done v =>
      simp only [hp, Prod.mk.injEq, Except.ok.injEq] at h
      obtain ⟨rfl, rfl⟩ := h
      simp [force1, force, (hl.2 p).1 v hp]
    | failed x => simp [hp] at h
    | pending i =>
      simp only [hp] at h
      rcases hi : W.leaf i s.user with ⟨(x | v), u⟩ <;> simp only [hi, Prod.mk.injEq, Except.ok.injEq, reduceCtorEq, false_and] at h
      obtain ⟨rfl, rfl⟩ := h
      have hlt : p < s.promises.length := by
        rw [List.getElem?_eq_some_iff] at hp; exact hp.1
      have := (hl.2 p).1 v (by simp [hlt])
      simp [force1, force, this]

theorem again1_error (hE : ∀ i u x u', W.leaf i u = (.error x, u') → W.isException x = true) {p : Nat} {s s' s2 : St σ X V} {x : X}
    (h : force1 W p s = (.error x, s')) (hl : Later s' s2) : force1 W p s2 = (.error x, s2) := by
  unfold force1 at h
  cases hp : s.promises[p]? with
  | none => simp [hp] at h
  | some q =>
    cases q with
    | done v => simp [hp] at h
    | failed y =>
      simp only [hp, Prod.mk.injEq, Except.error.injEq] at h
      obtain ⟨rfl, rfl⟩ := h
      simp [force1, (hl.2 p).2 y hp]
    | pending i =>
      simp only [hp] at h
      rcases hi : W.leaf i s.user with ⟨(y | v), u⟩ <;> simp only [hi, Prod.mk.injEq, Except.error.injEq, reduceCtorEq, false_and] at h
      rw [hE i _ _ _ hi] at h
      simp only [if_true] at h
      obtain ⟨rfl, rfl⟩ := h
      have hlt : p < s.promises.length := by
        rw [List.getElem?_eq_some_iff] at hp; exact hp.1
      have := (hl.2 p).2 y (by simp [hlt])
      simp [force1, this]

mutual
theorem again_ok : ∀ (o : Obj V) {s s' s2 : St σ X V} {r o' : Obj V}, force W o s = (.ok r, o', s') → Later s' s2 →
    force W o' s2 = (.ok r, o', s2) ∧ force W r s2 = (.ok r, r, s2)
  | .val v, s, s', s2, r, o', h, hl => by
    simp only [force, Prod.mk.injEq, Except.ok.injEq] at h
    obtain ⟨rfl, rfl, rfl⟩ := h
    exact ⟨rfl, rfl⟩
  | .promise p, s, s', s2, r, o', h, hl => by
    simp only [force, Prod.mk.injEq] at h
    obtain ⟨h1, rfl, h2⟩ := h
    obtain ⟨h3, h4⟩ := again1_ok (Prod.ext h1 h2) hl
    exact ⟨by simp only [force, h3], h4⟩
  | .seq k os, s, s', s2, r, o', h, hl => by
    simp only [force] at h
    rcases he : forces W os s with ⟨(x | rs), os', s1⟩ <;> simp only [he, Prod.mk.injEq, Except.ok.injEq, reduceCtorEq, false_and] at h
    obtain ⟨rfl, rfl, rfl⟩ := h
    obtain ⟨h1, h2⟩ := agains_ok os he hl
    cases hk : k.mutable <;> simp [force, h1, h2, hk]
  | .dict os, s, s', s2, r, o', h, hl => by
    simp only [force] at h
    rcases he : forceD W os s with ⟨(x | rs), os', s1⟩ <;> simp only [he, Prod.mk.injEq, Except.ok.injEq, reduceCtorEq, false_and] at h
    obtain ⟨rfl, rfl, rfl⟩ := h
    obtain ⟨h1, h2⟩ := againD_ok os he hl
    simp [force, h2]
theorem agains_ok : ∀ (os : Objs V) {s s' s2 : St σ X V} {rs os' : Objs V}, forces W os s = (.ok rs, os', s') → Later s' s2 →
    forces W os' s2 = (.ok rs, os', s2) ∧ forces W rs s2 = (.ok rs, rs, s2)
  | .nil, s, s', s2, rs, os', h, hl => by
    simp only [forces, Prod.mk.injEq, Except.ok.injEq] at h
    obtain ⟨rfl, rfl, rfl⟩ := h
    exact ⟨rfl, rfl⟩
  | .cons o os, s, s', s2, rs, os', h, hl => by
    simp only [forces] at h
    rcases he : force W o s with ⟨(x | r), o', s1⟩ <;> simp only [he, Prod.mk.injEq, reduceCtorEq, false_and] at h
    rcases he2 : forces W os s1 with ⟨(x | rs'), os'', s3⟩ <;> simp only [he2, Prod.mk.injEq, Except.ok.injEq, reduceCtorEq, false_and] at h
    obtain ⟨rfl, rfl, rfl⟩ := h
    have hl1 : Later s1 s2 := by
      have := later_forces (W := W) os s1
      rw [he2] at this
      exact later_trans this hl
    obtain ⟨h1, h2⟩ := again_ok o he hl1
    obtain ⟨h3, h4⟩ := agains_ok os he2 hl
    simp [forces, h1, h2, h3, h4]
theorem againD_ok : ∀ (os : Items V) {s s' s2 : St σ X V} {rs os' : Items V}, forceD W os s = (.ok rs, os', s') → Later s' s2 →
    forceD W os' s2 = (.ok rs, os', s2) ∧ forceD W rs s2 = (.ok rs, rs, s2)
  | .nil, s, s', s2, rs, os', h, hl => by
    simp only [forceD, Prod.mk.injEq, Except.ok.injEq] at h
    obtain ⟨rfl, rfl, rfl⟩ := h
    exact ⟨rfl, rfl⟩
  | .cons key o os, s, s', s2, rs, os', h, hl => by
    simp only [forceD] at h
    rcases he : force W o s with ⟨(x | r), o', s1⟩ <;> simp only [he, Prod.mk.injEq, reduceCtorEq, false_and] at h
    rcases he2 : forceD W os s1 with ⟨(x | rs'), os'', s3⟩ <;> simp only [he2, Prod.mk.injEq, Except.ok.injEq, reduceCtorEq, false_and] at h
    obtain ⟨rfl, rfl, rfl⟩ := h
    have hl1 : Later s1 s2 := by
      have := later_forceD (W := W) os s1
      rw [he2] at this
      exact later_trans this hl
    obtain ⟨h1, h2⟩ := again_ok o he hl1
    obtain ⟨h3, h4⟩ := againD_ok os he2 hl
    simp [forceD, h1, h2, h3, h4]
end

section
variable (hE : ∀ i u x u', W.leaf i u = (.error x, u') → W.isException x = true)
include hE
mutual
theorem again_error : ∀ (o : Obj V) {s s' s2 : St σ X V} {x : X} {o' : Obj V}, force W o s = (.error x, o', s') → Later s' s2 →
    force W o' s2 = (.error x, o', s2)
  | .val v, s, s', s2, x, o', h, hl => by simp [force] at h
  | .promise p, s, s', s2, x, o', h, hl => by
    simp only [force, Prod.mk.injEq] at h
    obtain ⟨h1, rfl, h2⟩ := h
    simp only [force, again1_error hE (Prod.ext h1 h2) hl]
  | .seq k os, s, s', s2, x, o', h, hl => by
    simp only [force] at h
    rcases he : forces W os s with ⟨(y | rs), os', s1⟩ <;> simp only [he, Prod.mk.injEq, Except.error.injEq, reduceCtorEq, false_and] at h
    obtain ⟨rfl, rfl, rfl⟩ := h
    simp only [force, agains_error os he hl]
  | .dict os, s, s', s2, x, o', h, hl => by
    simp only [force] at h
    rcases he : forceD W os s with ⟨(y | rs), os', s1⟩ <;> simp only [he, Prod.mk.injEq, Except.error.injEq, reduceCtorEq, false_and] at h
    obtain ⟨rfl, rfl, rfl⟩ := h
    simp only [force, againD_error os he hl]
theorem agains_error : ∀ (os : Objs V) {s s' s2 : St σ X V} {x : X} {os' : Objs V}, forces W os s = (.error x, os', s') → Later s' s2 →
    forces W os' s2 = (.error x, os', s2)
  | .nil, s, s', s2, x, os', h, hl => by simp [forces] at h
  | .cons o os, s, s', s2, x, os', h, hl => by
    simp only [forces] at h
    rcases he : force W o s with ⟨(y | r), o', s1⟩ <;> simp only [he, Prod.mk.injEq, Except.error.injEq] at h
    · obtain ⟨rfl, rfl, rfl⟩ := h
      simp only [forces, again_error o he hl]
    · rcases he2 : forces W os s1 with ⟨(y | rs'), os'', s3⟩ <;> simp only [he2, Prod.mk.injEq, Except.error.injEq, reduceCtorEq, false_and] at h
      obtain ⟨rfl, rfl, rfl⟩ := h
      have hl1 : Later s1 s2 := by
        have := later_forces (W := W) os s1
        rw [he2] at this
        exact later_trans this hl
      simp only [forces, (again_ok o he hl1).1, agains_error os he2 hl]
theorem againD_error : ∀ (os : Items V) {s s' s2 : St σ X V} {x : X} {os' : Items V}, forceD W os s = (.error x, os', s') → Later s' s2 →
    forceD W os' s2 = (.error x, os', s2)
  | .nil, s, s', s2, x, os', h, hl => by simp [forceD] at h
  | .cons key o os, s, s', s2, x, os', h, hl => by
    simp only [forceD] at h
    rcases he : force W o s with ⟨(y | r), o', s1⟩ <;> simp only [he, Prod.mk.injEq, Except.error.injEq] at h
    · obtain ⟨rfl, rfl, rfl⟩ := h
      simp only [forceD, again_error o he hl]
    · rcases he2 : forceD W os s1 with ⟨(y | rs'), os'', s3⟩ <;> simp only [he2, Prod.mk.injEq, Except.error.injEq, reduceCtorEq, false_and] at h
      obtain ⟨rfl, rfl, rfl⟩ := h
      have hl1 : Later s1 s2 := by
        have := later_forceD (W := W) os s1
        rw [he2] at this
        exact later_trans this hl
      simp only [forceD, (again_ok o he hl1).1, againD_error os he2 hl]
end
end

end Unpy.LazyOrder
