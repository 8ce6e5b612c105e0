import Verif.Spec.Lazyrec
/-! # Lemmas for `lazyrec[...]` -/
namespace Unpy.Lazyrec
open Unpy (PyErr Res)
variable {A : Type} {W : World A}

theorem isMapping_eq (e : Ex) : isMapping e = isMapLit e := by
  cases e with
  | call c _ _ => cases c <;> rfl
  | _ => rfl

theorem takesItems_eq (c : Ctor) : takesItems c = allMode c := by cases c <;> rfl

theorem map_ok {α β : Type} {x : Res α} {f : α → β} {b : β} (h : x.map f = .ok b) : ∃ a, x = .ok a ∧ f a = b := by
  cases x with
  | error _ => simp [Except.map] at h
  | ok a => exact ⟨a, rfl, by simpa [Except.map] using h⟩

/-! ## Lists of values -/

theorem hashableL_iff {vs : List (Val A)} : hashableL W vs = true ↔ ∀ v ∈ vs, hashable W v = true := by
  induction vs with
  | nil => simp [hashableL]
  | cons v vs ih => simp [hashableL, ih]

theorem properL_iff {np : Bool} {vs : List (Val A)} : properL W np vs = true ↔ ∀ v ∈ vs, proper W np v = true := by
  induction vs with
  | nil => simp [properL]
  | cons v vs ih => simp [properL, ih]

theorem forceL_append {xs ys us vs : List (Val A)} (hx : forceL W xs = .ok us) (hy : forceL W ys = .ok vs) :
    forceL W (xs ++ ys) = .ok (us ++ vs) := by
  induction xs generalizing us with
  | nil => simp [forceL] at hx; subst hx; simpa using hy
  | cons x xs ih =>
    simp only [forceL] at hx
    cases h : force W x with
    | error _ => simp [h] at hx
    | ok w =>
      simp only [h] at hx
      obtain ⟨ws, h1, rfl⟩ := map_ok hx
      simp [forceL, h, ih h1, Except.map]

theorem forceL_cons {x w : Val A} {xs ws : List (Val A)} (h : force W x = .ok w) (hs : forceL W xs = .ok ws) :
    forceL W (x :: xs) = .ok (w :: ws) := by simp [forceL, h, hs, Except.map]

theorem forceL_cons_inv {x : Val A} {xs us : List (Val A)} (h : forceL W (x :: xs) = .ok us) :
    ∃ w ws, us = w :: ws ∧ force W x = .ok w ∧ forceL W xs = .ok ws := by
  simp only [forceL] at h
  cases h' : force W x with
  | error _ => simp [h'] at h
  | ok w =>
    simp only [h'] at h
    obtain ⟨ws, h1, rfl⟩ := map_ok h
    exact ⟨w, ws, rfl, rfl, h1⟩

theorem forceL_mem {xs us : List (Val A)} (h : forceL W xs = .ok us) {x : Val A} (hx : x ∈ xs) : ∃ u ∈ us, force W x = .ok u := by
  induction xs generalizing us with
  | nil => simp at hx
  | cons y xs ih =>
    obtain ⟨w, ws, rfl, h1, h2⟩ := forceL_cons_inv h
    rcases List.mem_cons.mp hx with rfl | hx
    · exact ⟨w, by simp, h1⟩
    · obtain ⟨u, hu, h3⟩ := ih h2 hx; exact ⟨u, by simp [hu], h3⟩

/-! ## Sets -/

theorem addAll_append (k xs ys : List (Val A)) : addAll W k (xs ++ ys) = addAll W (addAll W k xs) ys := by
  induction xs generalizing k with
  | nil => rfl
  | cons x xs ih => simp only [List.cons_append, addAll]; split <;> exact ih _

theorem addAll_isSet {k xs : List (Val A)} (h : isSet W (k ++ xs) = true) : addAll W k xs = k ++ xs := by
  induction xs generalizing k with
  | nil => simp [addAll]
  | cons x xs ih =>
    have : k.any (W.eqv · x) = false := by
      clear ih
      induction k with
      | nil => rfl
      | cons y k ih =>
        simp only [List.cons_append, isSet, Bool.and_eq_true, List.all_eq_true] at h
        have := h.1 x (by simp)
        simp only [List.any_cons, Bool.or_eq_false_iff]
        exact ⟨by simpa using this, ih h.2⟩
    simp only [addAll, this]
    simpa using ih (k := k ++ [x]) (by simpa using h)

theorem isSet_append_one {k : List (Val A)} {x : Val A} (h : isSet W k = true) (hx : k.any (W.eqv · x) = false) :
    isSet W (k ++ [x]) = true := by
  induction k with
  | nil => simp [isSet]
  | cons y k ih =>
    simp only [isSet, Bool.and_eq_true, List.all_eq_true] at h
    simp only [List.any_cons, Bool.or_eq_false_iff] at hx
    simp only [List.cons_append, isSet, Bool.and_eq_true, List.all_eq_true]
    refine ⟨?_, ih h.2 hx.2⟩
    intro z hz
    rcases List.mem_append.mp hz with hz | hz
    · exact h.1 z hz
    · simp at hz; subst hz; simp [hx.1]

theorem isSet_addAll {k xs : List (Val A)} (h : isSet W k = true) : isSet W (addAll W k xs) = true := by
  induction xs generalizing k with
  | nil => exact h
  | cons x xs ih =>
    simp only [addAll]
    split
    · exact ih h
    · rename_i hx; exact ih (isSet_append_one h (by simpa using hx))

theorem addAll_mem {k xs : List (Val A)} {y : Val A} (h : y ∈ addAll W k xs) : y ∈ k ∨ y ∈ xs := by
  induction xs generalizing k with
  | nil => exact .inl h
  | cons x xs ih =>
    simp only [addAll] at h
    split at h
    · rcases ih h with h | h
      · exact .inl h
      · exact .inr (by simp [h])
    · rcases ih h with h | h
      · rcases List.mem_append.mp h with h | h
        · exact .inl h
        · exact .inr (by simp at h; simp [h])
      · exact .inr (by simp [h])

theorem kept_addAll {k xs : List (Val A)} {y : Val A} (h : y ∈ k) : y ∈ addAll W k xs := by
  induction xs generalizing k with
  | nil => exact h
  | cons x xs ih => simp only [addAll]; split <;> exact ih (by simp [h])

/-- Everything added is there, or something equal. -/
theorem addAll_covers {k xs : List (Val A)} {y : Val A} (h : y ∈ xs) :
    y ∈ addAll W k xs ∨ ∃ z ∈ addAll W k xs, W.eqv z y = true := by
  induction xs generalizing k with
  | nil => simp at h
  | cons x xs ih =>
    rcases List.mem_cons.mp h with rfl | h
    · simp only [addAll]
      split
      · rename_i hx
        obtain ⟨z, hz, e⟩ := List.any_eq_true.mp hx
        exact .inr ⟨z, kept_addAll hz, e⟩
      · exact .inl (kept_addAll (by simp))
    · simp only [addAll]; split <;> exact ih h

/-! ## `proper` -/

theorem mk_proper {np : Bool} {k : Kind} {xs : List (Val A)} {v : Val A} (hx : properL W np xs = true) (h : mk W k xs = .ok v) :
    proper W np v = true := by
  have key : ∀ k', properL W np (addAll W [] xs) = true ∧ (hashableL W xs = true →
      proper W np (.seq k' (addAll W [] xs)) = true) := by
    intro k'
    have hp : properL W np (addAll W [] xs) = true := properL_iff.mpr fun y hy => by
      rcases addAll_mem hy with h | h
      · simp at h
      · exact properL_iff.mp hx y h
    refine ⟨hp, fun hh => ?_⟩
    have h2 : hashableL W (addAll W [] xs) = true := hashableL_iff.mpr fun y hy => by
      rcases addAll_mem hy with h | h
      · simp at h
      · exact hashableL_iff.mp hh y h
    simp only [proper, hp, h2, isSet_addAll (k := ([] : List (Val A))) rfl, Bool.true_and, Bool.and_self]
    split <;> rfl
  cases k with
  | set =>
    simp only [mk] at h; split at h
    · rename_i hh; cases h; exact (key _).2 hh
    · cases h
  | frozenset =>
    simp only [mk] at h; split at h
    · rename_i hh; cases h; exact (key _).2 hh
    · cases h
  | _ => simp only [mk] at h; cases h; simp [proper, hx]

theorem iter_proper {np : Bool} {v : Val A} {xs : List (Val A)} (hv : proper W np v = true) (h : iter W v = .ok xs) :
    properL W np xs = true := by
  cases v with
  | atom a =>
    simp only [iter] at h
    split at h
    · cases h; exact properL_iff.mpr (by simp [proper])
    · cases h
  | promise e => simp [iter] at h
  | seq k ys => simp only [iter] at h; cases h; simp only [proper, Bool.and_eq_true] at hv; exact hv.1
  | map fz ks vs => simp only [iter] at h; cases h; simp only [proper, Bool.and_eq_true] at hv; exact hv.1

/-- The keys and the values are proper. -/
def properD (W : World A) (np : Bool) (d : List (Val A) × List (Val A)) : Prop := properL W np d.1 = true ∧ properL W np d.2 = true

theorem put_proper {np : Bool} {ks vs : List (Val A)} {k v : Val A} (hd : properD W np (ks, vs)) (hk : proper W np k = true)
    (hv : proper W np v = true) : properD W np (put W ks vs k v) := by
  induction ks generalizing vs with
  | nil => simp [put, properD, properL, hk, hv]
  | cons k' ks ih =>
    cases vs with
    | nil => simp [put, properD, properL, hk, hv]
    | cons v' vs =>
      obtain ⟨h1, h2⟩ := hd
      simp only [properL, Bool.and_eq_true] at h1 h2
      simp only [put]
      split
      · exact ⟨by simp [properL, h1], by simp [properL, hv, h2]⟩
      · obtain ⟨h3, h4⟩ := ih ⟨h1.2, h2.2⟩
        exact ⟨by simp [properL, h1, h3], by simp [properL, h2, h4]⟩

theorem putAll_proper {np : Bool} {d : List (Val A) × List (Val A)} {ks vs : List (Val A)} (hd : properD W np d)
    (hk : properL W np ks = true) (hv : properL W np vs = true) : properD W np (putAll W d ks vs) := by
  induction ks generalizing d vs with
  | nil => simpa [putAll] using hd
  | cons k ks ih =>
    cases vs with
    | nil => simpa [putAll] using hd
    | cons v vs =>
      simp only [properL, Bool.and_eq_true] at hk hv
      simp only [putAll]
      exact ih (put_proper hd hk.1 hv.1) hk.2 hv.2

theorem putPairs_proper {np : Bool} {d r : List (Val A) × List (Val A)} {ps : List (Val A)} (hd : properD W np d)
    (hp : properL W np ps = true) (h : putPairs W d ps = .ok r) : properD W np r := by
  induction ps generalizing d with
  | nil => simp [putPairs] at h; subst h; exact hd
  | cons p ps ih =>
    simp only [properL, Bool.and_eq_true] at hp
    simp only [putPairs] at h
    cases hi : iter W p with
    | error _ => simp [hi] at h
    | ok xs =>
      have hx := iter_proper hp.1 hi
      simp only [hi] at h
      split at h
      · cases ‹Except.ok _ = Except.error _›
      · rename_i k v e
        cases e
        simp only [properL, Bool.and_eq_true] at hx
        split at h
        · exact ih (put_proper hd hx.1 hx.2.1) hp.2 h
        · cases h
      · cases h

theorem update_proper {np : Bool} {d r : List (Val A) × List (Val A)} {m : Val A} (hd : properD W np d)
    (hp : proper W np m = true) (h : update W d m = .ok r) : properD W np r := by
  have key : ∀ xs, iter W m = .ok xs → putPairs W d xs = .ok r → properD W np r := fun xs hi h =>
    putPairs_proper hd (iter_proper hp hi) h
  cases m with
  | map fz ks vs =>
    simp only [update] at h; cases h
    simp only [proper, Bool.and_eq_true] at hp
    exact putAll_proper hd hp.1 hp.2
  | _ =>
    simp only [update] at h
    split at h
    · cases h
    · rename_i hi; exact key _ hi h

theorem updates_proper {np : Bool} {d r : List (Val A) × List (Val A)} {ms : List (Val A)} (hd : properD W np d)
    (hp : properL W np ms = true) (h : updates W d ms = .ok r) : properD W np r := by
  induction ms generalizing d with
  | nil => simp [updates] at h; subst h; exact hd
  | cons m ms ih =>
    simp only [properL, Bool.and_eq_true] at hp
    simp only [updates] at h
    cases hu : update W d m with
    | error _ => simp [hu] at h
    | ok d' => simp only [hu] at h; exact ih (update_proper hd hp.1 hu) hp.2 h

theorem strs_proper (np : Bool) (ns : List String) : properL W np (ns.map fun x => Val.atom (W.str x)) = true :=
  properL_iff.mpr (by simp [proper])

theorem construct_proper {np : Bool} {c : Ctor} {args : List (Val A)} {ns : List String} {vs : List (Val A)} {v : Val A}
    (ha : properL W np args = true) (hv : properL W np vs = true) (h : construct W c args ns vs = .ok v) : proper W np v = true := by
  have one : ∀ k, (if ns.isEmpty then
      match args with
      | [] => if c = .llist then .error .TypeError else mk W k []
      | [v] => match iter W v with
        | .error x => .error x
        | .ok xs => mk W k xs
      | _ => .error .TypeError
    else .error .TypeError : Res (Val A)) = .ok v → proper W np v = true := by
    intro k h
    split at h
    · split at h
      · split at h
        · cases h
        · exact mk_proper (by rfl) h
      · split at h
        · cases h
        · rename_i hi
          simp only [properL, Bool.and_eq_true] at ha
          exact mk_proper (iter_proper ha.1 hi) h
      · cases h
    · cases h
  have boxed : ∀ k, (match args, ns, vs with
    | [], [], _ => .ok (.seq k [.atom W.none])
    | [v], [], _ => .ok (.seq k [v])
    | [], [x], [v] => if x = "x" then .ok (.seq k [v]) else .error .TypeError
    | _, _, _ => .error .TypeError : Res (Val A)) = .ok v → k = .box ∨ k = .some → proper W np v = true := by
    intro k h hk
    have hk' : ¬ (k = .set ∨ k = .frozenset) := by rcases hk with rfl | rfl <;> simp
    split at h
    · cases h; simp [proper, properL, hk']
    · cases h; simp only [properL, Bool.and_eq_true] at ha; simp [proper, properL, ha, hk']
    · split at h
      · cases h; simp only [properL, Bool.and_eq_true] at hv; simp [proper, properL, hv, hk']
      · cases h
    · cases h
  have maps : ∀ fz, (updates W ([], []) args).map (fun d => Val.map fz (putAll W d (ns.map fun x => .atom (W.str x)) vs).1
      (putAll W d (ns.map fun x => .atom (W.str x)) vs).2) = .ok v → proper W np v = true := by
    intro fz h
    obtain ⟨d, h1, rfl⟩ := map_ok h
    obtain ⟨h2, h3⟩ := putAll_proper (updates_proper (d := ([], [])) ⟨rfl, rfl⟩ ha h1) (strs_proper np ns) hv
    simp [proper, h2, h3]
  cases c with
  | list => exact one _ h
  | tuple => exact one _ h
  | set => exact one _ h
  | frozenset => exact one _ h
  | llist => exact one _ h
  | ll =>
    simp only [construct] at h
    split at h
    · cases h; simp [proper, ha]
    · cases h
  | box => exact boxed _ h (.inl rfl)
  | some => exact boxed _ h (.inr rfl)
  | dict =>
    simp only [construct] at h
    split at h
    · cases h
    · exact maps _ h
  | frozendict => exact maps _ h

mutual
theorem eval_proper (np : Bool) (hW : ∀ i v, W.val i = .ok v → proper W np v = true) :
    ∀ (e : Ex) {v : Val A}, (np = true → noLazy e = true) → eval W e = .ok v → proper W np v = true
  | .atom i, v, _, h => hW i v h
  | .lit k items, v, hn, h => by
      simp only [eval] at h
      cases hi : evalItems W items with
      | error _ => simp [hi] at h
      | ok xs =>
        simp only [hi] at h
        exact mk_proper (evalItems_proper np hW items (fun e => by have := hn e; simpa [noLazy] using this) hi) h
  | .dict es, v, hn, h => by
      simp only [eval] at h
      cases hi : evalEntries W ([], []) es with
      | error _ => simp [hi] at h
      | ok d =>
        simp only [hi] at h
        cases h
        obtain ⟨h1, h2⟩ := evalEntries_proper np hW es (fun e => by have := hn e; simpa [noLazy] using this) ⟨rfl, rfl⟩ hi
        simp [proper, h1, h2]
  | .call c args kws, v, hn, h => by
      simp only [eval] at h
      cases hi : evalItems W args with
      | error _ => simp [hi] at h
      | ok xs =>
        simp only [hi] at h
        cases hk : evalKws W kws with
        | error _ => simp [hk] at h
        | ok p =>
          obtain ⟨ns, vs⟩ := p
          simp only [hk] at h
          split at h
          · have hn' : np = true → noLazyI args = true ∧ noLazyK kws = true := fun e => by
              have := hn e; simpa [noLazy] using this
            exact construct_proper (evalItems_proper np hW args (fun e => (hn' e).1) hi)
              (evalKws_proper np hW kws (fun e => (hn' e).2) hk) h
          · cases h
  | .lazy e, v, hn, h => by
      simp only [eval] at h; cases h
      cases np with
      | true => simp [noLazy] at hn
      | false => rfl
theorem evalItems_proper (np : Bool) (hW : ∀ i v, W.val i = .ok v → proper W np v = true) :
    ∀ (is : Items) {vs : List (Val A)}, (np = true → noLazyI is = true) → evalItems W is = .ok vs → properL W np vs = true
  | .nil, vs, _, h => by simp [evalItems] at h; subst h; rfl
  | .item e r, vs, hn, h => by
      have hn' : np = true → noLazy e = true ∧ noLazyI r = true := fun e => by have := hn e; simpa [noLazyI] using this
      simp only [evalItems] at h
      cases he : eval W e with
      | error _ => simp [he] at h
      | ok v =>
        simp only [he] at h
        obtain ⟨ws, h1, rfl⟩ := map_ok h
        simp [properL, eval_proper np hW e (fun e => (hn' e).1) he, evalItems_proper np hW r (fun e => (hn' e).2) h1]
  | .star e r, vs, hn, h => by
      have hn' : np = true → noLazy e = true ∧ noLazyI r = true := fun e => by have := hn e; simpa [noLazyI] using this
      simp only [evalItems] at h
      cases he : eval W e with
      | error _ => simp [he] at h
      | ok v =>
        simp only [he] at h
        cases hi : iter W v with
        | error _ => simp [hi] at h
        | ok xs =>
          simp only [hi] at h
          obtain ⟨ws, h1, rfl⟩ := map_ok h
          have a := properL_iff.mp (iter_proper (eval_proper np hW e (fun e => (hn' e).1) he) hi)
          have b := properL_iff.mp (evalItems_proper np hW r (fun e => (hn' e).2) h1)
          exact properL_iff.mpr fun y hy => (List.mem_append.mp hy).elim (a y) (b y)
theorem evalEntries_proper (np : Bool) (hW : ∀ i v, W.val i = .ok v → proper W np v = true) :
    ∀ (es : Entries) {d r : List (Val A) × List (Val A)}, (np = true → noLazyE es = true) → properD W np d →
      evalEntries W d es = .ok r → properD W np r
  | .nil, d, r, _, hd, h => by simp [evalEntries] at h; subst h; exact hd
  | .kv k v es, d, r, hn, hd, h => by
      have hn' : np = true → (noLazy k = true ∧ noLazy v = true) ∧ noLazyE es = true := fun e => by
        have := hn e; simpa [noLazyE] using this
      simp only [evalEntries] at h
      cases hk : eval W k with
      | error _ => simp [hk] at h
      | ok kv =>
        simp only [hk] at h
        cases hv : eval W v with
        | error _ => simp [hv] at h
        | ok vv =>
          simp only [hv] at h
          split at h
          · exact evalEntries_proper np hW es (fun e => (hn' e).2) (put_proper hd
              (eval_proper np hW k (fun e => (hn' e).1.1) hk) (eval_proper np hW v (fun e => (hn' e).1.2) hv)) h
          · cases h
  | .dstar e es, d, r, hn, hd, h => by
      have hn' : np = true → noLazy e = true ∧ noLazyE es = true := fun e => by have := hn e; simpa [noLazyE] using this
      simp only [evalEntries] at h
      cases he : eval W e with
      | error _ => simp [he] at h
      | ok v =>
        have hp := eval_proper np hW e (fun e => (hn' e).1) he
        cases v with
        | map fz ks vs =>
          simp only [he] at h
          simp only [proper, Bool.and_eq_true] at hp
          exact evalEntries_proper np hW es (fun e => (hn' e).2) (putAll_proper hd hp.1 hp.2) h
        | _ => simp [he] at h
theorem evalKws_proper (np : Bool) (hW : ∀ i v, W.val i = .ok v → proper W np v = true) :
    ∀ (ks : Kws) {ns : List String} {vs : List (Val A)}, (np = true → noLazyK ks = true) → evalKws W ks = .ok (ns, vs) →
      properL W np vs = true
  | .nil, ns, vs, _, h => by simp [evalKws] at h; obtain ⟨rfl, rfl⟩ := h; rfl
  | .kw x e r, ns, vs, hn, h => by
      have hn' : np = true → noLazy e = true ∧ noLazyK r = true := fun e => by have := hn e; simpa [noLazyK] using this
      simp only [evalKws] at h
      cases he : eval W e with
      | error _ => simp [he] at h
      | ok v =>
        simp only [he] at h
        obtain ⟨p, h1, h2⟩ := map_ok h
        cases h2
        simp [properL, eval_proper np hW e (fun e => (hn' e).1) he, evalKws_proper np hW r (fun e => (hn' e).2) h1]
  | .dstar e r, ns, vs, hn, h => by
      have hn' : np = true → noLazy e = true ∧ noLazyK r = true := fun e => by have := hn e; simpa [noLazyK] using this
      simp only [evalKws] at h
      cases he : eval W e with
      | error _ => simp [he] at h
      | ok v =>
        have hp := eval_proper np hW e (fun e => (hn' e).1) he
        cases v with
        | map fz ks vs =>
          simp only [he] at h
          simp only [proper, Bool.and_eq_true] at hp
          split at h
          · cases h
          · obtain ⟨p, h1, h2⟩ := map_ok h
            cases h2
            have a := properL_iff.mp hp.2
            have b := properL_iff.mp (evalKws_proper np hW r (fun e => (hn' e).2) h1)
            exact properL_iff.mpr fun y hy => (List.mem_append.mp hy).elim (a y) (b y)
        | _ => simp [he] at h
end

mutual
theorem proper_mono : ∀ {v : Val A}, proper W true v = true → proper W false v = true
  | .atom _, _ => rfl
  | .promise _, h => by simp [proper] at h
  | .seq k xs, h => by
      simp only [proper, Bool.and_eq_true] at h ⊢; exact ⟨properL_mono h.1, h.2⟩
  | .map _ _ _, h => by
      simp only [proper, Bool.and_eq_true] at h ⊢; exact ⟨properL_mono h.1, properL_mono h.2⟩
theorem properL_mono : ∀ {vs : List (Val A)}, properL W true vs = true → properL W false vs = true
  | [], _ => rfl
  | v :: vs, h => by
      simp only [properL, Bool.and_eq_true] at h ⊢; exact ⟨proper_mono h.1, properL_mono h.2⟩
end

mutual
/-- `force` does nothing to ordinary values. -/
theorem force_ordinary : ∀ {v : Val A}, proper W true v = true → force W v = .ok v
  | .atom _, _ => rfl
  | .promise _, h => by simp [proper] at h
  | .seq k xs, h => by
      simp only [proper, Bool.and_eq_true] at h
      simp only [force, forceL_ordinary h.1]
      cases k with
      | set =>
        have h2 := h.2
        simp only [true_or, if_true, Bool.and_eq_true] at h2
        simp [mk, h2.1, addAll_isSet (k := []) (by simpa using h2.2)]
      | frozenset =>
        have h2 := h.2
        simp only [or_true, if_true, Bool.and_eq_true] at h2
        simp [mk, h2.1, addAll_isSet (k := []) (by simpa using h2.2)]
      | _ => simp [mk]
  | .map _ _ _, h => by
      simp only [proper, Bool.and_eq_true] at h
      simp [force, forceL_ordinary h.2, Except.map]
theorem forceL_ordinary : ∀ {vs : List (Val A)}, properL W true vs = true → forceL W vs = .ok vs
  | [], _ => rfl
  | v :: vs, h => by
      simp only [properL, Bool.and_eq_true] at h
      simp [forceL, force_ordinary h.1, forceL_ordinary h.2, Except.map]
end

/-! ## Lazy values and what they are forced to -/

theorem mk_inv {k : Kind} {xs : List (Val A)} {v : Val A} (h : mk W k xs = .ok v) :
    (k ≠ .set → k ≠ .frozenset → v = .seq k xs) ∧
    (k = .set ∨ k = .frozenset → v = .seq k (addAll W [] xs) ∧ hashableL W xs = true) := by
  cases k with
  | set => simp only [mk] at h; split at h <;> simp_all
  | frozenset => simp only [mk] at h; split at h <;> simp_all
  | _ => simp only [mk] at h; cases h; simp

mutual
theorem force_hashable : ∀ {l v : Val A}, force W l = .ok v → hashable W v = true → hashable W l = true
  | .atom a, v, h, hv => by simp [force] at h; subst h; exact hv
  | .promise _, _, _, _ => by simp [hashable]
  | .seq k xs, v, h, hv => by
      simp only [force] at h
      cases hf : forceL W xs with
      | error _ => simp [hf] at h
      | ok us =>
        simp only [hf] at h
        obtain ⟨h1, h2⟩ := mk_inv h
        cases k with
        | tuple =>
          rw [h1 (by simp) (by simp)] at hv; simp only [hashable] at hv ⊢; exact forceL_hashable hf hv
        | ll =>
          rw [h1 (by simp) (by simp)] at hv; simp only [hashable] at hv ⊢; exact forceL_hashable hf hv
        | frozenset => simp [hashable]
        | set => rw [(h2 (by simp)).1] at hv; simp [hashable] at hv
        | list => rw [h1 (by simp) (by simp)] at hv; simp [hashable] at hv
        | box => rw [h1 (by simp) (by simp)] at hv; simp [hashable] at hv
        | some => rw [h1 (by simp) (by simp)] at hv; simp [hashable] at hv
  | .map fz ks vs, v, h, hv => by
      simp only [force] at h
      obtain ⟨ws, h1, rfl⟩ := map_ok h
      cases fz with
      | true => simp only [hashable] at hv ⊢; exact forceL_hashable h1 hv
      | false => simp [hashable] at hv
theorem forceL_hashable : ∀ {ls vs : List (Val A)}, forceL W ls = .ok vs → hashableL W vs = true → hashableL W ls = true
  | [], _, _, _ => rfl
  | l :: ls, vs, h, hv => by
      obtain ⟨w, ws, rfl, h1, h2⟩ := forceL_cons_inv h
      simp only [hashableL, Bool.and_eq_true] at hv ⊢
      exact ⟨force_hashable h1 hv.1, forceL_hashable h2 hv.2⟩
end

theorem addAll_rel (hS : Sane W) : ∀ {ls us kept kept2 : List (Val A)}, forceL W ls = .ok us → properL W false ls = true →
    forceL W kept = .ok kept2 → properL W false kept = true →
    ∃ us', forceL W (addAll W kept ls) = .ok us' ∧ addAll W [] us' = addAll W (addAll W [] kept2) us ∧
      ∀ x ∈ us', x ∈ kept2 ∨ x ∈ us
  | [], us, kept, kept2, h, _, hk, _ => by
      simp [forceL] at h; subst h
      exact ⟨kept2, hk, rfl, fun x hx => .inl hx⟩
  | l :: ls, us, kept, kept2, h, hp, hk, hkp => by
      obtain ⟨u, ws, rfl, h1, h2⟩ := forceL_cons_inv h
      simp only [properL, Bool.and_eq_true] at hp
      simp only [addAll]
      by_cases ha : kept.any (W.eqv · l) = true
      · obtain ⟨y, hy, e⟩ := List.any_eq_true.mp ha
        obtain ⟨oy, ol⟩ := hS.promises e (properL_iff.mp hkp y hy) hp.1
        have hu : u = l := by have := force_ordinary ol; rw [this] at h1; cases h1; rfl
        subst hu
        have hy2 : y ∈ kept2 := by
          obtain ⟨z, hz, hzf⟩ := forceL_mem hk hy
          have := force_ordinary oy; rw [this] at hzf; cases hzf; exact hz
        have hdrop : (addAll W [] kept2).any (W.eqv · u) = true := by
          rcases addAll_covers (W := W) (k := []) hy2 with h | ⟨z, hz, ez⟩
          · exact List.any_eq_true.mpr ⟨y, h, e⟩
          · exact List.any_eq_true.mpr ⟨z, hz, hS.trans ez e⟩
        obtain ⟨us', a, b, c⟩ := addAll_rel hS h2 hp.2 hk hkp
        refine ⟨us', by simp only [ha, if_true]; exact a, by simp only [hdrop, if_true]; exact b, fun x hx => ?_⟩
        rcases c x hx with h | h
        · exact .inl h
        · exact .inr (by simp [h])
      · have hk' : forceL W (kept ++ [l]) = .ok (kept2 ++ [u]) := forceL_append hk (forceL_cons h1 rfl)
        obtain ⟨us', a, b, c⟩ := addAll_rel hS h2 hp.2 hk' (properL_iff.mpr fun x hx => by
          rcases List.mem_append.mp hx with h | h
          · exact properL_iff.mp hkp x h
          · simp at h; subst h; exact hp.1)
        refine ⟨us', by simp only [ha]; exact a, ?_, fun x hx => ?_⟩
        · rw [b, addAll_append]
          simp only [addAll]
          split <;> rfl
        · rcases c x hx with h | h
          · rcases List.mem_append.mp h with h | h
            · exact .inl h
            · exact .inr (by simp at h; simp [h])
          · exact .inr (by simp [h])

/-- A container made of lazy items is forced to what is made of their values. -/
theorem mk_rel (hS : Sane W) {k : Kind} {ls us xs : List (Val A)} {v : Val A} (hl : forceL W ls = .ok us)
    (hp : properL W false ls = true) (hx : (k = .set ∨ k = .frozenset) ∧ addAll W [] us = addAll W [] xs ∧
      (hashableL W xs = true → hashableL W us = true) ∨ us = xs) (h : mk W k xs = .ok v) :
    ∃ l, mk W k ls = .ok l ∧ force W l = .ok v := by
  obtain ⟨h1, h2⟩ := mk_inv h
  by_cases hk : k = .set ∨ k = .frozenset
  · obtain ⟨rfl, hh⟩ := h2 hk
    have hx' : addAll W [] us = addAll W [] xs ∧ hashableL W us = true := by
      rcases hx with ⟨_, e, he⟩ | rfl
      · exact ⟨e, he hh⟩
      · exact ⟨rfl, hh⟩
    have hlh := forceL_hashable hl hx'.2
    obtain ⟨us', a, b, c⟩ := addAll_rel hS hl hp (kept := []) (kept2 := []) rfl rfl
    have hh' : hashableL W us' = true := hashableL_iff.mpr fun x hxx => by
      rcases c x hxx with h | h
      · simp at h
      · exact hashableL_iff.mp hx'.2 x h
    have e : addAll W [] us' = addAll W [] xs := by rw [b]; simp only [addAll]; exact hx'.1
    refine ⟨.seq k (addAll W [] ls), ?_, ?_⟩
    · rcases hk with rfl | rfl <;> simp [mk, hlh]
    · rcases hk with rfl | rfl <;> simp [force, a, mk, hh', e]
  · have hk1 : k ≠ .set := fun e => hk (.inl e)
    have hk2 : k ≠ .frozenset := fun e => hk (.inr e)
    have e : us = xs := by
      rcases hx with ⟨h, _⟩ | h
      · exact absurd h hk
      · exact h
    subst e
    have hm : ∀ ys : List (Val A), mk W k ys = .ok (.seq k ys) := by
      intro ys; cases k <;> simp_all [mk]
    exact ⟨.seq k ls, hm ls, by simp [force, hl, hm, h1 hk1 hk2]⟩

/-- The keys are the same, and the values are forced to those. -/
def DR (W : World A) (d' d : List (Val A) × List (Val A)) : Prop := d'.1 = d.1 ∧ forceL W d'.2 = .ok d.2

theorem put_rel {ks vs' vs : List (Val A)} {k l v : Val A} (h : forceL W vs' = .ok vs) (hv : force W l = .ok v) :
    DR W (put W ks vs' k l) (put W ks vs k v) := by
  induction ks generalizing vs' vs with
  | nil => exact ⟨rfl, by simp [put, forceL, hv, Except.map]⟩
  | cons k' ks ih =>
    cases vs' with
    | nil => simp [forceL] at h; subst h; exact ⟨rfl, by simp [put, forceL, hv, Except.map]⟩
    | cons l' vs' =>
      obtain ⟨w, ws, rfl, h1, h2⟩ := forceL_cons_inv h
      simp only [put]
      split
      · exact ⟨rfl, forceL_cons hv h2⟩
      · obtain ⟨a, b⟩ := ih h2
        exact ⟨by simp only [a], forceL_cons h1 b⟩

theorem putAll_rel {d' d : List (Val A) × List (Val A)} {ks vs' vs : List (Val A)} (hd : DR W d' d) (h : forceL W vs' = .ok vs) :
    DR W (putAll W d' ks vs') (putAll W d ks vs) := by
  induction ks generalizing d' d vs' vs with
  | nil => simpa [putAll] using hd
  | cons k ks ih =>
    cases vs' with
    | nil => simp [forceL] at h; subst h; simpa [putAll] using hd
    | cons l vs' =>
      obtain ⟨w, ws, rfl, h1, h2⟩ := forceL_cons_inv h
      simp only [putAll]
      obtain ⟨d1, d2⟩ := d'; obtain ⟨e1, e2⟩ := d
      obtain ⟨rfl, hd2⟩ := hd
      exact ih (put_rel hd2 h1) h2

theorem putPairs_rel {d' d r : List (Val A) × List (Val A)} {ps : List (Val A)} (hd : DR W d' d) (hp : properL W true ps = true)
    (h : putPairs W d ps = .ok r) : ∃ r', putPairs W d' ps = .ok r' ∧ DR W r' r := by
  induction ps generalizing d' d with
  | nil => simp [putPairs] at h; subst h; exact ⟨d', rfl, hd⟩
  | cons p ps ih =>
    simp only [properL, Bool.and_eq_true] at hp
    simp only [putPairs] at h ⊢
    cases hi : iter W p with
    | error _ => simp [hi] at h
    | ok xs =>
      have hx := iter_proper hp.1 hi
      simp only [hi] at h
      split at h
      · cases ‹Except.ok _ = Except.error _›
      · rename_i k v e
        cases e
        simp only [properL, Bool.and_eq_true] at hx
        split at h
        · rename_i hh
          obtain ⟨d1, d2⟩ := d'; obtain ⟨e1, e2⟩ := d
          obtain ⟨rfl, hd2⟩ := hd
          simp only [hh, if_true]
          exact ih (put_rel hd2 (force_ordinary hx.2.1)) hp.2 h
        · cases h
      · cases h

/-- An ordinary value that stays as it is, or a mapping with lazy values. -/
def UR (W : World A) (l v : Val A) : Prop :=
  (l = v ∧ proper W true v = true) ∨ ∃ fz ks ls vs, l = .map fz ks ls ∧ v = .map fz ks vs ∧ forceL W ls = .ok vs

theorem update_rel {d' d r : List (Val A) × List (Val A)} {l v : Val A} (hd : DR W d' d) (hu : UR W l v)
    (h : update W d v = .ok r) : ∃ r', update W d' l = .ok r' ∧ DR W r' r := by
  rcases hu with ⟨rfl, hp⟩ | ⟨fz, ks, ls, vs, rfl, rfl, hf⟩
  · have key : ∀ xs, iter W l = .ok xs → putPairs W d xs = .ok r → ∃ r', putPairs W d' xs = .ok r' ∧ DR W r' r :=
      fun xs hi h => putPairs_rel hd (iter_proper hp hi) h
    cases l with
    | map fz ks vs =>
      simp only [update] at h ⊢; cases h
      simp only [proper, Bool.and_eq_true] at hp
      exact ⟨_, rfl, putAll_rel hd (forceL_ordinary hp.2)⟩
    | _ =>
      simp only [update] at h ⊢
      split at h
      · cases h
      · rename_i hi; first | (simp only [hi]; exact key _ hi h) | exact key _ hi h
  · simp only [update] at h ⊢; cases h
    exact ⟨_, rfl, putAll_rel hd hf⟩

/-- item by item -/
def URL (W : World A) : List (Val A) → List (Val A) → Prop
  | [], [] => True
  | l :: ls, v :: vs => UR W l v ∧ URL W ls vs
  | _, _ => False

theorem URL_length : ∀ {ls vs : List (Val A)}, URL W ls vs → ls.length = vs.length
  | [], [], _ => rfl
  | _ :: _, _ :: _, h => by simp [URL_length h.2]
  | [], _ :: _, h => by simp [URL] at h
  | _ :: _, [], h => by simp [URL] at h

theorem updates_rel : ∀ {ls vs : List (Val A)} {d' d r : List (Val A) × List (Val A)}, DR W d' d → URL W ls vs →
    updates W d vs = .ok r → ∃ r', updates W d' ls = .ok r' ∧ DR W r' r
  | [], [], d', d, r, hd, _, h => by simp [updates] at h; subst h; exact ⟨d', rfl, hd⟩
  | l :: ls, v :: vs, d', d, r, hd, hu, h => by
      simp only [updates] at h ⊢
      cases he : update W d v with
      | error _ => simp [he] at h
      | ok d2 =>
        simp only [he] at h
        obtain ⟨d2', a, b⟩ := update_rel hd hu.1 he
        simp only [a]
        exact updates_rel b hu.2 h
  | [], _ :: _, _, _, _, _, h, _ => by simp [URL] at h
  | _ :: _, [], _, _, _, _, h, _ => by simp [URL] at h

/-! ## The kinds of literals -/

theorem construct_isMap {c : Ctor} (hc : c = .dict ∨ c = .frozendict) {args : List (Val A)} {ns : List String} {vs : List (Val A)} {v : Val A}
    (h : construct W c args ns vs = .ok v) : ∃ fz ks vs, v = .map fz ks vs := by
  rcases hc with rfl | rfl
  · simp only [construct] at h
    split at h
    · cases h
    · obtain ⟨d, _, rfl⟩ := map_ok h; exact ⟨_, _, _, rfl⟩
  · simp only [construct] at h
    obtain ⟨d, _, rfl⟩ := map_ok h; exact ⟨_, _, _, rfl⟩

theorem call_inv {c : Ctor} {args : Items} {kws : Kws} {v : Val A} (h : eval W (.call c args kws) = .ok v) :
    ∃ xs ns vs, evalItems W args = .ok xs ∧ evalKws W kws = .ok (ns, vs) ∧ ns.Nodup ∧ construct W c xs ns vs = .ok v := by
  simp only [eval] at h
  cases hi : evalItems W args with
  | error _ => simp [hi] at h
  | ok xs =>
    simp only [hi] at h
    cases hk : evalKws W kws with
    | error _ => simp [hk] at h
    | ok p =>
      obtain ⟨ns, vs⟩ := p
      simp only [hk] at h
      split at h
      · rename_i hn; exact ⟨xs, ns, vs, rfl, rfl, hn, h⟩
      · cases h

theorem eval_isMap {e : Ex} {v : Val A} (he : isMapLit e = true) (h : eval W e = .ok v) : ∃ fz ks vs, v = .map fz ks vs := by
  cases e with
  | dict es =>
    simp only [eval] at h
    split at h
    · cases h
    · cases h; exact ⟨_, _, _, rfl⟩
  | call c args kws =>
    obtain ⟨xs, ns, vs, _, _, _, hc⟩ := call_inv h
    cases c with
    | dict => exact construct_isMap (.inl rfl) hc
    | frozendict => exact construct_isMap (.inr rfl) hc
    | _ => simp [isMapLit] at he
  | _ => simp [isMapLit] at he

/-- A container, which is a set only if so written. -/
def Contains (s : Bool) (v : Val A) : Prop :=
  (∃ k xs, v = .seq k xs ∧ (k = .set ∨ k = .frozenset → s = true)) ∨ ∃ fz ks vs, v = .map fz ks vs

theorem construct_one {c : Ctor} {k : Kind} {args : List (Val A)} {ns : List String} {v : Val A}
    (h : (if ns.isEmpty then
      match args with
      | [] => if c = .llist then .error .TypeError else mk W k []
      | [v] => match iter W v with
        | .error x => .error x
        | .ok xs => mk W k xs
      | _ => .error .TypeError
    else .error .TypeError : Res (Val A)) = .ok v) : ∃ xs, mk W k xs = .ok v := by
  split at h
  · split at h
    · split at h
      · cases h
      · exact ⟨_, h⟩
    · split at h
      · cases h
      · exact ⟨_, h⟩
    · cases h
  · cases h

theorem mk_kind {k : Kind} {xs : List (Val A)} {v : Val A} (h : mk W k xs = .ok v) : ∃ ys, v = .seq k ys := by
  by_cases hk : k = .set ∨ k = .frozenset
  · exact ⟨_, ((mk_inv h).2 hk).1⟩
  · exact ⟨_, (mk_inv h).1 (fun e => hk (.inl e)) (fun e => hk (.inr e))⟩

theorem construct_boxed {k : Kind} {args : List (Val A)} {ns : List String} {vs : List (Val A)} {v : Val A}
    (h : (match args, ns, vs with
    | [], [], _ => .ok (.seq k [.atom W.none])
    | [v], [], _ => .ok (.seq k [v])
    | [], [x], [v] => if x = "x" then .ok (.seq k [v]) else .error .TypeError
    | _, _, _ => .error .TypeError : Res (Val A)) = .ok v) : ∃ ys, v = .seq k ys := by
  split at h
  · cases h; exact ⟨_, rfl⟩
  · cases h; exact ⟨_, rfl⟩
  · split at h
    · cases h; exact ⟨_, rfl⟩
    · cases h
  · cases h

theorem eval_contains {e : Ex} {v : Val A} (he : isLit e = true) (h : eval W e = .ok v) : Contains (isSetLit e) v := by
  cases e with
  | atom _ => simp [isLit] at he
  | lazy _ => simp [isLit] at he
  | dict es => exact .inr (eval_isMap rfl h)
  | lit k items =>
    simp only [eval] at h
    split at h
    · cases h
    · obtain ⟨ys, rfl⟩ := mk_kind h
      refine .inl ⟨_, ys, rfl, ?_⟩
      cases k <;> simp [isSetLit]
  | call c args kws =>
    obtain ⟨xs, ns, vs, _, _, _, hc⟩ := call_inv h
    cases c with
    | dict => exact .inr (construct_isMap (.inl rfl) hc)
    | frozendict => exact .inr (construct_isMap (.inr rfl) hc)
    | list => obtain ⟨_, h'⟩ := construct_one hc; obtain ⟨ys, rfl⟩ := mk_kind h'; exact .inl ⟨_, ys, rfl, by simp⟩
    | tuple => obtain ⟨_, h'⟩ := construct_one hc; obtain ⟨ys, rfl⟩ := mk_kind h'; exact .inl ⟨_, ys, rfl, by simp⟩
    | llist => obtain ⟨_, h'⟩ := construct_one hc; obtain ⟨ys, rfl⟩ := mk_kind h'; exact .inl ⟨_, ys, rfl, by simp⟩
    | set => obtain ⟨_, h'⟩ := construct_one hc; obtain ⟨ys, rfl⟩ := mk_kind h'; exact .inl ⟨_, ys, rfl, by simp [isSetLit]⟩
    | frozenset => obtain ⟨_, h'⟩ := construct_one hc; obtain ⟨ys, rfl⟩ := mk_kind h'; exact .inl ⟨_, ys, rfl, by simp [isSetLit]⟩
    | box => obtain ⟨ys, rfl⟩ := construct_boxed hc; exact .inl ⟨_, ys, rfl, by simp⟩
    | some => obtain ⟨ys, rfl⟩ := construct_boxed hc; exact .inl ⟨_, ys, rfl, by simp⟩
    | ll =>
      simp only [construct] at hc
      split at hc
      · cases hc; exact .inl ⟨_, _, rfl, by simp⟩
      · cases hc

theorem lazyrec_kind {e e' : Ex} (he : isLit e = true) (h : lazyrec e = .ok e') :
    isLit e' = true ∧ isSetLit e' = isSetLit e ∧ isMapLit e' = isMapLit e := by
  cases e with
  | atom _ => simp [isLit] at he
  | lazy _ => simp [isLit] at he
  | dict es => simp only [lazyrec] at h; obtain ⟨_, _, rfl⟩ := map_ok h; exact ⟨rfl, rfl, rfl⟩
  | lit k items =>
    simp only [lazyrec] at h; obtain ⟨_, _, rfl⟩ := map_ok h; cases k <;> exact ⟨rfl, rfl, rfl⟩
  | call c args kws =>
    simp only [lazyrec] at h
    split at h
    · cases h
    · split at h
      · cases h
      · obtain ⟨_, _, rfl⟩ := map_ok h; cases c <;> exact ⟨rfl, rfl, rfl⟩

/-- Iterating over a lazy container. -/
theorem iter_rel {l v : Val A} {s : Bool} {xs : List (Val A)} (hl : force W l = .ok v) (hc : Contains s l) (hv : proper W true v = true)
    (hi : iter W v = .ok xs) : ∃ ys us, iter W l = .ok ys ∧ forceL W ys = .ok us ∧ (s = false → us = xs) ∧
      addAll W [] us = addAll W [] xs ∧ (hashableL W xs = true → hashableL W us = true) := by
  rcases hc with ⟨k, ls, rfl, hk⟩ | ⟨fz, ks, ls, rfl⟩
  · simp only [force] at hl
    cases hf : forceL W ls with
    | error _ => simp [hf] at hl
    | ok us =>
      simp only [hf] at hl
      obtain ⟨h1, h2⟩ := mk_inv hl
      by_cases hk' : k = .set ∨ k = .frozenset
      · obtain ⟨rfl, hh⟩ := h2 hk'
        simp only [iter] at hi; cases hi
        refine ⟨ls, us, rfl, hf, (fun e => by rw [hk hk'] at e; cases e), ?_, fun _ => hh⟩
        exact (addAll_isSet (k := []) (by simpa using isSet_addAll (k := ([] : List (Val A))) rfl)).symm
      · have := h1 (fun e => hk' (.inl e)) (fun e => hk' (.inr e))
        subst this
        simp only [iter] at hi; cases hi
        exact ⟨ls, _, rfl, hf, fun _ => rfl, rfl, id⟩
  · simp only [force] at hl
    obtain ⟨ws, h1, rfl⟩ := map_ok hl
    simp only [iter] at hi; cases hi
    simp only [proper, Bool.and_eq_true] at hv
    exact ⟨_, _, rfl, forceL_ordinary hv.1, fun _ => rfl, rfl, id⟩

mutual
theorem fine_noLazy : ∀ (e : Ex), fine e = true → noLazy e = true
  | .atom _, _ => rfl
  | .lit k is, h => by simp only [fine] at h; simp only [noLazy]; exact fineElts_noLazy is h
  | .dict es, h => by simp only [fine] at h; simp only [noLazy]; exact fineE_noLazy es h
  | .lazy _, h => by simp [fine] at h
  | .call c args kws, h => by
      simp only [fine, Bool.and_eq_true] at h
      simp only [noLazy, Bool.and_eq_true]
      refine ⟨?_, fineK_noLazy kws h.2⟩
      have h1 := h.1
      cases c with
      | dict => simp only [Bool.and_eq_true] at h1; exact fineMaps_noLazy args h1.2
      | frozendict => exact fineMaps_noLazy args h1
      | list => exact fineOne_noLazy _ args h1
      | tuple => exact fineOne_noLazy _ args h1
      | llist => exact fineOne_noLazy _ args h1
      | set => exact fineOne_noLazy _ args h1
      | frozenset => exact fineOne_noLazy _ args h1
      | box => exact fineItems_noLazy args h1
      | some => exact fineItems_noLazy args h1
      | ll => exact fineItems_noLazy args h1
theorem fineElts_noLazy : ∀ (is : Items), fineElts is = true → noLazyI is = true
  | .nil, _ => rfl
  | .item e r, h => by
      simp only [fineElts, Bool.and_eq_true] at h; simp [noLazyI, fine_noLazy e h.1, fineElts_noLazy r h.2]
  | .star _ _, h => by simp [fineElts] at h
theorem fineE_noLazy : ∀ (es : Entries), fineE es = true → noLazyE es = true
  | .nil, _ => rfl
  | .kv k v r, h => by
      simp only [fineE, Bool.and_eq_true] at h; simp [noLazyE, h.1.1, fine_noLazy v h.1.2, fineE_noLazy r h.2]
  | .dstar e r, h => by
      simp only [fineE, Bool.and_eq_true] at h; simp [noLazyE, fine_noLazy e h.1.2, fineE_noLazy r h.2]
theorem fineMaps_noLazy : ∀ (is : Items), fineMaps is = true → noLazyI is = true
  | .nil, _ => rfl
  | .item e r, h => by
      simp only [fineMaps, Bool.and_eq_true] at h; simp [noLazyI, fine_noLazy e h.1.2, fineMaps_noLazy r h.2]
  | .star _ _, h => by simp [fineMaps] at h
theorem fineOne_noLazy : ∀ (s : Bool) (is : Items), fineOne s is = true → noLazyI is = true
  | _, .nil, _ => rfl
  | s, .item e .nil, h => by
      simp only [fineOne, Bool.and_eq_true] at h; simp [noLazyI, fine_noLazy e h.1]
  | _, .item e (.item _ _), h => by simp [fineOne] at h
  | _, .item e (.star _ _), h => by simp [fineOne] at h
  | _, .star _ _, h => by simp [fineOne] at h
theorem fineItems_noLazy : ∀ (is : Items), fineItems is = true → noLazyI is = true
  | .nil, _ => rfl
  | .item e r, h => by
      simp only [fineItems, Bool.and_eq_true] at h; simp [noLazyI, fine_noLazy e h.1, fineItems_noLazy r h.2]
  | .star e r, h => by
      simp only [fineItems, Bool.and_eq_true] at h; simp [noLazyI, fine_noLazy e h.1.1, fineItems_noLazy r h.2]
theorem fineK_noLazy : ∀ (ks : Kws), fineK ks = true → noLazyK ks = true
  | .nil, _ => rfl
  | .kw x e r, h => by
      simp only [fineK, Bool.and_eq_true] at h; simp [noLazyK, fine_noLazy e h.1, fineK_noLazy r h.2]
  | .dstar e r, h => by
      simp only [fineK, Bool.and_eq_true] at h; simp [noLazyK, fine_noLazy e h.1.2, fineK_noLazy r h.2]
end

/-! ## Constructors -/

/-- `tuple`, `list`, `set`, `frozenset`, `llist` -/
def oneOf (W : World A) (c : Ctor) (k : Kind) (args : List (Val A)) (ns : List String) : Res (Val A) :=
  if ns.isEmpty then
    match args with
    | [] => if c = .llist then .error .TypeError else mk W k []
    | [v] => match iter W v with
      | .error x => .error x
      | .ok xs => mk W k xs
    | _ => .error .TypeError
  else .error .TypeError

/-- `box`, `Some` -/
def boxOf (W : World A) (k : Kind) (args : List (Val A)) (ns : List String) (vs : List (Val A)) : Res (Val A) :=
  match args, ns, vs with
  | [], [], _ => .ok (.seq k [.atom W.none])
  | [v], [], _ => .ok (.seq k [v])
  | [], [x], [v] => if x = "x" then .ok (.seq k [v]) else .error .TypeError
  | _, _, _ => .error .TypeError

/-- An argument that is iterated over. -/
def IterRel (W : World A) (s : Bool) (l v : Val A) : Prop :=
  ∀ xs, iter W v = .ok xs → ∃ ys us, iter W l = .ok ys ∧ properL W false ys = true ∧ forceL W ys = .ok us ∧ (s = false → us = xs) ∧
    addAll W [] us = addAll W [] xs ∧ (hashableL W xs = true → hashableL W us = true)

/-- At most one such argument. -/
def OneRel (W : World A) (s : Bool) (ls xs : List (Val A)) : Prop :=
  (ls = [] ∧ xs = []) ∨ ∃ l v, ls = [l] ∧ xs = [v] ∧ IterRel W s l v

theorem oneOf_rel (hS : Sane W) {c : Ctor} {k : Kind} {s : Bool} {ls xs : List (Val A)} {ns : List String} {v : Val A}
    (hk : s = true → k = .set ∨ k = .frozenset) (hr : OneRel W s ls xs) (h : oneOf W c k xs ns = .ok v) :
    ∃ l, oneOf W c k ls ns = .ok l ∧ force W l = .ok v := by
  unfold oneOf at h ⊢
  split at h
  · rename_i hn
    simp only [hn, if_true]
    rcases hr with ⟨rfl, rfl⟩ | ⟨l, w, rfl, rfl, hi⟩
    · by_cases hc : c = .llist
      · simp [hc] at h
      · simp only [hc, if_false] at h ⊢
        exact mk_rel hS rfl rfl (.inr rfl) h
    · simp only at h ⊢
      cases hw : iter W w with
      | error _ => simp [hw] at h
      | ok ys =>
        simp only [hw] at h
        obtain ⟨zs, us, a, b, c1, d, e, f⟩ := hi ys hw
        simp only [a]
        refine mk_rel hS c1 b ?_ h
        cases s with
        | false => exact .inr (d rfl)
        | true => exact .inl ⟨hk rfl, e, f⟩
  · cases h

theorem mk_boxed {k : Kind} (hk : k = .box ∨ k = .some) (xs : List (Val A)) : mk W k xs = .ok (.seq k xs) := by
  rcases hk with rfl | rfl <;> rfl

theorem boxOf_rel {k : Kind} (hk : k = .box ∨ k = .some) {ls xs ms vs : List (Val A)} {ns : List String} {v : Val A}
    (hl : forceL W ls = .ok xs) (hm : forceL W ms = .ok vs) (h : boxOf W k xs ns vs = .ok v) :
    ∃ l, boxOf W k ls ns ms = .ok l ∧ force W l = .ok v := by
  have nil : ∀ {ys : List (Val A)}, forceL W ys = .ok [] → ys = [] := by
    intro ys h
    cases ys with
    | nil => rfl
    | cons y ys => obtain ⟨_, _, h, _⟩ := forceL_cons_inv h; cases h
  have one : ∀ {ys : List (Val A)} {u : Val A}, forceL W ys = .ok [u] → ∃ y, ys = [y] ∧ force W y = .ok u := by
    intro ys u h
    cases ys with
    | nil => simp [forceL] at h
    | cons y ys =>
      obtain ⟨w, ws, e, h1, h2⟩ := forceL_cons_inv h
      simp at e; obtain ⟨rfl, rfl⟩ := e
      exact ⟨y, by rw [nil h2], h1⟩
  unfold boxOf at h
  split at h
  · cases h; rw [nil hl]; exact ⟨_, rfl, by simp [force, forceL, Except.map, mk_boxed hk]⟩
  · cases h
    obtain ⟨y, rfl, hy⟩ := one hl
    exact ⟨_, rfl, by simp [force, forceL, hy, Except.map, mk_boxed hk]⟩
  · split at h
    · rename_i hx
      cases h
      rw [nil hl]
      obtain ⟨y, rfl, hy⟩ := one hm
      exact ⟨.seq k [y], by simp [boxOf, hx], by simp [force, forceL, hy, Except.map, mk_boxed hk]⟩
    · cases h
  · cases h

theorem dictOf_rel {fz : Bool} {ls xs ms vs : List (Val A)} {ns : List String} {v : Val A}
    (hl : URL W ls xs) (hm : forceL W ms = .ok vs)
    (h : ((updates W ([], []) xs).map fun d =>
      let d' := putAll W d (ns.map fun x => Val.atom (W.str x)) vs; Val.map fz d'.1 d'.2) = .ok v) :
    ∃ l, ((updates W ([], []) ls).map fun d =>
      let d' := putAll W d (ns.map fun x => Val.atom (W.str x)) ms; Val.map fz d'.1 d'.2) = .ok l ∧ force W l = .ok v := by
  obtain ⟨d, h1, rfl⟩ := map_ok h
  obtain ⟨d', a, b⟩ := updates_rel (d' := ([], [])) ⟨rfl, rfl⟩ hl h1
  obtain ⟨c1, c2⟩ := putAll_rel (ks := ns.map fun x => Val.atom (W.str x)) b hm
  simp only [a]
  exact ⟨_, rfl, by simp only [force, c1, c2, Except.map]⟩

theorem isContainer_eq (e : Ex) : isContainer e = isLit e := by cases e <;> rfl

/-! ## The main theorem -/

/-- What is claimed of an expression. -/
def MClaim (W : World A) (e : Ex) (v : Val A) : Prop := ∃ e' l, lazyrec e = .ok e' ∧ eval W e' = .ok l ∧ force W l = .ok v

theorem eval_false (hS : Sane W) {e : Ex} {v : Val A} (h : eval W e = .ok v) : proper W false v = true :=
  eval_proper false (fun _ _ h => proper_mono (hS.values h)) e (by simp) h

theorem evalItems_false (hS : Sane W) {is : Items} {vs : List (Val A)} (h : evalItems W is = .ok vs) : properL W false vs = true :=
  evalItems_proper false (fun _ _ h => proper_mono (hS.values h)) is (by simp) h

theorem eval_true (hS : Sane W) {e : Ex} {v : Val A} (hf : fine e = true) (h : eval W e = .ok v) : proper W true v = true :=
  eval_proper true (fun _ _ h => hS.values h) e (fun _ => fine_noLazy e hf) h

/-- An argument that is lazified only if it is a literal. -/
theorem arg_iter (hS : Sane W) {e : Ex} {v : Val A} (hf : fine e = true) (hv : eval W e = .ok v) (hM : MClaim W e v) :
    ∃ e' l, (if isLit e then lazyrec e else .ok e) = .ok e' ∧ eval W e' = .ok l ∧ IterRel W (isSetLit e) l v := by
  by_cases hl : isLit e = true
  · obtain ⟨e', l, a, b, c⟩ := hM
    refine ⟨e', l, by simp [hl, a], b, fun xs hx => ?_⟩
    obtain ⟨k1, k2, _⟩ := lazyrec_kind hl a
    have hc := eval_contains k1 b
    rw [k2] at hc
    obtain ⟨ys, us, h1, h2, h3, h4, h5⟩ := iter_rel c hc (eval_true hS hf hv) hx
    exact ⟨ys, us, h1, iter_proper (eval_false hS b) h1, h2, h3, h4, h5⟩
  · refine ⟨e, v, by simp [hl], hv, fun xs hx => ⟨xs, xs, hx, iter_proper (eval_false hS hv) hx, ?_, fun _ => rfl, rfl, id⟩⟩
    exact forceL_ordinary (iter_proper (eval_true hS hf hv) hx)

/-- An argument that is a mapping, lazified only if it is a literal. -/
theorem arg_map (hS : Sane W) {e : Ex} {v : Val A} (hf : fine e = true) (hm : isContainer e = false ∨ isMapping e = true)
    (hv : eval W e = .ok v) (hM : MClaim W e v) :
    ∃ e' l, (if isLit e then lazyrec e else .ok e) = .ok e' ∧ (if isMapLit e then lazyrec e else .ok e) = .ok e' ∧
      eval W e' = .ok l ∧ UR W l v := by
  rcases hm with hm | hm
  · have h1 : isLit e = false := by rw [← isContainer_eq]; exact hm
    have h2 : isMapLit e = false := by
      cases e with
      | atom _ => rfl
      | lazy _ => rfl
      | _ => simp [isContainer] at hm
    exact ⟨e, v, by simp [h1], by simp [h2], hv, .inl ⟨rfl, eval_true hS hf hv⟩⟩
  · rw [isMapping_eq] at hm
    have h1 : isLit e = true := by
      cases e with
      | atom _ => simp [isMapLit] at hm
      | lazy _ => simp [isMapLit] at hm
      | _ => rfl
    obtain ⟨e', l, a, b, c⟩ := hM
    refine ⟨e', l, by simp [h1, a], by simp [hm, a], b, .inr ?_⟩
    obtain ⟨fz, ks, ls, rfl⟩ := eval_isMap (by rw [(lazyrec_kind h1 a).2.2]; exact hm) b
    simp only [force] at c
    obtain ⟨vs, h2, rfl⟩ := map_ok c
    exact ⟨fz, ks, ls, vs, rfl, rfl, h2⟩

theorem evalItems_item {e : Ex} {r : Items} {vs : List (Val A)} (h : evalItems W (.item e r) = .ok vs) :
    ∃ v ws, eval W e = .ok v ∧ evalItems W r = .ok ws ∧ vs = v :: ws := by
  simp only [evalItems] at h
  cases hv : eval W e with
  | error _ => simp [hv] at h
  | ok v => simp only [hv] at h; obtain ⟨ws, a, rfl⟩ := map_ok h; exact ⟨v, ws, rfl, a, rfl⟩

theorem evalItems_star {e : Ex} {r : Items} {vs : List (Val A)} (h : evalItems W (.star e r) = .ok vs) :
    ∃ v xs ws, eval W e = .ok v ∧ iter W v = .ok xs ∧ evalItems W r = .ok ws ∧ vs = xs ++ ws := by
  simp only [evalItems] at h
  cases hv : eval W e with
  | error _ => simp [hv] at h
  | ok v =>
    simp only [hv] at h
    cases hi : iter W v with
    | error _ => simp [hi] at h
    | ok xs => simp only [hi] at h; obtain ⟨ws, a, rfl⟩ := map_ok h; exact ⟨v, xs, ws, rfl, hi, a, rfl⟩

mutual
theorem main_rel (hS : Sane W) : ∀ (e : Ex) {v : Val A}, fine e = true → eval W e = .ok v → MClaim W e v
  | .atom i, v, _, h => ⟨_, _, rfl, rfl, h⟩
  | .lazy _, _, hf, _ => by simp [fine] at hf
  | .lit k is, v, hf, h => by
      simp only [fine] at hf
      simp only [eval] at h
      cases hi : evalItems W is with
      | error _ => simp [hi] at h
      | ok xs =>
        simp only [hi] at h
        obtain ⟨is', ls, a, b, c⟩ := elts_rel hS is hf hi
        obtain ⟨l, d, e⟩ := mk_rel hS c (evalItems_false hS b) (.inr rfl) h
        exact ⟨.lit k is', l, by simp [lazyrec, a, Except.map], by simp only [eval, b, d], e⟩
  | .dict es, v, hf, h => by
      simp only [fine] at hf
      simp only [eval] at h
      cases hi : evalEntries W ([], []) es with
      | error _ => simp [hi] at h
      | ok d =>
        simp only [hi] at h; cases h
        obtain ⟨es', d', a, b, c⟩ := entries_rel hS es hf (d' := ([], [])) ⟨rfl, rfl⟩ hi
        exact ⟨.dict es', .map false d'.1 d'.2, by simp [lazyrec, a, Except.map], by simp only [eval, b],
          by simp only [force, c.1, c.2, Except.map]⟩
  | .call c args kws, v, hf, h => by
      obtain ⟨xs, ns, vs, h1, h2, hn, hc⟩ := call_inv h
      simp only [fine, Bool.and_eq_true] at hf
      obtain ⟨hf1, hf2⟩ := hf
      obtain ⟨kws', ms, k1, k2, k3⟩ := kws_rel hS kws hf2 h2
      have fin : ∀ args' ls l, (takesOne c && decide (args.length > 1)) = false → recArgs (allMode c) args = .ok args' →
          evalItems W args' = .ok ls → construct W c ls ns ms = .ok l → force W l = .ok v → MClaim W (.call c args kws) v := by
        intro args' ls l a1 a2 a3 a4 a5
        refine ⟨.call c args' kws', l, ?_, ?_, a5⟩
        · simp only [lazyrec, a1, a2, k1, Except.map]; rfl
        · simp only [eval, a3, k2, hn, if_true, a4]
      have one : ∀ s k, allMode c = false → (s = true → k = .set ∨ k = .frozenset) → fineOne s args = true →
          (∀ as : List (Val A), ∀ ms, construct W c as ns ms = oneOf W c k as ns) → MClaim W (.call c args kws) v := by
        intro s k hm hk hfo he
        obtain ⟨args', ls, a, b, r, len⟩ := one_rel hS s args hfo h1
        rw [he] at hc
        obtain ⟨l, p, q⟩ := oneOf_rel hS hk r hc
        exact fin args' ls l (by simp [Nat.not_lt.mpr len]) (by rw [hm]; exact a) b (by rw [he]; exact p) q
      have boxed : ∀ k, (k = .box ∨ k = .some) → takesOne c = false → allMode c = true → fineItems args = true →
          (∀ as ms : List (Val A), construct W c as ns ms = boxOf W k as ns ms) → MClaim W (.call c args kws) v := by
        intro k hk ht hm hfo he
        obtain ⟨args', ls, a, b, r⟩ := items_rel hS args hfo h1
        rw [he] at hc
        obtain ⟨l, p, q⟩ := boxOf_rel hk r k3 hc
        exact fin args' ls l (by simp [ht]) (by rw [hm]; exact a) b (by rw [he]; exact p) q
      cases c with
      | list => exact one false .list rfl (by simp) hf1 (fun _ _ => rfl)
      | tuple => exact one false .tuple rfl (by simp) hf1 (fun _ _ => rfl)
      | llist => exact one false .ll rfl (by simp) hf1 (fun _ _ => rfl)
      | set => exact one true .set rfl (by simp) hf1 (fun _ _ => rfl)
      | frozenset => exact one true .frozenset rfl (by simp) hf1 (fun _ _ => rfl)
      | box => exact boxed .box (.inl rfl) rfl rfl hf1 (fun _ _ => rfl)
      | some => exact boxed .some (.inr rfl) rfl rfl hf1 (fun _ _ => rfl)
      | ll =>
        obtain ⟨args', ls, a, b, r⟩ := items_rel hS args hf1 h1
        simp only [construct] at hc
        split at hc
        · rename_i he
          cases hc
          exact fin args' ls (.seq .ll ls) rfl a b (by simp only [construct, he, if_true]) (by simp [force, r, mk])
        · cases hc
      | dict =>
        simp only [Bool.and_eq_true, decide_eq_true_eq] at hf1
        obtain ⟨args', ls, a, b, r⟩ := maps_rel hS args hf1.2 h1
        simp only [construct] at hc
        split at hc
        · cases hc
        · rename_i hlen
          obtain ⟨l, p, q⟩ := dictOf_rel r k3 hc
          refine fin args' ls l (by simp; exact fun _ => hf1.1) a b ?_ q
          simp only [construct, URL_length r, hlen, if_false]
          exact p
      | frozendict =>
        obtain ⟨args', ls, a, b, r⟩ := maps_rel hS args hf1 h1
        simp only [construct] at hc
        obtain ⟨l, p, q⟩ := dictOf_rel r k3 hc
        exact fin args' ls l rfl a b (by simp only [construct]; exact p) q
theorem elts_rel (hS : Sane W) : ∀ (is : Items) {vs : List (Val A)}, fineElts is = true → evalItems W is = .ok vs →
    ∃ is' ls, recElts is = .ok is' ∧ evalItems W is' = .ok ls ∧ forceL W ls = .ok vs
  | .nil, vs, _, h => by simp [evalItems] at h; subst h; exact ⟨.nil, [], rfl, rfl, rfl⟩
  | .item e r, vs, hf, h => by
      simp only [fineElts, Bool.and_eq_true] at hf
      obtain ⟨v, ws, h1, h2, rfl⟩ := evalItems_item h
      obtain ⟨e', l, a, b, c⟩ := main_rel hS e hf.1 h1
      obtain ⟨r', ls, a2, b2, c2⟩ := elts_rel hS r hf.2 h2
      exact ⟨.item e' r', l :: ls, by simp [recElts, a, a2, Except.map], by simp [evalItems, b, b2, Except.map], forceL_cons c c2⟩
  | .star _ _, _, hf, _ => by simp [fineElts] at hf
theorem items_rel (hS : Sane W) : ∀ (is : Items) {vs : List (Val A)}, fineItems is = true → evalItems W is = .ok vs →
    ∃ is' ls, recArgs true is = .ok is' ∧ evalItems W is' = .ok ls ∧ forceL W ls = .ok vs
  | .nil, vs, _, h => by simp [evalItems] at h; subst h; exact ⟨.nil, [], rfl, rfl, rfl⟩
  | .item e r, vs, hf, h => by
      simp only [fineItems, Bool.and_eq_true] at hf
      obtain ⟨v, ws, h1, h2, rfl⟩ := evalItems_item h
      obtain ⟨e', l, a, b, c⟩ := main_rel hS e hf.1 h1
      obtain ⟨r', ls, a2, b2, c2⟩ := items_rel hS r hf.2 h2
      exact ⟨.item e' r', l :: ls, by simp [recArgs, a, a2, Except.map], by simp [evalItems, b, b2, Except.map], forceL_cons c c2⟩
  | .star e r, vs, hf, h => by
      simp only [fineItems, Bool.and_eq_true, Bool.not_eq_true'] at hf
      obtain ⟨v, xs, ws, h1, hx, h2, rfl⟩ := evalItems_star h
      obtain ⟨e', l, a, b, c⟩ := arg_iter hS hf.1.1 h1 (main_rel hS e hf.1.1 h1)
      obtain ⟨ys, us, i1, _, i2, i3, _⟩ := c xs hx
      have := i3 hf.1.2; subst this
      obtain ⟨r', ls, a2, b2, c2⟩ := items_rel hS r hf.2 h2
      exact ⟨.star e' r', ys ++ ls, by simp [recArgs, a, a2, Except.map], by simp [evalItems, b, i1, b2, Except.map], forceL_append i2 c2⟩
theorem one_rel (hS : Sane W) : ∀ (s : Bool) (is : Items) {vs : List (Val A)}, fineOne s is = true → evalItems W is = .ok vs →
    ∃ is' ls, recArgs false is = .ok is' ∧ evalItems W is' = .ok ls ∧ OneRel W s ls vs ∧ is.length ≤ 1
  | _, .nil, vs, _, h => by simp [evalItems] at h; subst h; exact ⟨.nil, [], rfl, rfl, .inl ⟨rfl, rfl⟩, by simp [Items.length]⟩
  | s, .item e .nil, vs, hf, h => by
      simp only [fineOne, Bool.and_eq_true] at hf
      obtain ⟨v, ws, h1, h2, rfl⟩ := evalItems_item h
      simp [evalItems] at h2; subst h2
      obtain ⟨e', l, a, b, c⟩ := arg_iter hS hf.1 h1 (main_rel hS e hf.1 h1)
      refine ⟨.item e' .nil, [l], by simp [recArgs, a, Except.map], by simp [evalItems, b, Except.map],
        .inr ⟨l, v, rfl, rfl, fun xs hx => ?_⟩, by simp [Items.length]⟩
      obtain ⟨ys, us, i1, i2, i3, i4, i5⟩ := c xs hx
      refine ⟨ys, us, i1, i2, i3, fun hs => i4 ?_, i5⟩
      have := hf.2; subst hs; simpa using this
  | _, .item _ (.item _ _), _, hf, _ => by simp [fineOne] at hf
  | _, .item _ (.star _ _), _, hf, _ => by simp [fineOne] at hf
  | _, .star _ _, _, hf, _ => by simp [fineOne] at hf
theorem maps_rel (hS : Sane W) : ∀ (is : Items) {vs : List (Val A)}, fineMaps is = true → evalItems W is = .ok vs →
    ∃ is' ls, recArgs false is = .ok is' ∧ evalItems W is' = .ok ls ∧ URL W ls vs
  | .nil, vs, _, h => by simp [evalItems] at h; subst h; exact ⟨.nil, [], rfl, rfl, trivial⟩
  | .item e r, vs, hf, h => by
      simp only [fineMaps, Bool.and_eq_true, Bool.or_eq_true, Bool.not_eq_true'] at hf
      obtain ⟨v, ws, h1, h2, rfl⟩ := evalItems_item h
      obtain ⟨e', l, a, _, b, c⟩ := arg_map hS hf.1.2 hf.1.1 h1 (main_rel hS e hf.1.2 h1)
      obtain ⟨r', ls, a2, b2, c2⟩ := maps_rel hS r hf.2 h2
      exact ⟨.item e' r', l :: ls, by simp [recArgs, a, a2, Except.map], by simp [evalItems, b, b2, Except.map], c, c2⟩
  | .star _ _, _, hf, _ => by simp [fineMaps] at hf
theorem kws_rel (hS : Sane W) : ∀ (ks : Kws) {ns : List String} {vs : List (Val A)}, fineK ks = true → evalKws W ks = .ok (ns, vs) →
    ∃ ks' ls, recKws ks = .ok ks' ∧ evalKws W ks' = .ok (ns, ls) ∧ forceL W ls = .ok vs
  | .nil, ns, vs, _, h => by simp [evalKws] at h; obtain ⟨rfl, rfl⟩ := h; exact ⟨.nil, [], rfl, rfl, rfl⟩
  | .kw x e r, ns, vs, hf, h => by
      simp only [fineK, Bool.and_eq_true] at hf
      simp only [evalKws] at h
      cases hv : eval W e with
      | error _ => simp [hv] at h
      | ok v =>
        simp only [hv] at h
        obtain ⟨⟨ns', vs'⟩, h1, h2⟩ := map_ok h
        simp at h2; obtain ⟨rfl, rfl⟩ := h2
        obtain ⟨e', l, a, b, c⟩ := main_rel hS e hf.1 hv
        obtain ⟨r', ls, a2, b2, c2⟩ := kws_rel hS r hf.2 h1
        exact ⟨.kw x e' r', l :: ls, by simp [recKws, a, a2, Except.map], by simp [evalKws, b, b2, Except.map], forceL_cons c c2⟩
  | .dstar e r, ns, vs, hf, h => by
      simp only [fineK, Bool.and_eq_true, Bool.or_eq_true, Bool.not_eq_true'] at hf
      simp only [evalKws] at h
      cases hv : eval W e with
      | error _ => simp [hv] at h
      | ok v =>
        obtain ⟨e', l, _, a, b, c⟩ := arg_map hS hf.1.2 hf.1.1 hv (main_rel hS e hf.1.2 hv)
        have hmap : ∃ fz ks us, v = .map fz ks us := by
          simp only [hv] at h
          cases v with
          | map fz ks us => exact ⟨_, _, _, rfl⟩
          | _ => simp at h
        obtain ⟨fz, ks, us, rfl⟩ := hmap
        have hl : ∃ ls, l = .map fz ks ls ∧ forceL W ls = .ok us := by
          rcases c with ⟨rfl, hp⟩ | ⟨_, _, ls, _, rfl, e2, hp⟩
          · simp only [proper, Bool.and_eq_true] at hp
            exact ⟨us, rfl, forceL_ordinary hp.2⟩
          · cases e2; exact ⟨ls, rfl, hp⟩
        obtain ⟨ms, rfl, hms⟩ := hl
        simp only [hv] at h
        cases hs : strings W ks with
        | error _ => simp [hs] at h
        | ok nn =>
          simp only [hs] at h
          obtain ⟨⟨ns', vs'⟩, h1, h2⟩ := map_ok h
          simp at h2; obtain ⟨rfl, rfl⟩ := h2
          obtain ⟨r', ls, a2, b2, c2⟩ := kws_rel hS r hf.2 h1
          exact ⟨.dstar e' r', ms ++ ls, by simp [recKws, a, a2, Except.map], by simp [evalKws, b, hs, b2, Except.map],
            forceL_append hms c2⟩
theorem entries_rel (hS : Sane W) : ∀ (es : Entries) {d' d r : List (Val A) × List (Val A)}, fineE es = true → DR W d' d →
    evalEntries W d es = .ok r → ∃ es' r', recEntries es = .ok es' ∧ evalEntries W d' es' = .ok r' ∧ DR W r' r
  | .nil, d', d, r, _, hd, h => by simp [evalEntries] at h; subst h; exact ⟨.nil, d', rfl, rfl, hd⟩
  | .kv k e es, d', d, r, hf, hd, h => by
      simp only [fineE, Bool.and_eq_true] at hf
      simp only [evalEntries] at h
      cases hk : eval W k with
      | error _ => simp [hk] at h
      | ok kv =>
        simp only [hk] at h
        cases hv : eval W e with
        | error _ => simp [hv] at h
        | ok v =>
          simp only [hv] at h
          split at h
          · rename_i hh
            obtain ⟨e', l, a, b, c⟩ := main_rel hS e hf.1.2 hv
            obtain ⟨d1, d2⟩ := d'; obtain ⟨g1, g2⟩ := d
            obtain ⟨rfl, hd2⟩ := hd
            obtain ⟨es', r', a2, b2, c2⟩ := entries_rel hS es hf.2 (put_rel hd2 c) h
            exact ⟨.kv k e' es', r', by simp [recEntries, a, a2, Except.map], by simp [evalEntries, hk, b, hh, b2], c2⟩
          · cases h
  | .dstar e es, d', d, r, hf, hd, h => by
      simp only [fineE, Bool.and_eq_true] at hf
      simp only [evalEntries] at h
      cases hv : eval W e with
      | error _ => simp [hv] at h
      | ok v =>
        obtain ⟨e', l, _, a, b, c⟩ := arg_map hS hf.1.2 (.inr hf.1.1) hv (main_rel hS e hf.1.2 hv)
        have hm : isMapLit e = true := by rw [← isMapping_eq]; exact hf.1.1
        simp only [hm, if_true] at a
        obtain ⟨fz, ks, us, rfl⟩ := eval_isMap hm hv
        have hl : ∃ ls, l = .map fz ks ls ∧ forceL W ls = .ok us := by
          rcases c with ⟨rfl, hp⟩ | ⟨_, _, ls, _, rfl, e2, hp⟩
          · simp only [proper, Bool.and_eq_true] at hp
            exact ⟨us, rfl, forceL_ordinary hp.2⟩
          · cases e2; exact ⟨ls, rfl, hp⟩
        obtain ⟨ms, rfl, hms⟩ := hl
        simp only [hv] at h
        obtain ⟨es', r', a2, b2, c2⟩ := entries_rel hS es hf.2 (putAll_rel hd hms) h
        exact ⟨.dstar e' es', r', by simp [recEntries, a, a2, Except.map], by simp [evalEntries, b, b2], c2⟩
end

/-! ## What is evaluated -/

variable {f g : Nat → Res (Val A)}

mutual
theorem hashable_wv : ∀ (v : Val A), hashable { W with val := f } v = hashable W v
  | .atom _ => rfl
  | .promise _ => rfl
  | .seq .tuple xs => by simp only [hashable]; exact hashableL_wv xs
  | .seq .ll xs => by simp only [hashable]; exact hashableL_wv xs
  | .seq .frozenset _ => rfl
  | .seq .list _ => rfl
  | .seq .set _ => rfl
  | .seq .box _ => rfl
  | .seq .some _ => rfl
  | .map true _ vs => by simp only [hashable]; exact hashableL_wv vs
  | .map false _ _ => rfl
theorem hashableL_wv : ∀ (vs : List (Val A)), hashableL { W with val := f } vs = hashableL W vs
  | [] => rfl
  | v :: vs => by simp only [hashableL, hashable_wv v, hashableL_wv vs]
end

theorem addAll_wv : ∀ (xs kept : List (Val A)), addAll { W with val := f } kept xs = addAll W kept xs
  | [], _ => rfl
  | x :: xs, kept => by simp only [addAll, addAll_wv xs]

theorem mk_wv (k : Kind) (xs : List (Val A)) : mk { W with val := f } k xs = mk W k xs := by
  cases k <;> simp [mk, hashableL_wv, addAll_wv]

theorem iter_wv (v : Val A) : iter { W with val := f } v = iter W v := by cases v <;> rfl

theorem put_wv : ∀ (ks vs : List (Val A)) (k v : Val A), put { W with val := f } ks vs k v = put W ks vs k v
  | k' :: ks, v' :: vs, k, v => by simp only [put, put_wv ks vs]
  | [], _, _, _ => by simp [put]
  | _ :: _, [], _, _ => by simp [put]

theorem putAll_wv : ∀ (ks vs : List (Val A)) (d : List (Val A) × List (Val A)), putAll { W with val := f } d ks vs = putAll W d ks vs
  | k :: ks, v :: vs, d => by simp only [putAll, put_wv, putAll_wv ks vs]
  | [], _, _ => by simp [putAll]
  | _ :: _, [], _ => by simp [putAll]

theorem putPairs_wv : ∀ (ps : List (Val A)) (d : List (Val A) × List (Val A)), putPairs { W with val := f } d ps = putPairs W d ps
  | [], _ => rfl
  | p :: ps, d => by simp only [putPairs, iter_wv, hashable_wv, put_wv, putPairs_wv ps]

theorem update_wv (d : List (Val A) × List (Val A)) (v : Val A) : update { W with val := f } d v = update W d v := by
  cases v <;> simp [update, iter_wv, putAll_wv, putPairs_wv]

theorem updates_wv : ∀ (ms : List (Val A)) (d : List (Val A) × List (Val A)), updates { W with val := f } d ms = updates W d ms
  | [], _ => rfl
  | m :: ms, d => by simp only [updates, update_wv, updates_wv ms]

theorem construct_wv (c : Ctor) (as : List (Val A)) (ns : List String) (vs : List (Val A)) :
    construct { W with val := f } c as ns vs = construct W c as ns vs := by
  cases c <;> simp only [construct, mk_wv, iter_wv, updates_wv, putAll_wv]

theorem strings_wv : ∀ (ks : List (Val A)), strings { W with val := f } ks = strings W ks
  | [] => rfl
  | .atom a :: ks => by simp only [strings, strings_wv ks]
  | .promise _ :: _ => rfl
  | .seq _ _ :: _ => rfl
  | .map _ _ _ :: _ => rfl

mutual
theorem eval_parts : ∀ (e : Ex), (∀ i ∈ parts e, f i = g i) → eval { W with val := f } e = eval { W with val := g } e
  | .atom i, h => h i (by simp [parts])
  | .lit k is, h => by simp only [eval, mk_wv, evalItems_parts is h]
  | .dict es, h => by simp only [eval, evalEntries_parts es _ h]
  | .call c args kws, h => by
      simp only [parts, List.mem_append] at h
      simp only [eval, construct_wv, evalItems_parts args fun i hi => h i (.inl hi), evalKws_parts kws fun i hi => h i (.inr hi)]
  | .lazy _, _ => rfl
theorem evalItems_parts : ∀ (is : Items), (∀ i ∈ partsI is, f i = g i) →
    evalItems { W with val := f } is = evalItems { W with val := g } is
  | .nil, _ => rfl
  | .item e r, h => by
      simp only [partsI, List.mem_append] at h
      simp only [evalItems, eval_parts e fun i hi => h i (.inl hi), evalItems_parts r fun i hi => h i (.inr hi)]
  | .star e r, h => by
      simp only [partsI, List.mem_append] at h
      simp only [evalItems, iter_wv, eval_parts e fun i hi => h i (.inl hi), evalItems_parts r fun i hi => h i (.inr hi)]
theorem evalEntries_parts : ∀ (es : Entries) (d : List (Val A) × List (Val A)), (∀ i ∈ partsE es, f i = g i) →
    evalEntries { W with val := f } d es = evalEntries { W with val := g } d es
  | .nil, _, _ => rfl
  | .kv k v r, d, h => by
      simp only [partsE, List.mem_append] at h
      simp only [evalEntries, hashable_wv, put_wv, eval_parts k fun i hi => h i (.inl (.inl hi)),
        eval_parts v fun i hi => h i (.inl (.inr hi)), evalEntries_parts r _ fun i hi => h i (.inr hi)]
  | .dstar e r, d, h => by
      simp only [partsE, List.mem_append] at h
      simp only [evalEntries, putAll_wv, eval_parts e fun i hi => h i (.inl hi), evalEntries_parts r _ fun i hi => h i (.inr hi)]
theorem evalKws_parts : ∀ (ks : Kws), (∀ i ∈ partsK ks, f i = g i) →
    evalKws { W with val := f } ks = evalKws { W with val := g } ks
  | .nil, _ => rfl
  | .kw x e r, h => by
      simp only [partsK, List.mem_append] at h
      simp only [evalKws, eval_parts e fun i hi => h i (.inl hi), evalKws_parts r fun i hi => h i (.inr hi)]
  | .dstar e r, h => by
      simp only [partsK, List.mem_append] at h
      simp only [evalKws, strings_wv, eval_parts e fun i hi => h i (.inl hi), evalKws_parts r fun i hi => h i (.inr hi)]
end

mutual
theorem parts_lazyrec : ∀ (e : Ex) {e' : Ex}, lazyrec e = .ok e' → parts e' = now e
  | .atom i, e', h => by simp [lazyrec] at h; subst h; rfl
  | .lazy _, e', h => by simp [lazyrec] at h; subst h; rfl
  | .lit k is, e', h => by
      simp only [lazyrec] at h; obtain ⟨is', a, rfl⟩ := map_ok h
      simp only [parts, now]; exact parts_elts is a
  | .dict es, e', h => by
      simp only [lazyrec] at h; obtain ⟨is', a, rfl⟩ := map_ok h
      simp only [parts, now]; exact parts_entries es a
  | .call c args kws, e', h => by
      simp only [lazyrec] at h
      split at h
      · cases h
      · split at h
        · cases h
        · rename_i a
          obtain ⟨kws', b, rfl⟩ := map_ok h
          simp only [parts, now, takesItems_eq, parts_args _ args a, parts_kws kws b]
theorem parts_elts : ∀ (is : Items) {is' : Items}, recElts is = .ok is' → partsI is' = nowI true is
  | .nil, is', h => by simp [recElts] at h; subst h; rfl
  | .item e r, is', h => by
      simp only [recElts] at h
      split at h
      · cases h
      · rename_i a
        obtain ⟨r', b, rfl⟩ := map_ok h
        simp [partsI, nowI, parts_lazyrec e a, parts_elts r b]
  | .star _ _, _, h => by simp [recElts] at h
theorem parts_entries : ∀ (es : Entries) {es' : Entries}, recEntries es = .ok es' → partsE es' = nowE es
  | .nil, is', h => by simp [recEntries] at h; subst h; rfl
  | .kv k e r, is', h => by
      simp only [recEntries] at h
      split at h
      · cases h
      · rename_i a
        obtain ⟨r', b, rfl⟩ := map_ok h
        simp [partsE, nowE, parts_lazyrec e a, parts_entries r b]
  | .dstar e r, _, h => by
      simp only [recEntries] at h
      split at h
      · cases h
      · rename_i a
        obtain ⟨r', b, rfl⟩ := map_ok h
        simp [partsE, nowE, parts_lazyrec e a, parts_entries r b]
theorem parts_args (all : Bool) : ∀ (is : Items) {is' : Items}, recArgs all is = .ok is' → partsI is' = nowI all is
  | .nil, is', h => by simp [recArgs] at h; subst h; rfl
  | .item e r, is', h => by
      simp only [recArgs] at h
      split at h
      · cases h
      · rename_i e2 a
        obtain ⟨r', b, rfl⟩ := map_ok h
        simp only [partsI, nowI, isContainer_eq, parts_args all r b]
        congr 1
        split at a
        · rename_i hc; simp only [hc, if_true]; exact parts_lazyrec e a
        · rename_i hc; simp only [hc]; cases a; rfl
  | .star e r, _, h => by
      simp only [recArgs] at h
      split at h
      · cases h
      · rename_i e2 a
        obtain ⟨r', b, rfl⟩ := map_ok h
        simp only [partsI, nowI, isContainer_eq, parts_args all r b]
        congr 1
        split at a
        · rename_i hc; simp only [hc, if_true]; exact parts_lazyrec e a
        · rename_i hc; simp only [hc]; cases a; rfl
theorem parts_kws : ∀ (ks : Kws) {ks' : Kws}, recKws ks = .ok ks' → partsK ks' = nowK ks
  | .nil, is', h => by simp [recKws] at h; subst h; rfl
  | .kw x e r, is', h => by
      simp only [recKws] at h
      split at h
      · cases h
      · rename_i a
        obtain ⟨r', b, rfl⟩ := map_ok h
        simp [partsK, nowK, parts_lazyrec e a, parts_kws r b]
  | .dstar e r, _, h => by
      simp only [recKws] at h
      split at h
      · cases h
      · rename_i e2 a
        obtain ⟨r', b, rfl⟩ := map_ok h
        simp only [partsK, nowK, isMapping_eq, parts_kws r b]
        congr 1
        split at a
        · rename_i hc; simp only [hc, if_true]; exact parts_lazyrec e a
        · rename_i hc; simp only [hc]; cases a; rfl
end

end Unpy.Lazyrec
