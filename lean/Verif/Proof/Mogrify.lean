import Verif.Spec.Mogrify
/-! # Helper lemmas for `mogrify` -/
namespace Unpy.Mogrify
open Unpy.Fold (Err)
open Unpy.Spec.Mogrify
variable {σ ε α κ : Type} {f : α → σ → Except (Err ε) α × σ} {E : Env α κ}

theorem callAll_append (as bs : List α) (s : σ) : callAll f (as ++ bs) s =
    match callAll f as s with
    | (.error e, s) => (.error e, s)
    | (.ok xs, s) => match callAll f bs s with
      | (.error e, s) => (.error e, s)
      | (.ok ys, s) => (.ok (xs ++ ys), s) := by
  induction as generalizing s with
  | nil => simp only [List.nil_append, callAll]; rcases callAll f bs s with ⟨(e | ys), s'⟩ <;> rfl
  | cons a as ih =>
    simp only [List.cons_append, callAll]
    rcases f a s with ⟨(e | b), s1⟩
    · rfl
    · simp only [ih]
      rcases callAll f as s1 with ⟨(e | xs), s2⟩
      · rfl
      · simp only
        rcases callAll f bs s2 with ⟨(e | ys), s3⟩ <;> rfl

theorem callAll_length {as : List α} {s s' : σ} {bs} (h : callAll f as s = (.ok bs, s')) : bs.length = as.length := by
  induction as generalizing s bs with
  | nil => simp only [callAll, Prod.mk.injEq, Except.ok.injEq] at h; simp [← h.1]
  | cons a as ih =>
    simp only [callAll] at h
    split at h
    · simp at h
    · split at h
      · simp at h
      · rename_i h1
        simp only [Prod.mk.injEq, Except.ok.injEq] at h
        obtain ⟨rfl, rfl⟩ := h
        simp [ih h1]

mutual
theorem addrs_fill : ∀ (t : Tree α κ) (bs : List α), (t.fill bs).addrs = t.addrs
  | .leaf a, bs => rfl
  | .nil, _ => rfl
  | .imm k ts, bs => by simp only [Tree.fill, Tree.addrs, addrsOf_fill ts bs]
  | .mut a k ts, bs => by simp only [Tree.fill, Tree.addrs, addrsOf_fill ts bs]
theorem addrsOf_fill : ∀ (ts : List (Tree α κ)) (bs : List α), addrsOf (fillAll ts bs) = addrsOf ts
  | [], _ => rfl
  | t :: ts, bs => by simp only [fillAll, addrsOf, addrs_fill t, addrsOf_fill ts]
end

mutual
theorem atoms_fill : ∀ (t : Tree α κ) (bs : List α), bs.length = t.atoms.length → (t.fill bs).atoms = bs
  | .leaf a, bs, h => by
    match bs, h with
    | [b], _ => rfl
  | .nil, bs, h => by simp [Tree.atoms] at h; subst h; rfl
  | .imm k ts, bs, h => by simp only [Tree.fill, Tree.atoms]; exact atomsOf_fill ts bs h
  | .mut a k ts, bs, h => by simp only [Tree.fill, Tree.atoms]; exact atomsOf_fill ts bs h
theorem atomsOf_fill : ∀ (ts : List (Tree α κ)) (bs : List α), bs.length = (atomsOf ts).length → atomsOf (fillAll ts bs) = bs
  | [], bs, h => by simp [atomsOf] at h; subst h; rfl
  | t :: ts, bs, h => by
    simp only [atomsOf, List.length_append] at h
    simp only [fillAll, atomsOf]
    rw [atoms_fill t _ (by simp; omega), atomsOf_fill ts _ (by simp; omega), List.take_append_drop]
end

mutual
theorem stored_frame {h h' : Heap α κ} : ∀ (t : Tree α κ), t.Stored h → (∀ a ∈ t.addrs, h' a = h a) → t.Stored h'
  | .leaf _, _, _ => trivial
  | .nil, _, _ => trivial
  | .imm k ts, hs, hf => by simp only [Tree.Stored] at *; exact allStored_frame ts hs hf
  | .mut a k ts, hs, hf => by
    simp only [Tree.Stored, Tree.addrs] at *
    exact ⟨by rw [hf a (by simp)]; exact hs.1, allStored_frame ts hs.2 fun b hb => hf b (by simp [hb])⟩
theorem allStored_frame {h h' : Heap α κ} :
    ∀ (ts : List (Tree α κ)), AllStored h ts → (∀ a ∈ addrsOf ts, h' a = h a) → AllStored h' ts
  | [], _, _ => trivial
  | t :: ts, hs, hf => by
    simp only [AllStored, addrsOf] at *
    exact ⟨stored_frame t hs.1 fun b hb => hf b (by simp [hb]), allStored_frame ts hs.2 fun b hb => hf b (by simp [hb])⟩
end

mutual
theorem parts_addrs : ∀ (t : Tree α κ) {a k us}, Tree.mut a k us ∈ t.parts → a ∈ t.addrs
  | .leaf _, _, _, _, h => by simp [Tree.parts] at h
  | .nil, _, _, _, h => by simp [Tree.parts] at h
  | .imm _ ts, _, _, _, h => by
    simp only [Tree.parts, List.mem_cons, reduceCtorEq, false_or] at h
    exact partsOf_addrs ts h
  | .mut b k ts, _, _, _, h => by
    simp only [Tree.parts, List.mem_cons, Tree.mut.injEq] at h
    simp only [Tree.addrs, List.mem_cons]
    rcases h with h | h
    · exact .inl h.1
    · exact .inr (partsOf_addrs ts h)
theorem partsOf_addrs : ∀ (ts : List (Tree α κ)) {a k us}, Tree.mut a k us ∈ partsOf ts → a ∈ addrsOf ts
  | [], _, _, _, h => by simp [partsOf] at h
  | t :: ts, _, _, _, h => by
    simp only [partsOf, List.mem_append] at h
    simp only [addrsOf, List.mem_append]
    exact h.imp (parts_addrs t) (partsOf_addrs ts)
end

mutual
theorem parts_split : ∀ (t : Tree α κ) {a k us}, Tree.mut a k us ∈ t.parts → ∃ as₁ as₂, t.atoms = as₁ ++ atomsOf us ++ as₂
  | .leaf _, _, _, _, h => by simp [Tree.parts] at h
  | .nil, _, _, _, h => by simp [Tree.parts] at h
  | .imm _ ts, _, _, _, h => by
    simp only [Tree.parts, List.mem_cons, reduceCtorEq, false_or] at h
    exact partsOf_split ts h
  | .mut b k ts, _, _, _, h => by
    simp only [Tree.parts, List.mem_cons, Tree.mut.injEq] at h
    rcases h with ⟨_, _, rfl⟩ | h
    · exact ⟨[], [], by simp [Tree.atoms]⟩
    · exact partsOf_split ts h
theorem partsOf_split : ∀ (ts : List (Tree α κ)) {a k us}, Tree.mut a k us ∈ partsOf ts → ∃ as₁ as₂, atomsOf ts = as₁ ++ atomsOf us ++ as₂
  | [], _, _, _, h => by simp [partsOf] at h
  | t :: ts, _, _, _, h => by
    simp only [partsOf, List.mem_append] at h
    rcases h with h | h
    · obtain ⟨as₁, as₂, h⟩ := parts_split t h
      exact ⟨as₁, as₂ ++ atomsOf ts, by simp [atomsOf, h]⟩
    · obtain ⟨as₁, as₂, h⟩ := partsOf_split ts h
      exact ⟨t.atoms ++ as₁, as₂, by simp [atomsOf, h]⟩
end

/-- Each mutable container among `ps` holds the results for all its items if the calls for the atoms up to its end have returned; else it is as
it was. -/
def Half (f : α → σ → Except (Err ε) α × σ) (as : List α) (s : σ) (ps : List (Tree α κ)) (h h' : Heap α κ) : Prop :=
  ∀ a k us, Tree.mut a k us ∈ ps → ∃ as₁ as₂, as = as₁ ++ atomsOf us ++ as₂ ∧
    ((∃ cs s1 bs s2, callAll f as₁ s = (.ok cs, s1) ∧ callAll f (atomsOf us) s1 = (.ok bs, s2) ∧ h' a = some (k, vals (fillAll us bs))) ∨
     ((∃ e s1, callAll f (as₁ ++ atomsOf us) s = (.error e, s1)) ∧ h' a = h a))

/-- What processing a tree does. -/
def Good (f : α → σ → Except (Err ε) α × σ) (t : Tree α κ) (h : Heap α κ) (s : σ) (r : Out σ ε α κ (MVal α κ)) : Prop :=
  ∃ h' s', (∀ a, a ∉ t.addrs → h' a = h a) ∧ Half f t.atoms s t.parts h h' ∧
    ((∃ bs, callAll f t.atoms s = (.ok bs, s') ∧ r = (.ok (t.fill bs).val, (h', s')) ∧ (t.fill bs).Stored h') ∨
     (∃ e e', callAll f t.atoms s = (.error e, s') ∧ ComesOut t.hasTuple e e' ∧ r = (.error e', (h', s')) ∧ ∀ a k us, t = .mut a k us → h' a = h a))

def GoodL (f : α → σ → Except (Err ε) α × σ) (ts : List (Tree α κ)) (h : Heap α κ) (s : σ)
    (r : Out σ ε α κ (List (MVal α κ))) : Prop :=
  ∃ h' s', (∀ a, a ∉ addrsOf ts → h' a = h a) ∧ Half f (atomsOf ts) s (partsOf ts) h h' ∧
    ((∃ bs, callAll f (atomsOf ts) s = (.ok bs, s') ∧ r = (.ok (vals (fillAll ts bs)), (h', s')) ∧
        AllStored h' (fillAll ts bs)) ∨
     (∃ e e', callAll f (atomsOf ts) s = (.error e, s') ∧ ComesOut (anyTuple ts) e e' ∧ r = (.error e', (h', s'))))

theorem comesOut_imm {k : IKind κ} {ts : List (Tree α κ)} {e e' : Err ε} (h : ComesOut (anyTuple ts) e e') :
    ComesOut (Tree.imm k ts).hasTuple e (if isTuple k then escape e' else e') := by
  cases hk : isTuple k with
  | false => exact h.imp id fun h => ⟨by simp [Tree.hasTuple, hk, h.1], h.2⟩
  | true =>
    simp only [if_true]
    rcases h with rfl | ⟨_, rfl, rfl⟩
    · unfold escape
      split
      · exact .inr ⟨by simp [Tree.hasTuple, hk], rfl, rfl⟩
      · exact .inl rfl
    · exact .inr ⟨by simp [Tree.hasTuple, hk], rfl, rfl⟩

mutual
theorem doit_tree : ∀ (t : Tree α κ) (h : Heap α κ) (s : σ), t.Stored h → t.addrs.Nodup → t.NoSets →
    ∃ N r, (∀ n, N ≤ n → doit E (onAtoms f) n t.val (h, s) = some r) ∧ Good f t h s r
  | .leaf a, h, s, _, _, _ => by
    refine ⟨1, ((onAtoms (κ := κ) f a s).1, (h, (onAtoms (κ := κ) f a s).2)), ?_, h, (onAtoms (κ := κ) f a s).2, fun _ _ => rfl,
      fun _ _ _ h => by simp [Tree.parts] at h, ?_⟩
    · intro n hn
      obtain ⟨m, rfl⟩ : ∃ m, n = m + 1 := ⟨n - 1, by omega⟩
      rfl
    · simp only [Tree.atoms, callAll, onAtoms]
      rcases f a s with ⟨(e | b), s'⟩
      · exact .inr ⟨e, e, rfl, .inl rfl, rfl, fun _ _ _ h => by cases h⟩
      · exact .inl ⟨[b], rfl, rfl, trivial⟩
  | .nil, h, s, _, _, _ => by
    refine ⟨1, (.ok .nil, (h, s)), ?_, h, s, fun _ _ => rfl, fun _ _ _ h => by simp [Tree.parts] at h, .inl ⟨[], rfl, rfl, trivial⟩⟩
    intro n hn
    obtain ⟨m, rfl⟩ : ∃ m, n = m + 1 := ⟨n - 1, by omega⟩
    rfl
  | .imm k ts, h, s, hs, hn, hns => by
    simp only [Tree.Stored, Tree.addrs, Tree.NoSets] at hs hn hns
    obtain ⟨N, r, hr, h', s', hf, hh, hg⟩ := doit_trees ts h s hs hn hns.2
    have hk : k.isSet = false := by cases k <;> first | rfl | exact absurd rfl hns.1
    have hhalf : Half f (Tree.imm k ts).atoms s (Tree.imm k ts).parts h h' := fun a k us hm => hh a k us (by simpa [Tree.parts] using hm)
    have key : ∀ n, N + 1 ≤ n → doit E (onAtoms f) n (Tree.imm k ts).val (h, s) =
        match r with
        | (.error e, st) => some (.error (if isTuple k then escape e else e), st)
        | (.ok ys, st) => some (.ok (.imm k ys), st) := by
      intro n hn
      obtain ⟨m, rfl⟩ : ∃ m, n = m + 1 := ⟨n - 1, by omega⟩
      simp only [Tree.val, doit, immItems, items, hk, Bool.false_eq_true, if_false, hr m (by omega)]
      rcases r with ⟨(_ | _), _⟩ <;> cases k <;> rfl
    rcases hg with ⟨bs, h1, rfl, h3⟩ | ⟨e, e', h1, hc, rfl⟩
    · exact ⟨N + 1, _, key, h', s', hf, hhalf, .inl ⟨bs, h1, rfl, h3⟩⟩
    · exact ⟨N + 1, _, key, h', s', hf, hhalf, .inr ⟨e, _, h1, comesOut_imm hc, rfl, fun _ _ _ h => by cases h⟩⟩
  | .mut addr k ts, h, s, hs, hn, hns => by
    simp only [Tree.Stored, Tree.addrs, Tree.NoSets, List.nodup_cons] at hs hn hns
    obtain ⟨N, r, hr, h', s', hf, hh, hg⟩ := doit_trees ts h s hs.2 hn.2 hns.2
    have hk : k.isSet = false := by cases k <;> first | rfl | exact absurd rfl hns.1
    have key : ∀ n, N + 1 ≤ n → doit E (onAtoms f) n (Tree.mut addr k ts).val (h, s) =
        match r with
        | (.error e, st) => some (.error e, st)
        | (.ok ys, st) => some (.ok (.ref addr), (store st.1 addr k ys, st.2)) := by
      intro n hn
      obtain ⟨m, rfl⟩ : ∃ m, n = m + 1 := ⟨n - 1, by omega⟩
      simp only [Tree.val, doit, hs.1, items, hk, Bool.false_eq_true, if_false, hr m (by omega)]
      rcases r with ⟨(_ | _), _⟩ <;> rfl
    rcases hg with ⟨bs, h1, rfl, h3⟩ | ⟨e, e', h1, hc, rfl⟩
    · refine ⟨N + 1, _, key, store h' addr k (vals (fillAll ts bs)), s', ?_, ?_, .inl ⟨bs, h1, rfl, ?_⟩⟩
      · intro a ha
        simp only [Tree.addrs, List.mem_cons, not_or] at ha
        simp only [store, if_neg ha.1]
        exact hf a ha.2
      · intro a k' us hm
        simp only [Tree.parts, List.mem_cons, Tree.mut.injEq] at hm
        rcases hm with ⟨rfl, rfl, rfl⟩ | hm
        · exact ⟨[], [], by simp [Tree.atoms], .inl ⟨[], s, bs, s', rfl, h1, by simp [store]⟩⟩
        · have ha : a ≠ addr := fun e => hn.1 (e ▸ partsOf_addrs ts hm)
          simp only [store, if_neg ha]
          exact hh a k' us hm
      · simp only [Tree.fill, Tree.Stored]
        refine ⟨by simp [store], allStored_frame _ h3 fun a ha => ?_⟩
        rw [addrsOf_fill] at ha
        simp only [store, if_neg (fun e => hn.1 (e ▸ ha) : a ≠ addr)]
    · refine ⟨N + 1, _, key, h', s', ?_, ?_, .inr ⟨e, e', h1, hc, rfl, ?_⟩⟩
      · intro a ha
        simp only [Tree.addrs, List.mem_cons, not_or] at ha
        exact hf a ha.2
      · intro a k' us hm
        simp only [Tree.parts, List.mem_cons, Tree.mut.injEq] at hm
        rcases hm with ⟨rfl, rfl, rfl⟩ | hm
        · exact ⟨[], [], by simp [Tree.atoms], .inr ⟨⟨e, s', h1⟩, hf _ hn.1⟩⟩
        · exact hh a k' us hm
      · intro a k' us he
        cases he
        exact hf _ hn.1
theorem doit_trees : ∀ (ts : List (Tree α κ)) (h : Heap α κ) (s : σ), AllStored h ts → (addrsOf ts).Nodup → NoSetsIn ts →
    ∃ N r, (∀ n, N ≤ n → mapAll (doit E (onAtoms f) n) (vals ts) (h, s) = some r) ∧ GoodL f ts h s r
  | [], h, s, _, _, _ =>
    ⟨0, (.ok [], (h, s)), fun _ _ => rfl, h, s, fun _ _ => rfl, fun _ _ _ h => by simp [partsOf] at h, .inl ⟨[], rfl, rfl, trivial⟩⟩
  | t :: ts, h, s, hs, hn, hns => by
    simp only [AllStored, addrsOf, NoSetsIn, List.nodup_append] at hs hn hns
    obtain ⟨hn1, hn2, hdis⟩ := hn
    obtain ⟨N1, r1, hr1, h1, s1, hf1, hh1, hg1⟩ := doit_tree t h s hs.1 hn1 hns.1
    rcases hg1 with ⟨xs, hx, rfl, hst1⟩ | ⟨e, e', he, hc, rfl, _⟩
    · have hs2 : AllStored h1 ts := allStored_frame ts hs.2 fun a ha => hf1 a fun ha' => hdis a ha' a ha rfl
      obtain ⟨N2, r2, hr2, h2, s2, hf2, hh2, hg2⟩ := doit_trees ts h1 s1 hs2 hn2 hns.2
      have hframe : ∀ a, a ∉ addrsOf (t :: ts) → h2 a = h a := by
        intro a ha
        simp only [addrsOf, List.mem_append, not_or] at ha
        rw [hf2 a ha.2, hf1 a ha.1]
      have hhalf : Half f (atomsOf (t :: ts)) s (partsOf (t :: ts)) h h2 := by
        intro a k us hm
        simp only [partsOf, List.mem_append] at hm
        rcases hm with hm | hm
        · have ha := parts_addrs t hm
          rw [hf2 a fun ha' => hdis a ha a ha' rfl]
          obtain ⟨as₁, as₂, h3, h4⟩ := hh1 a k us hm
          exact ⟨as₁, as₂ ++ atomsOf ts, by simp [atomsOf, h3], h4⟩
        · have ha := partsOf_addrs ts hm
          rw [← hf1 a fun ha' => hdis a ha' a ha rfl]
          obtain ⟨as₁, as₂, h3, h4⟩ := hh2 a k us hm
          refine ⟨t.atoms ++ as₁, as₂, by simp [atomsOf, h3], ?_⟩
          rcases h4 with ⟨cs, s3, bs, s4, g1, g2, g3⟩ | ⟨⟨e, s3, g1⟩, g2⟩
          · exact .inl ⟨xs ++ cs, s3, bs, s4, by simp only [callAll_append, hx, g1], g2, g3⟩
          · exact .inr ⟨⟨e, s3, by rw [List.append_assoc]; simp only [callAll_append t.atoms, hx, g1]⟩, g2⟩
      have key : ∀ n, max N1 N2 ≤ n → mapAll (doit E (onAtoms f) n) (vals (t :: ts)) (h, s) =
          match r2 with
          | (.error e, st) => some (.error e, st)
          | (.ok ys, st) => some (.ok ((t.fill xs).val :: ys), st) := by
        intro n hn
        simp only [vals, mapAll, hr1 n (by omega), hr2 n (by omega)]
        rcases r2 with ⟨(_ | _), _⟩ <;> rfl
      have hlen := callAll_length hx
      rcases hg2 with ⟨ys, hy, rfl, hst2⟩ | ⟨e, e', he, hc, rfl⟩
      · refine ⟨max N1 N2, _, key, h2, s2, hframe, hhalf, .inl ⟨xs ++ ys, ?_, ?_, ?_⟩⟩
        · simp only [atomsOf, callAll_append, hx, hy]
        · simp only [fillAll, vals, ← hlen, List.take_left, List.drop_left]
        · simp only [fillAll, AllStored, ← hlen, List.take_left, List.drop_left]
          refine ⟨stored_frame _ hst1 fun a ha => hf2 a fun ha' => ?_, hst2⟩
          rw [addrs_fill] at ha
          exact hdis a ha a ha' rfl
      · refine ⟨max N1 N2, _, key, h2, s2, hframe, hhalf, .inr ⟨e, e', ?_, hc.imp id fun h => ⟨by simp [anyTuple, h.1], h.2⟩, rfl⟩⟩
        simp only [atomsOf, callAll_append, hx, he]
    · refine ⟨N1, (.error e', (h1, s1)), ?_, h1, s1, ?_, ?_, .inr ⟨e, e', ?_, hc.imp id fun h => ⟨by simp [anyTuple, h.1], h.2⟩, rfl⟩⟩
      · intro n hn; simp only [vals, mapAll, hr1 n hn]
      · intro a ha
        simp only [addrsOf, List.mem_append, not_or] at ha
        exact hf1 a ha.1
      · intro a k us hm
        simp only [partsOf, List.mem_append] at hm
        rcases hm with hm | hm
        · obtain ⟨as₁, as₂, h3, h4⟩ := hh1 a k us hm
          exact ⟨as₁, as₂ ++ atomsOf ts, by simp [atomsOf, h3], h4⟩
        · obtain ⟨as₁, as₂, h3⟩ := partsOf_split ts hm
          exact ⟨t.atoms ++ as₁, as₂, by simp [atomsOf, h3], .inr ⟨⟨e, s1, by rw [List.append_assoc]; simp only [callAll_append t.atoms, he]⟩,
            hf1 a fun ha' => hdis a ha' a (partsOf_addrs ts hm) rfl⟩⟩
      · simp only [atomsOf, callAll_append, he]
end

end Unpy.Mogrify
