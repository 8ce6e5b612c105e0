import Verif.Proof.CurryGeneric
import Verif.Model.CurryAnnotated
import Verif.Spec.CurryAnnotated
/-! # Lemmas about partial application of annotated functions -/
namespace Unpy.CurryAnnotated
open Unpy Unpy.Arity Unpy.Spec.Arity Unpy.Spec.CurryGeneric Unpy.Spec.CurryAnnotated Unpy.CurryGeneric
variable {V T : Type}

theorem mismatchSkip_false {isof : T → BVal V → Res Bool} {hints : PyDict String T} {l : List (String × BVal V)} :
    mismatchSkip isof hints l = .ok false ↔ ∀ q ∈ l, ∀ t, PyDict.get? hints q.1 = some t → isof t q.2 = .ok true := by
  induction l with
  | nil => simp [mismatchSkip]
  | cons x l ih =>
    obtain ⟨p, v⟩ := x
    simp only [mismatchSkip, List.mem_cons, forall_eq_or_imp]
    cases hp : PyDict.get? hints p with
    | none => simp [ih]
    | some t =>
      simp only [Option.some.injEq, forall_eq']
      rw [← ih]
      cases isof t v with
      | error e => simp
      | ok b =>
        cases mismatchSkip isof hints l with
        | error e => simp
        | ok m => cases b <;> cases m <;> simp

theorem mismatchSkip_error {isof : T → BVal V → Res Bool} (hq : ∀ t b e, isof t b = .error e → e = .TypeError) {hints : PyDict String T} {l : List (String × BVal V)} {e : PyErr}
    (h : mismatchSkip isof hints l = .error e) : e = .TypeError := by
  induction l with
  | nil => simp [mismatchSkip] at h
  | cons x l ih =>
    obtain ⟨p, v⟩ := x
    simp only [mismatchSkip] at h
    split at h
    · exact ih h
    · split at h
      · rename_i h1; cases h; exact hq _ _ _ h1
      · split at h
        · rename_i h1; cases h; exact ih h1
        · cases h

theorem set_new {d : PyDict String V} {k : String} (h : PyDict.has d k = false) (v : V) : PyDict.set d k v = d ++ [(k, v)] := by
  induction d with
  | nil => rfl
  | cons p d ih =>
    obtain ⟨a, b⟩ := p
    simp only [PyDict.has, PyDict.get?] at h
    split at h
    · simp at h
    · rename_i hne
      simp [PyDict.set, hne, ih h]

theorem update_new (d m : PyDict String V) (h : (PyDict.keys (d ++ m : List (String × V))).Nodup) : PyDict.update d m = d ++ m := by
  induction m generalizing d with
  | nil => simp [PyDict.update]
  | cons p m ih =>
    have hd : PyDict.has d p.1 = false := by
      cases hh : PyDict.has d p.1 with
      | false => rfl
      | true =>
        rw [← PyDict.mem_keys] at hh
        simp only [PyDict.keys, List.map_append, List.map_cons] at h
        rw [List.nodup_append] at h
        exact absurd rfl (h.2.2 p.1 hh p.1 (by simp))
    rw [PyDict.update_cons, set_new hd, ih]
    · simp
    · simpa using h

theorem update_nil {m : PyDict String V} (h : (PyDict.keys m).Nodup) : PyDict.update [] m = m := update_new [] m h

theorem lookup_nodup {l : List (String × V)} (h : (l.map Prod.fst).Nodup) {k : String} {v : V} (hm : (k, v) ∈ l) : l.lookup k = some v := by
  induction l with
  | nil => simp at hm
  | cons x l ih =>
    obtain ⟨a, b⟩ := x
    simp only [List.map_cons, List.nodup_cons] at h
    rcases List.mem_cons.mp hm with he | hm2
    · cases he; simp [List.lookup]
    · have : k ≠ a := by
        rintro rfl
        exact h.1 (List.mem_map.mpr ⟨(k, v), hm2, rfl⟩)
      rw [List.lookup_cons, beq_false_of_ne this]
      exact ih h.2 hm2

theorem mem_of_lookup {l : List (String × V)} {k : String} {v : V} (h : l.lookup k = some v) : (k, v) ∈ l := by
  induction l with
  | nil => simp at h
  | cons x l ih =>
    obtain ⟨a, b⟩ := x
    rw [List.lookup_cons] at h
    by_cases he : k = a
    · subst he; simp at h; simp [h]
    · rw [beq_false_of_ne he] at h; exact List.mem_cons_of_mem _ (ih h)

theorem fst_zip_nodup {l : List String} (h : l.Nodup) (l' : List V) : ((l.zip l').map Prod.fst).Nodup := by
  induction l generalizing l' with
  | nil => simp
  | cons x l ih =>
    cases l' with
    | nil => simp
    | cons y l' =>
      simp only [List.zip_cons_cons, List.map_cons, List.nodup_cons] at h ⊢
      refine ⟨?_, ih h.2 l'⟩
      intro hm
      obtain ⟨q, hq, rfl⟩ := List.mem_map.mp hm
      exact h.1 (List.of_mem_zip hq).1

/-- The check of `partial`, for whatever signature it uses -/
theorem check_spec {isof : T → BVal V → Res Bool} (hq : ∀ t b e, isof t b = .error e → e = .TypeError) (F : AFn V T) (hh : F.hints ≠ []) (func : Obj V) (args : List V) (kwargs : PyDict String V)
    {sig : Sig V} (hs : signatureA F.sig func = .ok sig) (hw : WF sig) :
    (Fits isof F.hints sig (func.args ++ args) (PyDict.update func.kwargs kwargs) ∧ partialA isof F func args kwargs = .ok (.part (func.args ++ args) (PyDict.update func.kwargs kwargs))) ∨
    (¬ Fits isof F.hints sig (func.args ++ args) (PyDict.update func.kwargs kwargs) ∧ partialA isof F func args kwargs = .error .TypeError) := by
  have he : F.hints.isEmpty = false := by cases hF : F.hints with
    | nil => exact absurd hF hh
    | cons => rfl
  simp only [partialA, he, hs, Bool.false_eq_true, if_false]
  rcases keyPartial_spec hw (func.args ++ args) (PyDict.update func.kwargs kwargs) with ⟨ht, hk⟩ | ⟨ht, hk⟩
  · simp only [hk, Fits, ht, true_and]
    generalize func.args ++ args = all at *
    generalize PyDict.update func.kwargs kwargs = named at *
    have hall : mismatchSkip isof F.hints (sig.filterMap (fun p => (seen sig all named p).map (p.name, ·))) = .ok false ↔
        ∀ p ∈ sig, ∀ b, seen sig all named p = some b → ∀ t, PyDict.get? F.hints p.name = some t → isof t b = .ok true := by
      rw [mismatchSkip_false]
      constructor
      · intro hh p hp b hs
        exact hh (p.name, b) (List.mem_filterMap.mpr ⟨p, hp, by simp [hs]⟩)
      · intro hh q hq
        obtain ⟨p, hp, he⟩ := List.mem_filterMap.mp hq
        cases hs : seen sig all named p with
        | none => simp [hs] at he
        | some b =>
          simp only [hs, Option.map_some, Option.some.injEq] at he
          subst he
          exact hh p hp b hs
    cases hm : mismatchSkip isof F.hints (sig.filterMap (fun p => (seen sig all named p).map (p.name, ·))) with
    | error e =>
      have := mismatchSkip_error hq hm
      subst this
      exact .inr ⟨fun h => (by rw [hall.mpr h] at hm; cases hm), rfl⟩
    | ok b =>
      cases b
      · exact .inl ⟨hall.mp hm, rfl⟩
      · exact .inr ⟨fun h => (by rw [hall.mpr h] at hm; cases hm), rfl⟩
  · exact .inr ⟨fun h => ht h.1, by simp only [hk]⟩

/-! ## The signature of a partial -/

theorem signature_of_takes {sig : Sig V} (h : WF sig) {args : List V} {kwargs : PyDict String V} (ht : Takes sig args kwargs) :
    ∃ ba : PyDict String (BVal V), signatureA sig (.part args kwargs) = .ok (partialParams ba kwargs false sig) ∧ ∀ p ∈ sig, PyDict.get? ba p.name = supplied sig args kwargs p := by
  obtain ⟨r, e0, e2, e3, e4⟩ := takes_bind h ht
  exact ⟨r.arguments, by simp [signatureA, e0, e2, e3], e4⟩

theorem supplied_plain {k : Nat} {sig : Sig V} (h : Plain k sig) {args : List V} {p : Param V} (hp : p ∈ sig) : supplied sig args [] p = (posArg sig args p.name).map .val := by
  have h1 := h.2 p hp
  rcases h1.1 with e | e <;> simp only [supplied, e, reduceCtorEq, if_false, given] <;> cases posArg sig args p.name <;> simp [PyDict.get?, ByName, e]

theorem params_bound (ba : PyDict String (BVal V)) (ps rest : List (Param V)) (hk : ∀ p ∈ ps, p.kind = .posOnly ∨ p.kind = .posOrKw) (hb : ∀ p ∈ ps, (PyDict.get? ba p.name).isSome) :
    partialParams ba [] false (ps ++ rest) = partialParams ba [] false rest := by
  induction ps with
  | nil => rfl
  | cons p ps ih =>
    obtain ⟨b, hb'⟩ := Option.isSome_iff_exists.mp (hb p (by simp))
    have := ih (fun q hq => hk q (by simp [hq])) (fun q hq => hb q (by simp [hq]))
    rcases hk p (by simp) with e | e <;> simp [partialParams, hb', e, PyDict.has, PyDict.get?, this]

theorem params_free (ba : PyDict String (BVal V)) (kw : PyDict String V) (ps : List (Param V)) (rest : List (Param V)) (hb : ∀ p ∈ ps, PyDict.get? ba p.name = none) :
    partialParams ba kw false (ps ++ rest) = ps ++ partialParams ba kw false rest := by
  induction ps with
  | nil => rfl
  | cons p ps ih =>
    have := ih (fun q hq => hb q (by simp [hq]))
    simp [partialParams, hb p (by simp), this]

theorem signature_plain {k : Nat} {sig : Sig V} (h : Plain k sig) (hw : WF sig) {args : List V} (hl : args.length ≤ k) :
    signatureA sig (.part args []) = .ok (sig.drop args.length) := by
  obtain ⟨ba, h1, h2⟩ := signature_of_takes hw (plain_takes h hl)
  rw [h1]
  congr 1
  have e : sig = sig.take args.length ++ (sig.drop args.length ++ []) := by simp
  have hin : ∀ p ∈ sig, ((PyDict.get? ba p.name).isSome ↔ p ∈ sig.take args.length) := by
    intro p hp
    rw [h2 p hp, supplied_plain h hp, Option.isSome_map, Curry.posArg_isSome hw args hp, plain_positional h]
  conv => lhs; rw [e]
  rw [params_bound, params_free]
  · simp [partialParams]
  · intro p hp
    have hps : p ∈ sig := List.mem_of_mem_drop hp
    cases hg : PyDict.get? ba p.name with
    | none => rfl
    | some b =>
      have : p ∈ sig.take args.length := (hin p hps).mp (by rw [hg]; rfl)
      have hnd : sig.Nodup := List.Pairwise.of_map (fun p : Param V => p.name) (fun a b hab e => hab (by rw [e])) hw.names
      rw [← List.take_append_drop args.length sig, List.nodup_append] at hnd
      exact absurd rfl (hnd.2.2 p this p hp)
  · intro p hp; exact (h.2 p (List.mem_of_mem_take hp)).1
  · intro p hp; exact (hin p (List.mem_of_mem_take hp)).mpr hp

theorem plain_drop {k j : Nat} {sig : Sig V} (h : Plain k sig) : Plain (k - j) (sig.drop j) :=
  ⟨by simp [h.1], fun p hp => h.2 p (List.mem_of_mem_drop hp)⟩

theorem wf_drop {j : Nat} {sig : Sig V} (hw : WF sig) : WF (sig.drop j) where
  shape := by
    obtain ⟨po, pk, va, ko, vk, e, h1, h2, h3, h4, h5, h6, h7⟩ := hw.shape
    refine ⟨po.drop j, pk.drop (j - po.length), va.drop (j - po.length - pk.length), ko.drop (j - po.length - pk.length - va.length), vk.drop (j - po.length - pk.length - va.length - ko.length),
      ?_, fun p hp => h1 p (List.mem_of_mem_drop hp), fun p hp => h2 p (List.mem_of_mem_drop hp), fun p hp => h3 p (List.mem_of_mem_drop hp), ?_, fun p hp => h5 p (List.mem_of_mem_drop hp),
      fun p hp => h6 p (List.mem_of_mem_drop hp), ?_⟩
    · rw [e]
      simp only [List.drop_append, List.length_append, Nat.sub_sub]
    · rw [List.length_drop]; omega
    · rw [List.length_drop]; omega
  names := by rw [List.map_drop]; exact List.Pairwise.sublist (List.drop_sublist _ _) hw.names
  stars := fun p hp => hw.stars p (List.mem_of_mem_drop hp)

/-! ## Named arguments -/

inductive All2 {α β : Type} (R : α → β → Prop) : List α → List β → Prop where
  | nil : All2 R [] []
  | cons {a b as bs} : R a b → All2 R as bs → All2 R (a :: as) (b :: bs)

theorem All2.append {α β : Type} {R : α → β → Prop} {a a' : List α} {b b' : List β} (h : All2 R a b) (h' : All2 R a' b') : All2 R (a ++ a') (b ++ b') := by
  induction h with
  | nil => exact h'
  | cons h1 _ ih => exact .cons h1 ih

theorem All2.refl {α : Type} {R : α → α → Prop} {l : List α} (h : ∀ x ∈ l, R x x) : All2 R l l := by
  induction l with
  | nil => exact .nil
  | cons x l ih => exact .cons (h x (by simp)) (ih (fun y hy => h y (by simp [hy])))

theorem All2.left {α β : Type} {R : α → β → Prop} {a : List α} {b : List β} (h : All2 R a b) : ∀ x ∈ a, ∃ y ∈ b, R x y := by
  induction h with
  | nil => simp
  | cons h1 _ ih =>
    intro x hx
    rcases List.mem_cons.mp hx with rfl | hx
    · exact ⟨_, by simp, h1⟩
    · obtain ⟨y, h2, h3⟩ := ih x hx; exact ⟨y, by simp [h2], h3⟩

theorem All2.right {α β : Type} {R : α → β → Prop} {a : List α} {b : List β} (h : All2 R a b) : ∀ y ∈ b, ∃ x ∈ a, R x y := by
  induction h with
  | nil => simp
  | cons h1 _ ih =>
    intro x hx
    rcases List.mem_cons.mp hx with rfl | hx
    · exact ⟨_, by simp, h1⟩
    · obtain ⟨y, h2, h3⟩ := ih x hx; exact ⟨y, by simp [h2], h3⟩

/-- What becomes of a parameter when some are given by name -/
def Becomes (kw : PyDict String V) (p q : Param V) : Prop :=
  q.name = p.name ∧ (q.kind = p.kind ∨ (p.kind = .posOrKw ∧ q.kind = .kwOnly)) ∧ (q.default = p.default ∨ (ByName p ∧ PyDict.has kw p.name = true))

theorem becomes_names {kw : PyDict String V} {a b : List (Param V)} (h : All2 (Becomes kw) a b) : b.map (·.name) = a.map (·.name) := by
  induction h with
  | nil => rfl
  | cons h1 _ ih => simp [h1.1, ih]

theorem params_pk (ba : PyDict String (BVal V)) (kw : PyDict String V) (ps : List (Param V)) (rest : List (Param V)) (hk : ∀ p ∈ ps, p.kind = .posOrKw)
    (hb : ∀ p ∈ ps, (PyDict.get? ba p.name).isSome = PyDict.has kw p.name) (flag : Bool) :
    ∃ A B flag', partialParams ba kw flag (ps ++ rest) = A ++ B ++ partialParams ba kw flag' rest ∧ All2 (Becomes kw) ps (A ++ B) ∧ (∀ p ∈ A, p.kind = .posOrKw) ∧ (∀ p ∈ B, p.kind = .kwOnly) ∧
      (flag = true → A = []) := by
  induction ps generalizing flag with
  | nil => exact ⟨[], [], flag, rfl, .nil, by simp, by simp, by simp⟩
  | cons p ps ih =>
    have ih := ih (fun q hq => hk q (by simp [hq])) (fun q hq => hb q (by simp [hq]))
    have hkp := hk p (by simp)
    have hbp := hb p (by simp)
    cases hg : PyDict.get? ba p.name with
    | none =>
      rw [hg] at hbp
      obtain ⟨A, B, flag', e1, e2, e3, e4, e5⟩ := ih flag
      cases flag with
      | false =>
        refine ⟨p :: A, B, flag', by simp [partialParams, hg, e1], .cons ⟨rfl, .inl rfl, .inl rfl⟩ e2, by simpa [hkp] using e3, e4, by simp⟩
      | true =>
        have hA := e5 rfl
        subst hA
        refine ⟨[], { p with kind := .kwOnly } :: B, flag', by simp [partialParams, hg, hkp, e1], ?_, by simp, by simpa using e4, by simp⟩
        exact .cons ⟨rfl, .inr ⟨hkp, rfl⟩, .inl rfl⟩ (by simpa using e2)
    | some b =>
      rw [hg] at hbp
      have hbp : PyDict.has kw p.name = true := by rw [← hbp]; rfl
      obtain ⟨A, B, flag', e1, e2, e3, e4, e5⟩ := ih true
      have hA := e5 rfl
      subst hA
      refine ⟨[], { (match b with | .val v => { p with default := some v } | _ => p) with kind := .kwOnly } :: B, flag', ?_, ?_, by simp, ?_, by simp⟩
      · clear hb; cases b <;> simp_all [partialParams]
      · refine .cons ⟨?_, .inr ⟨hkp, rfl⟩, .inr ⟨.inl hkp, hbp⟩⟩ (by simpa using e2)
        cases b <;> rfl
      · simpa using e4

theorem params_ko (ba : PyDict String (BVal V)) (kw : PyDict String V) (ps : List (Param V)) (rest : List (Param V)) (hk : ∀ p ∈ ps, p.kind = .kwOnly)
    (hb : ∀ p ∈ ps, (PyDict.get? ba p.name).isSome = PyDict.has kw p.name) (flag : Bool) :
    ∃ B, partialParams ba kw flag (ps ++ rest) = B ++ partialParams ba kw flag rest ∧ All2 (Becomes kw) ps B ∧ (∀ p ∈ B, p.kind = .kwOnly) := by
  induction ps with
  | nil => exact ⟨[], rfl, .nil, by simp⟩
  | cons p ps ih =>
    obtain ⟨B, e1, e2, e3⟩ := ih (fun q hq => hk q (by simp [hq])) (fun q hq => hb q (by simp [hq]))
    have hkp := hk p (by simp)
    have hbp := hb p (by simp)
    cases hg : PyDict.get? ba p.name with
    | none =>
      refine ⟨p :: B, ?_, .cons ⟨rfl, .inl rfl, .inl rfl⟩ e2, by simpa [hkp] using e3⟩
      cases flag <;> simp [partialParams, hg, hkp, e1]
    | some b =>
      rw [hg] at hbp
      have hbp : PyDict.has kw p.name = true := by rw [← hbp]; rfl
      refine ⟨(match b with | .val v => { p with default := some v } | _ => p) :: B, ?_, .cons ⟨?_, .inl ?_, .inr ⟨.inr hkp, hbp⟩⟩ e2, ?_⟩
      · cases b <;> cases flag <;> simp [partialParams, hg, hkp, e1]
      · cases b <;> rfl
      · cases b <;> rfl
      · intro q hq
        rcases List.mem_cons.mp hq with rfl | hq
        · cases b <;> exact hkp
        · exact e3 q hq

theorem params_vk (ba : PyDict String (BVal V)) (kw : PyDict String V) (ps : List (Param V)) (hk : ∀ p ∈ ps, p.kind = .varKw) (flag : Bool) : partialParams ba kw flag ps = ps := by
  induction ps with
  | nil => rfl
  | cons p ps ih =>
    have ih := ih (fun q hq => hk q (by simp [hq]))
    have hkp := hk p (by simp)
    cases hg : PyDict.get? ba p.name <;> cases flag <;> simp [partialParams, hg, hkp, ih]

theorem posArg_nil (sig : Sig V) (n : String) : posArg sig [] n = none := by simp [posArg]

theorem signature_named {sig : Sig V} (hw : WF sig) (hv : ¬ hasKind .varPos sig) {kw : PyDict String V} (ht : Takes sig [] kw) :
    ∃ sig', signatureA sig (.part [] kw) = .ok sig' ∧ WF sig' ∧ All2 (Becomes kw) sig sig' := by
  obtain ⟨ba, h1, h2⟩ := signature_of_takes hw ht
  obtain ⟨po, pk, va, ko, vk, e, hpo, hpk, hva, _, hko, hvk, hvl⟩ := hw.shape
  have hva0 : va = [] := by
    cases va with
    | nil => rfl
    | cons x va => exact absurd ⟨x, by rw [e]; simp, hva x (by simp)⟩ hv
  subst hva0
  have hby : ∀ p ∈ sig, ByName p → (PyDict.get? ba p.name).isSome = PyDict.has kw p.name := by
    intro p hp hb
    rw [h2 p hp, supplied, if_neg (by rcases hb with h | h <;> simp [h]), if_neg (by rcases hb with h | h <;> simp [h])]
    simp [given, posArg_nil, hb, PyDict.has]
  obtain ⟨A, B, flag', a1, a2, a3, a4, _⟩ := params_pk ba kw pk (ko ++ vk) hpk (fun p hp => hby p (by rw [e]; simp [hp]) (.inl (hpk p hp))) false
  obtain ⟨B', b1, b2, b3⟩ := params_ko ba kw ko vk hko (fun p hp => hby p (by rw [e]; simp [hp]) (.inr (hko p hp))) flag'
  have hpp : partialParams ba kw false sig = po ++ A ++ [] ++ (B ++ B') ++ vk := by
    rw [e]
    simp only [List.append_nil, List.append_assoc]
    rw [params_free, a1, b1, params_vk ba kw vk hvk]
    · simp
    · intro p hp
      rw [h2 p (by rw [e]; simp [hp]), supplied, hpo p hp]
      simp [given, posArg_nil, ByName, hpo p hp]
  have hall : All2 (Becomes kw) sig (po ++ A ++ [] ++ (B ++ B') ++ vk) := by
    rw [e]
    have h3 : All2 (Becomes kw) (po ++ ((pk) ++ (ko ++ vk))) (po ++ ((A ++ B) ++ (B' ++ vk))) :=
      (All2.refl (fun p _ => ⟨rfl, .inl rfl, .inl rfl⟩)).append (a2.append (b2.append (All2.refl (fun p _ => ⟨rfl, .inl rfl, .inl rfl⟩))))
    simpa using h3
  refine ⟨_, by rw [h1, hpp], ⟨⟨po, A, [], B ++ B', vk, rfl, hpo, a3, by simp, by simp, ?_, hvk, hvl⟩, ?_, ?_⟩, hall⟩
  · intro p hp
    rcases List.mem_append.mp hp with h | h
    · exact a4 p h
    · exact b3 p h
  · rw [becomes_names hall]; exact hw.names
  · intro q hq hk
    obtain ⟨p, hp, hb1, hb2, hb3⟩ := hall.right q hq
    have hkp : p.kind = .varPos ∨ p.kind = .varKw := by
      rcases hb2 with h | ⟨_, h⟩
      · rw [← h]; exact hk
      · rw [h] at hk; simp at hk
    rcases hb3 with h | ⟨h, _⟩
    · rw [h]; exact hw.stars p hp hkp
    · rcases h with h | h <;> rw [h] at hkp <;> simp at hkp

theorem becomes_byName {kw : PyDict String V} {p q : Param V} (h : Becomes kw p q) : ByName q ↔ ByName p := by
  obtain ⟨_, h | ⟨h1, h2⟩, _⟩ := h
  · simp [ByName, h]
  · simp [ByName, h1, h2]

theorem becomes_kind {kw : PyDict String V} {p q : Param V} (h : Becomes kw p q) {x : Kind} (hx : x = .posOnly ∨ x = .varKw ∨ x = .varPos) : q.kind = x ↔ p.kind = x := by
  obtain ⟨_, h | ⟨h1, h2⟩, _⟩ := h
  · simp [h]
  · rw [h1, h2]; rcases hx with rfl | rfl | rfl <;> simp

theorem becomes_unknown {kw : PyDict String V} {sig sig' : Sig V} (h : All2 (Becomes kw) sig sig') (named : PyDict String V) : unknown sig' named = unknown sig named := by
  unfold unknown
  congr 1
  funext kv
  congr 1
  apply propext
  apply not_congr
  constructor
  · rintro ⟨q, hq, h1, h2⟩
    obtain ⟨p, hp, hb⟩ := h.right q hq
    exact ⟨p, hp, (becomes_byName hb).mp h1, by rw [← hb.1]; exact h2⟩
  · rintro ⟨p, hp, h1, h2⟩
    obtain ⟨q, hq, hb⟩ := h.left p hp
    exact ⟨q, hq, (becomes_byName hb).mpr h1, by rw [hb.1]; exact h2⟩

theorem becomes_hasKind {kw : PyDict String V} {sig sig' : Sig V} (h : All2 (Becomes kw) sig sig') {x : Kind} (hx : x = .posOnly ∨ x = .varKw ∨ x = .varPos) : hasKind x sig' ↔ hasKind x sig := by
  constructor
  · rintro ⟨q, hq, h1⟩
    obtain ⟨p, hp, hb⟩ := h.right q hq
    exact ⟨p, hp, (becomes_kind hb hx).mp h1⟩
  · rintro ⟨p, hp, h1⟩
    obtain ⟨q, hq, hb⟩ := h.left p hp
    exact ⟨q, hq, (becomes_kind hb hx).mpr h1⟩

theorem becomes_takes {kw : PyDict String V} {sig sig' : Sig V} (h : All2 (Becomes kw) sig sig') (named : PyDict String V) : Takes sig' [] named ↔ Takes sig [] named := by
  have hc : ∀ s : Sig V, ¬ Conflict s [] named := by
    rintro s ⟨p, _, _, h1, _⟩; simp [posArg_nil] at h1
  have he : ∀ s : Sig V, extraArgs s ([] : List V) = [] := by
    intro s; simp [extraArgs, overflow]
  have hk : extraKwargs sig' named = extraKwargs sig named := by
    unfold extraKwargs
    rw [becomes_unknown h]
    by_cases hv : hasKind .varKw sig
    · rw [if_pos hv, if_pos ((becomes_hasKind h (.inr (.inl rfl))).mpr hv)]
    · rw [if_neg hv, if_neg (fun h' => hv ((becomes_hasKind h (.inr (.inl rfl))).mp h'))]
  have hp : PosOnlyClash sig' [] named ↔ PosOnlyClash sig [] named := by
    constructor
    · rintro ⟨q, hq, h1, _, h2⟩
      obtain ⟨p, hp, hb⟩ := h.right q hq
      exact ⟨p, hp, (becomes_kind hb (.inl rfl)).mp h1, posArg_nil _ _, by rw [← hb.1]; exact h2⟩
    · rintro ⟨p, hp, h1, _, h2⟩
      obtain ⟨q, hq, hb⟩ := h.left p hp
      exact ⟨q, hq, (becomes_kind hb (.inl rfl)).mpr h1, posArg_nil _ _, by rw [hb.1]; exact h2⟩
  simp [Takes, hc, he, hk, hp]

theorem becomes_seen {kw : PyDict String V} {sig sig' : Sig V} (h : All2 (Becomes kw) sig sig') {named : PyDict String V} (hn : ∀ n, PyDict.has kw n = true → PyDict.has named n = true)
    {p q : Param V} (hb : Becomes kw p q) : seen sig' [] named q = seen sig [] named p := by
  unfold seen
  by_cases h1 : p.kind = .varPos
  · rw [if_pos h1, if_pos ((becomes_kind hb (.inr (.inr rfl))).mpr h1)]; simp [overflow]
  · rw [if_neg h1, if_neg (fun h' => h1 ((becomes_kind hb (.inr (.inr rfl))).mp h'))]
    by_cases h2 : p.kind = .varKw
    · rw [if_pos h2, if_pos ((becomes_kind hb (.inr (.inl rfl))).mpr h2), becomes_unknown h]
    · rw [if_neg h2, if_neg (fun h' => h2 ((becomes_kind hb (.inr (.inl rfl))).mp h'))]
      simp only [given, posArg_nil, becomes_byName hb, hb.1]
      rcases hb.2.2 with hd | ⟨hd1, hd2⟩
      · rw [hd]
      · obtain ⟨v, hv⟩ := Option.isSome_iff_exists.mp (hn _ hd2)
        simp [hd1, hv]

theorem becomes_fits {isof : T → BVal V → Res Bool} {hints : PyDict String T} {kw : PyDict String V} {sig sig' : Sig V} (h : All2 (Becomes kw) sig sig') {named : PyDict String V}
    (hn : ∀ n, PyDict.has kw n = true → PyDict.has named n = true) : Fits isof hints sig' [] named ↔ Fits isof hints sig [] named := by
  unfold Fits
  rw [becomes_takes h]
  apply and_congr_right'
  constructor
  · intro hh p hp b hs t ht
    obtain ⟨q, hq, hb⟩ := h.left p hp
    exact hh q hq b (by rw [becomes_seen h hn hb]; exact hs) t (by rw [hb.1]; exact ht)
  · intro hh q hq b hs t ht
    obtain ⟨p, hp, hb⟩ := h.right q hq
    exact hh p hp b (by rw [← becomes_seen h hn hb]; exact hs) t (by rw [← hb.1]; exact ht)

end Unpy.CurryAnnotated
