import Verif.Model.Arity
import Verif.Spec.Arity
import Verif.Proof.PyDict
/-! # Lemmas about `_bind` -/
namespace Unpy.Arity
open Unpy.Spec.Arity
variable {V : Type}

def Pos (p : Param V) : Prop := p.kind = .posOnly ∨ p.kind = .posOrKw

/-- with no positional arguments left, the first loop leaves everything to the second one -/
theorem phase1_nil (kwargs : PyDict String V) (ps : List (Param V)) (A : PyDict String (BVal V))
    (U : List (Param V)) (E : List V) :
    (phase1 false kwargs [] ps A U E = .error .TypeError ∧
      ∃ p ∈ ps, p.kind = .posOnly ∧ PyDict.has kwargs p.name = true) ∨
    ∃ s, phase1 false kwargs [] ps A U E = .ok s ∧ s.extraArgs = E ∧
      phase2 false s.params kwargs s.arguments s.unbound none = phase2 false ps kwargs A U none := by
  induction ps generalizing U with
  | nil => exact .inr ⟨⟨[], A, U, E⟩, by simp [phase1], rfl, rfl⟩
  | cons p ps ih =>
    by_cases h1 : p.kind = .varPos
    · refine .inr ⟨⟨ps, A, U, E⟩, by simp [phase1, h1], rfl, ?_⟩
      simp [phase2, h1]
    · by_cases h2 : PyDict.has kwargs p.name = true
      · by_cases h3 : p.kind = .posOnly
        · exact .inl ⟨by simp [phase1, h2, h3], p, by simp, h3, h2⟩
        · exact .inr ⟨⟨p :: ps, A, U, E⟩, by simp [phase1, h1, h2, h3], rfl, rfl⟩
      · by_cases h4 : p.kind = .varKw ∨ p.default.isSome
        · refine .inr ⟨⟨p :: ps, A, U, E⟩, ?_, rfl, rfl⟩
          simp only [phase1]
          rw [if_neg h1, if_neg h2, if_pos h4]
        · have hstep : phase1 false kwargs [] (p :: ps) A U E = phase1 false kwargs [] ps A (U ++ [p]) E := by
            simp only [phase1]
            rw [if_neg h1, if_neg h2, if_neg h4, if_neg (by simp)]
          have hstep2 : phase2 false (p :: ps) kwargs A U none = phase2 false ps kwargs A (U ++ [p]) none := by
            simp only [not_or] at h4
            have hg : PyDict.get? kwargs p.name = none := by
              simpa [PyDict.has] using h2
            have hd : p.default.isNone = true := by
              cases hd : p.default <;> simp [hd] at h4 ⊢
            simp [phase2, h1, h4.1, hg, hd]
          rw [hstep, hstep2]
          rcases ih (U ++ [p]) with ⟨h, q, hq, hk⟩ | h
          · exact .inl ⟨h, q, by simp [hq], hk⟩
          · exact .inr h

/-- what the second loop computes -/
theorem phase2_spec (ps : List (Param V)) (hn : (ps.map (·.name)).Nodup) (K : PyDict String V)
    (A : PyDict String (BVal V)) (U : List (Param V)) (kp : Option (Param V))
    (hc : ¬ ∃ p ∈ ps, p.kind = .posOnly ∧ PyDict.has K p.name = true) :
    ∃ s, phase2 false ps K A U kp = .ok s ∧
      s.kwargs = K.filter (fun kv => ¬ ∃ p ∈ ps, Ordinary p ∧ p.name = kv.1) ∧
      s.unbound = U ++ ps.filter (fun p => Ordinary p ∧ p.default = none ∧ PyDict.get? K p.name = none) ∧
      s.kwargsParam = ((ps.filter (fun p => p.kind = .varKw)).getLast? <|> kp) ∧
      (∀ k, (∃ p ∈ ps, Ordinary p ∧ p.name = k) → ∀ v, PyDict.get? K k = some v →
        PyDict.get? s.arguments k = some (.val v)) ∧
      (∀ k, ((¬ ∃ p ∈ ps, Ordinary p ∧ p.name = k) ∨ PyDict.get? K k = none) →
        PyDict.get? s.arguments k = PyDict.get? A k) := by
  induction ps generalizing K A U kp with
  | nil =>
    refine ⟨_, rfl, ?_, by simp, by simp, ?_, ?_⟩
    · exact (List.filter_eq_self.mpr (by simp)).symm
    · rintro k ⟨p, hp, _⟩; simp at hp
    · intro k _; rfl
  | cons p ps ih =>
    simp only [List.map_cons, List.nodup_cons] at hn
    have hpn : ∀ q ∈ ps, q.name ≠ p.name := fun q hq e => hn.1 (List.mem_map.mpr ⟨q, hq, e⟩)
    have hc' : ¬ ∃ q ∈ ps, q.kind = .posOnly ∧ PyDict.has K q.name = true := by
      rintro ⟨q, hq, h⟩; exact hc ⟨q, by simp [hq], h⟩
    by_cases h1 : p.kind = .varKw
    · have ho : ¬ Ordinary p := by simp [Ordinary, h1]
      obtain ⟨s, e, e1, e2, e3, e4, e5⟩ := ih hn.2 K A U (some p) hc'
      refine ⟨s, by simp only [phase2]; rw [if_pos h1]; exact e, ?_, ?_, ?_, ?_, ?_⟩
      · rw [e1]; congr 1; funext kv; simp [ho]
      · rw [e2, List.filter_cons]; simp [ho]
      · rw [e3, List.filter_cons]
        simp only [h1, decide_true, if_true]
        cases hl : (ps.filter (fun p => decide (p.kind = .varKw))).getLast? with
        | none => rw [List.getLast?_cons, hl]; rfl
        | some z => rw [List.getLast?_cons, hl]; rfl
      · rintro k ⟨q, hq, hqo, hqk⟩
        rcases List.mem_cons.mp hq with rfl | hq
        · exact absurd hqo ho
        · exact e4 k ⟨q, hq, hqo, hqk⟩
      · intro k hk
        apply e5
        rcases hk with hk | hk
        · left; rintro ⟨q, hq, h⟩; exact hk ⟨q, by simp [hq], h⟩
        · exact .inr hk
    · by_cases h2 : p.kind = .varPos
      · have ho : ¬ Ordinary p := by simp [Ordinary, h2]
        obtain ⟨s, e, e1, e2, e3, e4, e5⟩ := ih hn.2 K A U kp hc'
        refine ⟨s, by simp only [phase2]; rw [if_neg h1, if_pos h2]; exact e, ?_, ?_, ?_, ?_, ?_⟩
        · rw [e1]; congr 1; funext kv; simp [ho]
        · rw [e2, List.filter_cons]; simp [ho]
        · rw [e3, List.filter_cons]; simp [h1]
        · rintro k ⟨q, hq, hqo, hqk⟩
          rcases List.mem_cons.mp hq with rfl | hq
          · exact absurd hqo ho
          · exact e4 k ⟨q, hq, hqo, hqk⟩
        · intro k hk
          apply e5
          rcases hk with hk | hk
          · left; rintro ⟨q, hq, h⟩; exact hk ⟨q, by simp [hq], h⟩
          · exact .inr hk
      · have ho : Ordinary p := by
          unfold Ordinary; cases hk : p.kind <;> simp_all
        cases hg : PyDict.get? K p.name with
        | none =>
          by_cases hd : p.default = none
          · obtain ⟨s, e, e1, e2, e3, e4, e5⟩ := ih hn.2 K A (U ++ [p]) kp hc'
            refine ⟨s, ?_, ?_, ?_, ?_, ?_, ?_⟩
            · simp only [phase2]; rw [if_neg h1, if_neg h2, hg]; simp [h2, hd]; exact e
            · rw [e1]
              apply List.filter_congr
              intro kv hkv
              have : p.name ≠ kv.1 := by
                intro hh
                have : PyDict.has K p.name = true := by
                  rw [← PyDict.mem_keys, hh]; exact List.mem_map.mpr ⟨kv, hkv, rfl⟩
                simp [PyDict.has, hg] at this
              simp [this]
            · rw [e2, List.filter_cons]; simp [ho, hd, hg]
            · rw [e3, List.filter_cons]; simp [h1]
            · rintro k ⟨q, hq, hqo, hqk⟩ v hv
              rcases List.mem_cons.mp hq with rfl | hq
              · rw [hqk] at hg; rw [hg] at hv; cases hv
              · exact e4 k ⟨q, hq, hqo, hqk⟩ v hv
            · intro k hk
              apply e5
              rcases hk with hk | hk
              · left; rintro ⟨q, hq, h⟩; exact hk ⟨q, by simp [hq], h⟩
              · exact .inr hk
          · obtain ⟨s, e, e1, e2, e3, e4, e5⟩ := ih hn.2 K A U kp hc'
            refine ⟨s, ?_, ?_, ?_, ?_, ?_, ?_⟩
            · simp only [phase2]; rw [if_neg h1, if_neg h2, hg]; simp [hd]; exact e
            · rw [e1]
              apply List.filter_congr
              intro kv hkv
              have : p.name ≠ kv.1 := by
                intro hh
                have : PyDict.has K p.name = true := by
                  rw [← PyDict.mem_keys, hh]; exact List.mem_map.mpr ⟨kv, hkv, rfl⟩
                simp [PyDict.has, hg] at this
              simp [this]
            · rw [e2, List.filter_cons]; simp [hd]
            · rw [e3, List.filter_cons]; simp [h1]
            · rintro k ⟨q, hq, hqo, hqk⟩ v hv
              rcases List.mem_cons.mp hq with rfl | hq
              · rw [hqk] at hg; rw [hg] at hv; cases hv
              · exact e4 k ⟨q, hq, hqo, hqk⟩ v hv
            · intro k hk
              apply e5
              rcases hk with hk | hk
              · left; rintro ⟨q, hq, h⟩; exact hk ⟨q, by simp [hq], h⟩
              · exact .inr hk
        | some v =>
          have h3 : p.kind ≠ .posOnly := by
            intro h3; exact hc ⟨p, by simp, h3, by simp [PyDict.has, hg]⟩
          have hc'' : ¬ ∃ q ∈ ps, q.kind = .posOnly ∧ PyDict.has (PyDict.erase K p.name) q.name = true := by
            rintro ⟨q, hq, hk, hh⟩
            refine hc' ⟨q, hq, hk, ?_⟩
            simp only [PyDict.has, PyDict.get?_erase, if_neg (hpn q hq)] at hh ⊢
            exact hh
          obtain ⟨s, e, e1, e2, e3, e4, e5⟩ :=
            ih hn.2 (PyDict.erase K p.name) (PyDict.set A p.name (.val v)) U kp hc''
          refine ⟨s, ?_, ?_, ?_, ?_, ?_, ?_⟩
          · simp only [phase2]; rw [if_neg h1, if_neg h2, hg]; simp [h3]; exact e
          · rw [e1, PyDict.erase, List.filter_filter]
            congr 1; funext kv
            by_cases hkv : p.name = kv.1
            · simp [ho, hkv]
            · have : kv.1 ≠ p.name := fun h => hkv h.symm
              simp [hkv, this]
          · rw [e2, List.filter_cons]
            simp only [hg, reduceCtorEq, and_false, decide_false, Bool.false_eq_true, if_false]
            congr 1
            apply List.filter_congr
            intro q hq
            rw [PyDict.get?_erase, if_neg (hpn q hq)]
          · rw [e3, List.filter_cons]; simp [h1]
          · rintro k ⟨q, hq, hqo, hqk⟩ w hw
            by_cases hk : k = p.name
            · subst hk
              rw [hg] at hw; cases hw
              rw [e5 _ (.inl ?_), PyDict.get?_set, if_pos rfl]
              rintro ⟨r, hr, _, hrn⟩; exact hpn r hr hrn
            · rcases List.mem_cons.mp hq with rfl | hq
              · exact absurd hqk.symm hk
              · exact e4 k ⟨q, hq, hqo, hqk⟩ w (by rw [PyDict.get?_erase, if_neg hk]; exact hw)
          · intro k hk
            have hkp : k ≠ p.name := by
              rintro rfl
              rcases hk with hk | hk
              · exact hk ⟨p, by simp, ho, rfl⟩
              · rw [hg] at hk; cases hk
            rw [e5, PyDict.get?_set, if_neg (Ne.symm hkp)]
            rcases hk with hk | hk
            · left; rintro ⟨q, hq, h⟩; exact hk ⟨q, by simp [hq], h⟩
            · right; rw [PyDict.get?_erase, if_neg hkp]; exact hk

/-- a positional-only parameter given by name is an error in the second loop, too -/
theorem phase2_clash (ps : List (Param V)) (hn : (ps.map (·.name)).Nodup) (K : PyDict String V)
    (A : PyDict String (BVal V)) (U : List (Param V)) (kp : Option (Param V))
    (hc : ∃ p ∈ ps, p.kind = .posOnly ∧ PyDict.has K p.name = true) :
    phase2 false ps K A U kp = .error .TypeError := by
  induction ps generalizing K A U kp with
  | nil => obtain ⟨p, hp, _⟩ := hc; simp at hp
  | cons p ps ih =>
    simp only [List.map_cons, List.nodup_cons] at hn
    have hpn : ∀ q ∈ ps, q.name ≠ p.name := fun q hq e => hn.1 (List.mem_map.mpr ⟨q, hq, e⟩)
    obtain ⟨q, hq, hk, hh⟩ := hc
    rcases List.mem_cons.mp hq with rfl | hq
    · obtain ⟨v, hv⟩ := Option.isSome_iff_exists.mp hh
      simp [phase2, hk, hv]
    · simp only [phase2]
      split
      · exact ih hn.2 _ _ _ _ ⟨q, hq, hk, hh⟩
      · split
        · exact ih hn.2 _ _ _ _ ⟨q, hq, hk, hh⟩
        · split
          · split <;> exact ih hn.2 _ _ _ _ ⟨q, hq, hk, hh⟩
          · split
            · rfl
            · refine ih hn.2 _ _ _ _ ⟨q, hq, hk, ?_⟩
              simp only [PyDict.has, PyDict.get?_erase, if_neg (hpn q hq)] at hh ⊢
              exact hh

theorem lookup_none_of_not_mem {l : List (String × V)} {k : String} (h : k ∉ l.map (·.1)) :
    l.lookup k = none := by
  induction l with
  | nil => rfl
  | cons p l ih =>
    simp only [List.map_cons, List.mem_cons, not_or] at h
    rw [List.lookup_cons]
    have : (k == p.1) = false := by simpa using h.1
    rw [this]; exact ih h.2

theorem lookup_of_mem {l : List (String × V)} (hn : (l.map (·.1)).Nodup) {k : String} {v : V}
    (h : (k, v) ∈ l) : l.lookup k = some v := by
  induction l with
  | nil => simp at h
  | cons p l ih =>
    simp only [List.map_cons, List.nodup_cons] at hn
    rw [List.lookup_cons]
    rcases List.mem_cons.mp h with rfl | h
    · simp
    · have : k ≠ p.1 := by rintro rfl; exact hn.1 (List.mem_map.mpr ⟨_, h, rfl⟩)
      rw [show (k == p.1) = false by simpa using this]
      exact ih hn.2 h

/-- positional parameters take the positional arguments in order -/
theorem phase1_consume (kwargs : PyDict String V) (ps rest : List (Param V)) (hp : ∀ p ∈ ps, Pos p)
    (hn : (ps.map (·.name)).Nodup) (args : List V)
    (A : PyDict String (BVal V)) (U : List (Param V)) (E : List V) :
    (phase1 false kwargs args (ps ++ rest) A U E = .error .TypeError ∧
      ∃ p ∈ ps.take args.length, p.kind = .posOrKw ∧ PyDict.has kwargs p.name = true) ∨
    ((¬ ∃ p ∈ ps.take args.length, p.kind = .posOrKw ∧ PyDict.has kwargs p.name = true) ∧ ∃ A',
      phase1 false kwargs args (ps ++ rest) A U E =
        phase1 false kwargs (args.drop ps.length) (ps.drop args.length ++ rest) A' U E ∧
      ∀ k, PyDict.get? A' k = match ((ps.map (·.name)).zip args).lookup k with
        | some v => some (.val v)
        | none => PyDict.get? A k) := by
  induction ps generalizing args A with
  | nil =>
    refine .inr ⟨?_, A, by simp, ?_⟩
    · rintro ⟨p, hp, _⟩; simp at hp
    · intro k; simp
  | cons p ps ih =>
    cases args with
    | nil =>
      refine .inr ⟨?_, A, by simp, ?_⟩
      · rintro ⟨p, hp, _⟩; simp at hp
      · intro k; simp
    | cons a as =>
      simp only [List.map_cons, List.nodup_cons] at hn
      have hpos := hp p (by simp)
      have k1 : p.kind ≠ .varKw := by rcases hpos with h | h <;> simp [h]
      have k2 : p.kind ≠ .kwOnly := by rcases hpos with h | h <;> simp [h]
      have k3 : p.kind ≠ .varPos := by rcases hpos with h | h <;> simp [h]
      by_cases hh : PyDict.has kwargs p.name = true ∧ p.kind ≠ .posOnly
      · refine .inl ⟨?_, p, by simp, ?_, hh.1⟩
        · simp only [List.cons_append, phase1]; rw [if_neg k3, if_pos hh]
        · rcases hpos with h | h
          · exact absurd h hh.2
          · exact h
      · have hstep : phase1 false kwargs (a :: as) (p :: ps ++ rest) A U E =
            phase1 false kwargs as (ps ++ rest) (PyDict.set A p.name (.val a)) U E := by
          simp only [List.cons_append, phase1]; rw [if_neg k3, if_neg hh, if_neg (by simp [k1, k2])]
        rcases ih (fun q hq => hp q (by simp [hq])) hn.2 as (PyDict.set A p.name (.val a)) with
          ⟨h, q, hq, hk⟩ | ⟨hno, A', h1, h2⟩
        · exact .inl ⟨by rw [hstep, h], q, by simp [hq], hk⟩
        · refine .inr ⟨?_, A', ?_, ?_⟩
          · rintro ⟨q, hq, hk, hh'⟩
            simp only [List.length_cons, List.take_succ_cons, List.mem_cons] at hq
            rcases hq with rfl | hq
            · exact hh ⟨hh', by simp [hk]⟩
            · exact hno ⟨q, hq, hk, hh'⟩
          · rw [hstep, h1]; simp
          · intro k
            rw [h2 k]
            simp only [List.map_cons, List.zip_cons_cons, List.lookup_cons]
            by_cases hk : k = p.name
            · subst hk
              have : p.name ∉ ((ps.map (·.name)).zip as).map (·.1) := by
                intro hm
                obtain ⟨x, hx, e⟩ := List.mem_map.mp hm
                have := List.of_mem_zip (a := x.1) (b := x.2) hx
                rw [e] at this; exact hn.1 this.1
              rw [lookup_none_of_not_mem this]
              simp [PyDict.get?_set]
            · rw [show (k == p.name) = false by simpa using hk]
              simp only [PyDict.get?_set, if_neg (Ne.symm hk)]

/-- extra arguments when no parameters are left -/
theorem phase1_extra (kwargs : PyDict String V) (args : List V)
    (A : PyDict String (BVal V)) (U : List (Param V)) (E : List V) :
    phase1 false kwargs args [] A U E = .ok ⟨[], A, U, E ++ args⟩ := by
  rfl

/-- what a parameter is bound to before defaults -/
def bound (sig : Sig V) (args : List V) (kwargs : PyDict String V) (p : Param V) : Option (BVal V) :=
  if p.kind = .varPos then (if overflow sig args = [] then none else some (.tuple (overflow sig args)))
  else if p.kind = .varKw then (if unknown sig kwargs = [] then none else some (.dict (unknown sig kwargs)))
  else (given sig args kwargs p).map .val

/-- a well-formed signature: positional parameters first -/
theorem WF.split {sig : Sig V} (h : WF sig) : ∃ pos rest, sig = pos ++ rest ∧ positional sig = pos ∧
    (∀ p ∈ pos, Pos p) ∧ (∀ p ∈ rest, ¬ Pos p) ∧
    ((rest = [] ∨ (∃ v r, rest = v :: r ∧ v.kind = .varPos ∧ ∀ p ∈ r, p.kind ≠ .varPos)) ∨
      (rest ≠ [] ∧ ∀ p ∈ rest, p.kind = .kwOnly ∨ p.kind = .varKw)) ∧
    ((∀ p ∈ rest, p.kind ≠ .varKw) ∨ ∃ r kw, rest = r ++ [kw] ∧ kw.kind = .varKw ∧ ∀ p ∈ r, p.kind ≠ .varKw) := by
  obtain ⟨po, pk, va, ko, vk, e, h1, h2, h3, h3l, h4, h5, h5l⟩ := h.shape
  have hrest : ∀ p ∈ va ++ ko ++ vk, ¬ Pos p := by
    intro p hp
    simp only [List.mem_append] at hp
    rcases hp with (hp | hp) | hp
    · simp [Pos, h3 p hp]
    · simp [Pos, h4 p hp]
    · simp [Pos, h5 p hp]
  have hpos : ∀ p ∈ po ++ pk, Pos p := by
    intro p hp
    simp only [List.mem_append] at hp
    rcases hp with hp | hp
    · exact .inl (h1 p hp)
    · exact .inr (h2 p hp)
  refine ⟨po ++ pk, va ++ ko ++ vk, by rw [e]; simp, ?_, hpos, hrest, ?_, ?_⟩
  · rw [e, positional]
    have e1 : po ++ pk ++ va ++ ko ++ vk = (po ++ pk) ++ (va ++ ko ++ vk) := by simp
    rw [e1, List.filter_append]
    rw [List.filter_eq_self.mpr, List.filter_eq_nil_iff.mpr]
    · simp
    · intro p hp; have := hrest p hp; simpa [Pos] using this
    · intro p hp; have := hpos p hp; simpa [Pos] using this
  · match va, h3l, h3 with
    | [], _, _ =>
      by_cases hk : ko ++ vk = []
      · left; left; simpa using hk
      · right
        refine ⟨by simpa using hk, ?_⟩
        intro p hp
        simp only [List.nil_append, List.mem_append] at hp
        rcases hp with hp | hp
        · exact .inl (h4 p hp)
        · exact .inr (h5 p hp)
    | [v], _, h3 =>
      left; right
      refine ⟨v, ko ++ vk, rfl, h3 v (by simp), ?_⟩
      intro p hp
      simp only [List.mem_append] at hp
      rcases hp with hp | hp
      · simp [h4 p hp]
      · simp [h5 p hp]
  · match vk, h5l, h5 with
    | [], _, _ =>
      left
      intro p hp
      simp only [List.append_nil, List.mem_append] at hp
      rcases hp with hp | hp
      · simp [h3 p hp]
      · simp [h4 p hp]
    | [kw], _, h5 =>
      right
      refine ⟨va ++ ko, kw, rfl, h5 kw (by simp), ?_⟩
      intro p hp
      simp only [List.mem_append] at hp
      rcases hp with hp | hp
      · simp [h3 p hp]
      · simp [h4 p hp]

theorem not_ordinary_of_star {p : Param V} (h : p.kind = .varPos ∨ p.kind = .varKw) : ¬ Ordinary p := by
  rcases h with h | h <;> simp [Ordinary, h]

theorem zip_fst (l : List String) (args : List V) : (l.zip args).map (·.1) = l.take args.length := by
  induction l generalizing args with
  | nil => simp
  | cons x l ih => cases args with
    | nil => simp
    | cons a as => simp [ih]

/-- the parameters that get a positional argument are the first ones -/
theorem posArg_take {sig pos rest : List (Param V)} (e : sig = pos ++ rest) (hpos : positional sig = pos)
    (hn : (sig.map (·.name)).Nodup) (args : List V) :
    (∀ p ∈ pos.take args.length, (posArg sig args p.name).isSome) ∧
    (∀ p ∈ pos.drop args.length ++ rest, posArg sig args p.name = none) := by
  have hn' : ((pos.map (·.name)) ++ rest.map (·.name)).Nodup := by rw [e] at hn; simpa using hn
  have hnp : (pos.map (·.name)).Nodup := (List.nodup_append.mp hn').1
  have hzf := zip_fst (pos.map (·.name)) args
  have hzn : (((pos.map (·.name)).zip args).map (·.1)).Nodup := by
    rw [hzf]; exact hnp.sublist (List.take_sublist _ _)
  constructor
  · intro p hp
    obtain ⟨i, hi, e⟩ := List.mem_take_iff_getElem.mp hp
    rw [posArg, hpos]
    have : (p.name, args[i]'(by omega)) ∈ (pos.map (·.name)).zip args := by
      rw [List.mem_iff_getElem]
      refine ⟨i, by simp; omega, ?_⟩
      simp [e]
    rw [lookup_of_mem hzn this]; rfl
  · intro p hp
    rw [posArg, hpos]
    apply lookup_none_of_not_mem
    intro hm
    rw [hzf] at hm
    have hn2 : ((pos.map (·.name)).take args.length ++
        ((pos.map (·.name)).drop args.length ++ rest.map (·.name))).Nodup := by
      rw [← List.append_assoc, List.take_append_drop]; exact hn'
    refine (List.nodup_append.mp hn2).2.2 _ hm p.name ?_ rfl
    simp only [List.mem_append] at hp ⊢
    rcases hp with hp | hp
    · left; rw [← List.map_drop]; exact List.mem_map.mpr ⟨p, hp, rfl⟩
    · right; exact List.mem_map.mpr ⟨p, hp, rfl⟩

theorem name_inj {l : List (Param V)} (hn : (l.map (·.name)).Nodup) {a b : Param V} (ha : a ∈ l) (hb : b ∈ l)
    (h : a.name = b.name) : a = b := by
  induction l with
  | nil => simp at ha
  | cons x l ih =>
    simp only [List.map_cons, List.nodup_cons] at hn
    rcases List.mem_cons.mp ha with ha' | ha' <;> rcases List.mem_cons.mp hb with hb' | hb'
    · rw [ha', hb']
    · exact absurd (List.mem_map.mpr ⟨b, hb', by rw [← h, ha']⟩) hn.1
    · exact absurd (List.mem_map.mpr ⟨a, ha', by rw [h, hb']⟩) hn.1
    · exact ih hn.2 ha' hb'

/-- the characterisation of `_bind` -/
theorem bind_main {sig : Sig V} (h : WF sig) (args : List V) (kwargs : PyDict String V)
    (hov : extraArgs sig args = [] ∨ (¬ hasKind .kwOnly sig ∧ ¬ hasKind .varKw sig))
    (hc : ¬ Conflict sig args kwargs) (hp : ¬ PosOnlyClash sig args kwargs) :
    ∃ r, bind false sig args kwargs = .ok r ∧ r.unbound = missing sig args kwargs ∧
      r.extraArgs = extraArgs sig args ∧ r.extraKwargs = extraKwargs sig kwargs ∧
      ∀ p ∈ sig, PyDict.get? r.arguments p.name = bound sig args kwargs p := by
  obtain ⟨pos, rest, e, hpos, hpk, hrk, hva, hvk⟩ := WF.split h
  have hn := h.names
  have hn' : ((pos.map (·.name)) ++ rest.map (·.name)).Nodup := by rw [e] at hn; simpa using hn
  have hnp : (pos.map (·.name)).Nodup := (List.nodup_append.mp hn').1
  obtain ⟨hta, htd⟩ := posArg_take e hpos hn args
  -- names in the part not reached by positional arguments
  let Q := pos.drop args.length ++ rest
  have hsig : sig = pos.take args.length ++ Q := by
    rw [e]; show _ = _ ++ (_ ++ _); rw [← List.append_assoc, List.take_append_drop]
  have hQn : (Q.map (·.name)).Nodup := by
    rw [hsig] at hn; simp only [List.map_append] at hn; 
    have := (List.nodup_append.mp hn).2.1; simpa [Q] using this
  have hdisj : ∀ p ∈ pos.take args.length, ∀ q ∈ Q, p.name ≠ q.name := by
    intro p hp q hq hpq
    rw [hsig, List.map_append] at hn
    exact (List.nodup_append.mp hn).2.2 _ (List.mem_map.mpr ⟨p, hp, rfl⟩) _ (List.mem_map.mpr ⟨q, hq, rfl⟩) hpq
  have hQc : ¬ ∃ p ∈ Q, p.kind = .posOnly ∧ PyDict.has kwargs p.name = true := by
    rintro ⟨p, hpQ, hk, hh⟩
    exact hp ⟨p, by rw [hsig]; simp [hpQ], hk, htd p hpQ, hh⟩
  have hmiss : missing sig args kwargs =
      Q.filter (fun p => Ordinary p ∧ p.default = none ∧ PyDict.get? kwargs p.name = none) := by
    rw [missing, hsig, List.filter_append, List.filter_eq_nil_iff.mpr, List.nil_append]
    · rw [← hsig]
      apply List.filter_congr
      intro p hpQ
      simp only [given, htd p hpQ]
      by_cases hb : ByName p
      · simp [hb]
      · by_cases ho : Ordinary p
        · have hk : p.kind = .posOnly := by
            unfold Ordinary at ho; unfold ByName at hb
            cases hk : p.kind <;> simp_all
          have : PyDict.get? kwargs p.name = none := by
            cases hg : PyDict.get? kwargs p.name with
            | none => rfl
            | some v => exact absurd ⟨p, hpQ, hk, by simp [PyDict.has, hg]⟩ hQc
          simp [hb, this]
        · simp [ho]
    · intro p hpt
      rw [← hsig]
      have := hta p hpt
      obtain ⟨v, hv⟩ := Option.isSome_iff_exists.mp this
      simp [given, hv]
  have hunk : kwargs.filter (fun kv => ¬ ∃ p ∈ Q, Ordinary p ∧ p.name = kv.1) = unknown sig kwargs := by
    rw [unknown]
    apply List.filter_congr
    intro kv hkv
    have hkin : PyDict.has kwargs kv.1 = true := by
      rw [← PyDict.mem_keys]; exact List.mem_map.mpr ⟨kv, hkv, rfl⟩
    rw [decide_eq_decide]
    apply not_congr
    constructor
    · rintro ⟨p, hpQ, ho, hnm⟩
      refine ⟨p, by rw [hsig]; simp [hpQ], ?_, hnm⟩
      have : p.kind ≠ .posOnly := fun hk => hQc ⟨p, hpQ, hk, by rw [hnm]; exact hkin⟩
      unfold Ordinary at ho; unfold ByName
      rcases ho with h | h | h
      · exact absurd h this
      · exact .inl h
      · exact .inr h
    · rintro ⟨p, hps, hb, hnm⟩
      have ho : Ordinary p := by
        unfold ByName at hb; unfold Ordinary; exact .inr hb
      rw [hsig, List.mem_append] at hps
      rcases hps with hps | hps
      · exact absurd ⟨p, by rw [hsig]; simp [hps], hb, hta p hps, by rw [hnm]; exact hkin⟩ hc
      · exact ⟨p, hps, ho, hnm⟩
  have tail : ∀ s1 A0, phase1 false kwargs args sig [] [] [] = .ok s1 →
      phase2 false s1.params kwargs s1.arguments s1.unbound none = phase2 false Q kwargs A0 [] none →
      s1.extraArgs = extraArgs sig args →
      (∀ p ∈ pos.take args.length, PyDict.get? A0 p.name = (posArg sig args p.name).map .val) →
      (∀ p ∈ Q, PyDict.get? A0 p.name =
        if p.kind = .varPos ∧ overflow sig args ≠ [] then some (.tuple (overflow sig args)) else none) →
      ∃ r, bind false sig args kwargs = .ok r ∧ r.unbound = missing sig args kwargs ∧
        r.extraArgs = extraArgs sig args ∧ r.extraKwargs = extraKwargs sig kwargs ∧
        ∀ p ∈ sig, PyDict.get? r.arguments p.name = bound sig args kwargs p := by
    intro s1 A0 hs1 hph hex hA1 hA2
    obtain ⟨s2, e0, e1, e2, e3, e4, e5⟩ := phase2_spec Q hQn kwargs A0 [] none hQc
    rw [hunk] at e1
    rw [List.nil_append, ← hmiss] at e2
    -- what the second loop left for each parameter
    have harg : ∀ p ∈ sig, p.kind ≠ .varKw → PyDict.get? s2.arguments p.name = bound sig args kwargs p := by
      intro p hps hkw
      rw [hsig, List.mem_append] at hps
      rcases hps with hps | hps
      · have hpp : Pos p := hpk p (List.mem_of_mem_take hps)
        rw [e5 p.name (.inl ?_), hA1 p hps]
        · obtain ⟨v, hv⟩ := Option.isSome_iff_exists.mp (hta p hps)
          have k3 : p.kind ≠ .varPos := by rcases hpp with h | h <;> simp [h]
          rw [bound, if_neg k3, if_neg hkw, given, hv]
        · rintro ⟨q, hq, _, hqn⟩; exact hdisj p hps q hq hqn.symm
      · by_cases hv : p.kind = .varPos
        · rw [e5 p.name (.inl ?_), hA2 p hps, bound, if_pos hv]
          · by_cases ho : overflow sig args = []
            · simp [ho]
            · simp [ho, hv]
          · rintro ⟨q, hq, hqo, hqn⟩
            have : q = p := name_inj hQn hq hps hqn
            subst this
            exact not_ordinary_of_star (.inl hv) hqo
        · have ho : Ordinary p := by unfold Ordinary; cases hk : p.kind <;> simp_all
          rw [bound, if_neg hv, if_neg hkw]
          have hA0 : PyDict.get? A0 p.name = none := by
            rw [hA2 p hps, if_neg (by simp [hv])]
          rw [given, htd p hps]
          cases hg : PyDict.get? kwargs p.name with
          | none =>
            rw [e5 p.name (.inr hg), hA0]; simp
          | some v =>
            rw [e4 p.name ⟨p, hps, ho, rfl⟩ v hg]
            have : ByName p := by
              unfold Ordinary at ho; unfold ByName
              rcases ho with h | h | h
              · exact absurd ⟨p, hps, h, by simp [PyDict.has, hg]⟩ hQc
              · exact .inl h
              · exact .inr h
            simp [this]
    rcases hvk with hno | ⟨r, kw, hr, hkw, hr2⟩
    · have hnk : ¬ hasKind .varKw sig := by
        rintro ⟨p, hps, hk⟩
        rw [e, List.mem_append] at hps
        rcases hps with hps | hps
        · rcases hpk p hps with h | h <;> simp [h] at hk
        · exact hno p hps hk
      have hkp : s2.kwargsParam = none := by
        rw [e3, List.filter_eq_nil_iff.mpr]
        · rfl
        · intro p hpQ hk
          exact hnk ⟨p, by rw [hsig]; simp [hpQ], by simpa using hk⟩
      refine ⟨⟨s2.arguments, s2.unbound, s1.extraArgs, unknown sig kwargs⟩, ?_, e2, hex, ?_, ?_⟩
      · simp only [bind, hs1, hph, e0, hkp, e1]
        split
        · rename_i hem; rw [List.isEmpty_iff.mp hem]
        · rfl
      · rw [extraKwargs, if_neg hnk]
      · intro p hps
        exact harg p hps (fun hk => hnk ⟨p, hps, hk⟩)
    · have hkwm : kw ∈ sig := by rw [e, hr]; simp
      have hkQ : kw ∈ Q := by show kw ∈ _ ++ _; rw [hr]; simp
      have hyk : hasKind .varKw sig := ⟨kw, hkwm, hkw⟩
      have huniq : ∀ p ∈ sig, p.kind = .varKw → p = kw := by
        intro p hps hk
        rw [e, hr, List.mem_append] at hps
        rcases hps with hps | hps
        · rcases hpk p hps with h | h <;> simp [h] at hk
        · simp only [List.mem_append, List.mem_singleton] at hps
          rcases hps with hps | hps
          · exact absurd hk (hr2 p hps)
          · exact hps
      have hkp : s2.kwargsParam = some kw := by
        rw [e3]
        have : Q = (pos.drop args.length ++ r) ++ [kw] := by show _ ++ _ = _; rw [hr]; simp
        rw [this, List.filter_append]
        simp [hkw]
      have hkname : ∀ p ∈ sig, p.name = kw.name → p = kw := by
        intro p hps hne
        exact name_inj hn hps hkwm hne
      have hkarg : PyDict.get? s2.arguments kw.name = none := by
        rw [e5 kw.name (.inl ?_), hA2 kw hkQ, if_neg (by simp [hkw])]
        rintro ⟨q, hq, hqo, hqn⟩
        have := hkname q (by rw [hsig]; simp [hq]) hqn
        subst this
        exact not_ordinary_of_star (.inr hkw) hqo
      have hek : extraKwargs sig kwargs = [] := by rw [extraKwargs, if_pos hyk]
      by_cases hu : unknown sig kwargs = []
      · refine ⟨⟨s2.arguments, s2.unbound, s1.extraArgs, []⟩, ?_, e2, hex, hek.symm, ?_⟩
        · simp only [bind, hs1, hph, e0, hkp, e1, hu]; rfl
        · intro p hps
          by_cases hk : p.kind = .varKw
          · have := huniq p hps hk; subst this
            rw [bound, if_neg (by simp [hkw]), if_pos hkw, if_pos hu]; exact hkarg
          · exact harg p hps hk
      · refine ⟨⟨PyDict.set s2.arguments kw.name (.dict (unknown sig kwargs)), s2.unbound, s1.extraArgs, []⟩,
          ?_, e2, hex, hek.symm, ?_⟩
        · simp only [bind, hs1, hph, e0, hkp, e1]
          rw [if_neg (by simpa using hu)]
        · intro p hps
          simp only [PyDict.get?_set]
          by_cases hk : p.kind = .varKw
          · have := huniq p hps hk; subst this
            rw [if_pos rfl, bound, if_neg (by simp [hkw]), if_pos hkw, if_neg hu]
          · have hne : kw.name ≠ p.name := by
              intro h
              have := hkname p hps h.symm
              subst this; exact hk hkw
            rw [if_neg hne]
            exact harg p hps hk
  rcases phase1_consume kwargs pos rest hpk hnp args [] [] [] with ⟨_, p, hpt, hk, hh⟩ | ⟨_, A', h1, h2⟩
  · exact absurd ⟨p, by rw [hsig]; simp [hpt], .inl hk, hta p hpt, hh⟩ hc
  · rw [← e] at h1
    have hA1 : ∀ p ∈ pos.take args.length, PyDict.get? A' p.name = (posArg sig args p.name).map .val := by
      intro p hpt
      rw [h2 p.name, posArg, hpos]
      have := hta p hpt
      rw [posArg, hpos] at this
      obtain ⟨v, hv⟩ := Option.isSome_iff_exists.mp this
      rw [hv]; rfl
    have hA2 : ∀ p ∈ Q, PyDict.get? A' p.name = none := by
      intro p hpQ
      have := htd p hpQ
      rw [posArg, hpos] at this
      rw [h2 p.name, this]; rfl
    by_cases hle : args.length ≤ pos.length
    · have hd : args.drop pos.length = [] := List.drop_eq_nil_of_le hle
      have hov0 : overflow sig args = [] := by rw [overflow, hpos, hd]
      rw [hd] at h1
      rcases phase1_nil kwargs Q A' [] [] with ⟨_, hcl⟩ | ⟨s1, hs1, hs2, hs3⟩
      · exact absurd hcl hQc
      · refine tail s1 A' (by rw [h1]; exact hs1) hs3 ?_ hA1 ?_
        · rw [hs2, extraArgs, hov0]; simp
        · intro p hpQ; rw [hA2 p hpQ, hov0]; simp
    · have hd : args.drop pos.length ≠ [] := by
        intro h; rw [List.drop_eq_nil_iff] at h; omega
      have hQr : Q = rest := by
        show pos.drop args.length ++ rest = rest
        rw [List.drop_eq_nil_of_le (by omega)]; rfl
      have hovd : overflow sig args = args.drop pos.length := by rw [overflow, hpos]
      rw [List.drop_eq_nil_of_le (show pos.length ≤ args.length by omega), List.nil_append] at h1
      obtain ⟨b, bs, hb⟩ := List.exists_cons_of_ne_nil hd
      have extras : rest = [] → ∃ r, bind false sig args kwargs = .ok r ∧ r.unbound = missing sig args kwargs ∧
          r.extraArgs = extraArgs sig args ∧ r.extraKwargs = extraKwargs sig kwargs ∧
          ∀ p ∈ sig, PyDict.get? r.arguments p.name = bound sig args kwargs p := by
        intro hr
        rw [hr, phase1_extra] at h1
        refine tail _ A' h1 (by rw [hQr, hr]) ?_ hA1 ?_
        · rw [extraArgs, if_neg, hovd]
          · simp
          · rintro ⟨p, hps, hk⟩
            rw [e, hr, List.append_nil] at hps
            rcases hpk p hps with h | h <;> simp [h] at hk
        · intro p hpQ; rw [hQr, hr] at hpQ; simp at hpQ
      rcases hva with (hr | ⟨v, r, hr, hvv, hrv⟩) | ⟨hrne, hr⟩
      · exact extras hr
      · have hvQ : v ∈ Q := by rw [hQr, hr]; simp
        have hs1 : phase1 false kwargs args sig [] [] [] =
            .ok ⟨r, PyDict.set A' v.name (.tuple (b :: bs)), [], []⟩ := by
          rw [h1, hb, hr]
          simp [phase1, hvv]
        refine tail _ (PyDict.set A' v.name (.tuple (b :: bs))) hs1 ?_ ?_ ?_ ?_
        · rw [hQr, hr]; simp [phase2, hvv]
        · rw [extraArgs, if_pos ⟨v, by rw [hsig]; simp [hvQ], hvv⟩]
        · intro p hpt
          rw [PyDict.get?_set, if_neg (fun h => hdisj p hpt v hvQ h.symm)]
          exact hA1 p hpt
        · intro p hpQ
          rw [PyDict.get?_set]
          have hpv : p.kind = .varPos → p = v := by
            intro hk
            rw [hQr, hr] at hpQ
            rcases List.mem_cons.mp hpQ with h | h
            · exact h
            · exact absurd hk (hrv p h)
          by_cases hk : p.kind = .varPos
          · have := hpv hk; subst this
            rw [if_pos rfl, if_pos ⟨hk, by rw [hovd]; exact hd⟩, hovd, hb]
          · rw [if_neg, if_neg (by simp [hk])]
            · exact hA2 p hpQ
            · intro hne
              rw [hQr, hr] at hpQ hQn
              simp only [List.map_cons, List.nodup_cons] at hQn
              rcases List.mem_cons.mp hpQ with h | h
              · subst h; exact hk hvv
              · exact hQn.1 (List.mem_map.mpr ⟨p, h, hne.symm⟩)
      · exfalso
        rcases hov with hov | ⟨hk1, hk2⟩
        · rw [extraArgs, if_neg, hovd] at hov
          · exact hd hov
          · rintro ⟨p, hps, hk⟩
            rw [e, List.mem_append] at hps
            rcases hps with hps | hps
            · rcases hpk p hps with h | h <;> simp [h] at hk
            · rcases hr p hps with h | h <;> simp [h] at hk
        · obtain ⟨p, ps, hpr⟩ := List.exists_cons_of_ne_nil hrne
          have hps : p ∈ sig := by rw [e, hpr]; simp
          rcases hr p (by rw [hpr]; simp) with h | h
          · exact hk1 ⟨p, hps, h⟩
          · exact hk2 ⟨p, hps, h⟩

/-- a parameter given twice, or a positional-only one given by name, is a TypeError -/
theorem bind_error {sig : Sig V} (h : WF sig) (args : List V) (kwargs : PyDict String V)
    (hc : Conflict sig args kwargs ∨ PosOnlyClash sig args kwargs) :
    bind false sig args kwargs = .error .TypeError := by
  obtain ⟨pos, rest, e, hpos, hpk, hrk, hva, hvk⟩ := WF.split h
  have hn := h.names
  have hn' : ((pos.map (·.name)) ++ rest.map (·.name)).Nodup := by rw [e] at hn; simpa using hn
  have hnp : (pos.map (·.name)).Nodup := (List.nodup_append.mp hn').1
  obtain ⟨hta, htd⟩ := posArg_take e hpos hn args
  have hsig : sig = pos.take args.length ++ (pos.drop args.length ++ rest) := by
    rw [← List.append_assoc, List.take_append_drop, e]
  have hQn : ((pos.drop args.length ++ rest).map (·.name)).Nodup := by
    rw [hsig, List.map_append] at hn; exact (List.nodup_append.mp hn).2.1
  rcases phase1_consume kwargs pos rest hpk hnp args [] [] [] with ⟨he, _⟩ | ⟨hno, A', h1, h2⟩
  · rw [← e] at he; simp [bind, he]
  · rw [← e] at h1
    rcases hc with ⟨p, hps, hb, hs, hh⟩ | ⟨p, hps, hk, hs, hh⟩
    · exfalso
      rw [hsig, List.mem_append] at hps
      rcases hps with hps | hps
      · apply hno
        refine ⟨p, hps, ?_, hh⟩
        have := hpk p (List.mem_of_mem_take hps)
        rcases hb with hb | hb
        · exact hb
        · rcases this with h | h <;> simp [h] at hb
      · rw [htd p hps] at hs; simp at hs
    · have hpQ : p ∈ pos.drop args.length ++ rest := by
        rw [hsig, List.mem_append] at hps
        rcases hps with hps | hps
        · have := hta p hps; rw [hs] at this; simp at this
        · exact hps
      have hpd : p ∈ pos.drop args.length := by
        rcases List.mem_append.mp hpQ with h | h
        · exact h
        · exact absurd (Or.inl hk) (hrk p h)
      have hd : args.drop pos.length = [] := by
        rw [List.drop_eq_nil_iff]
        have := List.length_pos_of_mem hpd
        simp at this; omega
      rw [hd] at h1
      have hcl := phase2_clash _ hQn kwargs A' [] none ⟨p, hpQ, hk, hh⟩
      rcases phase1_nil kwargs (pos.drop args.length ++ rest) A' [] [] with ⟨he, _⟩ | ⟨s1, hs1, hs2, hs3⟩
      · rw [he] at h1; simp [bind, h1]
      · rw [hs1] at h1
        simp only [bind, h1, hs3, hcl]

theorem phase1_extra_mono (kwargs : PyDict String V) (args : List V) (ps : List (Param V))
    (A : PyDict String (BVal V)) (U : List (Param V)) (E : List V) (s : Phase1 V)
    (h : phase1 false kwargs args ps A U E = .ok s) : E.length ≤ s.extraArgs.length := by
  induction ps generalizing args A U E with
  | nil => rw [phase1_extra] at h; cases h; simp
  | cons p ps ih =>
    cases args with
    | nil =>
      simp only [phase1] at h
      (repeat' split at h) <;> first | (cases h; done) | (cases h; exact Nat.le_refl _) | exact ih _ _ _ _ h
    | cons a as =>
      simp only [phase1] at h
      have hE : E.length ≤ (if p.kind = .varKw ∨ p.kind = .kwOnly then E ++ [a] else E).length := by
        split <;> simp
      split at h
      · cases h; exact hE
      · split at h
        · cases h
        · exact Nat.le_trans hE (ih _ _ _ _ h)

/-- positional arguments that Python rejects are always noticed -/
theorem bind_extra {sig : Sig V} (h : WF sig) (args : List V) (kwargs : PyDict String V) (r : Analysis V)
    (hb : bind false sig args kwargs = .ok r) (hr : r.extraArgs = []) : Spec.Arity.extraArgs sig args = [] := by
  obtain ⟨pos, rest, e, hpos, hpk, hrk, hva, hvk⟩ := WF.split h
  have hn := h.names
  have hn' : ((pos.map (·.name)) ++ rest.map (·.name)).Nodup := by rw [e] at hn; simpa using hn
  have hnp : (pos.map (·.name)).Nodup := (List.nodup_append.mp hn').1
  have hs1 : ∃ s1, phase1 false kwargs args sig [] [] [] = .ok s1 ∧ s1.extraArgs = [] := by
    simp only [bind] at hb
    split at hb
    · cases hb
    · rename_i s1 hs1
      refine ⟨s1, hs1, ?_⟩
      split at hb
      · cases hb
      · split at hb
        · cases hb; exact hr
        · split at hb <;> (cases hb; exact hr)
  obtain ⟨s1, hs1, hx⟩ := hs1
  rw [Spec.Arity.extraArgs]
  split
  · rfl
  · rename_i hnv
    cases hd : overflow sig args with
    | nil => rfl
    | cons b bs =>
      exfalso
      rw [overflow, hpos] at hd
      have hlen : pos.length < args.length := by
        have : (args.drop pos.length).length = (b :: bs).length := by rw [hd]
        simp at this; omega
      rcases phase1_consume kwargs pos rest hpk hnp args [] [] [] with ⟨he, _⟩ | ⟨hno, A', h1, h2⟩
      · rw [← e, hs1] at he; cases he
      · rw [← e, hs1, hd, List.drop_eq_nil_of_le (by omega), List.nil_append] at h1
        cases rest with
        | nil => rw [phase1_extra] at h1; cases h1; simp at hx
        | cons p ps =>
          have hp1 : p.kind ≠ .varPos := fun hk => hnv ⟨p, by rw [e]; simp, hk⟩
          have hp2 : p.kind = .varKw ∨ p.kind = .kwOnly := by
            have := hrk p (by simp)
            unfold Pos at this
            cases hk : p.kind <;> simp_all
          simp only [phase1] at h1
          rw [if_neg hp1] at h1
          split at h1
          · cases h1
          · have := phase1_extra_mono kwargs _ _ _ _ _ _ h1.symm
            rw [hx] at this; simp at this

end Unpy.Arity
