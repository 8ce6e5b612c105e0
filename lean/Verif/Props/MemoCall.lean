import Verif.Proof.MemoCall
/-! # C132: callers do not notice that a function is memoized -/
namespace Unpy.Props
open Unpy Unpy.Arity Unpy.Spec.Arity Unpy.Fold Unpy.Spec.MemoCall Unpy.MemoCall
variable {V R ε : Type}

private theorem key_ok {sig : Sig V} (h : WF sig) {args : List V} {kwargs : PyDict String V} {k : List (String × BVal V)} (hk : key sig args kwargs = .ok k) :
    Accepts sig args kwargs ∧ k = sig.filterMap (fun p => (seen sig args kwargs p).map (p.name, ·)) := by
  have ha : Accepts sig args kwargs := by
    by_cases ha : Accepts sig args kwargs
    · exact ha
    · rw [C04_rejected h args kwargs ha] at hk; cases hk
  have hp : ¬ PosOnlyClash sig args kwargs := by
    intro hp
    simp [key, bindStrict, bind_error h args kwargs (.inr hp)] at hk
  rw [key_eq h args kwargs hp ha] at hk
  exact ⟨ha, (Except.ok.inj hk).symm⟩

private theorem alike_of_key {w : World V} {sig : Sig V} (h : WF sig) {c d : List V × PyDict String V} {k l : List (String × BVal V)} (hc : key sig c.1 c.2 = .ok k) (hd : key sig d.1 d.2 = .ok l) :
    eqKey w k l = true ↔ BindAlike w sig c d := by
  obtain ⟨a1, rfl⟩ := key_ok h hc
  obtain ⟨a2, rfl⟩ := key_ok h hd
  exact eqKey_iff w sig sig c d (fun p hp => seen_some a1 hp) (fun p hp => seen_some a2 hp)

private theorem calls_transparent (w : World V) {sig : Sig V} (h : WF sig) (f : List V → PyDict String V → Except (Err ε) R) (hf : ∀ args kwargs, ¬ Accepts sig args kwargs → f args kwargs = .error (.py .TypeError))
    (hr : Respects w sig f) (cs : List (List V × PyDict String V)) :
    ∀ st : St V R ε, (∀ e ∈ st.memo, ∃ c : List V × PyDict String V, key sig c.1 c.2 = .ok e.1 ∧ e.2 = f c.1 c.2) →
    (∀ c ∈ cs, PyDict.has c.2 "f" = false ∧ ¬ PosOnlyClash sig c.1 c.2 ∧ (Accepts sig c.1 c.2 → CanHash w sig c)) → (calls w sig f st cs).1 = cs.map (fun c => f c.1 c.2) := by
  induction cs with
  | nil => intros; rfl
  | cons c cs ih =>
    intro st hst hcs
    obtain ⟨h1, h2, h3⟩ := hcs c (by simp)
    have hrest := fun d hd => hcs d (List.mem_cons_of_mem _ hd)
    simp only [calls, List.map_cons]
    by_cases ha : Accepts sig c.1 c.2
    · have hk := key_eq h c.1 c.2 h2 ha
      have hh := (hashableKey_iff w sig c).mpr (h3 ha)
      cases hl : lookup w (sig.filterMap (fun p => (seen sig c.1 c.2 p).map (p.name, ·))) st.memo with
      | some out =>
        have hm : memoized w sig f st c.1 c.2 = (out, st) := by simp only [memoized, hk, hh, hl, if_true]
        obtain ⟨e, he, hek, heo⟩ := lookup_some hl
        obtain ⟨d, hd1, hd2⟩ := hst e he
        have hal := (alike_of_key h hd1 hk).mp hek
        have : out = f c.1 c.2 := by rw [← heo, hd2]; exact hr d c (key_ok h hd1).1 ha hal
        rw [hm, this]
        exact congrArg _ (ih st hst hrest)
      | none =>
        have hm : memoized w sig f st c.1 c.2 = (f c.1 c.2, ⟨(sig.filterMap (fun p => (seen sig c.1 c.2 p).map (p.name, ·)), f c.1 c.2) :: st.memo, (c.1, c.2) :: st.ran⟩) := by
          simp only [memoized, hk, hh, hl, if_true, callThrough, h1, Bool.false_eq_true, if_false]
        rw [hm]
        refine congrArg _ (ih _ ?_ hrest)
        intro e he
        rcases List.mem_cons.mp he with rfl | he
        · exact ⟨c, hk, rfl⟩
        · exact hst e he
    · have hm : memoized w sig f st c.1 c.2 = (.error (.py .TypeError), st) := by
        simp only [memoized, C04_rejected h c.1 c.2 ha]
      rw [hm, hf c.1 c.2 ha]
      exact congrArg _ (ih st hst hrest)

/-- C132: whatever calls of the memoized function are made, in whatever order and however the arguments are given, each returns or raises what a call of the function itself does; if the arguments do
not fit, that is the TypeError.  (Missing: an argument named `f`, see `C132_named_f_refuted`; a named argument for `**kwargs` with the name of a positional-only parameter, see
`C132_positional_only_refuted`; functions that distinguish values that are equal, see `C132_equal_refuted`.) -/
theorem C132_transparent_partial (w : World V) {sig : Sig V} (h : WF sig) (body : List (Option (BVal V)) → Except (Err ε) R) (f : List V → PyDict String V → Except (Err ε) R) (hf : IsFunction sig body f)
    (hr : Respects w sig f) (cs : List (List V × PyDict String V)) (hnof : ∀ c ∈ cs, PyDict.has c.2 "f" = false) (hpos : ∀ c ∈ cs, ¬ PosOnlyClash sig c.1 c.2)
    (hh : ∀ c ∈ cs, Accepts sig c.1 c.2 → CanHash w sig c) :
    (session w sig f cs).1 = cs.map (fun c => f c.1 c.2) :=
  calls_transparent w h f (fun args kwargs ha => by rw [hf, if_neg ha]) hr cs ⟨[], []⟩ (by simp) (fun c hc => ⟨hnof c hc, hpos c hc, hh c hc⟩)

private theorem calls_once (w : World V) {sig : Sig V} (h : WF sig) (f : List V → PyDict String V → Except (Err ε) R) (cs : List (List V × PyDict String V)) :
    ∀ st : St V R ε, (∀ c ∈ st.ran, ∃ e ∈ st.memo, key sig c.1 c.2 = .ok e.1) → st.ran.Pairwise (fun d c => ¬ BindAlike w sig c d) →
    (calls w sig f st cs).2.ran.Pairwise (fun d c => ¬ BindAlike w sig c d) ∧ ∀ c ∈ (calls w sig f st cs).2.ran, c ∈ st.ran ∨ c ∈ cs := by
  induction cs with
  | nil => intro st _ h2; exact ⟨h2, fun c hc => .inl hc⟩
  | cons c cs ih =>
    intro st h1 h2
    have step : ((∀ x ∈ (memoized w sig f st c.1 c.2).2.ran, ∃ e ∈ (memoized w sig f st c.1 c.2).2.memo, key sig x.1 x.2 = .ok e.1) ∧
        (memoized w sig f st c.1 c.2).2.ran.Pairwise (fun d c => ¬ BindAlike w sig c d)) ∧ ∀ x ∈ (memoized w sig f st c.1 c.2).2.ran, x ∈ st.ran ∨ x = c := by
      unfold memoized
      cases hk : key sig c.1 c.2 with
      | error e => exact ⟨⟨h1, h2⟩, fun x hx => .inl hx⟩
      | ok k =>
        dsimp only
        split
        · cases hl : lookup w k st.memo with
          | some out => exact ⟨⟨h1, h2⟩, fun x hx => .inl hx⟩
          | none =>
            dsimp only
            have hold : ∀ x ∈ st.ran, ∃ e ∈ (k, (callThrough f c.1 c.2).1) :: st.memo, key sig x.1 x.2 = .ok e.1 := by
              intro x hx
              obtain ⟨e, he, hke⟩ := h1 x hx
              exact ⟨e, List.mem_cons_of_mem _ he, hke⟩
            split
            · refine ⟨⟨?_, ?_⟩, ?_⟩
              · intro x hx
                rcases List.mem_cons.mp hx with rfl | hx
                · exact ⟨_, List.mem_cons_self, hk⟩
                · exact hold x hx
              · refine List.pairwise_cons.mpr ⟨?_, h2⟩
                intro x hx hal
                obtain ⟨e, he, hke⟩ := h1 x hx
                have hn := lookup_none hl e he
                rw [(alike_of_key h hke hk).mpr hal] at hn
                cases hn
              · intro x hx
                rcases List.mem_cons.mp hx with rfl | hx
                · exact .inr rfl
                · exact .inl hx
            · exact ⟨⟨hold, h2⟩, fun x hx => .inl hx⟩
        · exact ⟨⟨h1, h2⟩, fun x hx => .inl hx⟩
    obtain ⟨⟨s1, s2⟩, s3⟩ := step
    obtain ⟨i1, i2⟩ := ih _ s1 s2
    refine ⟨i1, ?_⟩
    intro x hx
    rcases i2 x hx with hx | hx
    · rcases s3 x hx with hx | rfl
      · exact .inl hx
      · exact .inr List.mem_cons_self
    · exact .inr (List.mem_cons_of_mem _ hx)

/-- C132: whatever calls are made, the function itself runs for some of them only, and never for two that bind alike. -/
theorem C132_once (w : World V) {sig : Sig V} (h : WF sig) (f : List V → PyDict String V → Except (Err ε) R) (cs : List (List V × PyDict String V)) :
    (∀ c ∈ (session w sig f cs).2.ran, c ∈ cs) ∧ (session w sig f cs).2.ran.Pairwise (fun later earlier => ¬ BindAlike w sig earlier later) := by
  obtain ⟨h1, h2⟩ := calls_once w h f cs ⟨[], []⟩ (by simp) .nil
  exact ⟨fun c hc => (h2 c hc).resolve_left (by simp), h1⟩

/-- C132: a call that binds something that cannot be hashed, also as the default of a parameter, raises TypeError, and nothing runs. -/
theorem C132_unhashable (w : World V) {sig : Sig V} (h : WF sig) (f : List V → PyDict String V → Except (Err ε) R) (st : St V R ε) (c : List V × PyDict String V) (ha : Accepts sig c.1 c.2)
    (hh : ¬ CanHash w sig c) : memoized w sig f st c.1 c.2 = (.error (.py .TypeError), st) := by
  unfold memoized
  cases hk : key sig c.1 c.2 with
  | error e =>
    by_cases hp : PosOnlyClash sig c.1 c.2
    · simp [key, bindStrict, bind_error h c.1 c.2 (.inr hp)] at hk
      subst hk; rfl
    · rw [key_eq h c.1 c.2 hp ha] at hk; cases hk
  | ok k =>
    obtain ⟨_, rfl⟩ := key_ok h hk
    have : hashableKey w (sig.filterMap (fun p => (seen sig c.1 c.2 p).map (p.name, ·))) = false := by
      rw [← hashableKey_iff] at hh
      simpa using hh
    simp [this]

/-- C132 refuted for a parameter named `f`: with `def g(f)`, a call `g(f=v)` of the memoized function raises TypeError, and from then on so does `g(v)`; but after a call `g(v)`, both return what `g` does. -/
theorem C132_named_f_refuted (w : World V) (f : List V → PyDict String V → Except (Err ε) R) (v : V) (hv : w.eq v v = true) (hh : w.hashable v = true) :
    let sig : Sig V := [⟨"f", .posOrKw, none⟩]
    (session w sig f [([], [("f", v)]), ([v], [])]).1 = [.error (.py .TypeError), .error (.py .TypeError)] ∧
    (session w sig f [([v], []), ([], [("f", v)])]).1 = [f [v] [], f [v] []] := by
  have h1 : key ([⟨"f", .posOrKw, none⟩] : Sig V) [v] [] = .ok [("f", .val v)] := rfl
  have h2 : key ([⟨"f", .posOrKw, none⟩] : Sig V) [] [("f", v)] = .ok [("f", .val v)] := rfl
  have h3 : hashableKey w [("f", .val v)] = true := by simp [hashableKey, hashableB, hh]
  have h4 : eqKey w [("f", .val v)] [("f", .val v)] = true := by simp [eqKey, eqAll, eqB, hv]
  constructor
  · simp [session, calls, memoized, h1, h2, h3, h4, lookup, callThrough, PyDict.has, PyDict.get?]
  · simp [session, calls, memoized, h1, h2, h3, h4, lookup, callThrough, PyDict.has, PyDict.get?]

/-- C132 refuted for functions that distinguish equal values: with `memoize(str)`, the call for `True` after that for `1` returns "1". -/
theorem C132_equal_refuted (w : World V) (f : List V → PyDict String V → Except (Err ε) R) (a b : V) (hab : w.eq a b = true) (ha : w.hashable a = true) (hb : w.hashable b = true) :
    (session w [⟨"x", .posOrKw, none⟩] f [([a], []), ([b], [])]).1 = [f [a] [], f [a] []] := by
  have h1 : ∀ v : V, key ([⟨"x", .posOrKw, none⟩] : Sig V) [v] [] = .ok [("x", .val v)] := fun _ => rfl
  have h2 : hashableKey w [("x", .val a)] = true := by simp [hashableKey, hashableB, ha]
  have h3 : hashableKey w [("x", .val b)] = true := by simp [hashableKey, hashableB, hb]
  have h4 : eqKey w [("x", .val a)] [("x", .val b)] = true := by simp [eqKey, eqAll, eqB, hab]
  simp [session, calls, memoized, h1, h2, h3, h4, lookup, callThrough, PyDict.has, PyDict.get?]

/-- C132 refuted for `def g(x=d, /, **kw)`: Python accepts `g(x=v)`, but the call of the memoized function raises TypeError. -/
theorem C132_positional_only_refuted (w : World V) (f : List V → PyDict String V → Except (Err ε) R) (d v : V) :
    let sig : Sig V := [⟨"x", .posOnly, some d⟩, ⟨"kw", .varKw, none⟩]
    Accepts sig [] [("x", v)] ∧ (session w sig f [([], [("x", v)])]).1 = [.error (.py .TypeError)] := by
  refine ⟨⟨?_, ?_, ?_, ?_⟩, rfl⟩
  · rintro ⟨p, hp, hb, _, _⟩
    simp at hp
    rcases hp with rfl | rfl <;> simp [ByName] at hb
  · simp [missing, Ordinary]
  · simp [extraArgs, overflow, hasKind]
  · simp [extraKwargs, hasKind]

/-- The hypotheses are met: `def g(a, b=2)`, called in several ways. -/
private def demoSig : Sig Nat := [⟨"a", .posOrKw, none⟩, ⟨"b", .posOrKw, some 2⟩]
private def demoBody : List (Option (BVal Nat)) → Except (Err String) Nat
  | [some (.val a), some (.val b)] => if b = 0 then .error (.user "no") else .ok (a / b)
  | _ => .error (.user "?")
private def demoF (args : List Nat) (kwargs : PyDict String Nat) : Except (Err String) Nat :=
  if Accepts demoSig args kwargs then demoBody (demoSig.map (seen demoSig args kwargs)) else .error (.py .TypeError)
private def demoW : World Nat := ⟨fun a b => a == b, fun a => a < 100⟩

example : (session demoW demoSig demoF [([8], []), ([], [("b", 2), ("a", 8)]), ([8, 0], []), ([], []), ([8], [("b", 0)])]).1 =
    [.ok 4, .ok 4, .error (.user "no"), .error (.py .TypeError), .error (.user "no")] := by
  have hw : WF demoSig := ⟨⟨[], demoSig, [], [], [], by simp, by simp, by simp [demoSig], by simp, by simp, by simp, by simp, by simp⟩, by decide, by simp [demoSig]⟩
  have hal : ∀ x y, Alike demoW x y → x = y := by
    intro x y h
    cases h with
    | none => rfl
    | val h => simp only [demoW, beq_iff_eq] at h; rw [h]
    | @tuple as bs h1 h2 =>
      congr 2
      apply List.ext_getElem h1
      intro i hi hj
      have := h2 i as[i] bs[i] (by simp [hi]) (by simp [hj])
      simpa [demoW] using this
    | @dict as bs h1 h2 =>
      congr 2
      apply List.ext_getElem h1
      intro i hi hj
      have := h2 i as[i] bs[i] (by simp [hi]) (by simp [hj])
      simp only [demoW, beq_iff_eq] at this
      exact Prod.ext this.1 this.2
  rw [C132_transparent_partial demoW hw demoBody demoF (fun _ _ => rfl) ?_ _ (by decide) ?_ ?_]
  · rfl
  · intro c d hc hd h
    unfold demoF
    rw [if_pos hc, if_pos hd]
    congr 1
    exact List.map_congr_left (fun p hp => hal _ _ (h p hp))
  · intro c _ ⟨p, hp, hk, _⟩
    simp [demoSig] at hp
    rcases hp with rfl | rfl <;> cases hk
  · intro c hc ha
    rw [← hashableKey_iff]
    simp only [List.mem_cons, List.not_mem_nil, or_false] at hc
    rcases hc with rfl | rfl | rfl | rfl | rfl <;> decide

example : (session demoW demoSig demoF [([8], []), ([], [("b", 2), ("a", 8)]), ([8, 0], []), ([], []), ([8], [("b", 0)])]).2.ran = [([8, 0], []), ([8], [])] := by decide
example : (memoized demoW demoSig demoF ⟨[], []⟩ [100] []).1 = .error (.py .TypeError) := by decide

end Unpy.Props
