import Verif.Model.TcoMacro
import Verif.Spec.TcoMacro
/-!
# The passes of `tco` as one transformation
-/
namespace Unpy.Tail.Full
open Unpy.Tail Unpy.Tail.Spec
variable {β : Type} {ecs : List String}

mutual
/-- The expanded expression; `tl`: in tail position. -/
def full (tl : Bool) : Ex β → Ex β
  | .call f args => if tl then .jump (full false f) (fulls args) else .call (full false f) (fulls args)
  | .lam _ ps b => .lam true ps (full true b)
  | .ife c t e => .ife (full false c) (full tl t) (full tl e)
  | .bool isOr a b =>
    if tl && compound b then
      if isOr then .aif (full false a) (full tl b) else .ife (full false a) (full tl b) .ff
    else .bool isOr (full false a) (full tl b)
  | .lst ts => .lst (fulls ts)
  | .letx x v b => .letx x (full false v) (full tl b)
  | .doe a b => .doe (full false a) (full tl b)
  | .assign x v => .assign x (full false v)
  | t => t

def fulls : List (Ex β) → List (Ex β)
  | [] => []
  | t :: ts => full false t :: fulls ts
end

mutual
def fullS : St β → St β
  | .ret none => .ret (some .non)
  | .ret (some e) => .ret (some (full true e))
  | .expr e => .expr (full false e)
  | .assign x e => .assign x (full false e)
  | .ite c b₁ b₂ => .ite (full false c) (fullSs b₁) (fullSs b₂)
  | .while c b => .while (full false c) (fullSs b)
  | .defn _ x ps ls b => .defn true x ps ls (fullSs b)
  | .tryx b hh h o f => .tryx (fullSs b) hh (fullSs h) (fullSs o) (fullSs f)

def fullSs : List (St β) → List (St β)
  | [] => []
  | t :: ts => fullS t :: fullSs ts
end

theorem compound_eq (e : Ex β) : compound e = isCompound e := by cases e <;> rfl

/-! ## The second pass -/

/-- `retexpr` in tail position only. -/
def rx (ecs : List String) (tl : Bool) (e : Ex β) : Ex β := if tl then retexpr ecs e else e

theorem notEc_of_okE {tl : Bool} {f : Ex β} {args : List (Ex β)} (h : okE ecs tl (.call f args) = true) :
    isec leftAlone f = false ∧ isec ecs f = false := by
  simp only [okE, Bool.and_eq_true, Bool.not_eq_true'] at h
  cases f <;> first | exact ⟨rfl, rfl⟩ | skip
  have h := h.1.1
  simp only [List.mem_append, decide_eq_false_iff_not, not_or] at h
  exact ⟨by simpa [isec, leftAlone] using h.2, by simpa [isec] using h.1⟩

theorem implicitDo_eq {a : Ex β} (h : isList a = false) : implicitDo a = a := by
  cases a <;> first | rfl | (simp [isList] at h)

mutual
theorem mapLam_full {g : List String → Ex β → Ex β} {n : Nat}
    (hg : ∀ ps b, nestE b < n → okE ecs true b = true → g ps b = .lam true ps (full true b)) :
    ∀ (e : Ex β) (tl : Bool), okE ecs tl e = true → nestE e ≤ n → mapLam g (rx ecs tl e) = full tl e
  | .cst _, tl, _, _ => by cases tl <;> rfl
  | .non, tl, _, _ => by cases tl <;> rfl
  | .ff, tl, _, _ => by cases tl <;> rfl
  | .name _, tl, _, _ => by cases tl <;> rfl
  | .call f args, tl, h, hn => by
    have he := notEc_of_okE h
    simp only [okE, Bool.and_eq_true] at h
    simp only [nestE] at hn
    have hf := mapLam_full hg f false h.1.2 (by omega)
    have ha := mapLams_full hg args h.2 (by omega)
    simp only [rx, Bool.false_eq_true, if_false] at hf
    cases tl
    · simp [rx, mapLam, full, hf, ha]
    · simp [rx, retexpr, he.1, he.2, mapLam, full, hf, ha]
  | .lam tr ps b, tl, h, hn => by
    simp only [okE, Bool.and_eq_true] at h
    simp only [nestE] at hn
    have := hg ps b (by omega) h.2
    cases tl <;> simp [rx, retexpr, mapLam, full, this]
  | .ife c t e, tl, h, hn => by
    simp only [okE, Bool.and_eq_true] at h
    simp only [nestE] at hn
    have hc := mapLam_full hg c false h.1.1 (by omega)
    have ht := mapLam_full hg t tl h.1.2 (by omega)
    have he := mapLam_full hg e tl h.2 (by omega)
    simp only [rx, Bool.false_eq_true, if_false] at hc
    cases tl <;> simp_all [rx, retexpr, mapLam, full]
  | .bool o a b, tl, h, hn => by
    simp only [okE, Bool.and_eq_true, Bool.not_eq_true'] at h
    simp only [nestE] at hn
    have hc := mapLam_full hg a false h.1.1 (by omega)
    have ht := mapLam_full hg b tl h.1.2 (by omega)
    simp only [rx, Bool.false_eq_true, if_false] at hc
    cases tl
    · simp_all [rx, retexpr, mapLam, full]
    · simp only [rx, if_true] at ht
      simp only [rx, if_true, retexpr, full, Bool.true_and]
      by_cases hcb : compound b = true
      · rw [if_pos hcb, if_pos hcb]
        cases o
        · simp [mapLam, hc, ht]
        · have : isList a = false := by
            have h2 := h.2
            rw [← compound_eq, hcb] at h2
            simpa using h2
          simp [mapLam, implicitDo_eq this, hc, ht]
      · rw [if_neg hcb, if_neg hcb, mapLam, hc, ← ht]
        congr 2
        cases b <;> first | rfl | (simp [compound] at hcb)
  | .lst ts, tl, h, hn => by
    simp only [okE] at h
    simp only [nestE] at hn
    have := mapLams_full hg ts h hn
    cases tl <;> simp [rx, retexpr, mapLam, full, this]
  | .letx x v b, tl, h, hn => by
    simp only [okE, Bool.and_eq_true] at h
    simp only [nestE] at hn
    have hc := mapLam_full hg v false h.1.2 (by omega)
    have ht := mapLam_full hg b tl h.2 (by omega)
    simp only [rx, Bool.false_eq_true, if_false] at hc
    cases tl <;> simp_all [rx, retexpr, mapLam, full]
  | .doe a b, tl, h, hn => by
    simp only [okE, Bool.and_eq_true] at h
    simp only [nestE] at hn
    have hc := mapLam_full hg a false h.1 (by omega)
    have ht := mapLam_full hg b tl h.2 (by omega)
    simp only [rx, Bool.false_eq_true, if_false] at hc
    cases tl <;> simp_all [rx, retexpr, mapLam, full]
  | .assign x v, tl, h, hn => by
    simp only [okE, Bool.and_eq_true] at h
    simp only [nestE] at hn
    have hc := mapLam_full hg v false h.2 hn
    simp only [rx, Bool.false_eq_true, if_false] at hc
    cases tl <;> simp_all [rx, retexpr, mapLam, full]
  | .aif .., _, h, _ => by simp [okE] at h
  | .jump .., _, h, _ => by simp [okE] at h
  | .bad, _, h, _ => by simp [okE] at h

theorem mapLams_full {g : List String → Ex β → Ex β} {n : Nat}
    (hg : ∀ ps b, nestE b < n → okE ecs true b = true → g ps b = .lam true ps (full true b)) :
    ∀ (ts : List (Ex β)), okEs ecs ts = true → nestEs ts ≤ n → mapLams g ts = fulls ts
  | [], _, _ => rfl
  | t :: ts, h, hn => by
    simp only [okEs, Bool.and_eq_true] at h
    simp only [nestEs] at hn
    have := mapLam_full hg t false h.1 (by omega)
    simp only [rx, Bool.false_eq_true, if_false] at this
    rw [mapLams, fulls, this, mapLams_full hg ts h.2 (by omega)]
end

theorem passLambdaE_full : ∀ (n : Nat) (e : Ex β) (tl : Bool), okE ecs tl e = true → nestE e ≤ n →
    passLambdaE ecs n (rx ecs tl e) = full tl e
  | 0, e, tl, h, hn => mapLam_full (fun _ _ h => absurd h (by omega)) e tl h hn
  | n + 1, e, tl, h, hn => by
    refine mapLam_full (n := n + 1) (fun ps b hb ho => ?_) e tl h hn
    rw [← passLambdaE_full n b true ho (by omega)]; rfl

/-! ## The first pass -/

mutual
/-- No escape continuation is called. -/
def noEc (ecs : List String) : Ex β → Bool
  | .call f args => !isec ecs f && noEc ecs f && noEcs ecs args
  | .lam _ _ b => noEc ecs b
  | .ife c t e => noEc ecs c && noEc ecs t && noEc ecs e
  | .bool _ a b => noEc ecs a && noEc ecs b
  | .lst ts => noEcs ecs ts
  | .letx _ v b => noEc ecs v && noEc ecs b
  | .doe a b => noEc ecs a && noEc ecs b
  | .assign _ v => noEc ecs v
  | .aif a b => noEc ecs a && noEc ecs b
  | .jump f args => noEc ecs f && noEcs ecs args
  | _ => true

def noEcs (ecs : List String) : List (Ex β) → Bool
  | [] => true
  | t :: ts => noEc ecs t && noEcs ecs ts
end

mutual
theorem noEc_of_okE : ∀ (e : Ex β) (tl : Bool), okE ecs tl e = true → noEc ecs e = true
  | .call f args, tl, h => by
    have he := notEc_of_okE h
    simp only [okE, Bool.and_eq_true] at h
    simp [noEc, he.2, noEc_of_okE f _ h.1.2, noEcs_of_okEs args h.2]
  | .lam _ _ b, tl, h => by
    simp only [okE, Bool.and_eq_true] at h
    simp [noEc, noEc_of_okE b _ h.2]
  | .ife c t e, tl, h => by
    simp only [okE, Bool.and_eq_true] at h
    simp [noEc, noEc_of_okE c _ h.1.1, noEc_of_okE t _ h.1.2, noEc_of_okE e _ h.2]
  | .bool _ a b, tl, h => by
    simp only [okE, Bool.and_eq_true] at h
    simp [noEc, noEc_of_okE a _ h.1.1, noEc_of_okE b _ h.1.2]
  | .lst ts, tl, h => by
    simp only [okE] at h
    simp [noEc, noEcs_of_okEs ts h]
  | .letx _ a b, tl, h => by
    simp only [okE, Bool.and_eq_true] at h
    simp [noEc, noEc_of_okE a _ h.1.2, noEc_of_okE b _ h.2]
  | .doe a b, tl, h => by
    simp only [okE, Bool.and_eq_true] at h
    simp [noEc, noEc_of_okE a _ h.1, noEc_of_okE b _ h.2]
  | .assign _ v, tl, h => by
    simp only [okE, Bool.and_eq_true] at h
    simp [noEc, noEc_of_okE v _ h.2]
  | .cst _, _, _ => rfl
  | .non, _, _ => rfl
  | .ff, _, _ => rfl
  | .name _, _, _ => rfl
  | .aif .., _, h => by simp [okE] at h
  | .jump .., _, h => by simp [okE] at h
  | .bad, _, h => by simp [okE] at h

theorem noEcs_of_okEs : ∀ (ts : List (Ex β)), okEs ecs ts = true → noEcs ecs ts = true
  | [], _ => rfl
  | t :: ts, h => by
    simp only [okEs, Bool.and_eq_true] at h
    simp [noEcs, noEc_of_okE t _ h.1, noEcs_of_okEs ts h.2]
end

theorem noEc_doList : ∀ (ts : List (Ex β)), noEcs ecs ts = true → noEc ecs (doList ts) = true
  | [], _ => rfl
  | [t], h => by simpa [noEcs, doList] using h
  | t :: u :: ts, h => by
    simp only [noEcs, Bool.and_eq_true] at h
    have := noEc_doList (u :: ts) (by simp [noEcs, h.2])
    simp [doList, noEc, h.1, this]

theorem noEc_implicitDo {a : Ex β} (h : noEc ecs a = true) : noEc ecs (implicitDo a) = true := by
  cases a <;> first | exact h | skip
  exact noEc_doList _ (by simpa [noEc] using h)

theorem noEc_retexpr : ∀ (e : Ex β), noEc ecs e = true → noEc ecs (retexpr ecs e) = true := by
  intro e
  induction e using Ex.rec (motive_2 := fun _ => True) with
  | call f args _ _ =>
    intro h
    simp only [retexpr]
    split
    · exact h
    · simp only [noEc, Bool.and_eq_true] at h
      simp [noEc, h]
  | ife c t e _ iht ihe =>
    intro h; simp only [noEc, Bool.and_eq_true] at h
    simp [retexpr, noEc, h.1.1, iht h.1.2, ihe h.2]
  | bool o a b _ ihb =>
    intro h
    have h' := h
    simp only [noEc, Bool.and_eq_true] at h
    simp only [retexpr]
    split
    · split
      · simp [noEc, noEc_implicitDo h.1, ihb h.2]
      · simp [noEc, h.1, ihb h.2]
    · exact h'
  | letx x v b _ ihb =>
    intro h; simp only [noEc, Bool.and_eq_true] at h
    simp [retexpr, noEc, h.1, ihb h.2]
  | doe a b _ ihb =>
    intro h; simp only [noEc, Bool.and_eq_true] at h
    simp [retexpr, noEc, h.1, ihb h.2]
  | nil => trivial
  | cons => trivial
  | _ => exact id

theorem passReturnE_id : ∀ (n : Nat), (∀ e : Ex β, noEc ecs e = true → passReturnE ecs n e = e) ∧
    (∀ ts : List (Ex β), noEcs ecs ts = true → passReturnEs ecs n ts = ts)
  | 0 => ⟨fun _ _ => rfl, fun _ _ => rfl⟩
  | n + 1 => by
    obtain ⟨ih, ihs⟩ := passReturnE_id n
    constructor
    · intro e h
      cases e <;> simp only [noEc, Bool.and_eq_true] at h <;> simp_all [passReturnE]
    · intro ts h
      cases ts <;> simp only [noEcs, Bool.and_eq_true] at h <;> simp_all [passReturnEs]

theorem retEc_of_okE {tl : Bool} {e : Ex β} (h : okE ecs tl e = true) : retEc ecs e = false := by
  cases e <;> first | rfl | exact (notEc_of_okE h).2

mutual
theorem tco_stmt {n : Nat} : ∀ (t : St β) (pl : Place), okS ecs pl t = true → nestS t ≤ n →
    passLambda ecs n (passDef (passReturn ecs n t)) = fullS t
  | .ret none, _, _, _ => by
    have := passLambdaE_full (ecs := ecs) n (.non : Ex β) false rfl (by simp [nestE])
    simp only [rx, Bool.false_eq_true, if_false, full] at this
    simp [passReturn, passDef, passLambda, fullS, this]
  | .ret (some e), _, h, hn => by
    simp only [okS, Bool.and_eq_true] at h
    have he := h.1.2
    rw [passReturn, if_neg (by simp [retEc_of_okE he]),
      (passReturnE_id n).1 _ (noEc_retexpr _ (noEc_of_okE _ _ he)), passDef, passLambda, fullS,
      ← passLambdaE_full n e true he hn]
    · rfl
    all_goals (intros; contradiction)
  | .expr e, _, h, hn => by
    simp only [okS] at h
    rw [passReturn, (passReturnE_id n).1 _ (noEc_of_okE _ _ h), passDef, passLambda, fullS,
      ← passLambdaE_full n e false h hn]
    · rfl
    all_goals (intros; contradiction)
  | .assign x e, _, h, hn => by
    simp only [okS, Bool.and_eq_true] at h
    rw [passReturn, (passReturnE_id n).1 _ (noEc_of_okE _ _ h.2), passDef, passLambda, fullS,
      ← passLambdaE_full n e false h.2 hn]
    · rfl
    all_goals (intros; contradiction)
  | .ite c b₁ b₂, pl, h, hn => by
    simp only [okS, Bool.and_eq_true] at h
    simp only [nestS] at hn
    rw [passReturn, (passReturnE_id n).1 _ (noEc_of_okE _ _ h.1.1), passDef, passLambda, fullS,
      tco_stmts b₁ pl h.1.2 (by omega), tco_stmts b₂ pl h.2 (by omega), ← passLambdaE_full n c false h.1.1 (by omega)]
    rfl
  | .while c b, pl, h, hn => by
    simp only [okS, Bool.and_eq_true] at h
    simp only [nestS] at hn
    rw [passReturn, (passReturnE_id n).1 _ (noEc_of_okE _ _ h.1), passDef, passLambda, fullS,
      tco_stmts b pl h.2 (by omega), ← passLambdaE_full n c false h.1 (by omega)]
    rfl
  | .defn tr x ps ls b, pl, h, hn => by
    simp only [okS, Bool.and_eq_true] at h
    simp only [nestS] at hn
    rw [passReturn, passDef, passLambda, fullS, tco_stmts b .function h.2 hn]
  | .tryx b hh h' o f, pl, h, hn => by
    simp only [okS, Bool.and_eq_true] at h
    simp only [nestS] at hn
    rw [passReturn, passDef, passLambda, fullS, tco_stmts b _ h.1.1.1 (by omega), tco_stmts h' _ h.1.1.2 (by omega),
      tco_stmts o _ h.1.2 (by omega), tco_stmts f _ h.2 (by omega)]

theorem tco_stmts {n : Nat} : ∀ (ts : List (St β)) (pl : Place), okSs ecs pl ts = true → nestSs ts ≤ n →
    passLambdas ecs n (passDefs (passReturns ecs n ts)) = fullSs ts
  | [], _, _, _ => rfl
  | t :: ts, pl, h, hn => by
    simp only [okSs, Bool.and_eq_true] at h
    simp only [nestSs] at hn
    rw [passReturns, passDefs, passLambdas, fullSs, tco_stmt t pl h.1 (by omega), tco_stmts ts pl h.2 (by omega)]
end

theorem tco_full {n : Nat} {b : List (St β)} (h : okSs ecs .block b = true) (hn : nestSs b ≤ n) : tco ecs n b = fullSs b :=
  tco_stmts b .block h hn

end Unpy.Tail.Full
