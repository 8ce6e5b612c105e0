import Verif.Spec.Let
import Verif.Proof.PyDict
/-!
# Helper lemmas for `let` and `do`
-/
namespace Unpy.Let
open Unpy Unpy.EnvM Unpy.Let.Spec
open Unpy.Fold (Err)

variable {V ε : Type}

theorem getattr_ordinary {w : World V} {n : String} (h : Ordinary w n) (e : Env V) :
    getattr w e n = match e.env.get? n with | none => .error .AttributeError | some v => .ok (.val v) := by
  obtain ⟨h1, h2, h3, h4⟩ := h
  have hd : directWrite.contains n = false := by simpa using h3
  unfold getattr
  simp only [hd, h2, h1, Bool.or_false, Bool.false_eq_true, if_false, Bool.not_true]
  cases e.env.get? n <;> rfl

theorem setattr_ordinary {w : World V} {n : String} (h : Ordinary w n) (e : Env V) (hf : e.finalized = false) (v : V) :
    setattr w false e n v = (.ok .unit, { e with env := e.env.set n v }) := by
  obtain ⟨h1, h2, h3, h4⟩ := h
  have hd : directWrite.contains n = false := by simpa using h3
  have hr : reservedNames.contains n = false := by simpa using h4
  simp only [setattr, envSetattr, hd, hr, h1, hf, Bool.false_eq_true, if_false, Bool.false_and, Bool.not_true]

/-- The environment and the list of bindings agree. -/
def Agree (e : Env V) (bs : List (String × V)) : Prop := ∀ n, e.env.get? n = valueOf n bs

theorem eval_code {w : World V} {x : Expr V ε} (hx : x.Ok w) (e : Env V) (bs : List (String × V)) (h : Agree e bs) :
    x.code.run w e = (x.eval bs, e) := by
  induction hx with
  | ret v => rfl
  | raise v => rfl
  | @read n k hn _ ih =>
    rw [Expr.code, Code.run, Expr.eval]
    simp only [step, getattr_ordinary hn, h n]
    cases hv : valueOf n bs with
    | none => exact ih none
    | some v => exact ih (some v)

theorem valueOf_get? (bs : List (String × V)) (n : String) : PyDict.get? (V := V) bs n = valueOf n bs := by
  induction bs with
  | nil => rfl
  | cons b bs ih => obtain ⟨m, v⟩ := b; rw [PyDict.get?, valueOf, ih]

theorem set_new (d : PyDict String V) (n : String) (v : V) (h : n ∉ d.keys) : d.set n v = d ++ [(n, v)] := by
  induction d with
  | nil => rfl
  | cons b d ih =>
    obtain ⟨m, u⟩ := b
    have h1 : m ≠ n := fun e => h (by simp [PyDict.keys, e])
    rw [PyDict.set, if_neg h1, ih (fun hh => h (by simp only [PyDict.keys, List.map_cons, List.mem_cons] at hh ⊢; exact .inr hh))]
    rfl

theorem rhsValue_letrec {w : World V} {r : SRhs V ε} (hr : r.Ok w) (e : Env V) (bs : List (String × V)) (h : Agree e bs) :
    rhsValue w true r.rhs e = (r.eval bs, e) := by
  cases r with
  | value v => rfl
  | func v x => exact eval_code hr e bs h

theorem rhsValue_let (w : World V) (r : SRhs V ε) (e : Env V) :
    rhsValue (ε := ε) w false r.rhs e = (.ok r.val, e) := by cases r <;> rfl

theorem bindAll_letrec {w : World V} (bs : List (String × SRhs V ε)) : ∀ (done : List (String × V)),
    (∀ b ∈ bs, Ordinary w b.1 ∧ b.2.Ok w) → (done.map Prod.fst ++ bs.map Prod.fst).Nodup →
    (∀ vals, letrecValues done bs = .ok vals → bindAll w true (code bs) ⟨done, false⟩ = (.ok (), ⟨vals, false⟩)) ∧
    (∀ x, letrecValues done bs = .error x → ∃ e, bindAll w true (code bs) ⟨done, false⟩ = (.error x, e)) := by
  induction bs with
  | nil => intro done _ _; exact ⟨fun vals h => by cases h; rfl, fun x h => by cases h⟩
  | cons b bs ih =>
    obtain ⟨n, r⟩ := b
    intro done hok hnd
    have hb := hok (n, r) (by simp)
    have hn : n ∉ done.map Prod.fst := by
      intro hh
      rw [List.nodup_append] at hnd
      exact hnd.2.2 n hh n (by simp) rfl
    have hhas : PyDict.has (V := V) done n = false := by
      rw [← Bool.not_eq_true, ← PyDict.mem_keys]; exact hn
    have hag : Agree (⟨done, false⟩ : Env V) done := fun m => valueOf_get? done m
    rw [letrecValues]
    have hcode : code ((n, r) :: bs) = (n, r.rhs) :: code bs := rfl
    rw [hcode, bindAll, bindOne]
    simp only [hhas, Bool.false_eq_true, if_false, rhsValue_letrec hb.2 _ _ hag]
    cases he : r.eval done with
    | error x => exact ⟨fun vals h => (by cases h), fun y h => by cases h; exact ⟨_, rfl⟩⟩
    | ok v =>
      simp only [setattr_ordinary hb.1 ⟨done, false⟩ rfl, set_new done n v hn]
      refine ih (done ++ [(n, v)]) (fun b hb => hok b (by simp [hb])) ?_
      simpa using hnd

theorem bindAll_let {w : World V} (bs : List (String × SRhs V ε)) : ∀ (done : List (String × V)),
    (∀ b ∈ bs, Ordinary w b.1) → (done.map Prod.fst ++ bs.map Prod.fst).Nodup →
    bindAll (ε := ε) w false (code bs) ⟨done, false⟩ = (.ok (), ⟨done ++ bs.map (fun b => (b.1, b.2.val)), false⟩) := by
  induction bs with
  | nil => intro done _ _; simp [code, bindAll]
  | cons b bs ih =>
    obtain ⟨n, r⟩ := b
    intro done hok hnd
    have hb := hok (n, r) (by simp)
    have hn : n ∉ done.map Prod.fst := by
      intro hh
      rw [List.nodup_append] at hnd
      exact hnd.2.2 n hh n (by simp) rfl
    have hhas : PyDict.has (V := V) done n = false := by
      rw [← Bool.not_eq_true, ← PyDict.mem_keys]; exact hn
    have hcode : code ((n, r) :: bs) = (n, r.rhs) :: code bs := rfl
    rw [hcode, bindAll, bindOne]
    simp only [hhas, Bool.false_eq_true, if_false, rhsValue_let, setattr_ordinary hb ⟨done, false⟩ rfl, set_new done n r.val hn]
    rw [ih (done ++ [(n, r.val)]) (fun b hb => hok b (by simp [hb])) (by simpa using hnd)]
    simp

theorem setattr_ok_nonempty {w : World V} {e e' : Env V} {k : String} {v : V} {o : Out V} (hk : k ∉ directWrite)
    (h : setattr w false e k v = (.ok o, e')) : e'.env.length ≠ 0 := by
  have hd : directWrite.contains k = false := by simpa using hk
  simp only [setattr, Bool.false_eq_true, if_false, envSetattr, hd] at h
  split at h
  · cases h
  · split at h
    · cases h
    · split at h
      · cases h
      · cases h
        intro hl
        have : PyDict.get? (e.env.set k v) k = some v := by rw [PyDict.get?_set, if_pos rfl]
        simp only [List.length_eq_zero_iff] at hl
        rw [hl] at this
        cases this

theorem lispy_agrees {w : World V} (m : Bool) (b : Body V ε) (bs : List (String × Rhs V ε)) : ∀ (e : Env V),
    (∀ p ∈ bs, p.1 ∉ directWrite) → (e.env.length = 0 → e = {}) →
    letLispy w m bs b e = match bindAll w m bs e with
      | (.error x, e) => (.error x, e)
      | (.ok _, e) => runBody w b e := by
  induction bs with
  | nil =>
    intro e _ he
    rw [letLispy, bindAll]
    split
    · rename_i h; rw [he h]
    · rfl
  | cons p bs ih =>
    obtain ⟨k, r⟩ := p
    intro e hk he
    have hif : (if e.env.length = 0 then ({} : Env V) else e) = e := by
      split
      · rename_i h; rw [he h]
      · rfl
    rw [letLispy, bindAll, hif]
    have hne : ∀ u e1, bindOne w m k r e = (.ok u, e1) → e1.env.length ≠ 0 := by
      intro u e1 h
      unfold bindOne at h
      split at h
      · cases h
      · split at h
        · cases h
        · split at h
          · cases h
          · rename_i hs
            cases h
            exact setattr_ok_nonempty (hk (k, r) (by simp)) hs
    cases hb : bindOne w m k r e with
    | mk res e1 =>
      cases res with
      | error x => rfl
      | ok u => exact ih e1 (fun p hp => hk p (by simp [hp])) (fun h0 => absurd h0 (hne u e1 hb))

/-! ## `do` -/

theorem maybeCall_eval {w : World V} {r : SRhs V ε} (hr : r.Ok w) (e : Env V) (bs : List (String × V)) (h : Agree e bs) :
    maybeCall w r.rhs e = (r.eval bs, e) := by
  cases r with
  | value v => rfl
  | func v x => exact eval_code hr e bs h

theorem agree_assign {e : Env V} {bs : List (String × V)} (h : Agree e bs) (n : String) (v : V) :
    Agree { e with env := e.env.set n v } (assignTo n v bs) := by
  intro m
  rw [PyDict.get?_set, assignTo, valueOf, h m]

theorem doLoop_values {w : World V} (is : List (SItem V ε)) : ∀ (last : Option V) (e : Env V) (bs : List (String × V)),
    (∀ i ∈ is, i.Ok w) → Agree e bs → e.finalized = false →
    (∀ vs, doValues bs is = .ok vs → ∃ e', doLoop w (is.map SItem.item) last e =
      ((match vs.getLast? with
        | some v => .ok v
        | none => match last with | some v => .ok v | none => .error (.py .UnboundLocalError)), e')) ∧
    (∀ x, doValues bs is = .error x → ∃ e', doLoop w (is.map SItem.item) last e = (.error x, e')) := by
  induction is with
  | nil =>
    intro last e bs _ _ _
    refine ⟨fun vs h => ?_, fun x h => by cases h⟩
    cases h
    cases last <;> exact ⟨_, rfl⟩
  | cons i is ih =>
    intro last e bs hok hag hf
    have hi := hok i (by simp)
    have hrest : ∀ i ∈ is, i.Ok w := fun i hi => hok i (by simp [hi])
    rw [List.map_cons, doLoop]
    have fin : ∀ (v : V) (e1 : Env V) (bs1 : List (String × V)), Agree e1 bs1 → e1.finalized = false →
        (∀ vs, (doValues bs1 is).map (v :: ·) = .ok vs → ∃ e', doLoop w (is.map SItem.item) (some v) e1 =
          ((match vs.getLast? with
            | some v => .ok v
            | none => match last with | some v => .ok v | none => .error (.py .UnboundLocalError)), e')) ∧
        (∀ x, (doValues bs1 is).map (v :: ·) = .error x → ∃ e', doLoop w (is.map SItem.item) (some v) e1 = (.error x, e')) := by
      intro v e1 bs1 hag1 hf1
      obtain ⟨i1, i2⟩ := ih (some v) e1 bs1 hrest hag1 hf1
      cases hd : doValues bs1 is with
      | error y =>
        refine ⟨fun vs h => (by cases h), fun x h => ?_⟩
        cases h
        exact i2 _ hd
      | ok vs =>
        refine ⟨fun vs' h => ?_, fun x h => by cases h⟩
        cases h
        obtain ⟨e', he⟩ := i1 vs hd
        refine ⟨e', he.trans ?_⟩
        cases vs with
        | nil => rfl
        | cons u us =>
          rw [List.getLast?_cons_cons]
          cases hl : (u :: us).getLast? with
          | none => simp at hl
          | some z => rfl
    cases i with
    | plain r =>
      simp only [SItem.item, doItem, maybeCall_eval hi e bs hag]
      rw [doValues]
      cases hr : r.eval bs with
      | error x => exact ⟨fun vs h => (by cases h), fun y h => by cases h; exact ⟨_, rfl⟩⟩
      | ok v => exact fin v e bs hag hf
    | assign n r =>
      simp only [SItem.item, doItem, maybeCall_eval hi.2 e bs hag]
      rw [doValues]
      cases hr : r.eval bs with
      | error x => exact ⟨fun vs h => (by cases h), fun y h => by cases h; exact ⟨_, rfl⟩⟩
      | ok v =>
        simp only [setattr_ordinary hi.1 e hf]
        exact fin v _ _ (agree_assign hag n v) hf

/-- Bindings that differ only in a name that is not mentioned. -/
def AgreeBut (n : String) (bs bs' : List (String × V)) : Prop := ∀ m, m ≠ n → valueOf m bs = valueOf m bs'

theorem eval_but {n : String} {bs bs' : List (String × V)} (h : AgreeBut n bs bs') (x : Expr V ε) (hx : x.Avoids n) :
    x.eval bs = x.eval bs' := by
  induction x with
  | ret v => rfl
  | raise e => rfl
  | read m k ih => rw [Expr.eval, Expr.eval, h m hx.1]; exact ih _ (hx.2 _)

theorem srhs_eval_but {n : String} {bs bs' : List (String × V)} (h : AgreeBut n bs bs') (r : SRhs V ε) (hr : r.Avoids n) :
    r.eval bs = r.eval bs' := by
  cases r with
  | value v => rfl
  | func v x => exact eval_but h x hr

theorem doValues_but {n : String} (is : List (SItem V ε)) : ∀ {bs bs' : List (String × V)}, AgreeBut n bs bs' →
    (∀ i ∈ is, i.Avoids n) → doValues bs is = doValues bs' is := by
  induction is with
  | nil => intro _ _ _ _; rfl
  | cons i is ih =>
    intro bs bs' h hi
    have h0 := hi i (by simp)
    have hrest : ∀ i ∈ is, i.Avoids n := fun i hh => hi i (by simp [hh])
    cases i with
    | plain r => rw [doValues, doValues, srhs_eval_but h r h0, ih h hrest]
    | assign m r =>
      rw [doValues, doValues, srhs_eval_but h r h0.2]
      have : ∀ v, AgreeBut n (assignTo m v bs) (assignTo m v bs') := by
        intro v k hk
        simp only [assignTo, valueOf]
        rw [h k hk]
      cases r.eval bs' with
      | error x => rfl
      | ok v => simp only [ih (this v) hrest]

/-- The value of a name that the items do not mention stays: reading it at the end. -/
theorem doValues_append_ref {n : String} (is : List (SItem V ε)) (fv : V) : ∀ (bs : List (String × V)) (v : V), valueOf n bs = some v →
    (∀ i ∈ is, i.Avoids n) →
    doValues bs (is ++ [.plain (.func fv (ref n))]) = (doValues bs is).map (· ++ [v]) := by
  induction is with
  | nil =>
    intro bs v hv _
    simp only [List.nil_append, doValues, SRhs.eval, ref, Expr.eval, hv]
    rfl
  | cons i is ih =>
    intro bs v hv hi
    have h0 := hi i (by simp)
    have hrest : ∀ i ∈ is, i.Avoids n := fun i hh => hi i (by simp [hh])
    cases i with
    | plain r =>
      rw [List.cons_append, doValues, doValues, ih bs v hv hrest]
      cases r.eval bs with
      | error x => rfl
      | ok u => cases doValues bs is <;> rfl
    | assign m r =>
      rw [List.cons_append, doValues, doValues]
      cases r.eval bs with
      | error x => rfl
      | ok u =>
        have : valueOf n (assignTo m u bs) = some v := by rw [assignTo, valueOf, if_neg h0.1, hv]
        simp only [ih _ v this hrest]
        cases doValues (assignTo m u bs) is <;> rfl

end Unpy.Let
