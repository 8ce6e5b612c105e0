import Verif.Spec.Forall
import Verif.Proof.Amb
/-!
# Proofs about the `forall` macro
-/
namespace Unpy.Forall.Lemmas
open Unpy Unpy.Amb Unpy.Forall Unpy.Spec.Forall Unpy.Eff
open Unpy.Spec.Amb (Holds)
open Unpy.Fold (Err)
variable {σ ε α : Type}

/-- The whole expression, directly. -/
def whole : List (Line σ ε α) → T σ ε α
  | [] => .here
  | [l] => .monadify l.body false
  | l :: rest => .bind l.body true (l.name.getD "_ignored") (whole rest)

/-- Put it in the hole. -/
theorem build_some : (lines : List (Line σ ε α)) → (t : T σ ε α) → lines ≠ [] → build lines (some t) = some (splice (whole lines) t)
  | [], _, h => absurd rfl h
  | [l], t, _ => by simp [build, whole]
  | l :: l' :: rest, t, _ => by
    rw [build]
    simp only [List.isEmpty_cons, Bool.false_eq_true, if_false]
    rw [build_some (l' :: rest) _ (by simp)]
    congr 1
    have : whole (l :: l' :: rest) = .bind l.body true (l.name.getD "_ignored") (whole (l' :: rest)) := rfl
    rw [this]
    generalize whole (l' :: rest) = w
    induction t with
    | here => simp only [splice]; cases l.name <;> rfl
    | monadify b u => rfl
    | bind b u k r ih => simp only [splice, ih]

theorem build_none (lines : List (Line σ ε α)) (h : lines ≠ []) : build lines none = some (whole lines) := by
  match lines, h with
  | [l], _ => simp [build, whole]
  | l :: l' :: rest, _ =>
    rw [build]
    simp only [List.isEmpty_cons, Bool.false_eq_true, if_false]
    rw [build_some _ _ (by simp)]
    simp only [splice, whole]
    cases l.name <;> rfl

theorem holds_of {xs : List (Obj α)} (h : onlyNil xs = false) : Holds xs := by rintro rfl; cases h

theorem monadify_true {v : Obj α} (h : onlyNil (range v) = false) : Amb.monadify v true = range v := by
  cases v with
  | ml xs => rfl
  | iter xs => exact mk_of_holds (holds_of h)
  | nil => rfl
  | atom a => rfl

theorem monadify_false {v : Obj α} (h : onlyNil (result v) = false) : Amb.monadify v false = result v := by
  cases v with
  | ml xs => rfl
  | iter xs => rfl
  | nil => cases h
  | atom a => rfl

/-- What the loops say about the code. -/
def Agree (inner : Bool) (m : Except (Err ε) (List (Obj α)) × σ) : Out σ ε α → Prop
  | (.error none, _) => True
  | (.error (some e), s) => m = (.error e, s) ∧ (inner = true → isTypeError e = false)
  | (.ok ys, s) => m = (.ok ys, s) ∧ Holds ys

theorem bind_ok {β γ : Type} {m : Eff σ (Err ε) β} {k : β → Eff σ (Err ε) γ} {s t : σ} {a : β} (h : m s = (.ok a, t)) :
    Eff.bind m k s = k a t := by
  unfold Eff.bind
  rw [h]

theorem bind_err {β γ : Type} {m : Eff σ (Err ε) β} {k : β → Eff σ (Err ε) γ} {s t : σ} {e : Err ε} (h : m s = (.error e, t)) :
    Eff.bind m k s = (.error e, t) := by
  unfold Eff.bind
  rw [h]

/-- The loop, consumed. -/
theorem mapE_each (f : Obj α → Eff σ (Err ε) (List (Obj α))) (g : Obj α → σ → Out σ ε α) (h : ∀ x s, Agree true (f x s) (g x s)) :
    (xs : List (Obj α)) → (s : σ) →
    match each g xs s with
    | (.error none, _) => True
    | (.error (some e), s') => mapE (fun x => Eff.bind (f x) fun ys => ret (.ml ys)) xs s = (.error e, s') ∧ isTypeError e = false
    | (.ok ys, s') => ∃ mss : List (List (Obj α)), mapE (fun x => Eff.bind (f x) fun ys => ret (.ml ys)) xs s = (.ok (mss.map .ml), s') ∧ ys = mss.flatten ∧
        ∀ m ∈ mss, Holds m
  | [], s => ⟨[], rfl, rfl, nofun⟩
  | x :: xs, s => by
    have hx := h x s
    rw [each]
    rcases hg : g x s with ⟨r, s'⟩
    rw [hg] at hx
    cases r with
    | error e =>
      cases e with
      | none => trivial
      | some e => exact ⟨bind_err (bind_err hx.1), hx.2 rfl⟩
    | ok ys =>
      have ih := mapE_each f g h xs s'
      have hm : mapE (fun x => Eff.bind (f x) fun ys => ret (.ml ys)) (x :: xs) s =
          Eff.bind (mapE (fun x => Eff.bind (f x) fun ys => ret (.ml ys)) xs) (fun zs => ret (.ml ys :: zs)) s' :=
        bind_ok (bind_ok hx.1)
      rw [hm]
      simp only
      rcases he : each g xs s' with ⟨r, s''⟩
      rw [he] at ih
      cases r with
      | error e =>
        cases e with
        | none => trivial
        | some e => exact ⟨bind_err ih.1, ih.2⟩
      | ok zs =>
        obtain ⟨mss, h1, h2, h3⟩ := ih
        refine ⟨ys :: mss, bind_ok h1, by rw [h2]; rfl, ?_⟩
        intro m hm
        rcases List.mem_cons.mp hm with h | h
        · rw [h]; exact hx.2
        · exact h3 m h

theorem fromGen_ok {gen : Eff σ (Err ε) (List (Obj α))} {s t : σ} {ys : List (Obj α)} (h : gen s = (.ok ys, t)) :
    fromGen gen s = (.ok (mk ys), t) := by
  unfold fromGen
  rw [h]

theorem fromGen_err {gen : Eff σ (Err ε) (List (Obj α))} {s t : σ} {e : Err ε} (h : gen s = (.error e, t)) (he : isTypeError e = false) :
    fromGen gen s = (.error e, t) := by
  unfold fromGen
  rw [h]
  cases e with
  | py p => cases p <;> first | rfl | cases he
  | user e => rfl

theorem mbind_each (f : Obj α → Eff σ (Err ε) (List (Obj α))) (g : Obj α → σ → Out σ ε α) (h : ∀ x s, Agree true (f x s) (g x s))
    (xs : List (Obj α)) (s : σ) (inner : Bool) :
    Agree inner (mbind xs (fun x => Eff.bind (f x) fun ys => ret (.ml ys)) s) (each g xs s) := by
  have key := mapE_each f g h xs s
  rcases he : each g xs s with ⟨r, s'⟩
  rw [he] at key
  cases r with
  | error e =>
    cases e with
    | none => trivial
    | some e =>
      refine ⟨?_, fun _ => key.2⟩
      exact bind_err (fromGen_err key.1 key.2)
  | ok ys =>
    obtain ⟨mss, h1, h2, h3⟩ := key
    refine ⟨?_, by rw [h2]; exact holds_flatten h3⟩
    refine (bind_ok (fromGen_ok h1)).trans ?_
    rw [mk_of_holds (holds_ml _), join_ml, mk_of_holds (holds_flatten h3), h2]
    rfl

/-- Does not look at this variable. -/
def Blind (l : Line σ ε α) : Prop := ∀ x vars, l.body (bound "_ignored" x vars) = l.body vars

theorem bound_comm {k : String} (hk : k ≠ "_ignored") (x y : Obj α) (vars : Vars α) :
    bound k x (bound "_ignored" y vars) = bound "_ignored" y (bound k x vars) := by
  funext j
  simp only [bound]
  by_cases h1 : j = k
  · subst h1; simp [hk]
  · simp [h1]

theorem bound_same {k : String} (x y : Obj α) (vars : Vars α) : bound k x (bound k y vars) = bound k x vars := by
  funext j
  simp only [bound]
  split <;> rfl

theorem loops_blind (c : Bool) : (lines : List (Line σ ε α)) → (∀ l ∈ lines, Blind l) → (i : Bool) → (x : Obj α) → (vars : Vars α) →
    loops c i (bound "_ignored" x vars) lines = loops c i vars lines
  | [], _, _, _, _ => rfl
  | l :: rest, h, i, x, vars => by
    funext s
    have ih := loops_blind c rest (fun l hl => h l (List.mem_cons_of_mem _ hl)) true
    have : ∀ y, loops c true (seen l.name y (bound "_ignored" x vars)) rest = loops c true (seen l.name y vars) rest := by
      intro y
      cases l.name with
      | none => exact ih x vars
      | some k =>
        show loops c true (bound k y (bound "_ignored" x vars)) rest = loops c true (bound k y vars) rest
        by_cases hk : k = "_ignored"
        · subst hk; rw [bound_same]
        · rw [bound_comm hk, ih]
    simp only [loops, this]
    rw [h l (by simp) x vars]

theorem eval_loops : (lines : List (Line σ ε α)) → (∀ l ∈ lines, Blind l) → lines ≠ [] → (inner : Bool) → (vars : Vars α) → (s : σ) →
    Agree inner (eval vars (whole lines) s) (loops true inner vars lines s)
  | [], _, h, _, _, _ => absurd rfl h
  | [l], _, _, inner, vars, s => by
    simp only [whole, eval, loops, Eff.bind]
    rcases hb : l.body vars s with ⟨r, t⟩
    cases r with
    | error e =>
      simp only [Bool.true_and]
      cases hc : inner && isTypeError e with
      | true => trivial
      | false => exact ⟨rfl, fun hi => by rw [hi] at hc; exact hc⟩
    | ok v =>
      simp only [Bool.true_and]
      cases hc : onlyNil (result v) with
      | true => trivial
      | false => exact ⟨by rw [monadify_false hc]; rfl, holds_of hc⟩
  | l :: l' :: rest, hb, _, inner, vars, s => by
    have ih := eval_loops (l' :: rest) (fun l hl => hb l (List.mem_cons_of_mem _ hl)) (by simp) true
    have hbl := loops_blind true (l' :: rest) (fun l hl => hb l (List.mem_cons_of_mem _ hl)) true
    rw [whole.eq_3 _ _ (by simp), loops]
    simp only [eval, Eff.bind]
    rcases hb : l.body vars s with ⟨r, t⟩
    cases r with
    | error e =>
      simp only [Bool.true_and]
      cases hc : inner && isTypeError e with
      | true => trivial
      | false => exact ⟨rfl, fun hi => by rw [hi] at hc; exact hc⟩
    | ok v =>
      simp only [Bool.true_and]
      cases hc : onlyNil (range v) with
      | true => trivial
      | false =>
        simp only [Bool.false_eq_true, if_false]
        rw [monadify_true hc]
        refine mbind_each _ _ ?_ _ _ _
        intro x s
        cases l.name with
        | none =>
          have := ih (bound "_ignored" x vars) s
          rw [hbl x vars] at this
          exact this
        | some k => exact ih (bound k x vars) s

/-- Careful loops that say something are plain loops. -/
theorem each_plain (g g' : Obj α → σ → Out σ ε α) (h : ∀ x s, (g x s).1 ≠ .error none → g' x s = g x s) :
    (xs : List (Obj α)) → (s : σ) → (each g xs s).1 ≠ .error none → each g' xs s = each g xs s
  | [], _, _ => rfl
  | x :: xs, s, hn => by
    simp only [each] at hn ⊢
    rcases hg : g x s with ⟨r, t⟩
    rw [hg] at hn
    cases r with
    | error e => rw [h x s (by rw [hg]; exact hn), hg]
    | ok ys =>
      rw [h x s (by rw [hg]; nofun), hg]
      simp only at hn ⊢
      rw [each_plain g g' h xs t]
      intro he
      rcases hq : each g xs t with ⟨r, u⟩
      rw [hq] at he hn
      cases he
      exact hn rfl

theorem loops_plain : (lines : List (Line σ ε α)) → (inner : Bool) → (vars : Vars α) → (s : σ) →
    (loops true inner vars lines s).1 ≠ .error none → loops false inner vars lines s = loops true inner vars lines s
  | [], _, _, _, _ => rfl
  | l :: rest, inner, vars, s, hn => by
    have ih := loops_plain rest true
    simp only [loops] at hn ⊢
    rcases hb : l.body vars s with ⟨r, t⟩
    rw [hb] at hn
    cases r with
    | error e =>
      simp only [Bool.true_and, Bool.false_and] at hn ⊢
      cases hc : inner && isTypeError e with
      | true => rw [hc] at hn; exact absurd rfl hn
      | false => rfl
    | ok v =>
      simp only [Bool.true_and, Bool.false_and] at hn ⊢
      cases rest with
      | nil =>
        simp only at hn ⊢
        cases hc : onlyNil (result v) with
        | true => rw [hc] at hn; exact absurd rfl hn
        | false => rfl
      | cons l' rest =>
        simp only at hn ⊢
        cases hc : onlyNil (range v) with
        | true => rw [hc] at hn; exact absurd rfl hn
        | false =>
          rw [hc] at hn
          exact each_plain _ _ (fun x s h => ih _ s h) _ _ hn

end Unpy.Forall.Lemmas
