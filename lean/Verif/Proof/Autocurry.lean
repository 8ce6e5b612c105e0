import Verif.Spec.Autocurry
/-!
# Proofs about `autocurry`
-/
namespace Unpy.Autocurry.Lemmas
open Unpy.Autocurry Unpy.Autocurry.Spec

/-! ## Decorated lambdas -/

theorem decorated_isSome : (e : E) → (decorated e).isSome = (isDecoratedLambda e || match e with | .lam .. => true | _ => false)
  | .curry e => by
    have := decorated_isSome e
    cases e <;> simp_all [decorated, isDecoratedLambda]
  | .call f (.cons e .nil) => by
    have := decorated_isSome e
    cases f <;> cases e <;> simp_all [decorated, isDecoratedLambda]
  | .values (.cons e .nil) => by
    have := decorated_isSome e
    cases e <;> simp_all [decorated, isDecoratedLambda]
  | .lam .. => by simp [decorated]
  | .call f .nil | .call f (.cons _ (.cons _ _)) => by cases f <;> simp [decorated, isDecoratedLambda]
  | .values .nil | .values (.cons _ (.cons _ _)) => by simp [decorated, isDecoratedLambda]
  | .int _ | .name _ | .sub _ _ | .ite _ _ _ | .tuple _ | .show | .fdef .. | .leave _ => by simp [decorated, isDecoratedLambda]

theorem decorated_true : (e : E) → (decorated e == some true) = ((decorated e).isSome && curryAmong e)
  | .curry e => by
    have := decorated_true e
    cases h : decorated e <;> simp_all [decorated, curryAmong]
  | .call f (.cons e .nil) => by
    have := decorated_true e
    cases f <;> cases h : decorated e <;> simp_all [decorated, curryAmong]
  | .values (.cons e .nil) => by
    have := decorated_true e
    simpa [decorated, curryAmong]
  | .lam .. => by simp [decorated, curryAmong]
  | .call f .nil | .call f (.cons _ (.cons _ _)) => by cases f <;> simp [decorated]
  | .values .nil | .values (.cons _ (.cons _ _)) => by simp [decorated]
  | .int _ | .name _ | .sub _ _ | .ite _ _ _ | .tuple _ | .show | .fdef .. | .leave _ => by simp [decorated]

theorem hasCurry_call (f : E) (args : Es) : hasCurry (.call f args) = (decorated (.call f args) == some true) := by
  rw [decorated_true, decorated_isSome]; simp [hasCurry]

theorem hasCurry_curry (e : E) : hasCurry (.curry e) = (decorated (.curry e) == some true) := by
  rw [decorated_true, decorated_isSome]; simp [hasCurry]

/-! ## Variables -/

theorem find_append {α : Type} (x : String) : (l m : List (String × α)) → find x (l ++ m) = (find x l).or (find x m)
  | [], _ => rfl
  | (y, v) :: l, m => by
    simp only [List.cons_append, find]
    split
    · rfl
    · exact find_append x l m

theorem find_params {α : Type} (x : String) : (ps : List String) → (args ds : List α) → ps.length - ds.length ≤ args.length → args.length ≤ ps.length →
    find x (ps.zip (args ++ ds.drop (args.length - (ps.length - ds.length)))) =
      (find x (ps.zip args)).or (find x ((ps.drop (ps.length - ds.length)).zip ds))
  | ps, [], ds, h, _ => by
    have : ps.length - ds.length = 0 := by simpa using h
    simp [this, find]
  | [], a :: args, ds, _, h => by simp at h
  | p :: ps, a :: args, ds, h, h' => by
    simp only [List.length_cons] at h h'
    by_cases hd : ps.length + 1 - ds.length = 0
    · cases ds with
      | nil => simp at hd
      | cons d ds =>
        have ih := find_params x ps args ds (by simp only [List.length_cons] at *; omega) (by omega)
        have h0 : ps.length - ds.length = 0 := by simp only [List.length_cons] at hd; omega
        simp only [h0, Nat.sub_zero, List.drop_zero] at ih
        simp only [List.length_cons] at hd
        simp only [List.length_cons, hd, Nat.sub_zero, List.drop_zero, List.cons_append, List.zip_cons_cons, List.drop_succ_cons, find, ih]
        split
        · rfl
        · rfl
    · have e : ps.length + 1 - ds.length = ps.length - ds.length + 1 := by omega
      have ih := find_params x ps args ds (by omega) (by omega)
      simp only [List.length_cons, e, List.cons_append, List.zip_cons_cons, List.drop_succ_cons, Nat.add_sub_add_right, find]
      split
      · rfl
      · rw [ih]

/-! ## The relation -/

/-- How code was transformed: not at all, or in the block. -/
inductive Mode where
  | plain
  | block (h : Bool)

def trans : Mode → E → T
  | .plain, e => untouched e
  | .block h, e => auto h e
def transAll : Mode → Es → Ts
  | .plain, e => untouchedAll e
  | .block h, e => autoAll h e

def FineM : Mode → E → Prop
  | .plain, e => Bare e
  | .block h, e => Fine h e
def FineMAll : Mode → Es → Prop
  | .plain, e => BareAll e
  | .block h, e => FineAll h e

/-- What is run with `autocurry` in the specification is transformed, or there is nothing to transform. -/
def Ok (au i : Bool) (m : Mode) (e : E) : Prop := au = true → (i = false → m = .plain) ∧ (i = true → FineM m e)
def OkAll (au i : Bool) (m : Mode) (e : Es) : Prop := au = true → (i = false → m = .plain) ∧ (i = true → FineMAll m e)

mutual
inductive Rel (au : Bool) : RV → V → Prop
  | int (n : Int) : Rel au (.int n) (.int n)
  | show : Rel au .show .show
  | tuple {vs ws} : RelAll au vs ws → Rel au (.tuple vs) (.tuple ws)
  | values {vs ws} : RelAll au vs ws → Rel au (.values vs) (.values ws)
  | fn {c c' c0 i : Bool} {x : Option String} {ps : List String} {ds : List RV} {ds' : List V} {m : Mode} {e : E} {env : List (String × RV)}
      {env' : List (String × V)} {pend : List RV} {pend' : List V} (g : String → V) (hc : c = true → c' = true) (hp : c = false → pend = []) (hl : pend.length ≤ ps.length)
      (h0 : (au && i) = true → c0 = true) (ok : Ok au i m e) (hds : RelAll au ds ds') (hpend : RelAll au pend pend')
      (henv : ∀ x v, find x env = some v → find x env' = some (g x)) (hrel : ∀ x v, find x env = some v → Rel au v (g x))
      (hnone : ∀ x, find x env = none → find x env' = none) :
      Rel au (.fn c i x ps ds e env pend) (.fn c' (x.map (c0, ·)) ps ds' (trans m e) env' pend')
inductive RelAll (au : Bool) : List RV → List V → Prop
  | nil : RelAll au [] []
  | cons {v w vs ws} : Rel au v w → RelAll au vs ws → RelAll au (v :: vs) (w :: ws)
end

variable {au : Bool}

structure EnvRel (au : Bool) (env : List (String × RV)) (env' : List (String × V)) : Prop where
  some : ∀ x v, find x env = some v → ∃ w, find x env' = some w ∧ Rel au v w
  none : ∀ x, find x env = none → find x env' = none

theorem EnvRel.rel_fn {c c' c0 i : Bool} {x : Option String} {ps : List String} {ds : List RV} {ds' : List V} {m : Mode} {e : E}
    {env : List (String × RV)} {env' : List (String × V)} {pend : List RV} {pend' : List V} (h : EnvRel au env env')
    (hc : c = true → c' = true) (hp : c = false → pend = []) (hl : pend.length ≤ ps.length)
    (h0 : (au && i) = true → c0 = true) (ok : Ok au i m e) (hds : RelAll au ds ds') (hpend : RelAll au pend pend') :
    Rel au (.fn c i x ps ds e env pend) (.fn c' (x.map (c0, ·)) ps ds' (trans m e) env' pend') := by
  refine .fn (fun x => (find x env').getD .show) hc hp hl h0 ok hds hpend ?_ ?_ h.none
  · intro x v hx
    obtain ⟨w, hw, _⟩ := h.some x v hx
    simp [hw]
  · intro x v hx
    obtain ⟨w, hw, hr⟩ := h.some x v hx
    simpa [hw] using hr

theorem RelAll.length {vs ws} : RelAll au vs ws → vs.length = ws.length
  | .nil => rfl
  | .cons _ h => by simp [h.length]

theorem RelAll.append {vs ws vs' ws'} : RelAll au vs ws → RelAll au vs' ws' → RelAll au (vs ++ vs') (ws ++ ws')
  | .nil, h => h
  | .cons h hs, h' => .cons h (hs.append h')

theorem RelAll.take {vs ws} : (n : Nat) → RelAll au vs ws → RelAll au (vs.take n) (ws.take n)
  | 0, _ => by simpa using .nil
  | _ + 1, .nil => .nil
  | n + 1, .cons h hs => .cons h (hs.take n)

theorem RelAll.drop {vs ws} : (n : Nat) → RelAll au vs ws → RelAll au (vs.drop n) (ws.drop n)
  | 0, h => by simpa using h
  | _ + 1, .nil => .nil
  | n + 1, .cons _ hs => hs.drop n

theorem EnvRel.nil : EnvRel au [] [] := ⟨nofun, fun _ _ => rfl⟩

theorem EnvRel.cons {env env' x v w} (h : Rel au v w) (he : EnvRel au env env') : EnvRel au ((x, v) :: env) ((x, w) :: env') := by
  constructor
  · intro y v'
    simp only [find]
    split
    · rintro ⟨⟩; exact ⟨w, rfl, h⟩
    · exact he.some y v'
  · intro y
    simp only [find]
    split
    · nofun
    · exact he.none y

theorem EnvRel.zip {vs ws} : (ps : List String) → RelAll au vs ws → EnvRel au (ps.zip vs) (ps.zip ws)
  | [], _ => by simpa using .nil
  | _ :: _, .nil => by simpa using .nil
  | _ :: ps, .cons h hs => .cons h (EnvRel.zip ps hs)

theorem EnvRel.append {a b a' b'} (h : EnvRel au a a') (h' : EnvRel au b b') : EnvRel au (a ++ b) (a' ++ b') := by
  constructor
  · intro x v hx
    rw [find_append] at hx ⊢
    cases ha : find x a with
    | none =>
      rw [ha] at hx
      rw [h.none x ha]
      exact h'.some x v hx
    | some u =>
      rw [ha] at hx
      obtain ⟨w, hw, hr⟩ := h.some x u ha
      cases hx
      exact ⟨w, by rw [hw]; rfl, hr⟩
  · intro x hx
    rw [find_append] at hx ⊢
    cases ha : find x a with
    | none =>
      rw [ha] at hx
      rw [h.none x ha]
      exact h'.none x hx
    | some u => rw [ha] at hx; cases hx

/-- Only what variables are matters. -/
theorem EnvRel.congr {a b b'} (h : EnvRel au a b) (e : ∀ x, find x b = find x b') : EnvRel au a b' :=
  ⟨fun x v hx => by rw [← e]; exact h.some x v hx, fun x hx => by rw [← e]; exact h.none x hx⟩

theorem scope_frame {c0 i : Bool} {x : Option String} {ps : List String} {ds : List RV} {ds' : List V} {m : Mode} {e : E}
    {env : List (String × RV)} {env' : List (String × V)} {args : List RV} {args' : List V} (h : EnvRel au env env')
    (h0 : (au && i) = true → c0 = true) (ok : Ok au i m e) (hds : RelAll au ds ds') (hargs : RelAll au args args')
    (h1 : ps.length - ds.length ≤ args.length) (h2 : args.length ≤ ps.length) :
    EnvRel au (scope au i x ps ds e env args) (frame (x.map (c0, ·)) ps ds' (trans m e) env' args') := by
  have hl := hds.length
  have ha := hargs.length
  have ht : EnvRel au (match x with | some y => (y, .fn (au && i) i x ps ds e env []) :: env | none => env)
      (match x.map (c0, ·) with | some (c, y) => (y, .fn c (x.map (c0, ·)) ps ds' (trans m e) env' []) :: env' | none => env') := by
    cases x with
    | none => exact h
    | some y => exact .cons (h.rel_fn h0 (fun _ => rfl) (Nat.zero_le _) h0 ok hds .nil) h
  refine ((EnvRel.zip ps hargs).append ((EnvRel.zip (ps.drop (ps.length - ds.length)) hds).append ht)).congr ?_
  intro y
  unfold frame
  rw [find_append, find_append, find_append, find_params y ps args' ds' (by omega) (by omega), hl, Option.or_assoc]
  rfl

theorem find_rel {env env'} (h : EnvRel au env env') (x : String) : (∃ v w, find x env = some v ∧ find x env' = some w ∧ Rel au v w) ∨
    (find x env = none ∧ find x env' = none) := by
  cases hx : find x env with
  | none => exact .inr ⟨rfl, h.none x hx⟩
  | some v =>
    obtain ⟨w, hw, hr⟩ := h.some x v hx
    exact .inl ⟨v, w, rfl, hw, hr⟩

/-! ## Simulation -/

/-- The same happens, unless the specification stops at a call. -/
def Sim {α β : Type} (R : α → β → Prop) : Except Err α × List Int → Except Err β × List Int → Prop
  | (.error e, s), r => e = .call ∨ r = (.error e, s)
  | (.ok v, s), r => ∃ w, r = (.ok w, s) ∧ R v w

theorem Sim.pure {α β : Type} {R : α → β → Prop} {v w} (h : R v w) (s : List Int) : Sim R (M.pure v s) (M.pure w s) := ⟨w, rfl, h⟩
theorem Sim.fail {α β : Type} {R : α → β → Prop} (e : Err) (s : List Int) : Sim R (M.fail (α := α) e s) (M.fail (α := β) e s) := .inr rfl
theorem Sim.stop {α β : Type} {R : α → β → Prop} (r : Except Err β × List Int) (s : List Int) : Sim R (M.fail (α := α) .call s) r := .inl rfl

theorem Sim.bind {α β α' β' : Type} {R : α → β → Prop} {R' : α' → β' → Prop} {m : M α} {m' : M β} {k : α → M α'} {k' : β → M β'} {s : List Int}
    (h : Sim R (m s) (m' s)) (hk : ∀ v w s, R v w → Sim R' (k v s) (k' w s)) : Sim R' (m.bind k s) (m'.bind k' s) := by
  unfold M.bind
  revert h
  match m s with
  | (.error e, s) =>
    rintro (h | h)
    · exact .inl h
    · rw [h]; exact .inr rfl
  | (.ok v, s) =>
    rintro ⟨w, h, hr⟩
    rw [h]; exact hk v w s hr

theorem yes_truth {v w} (h : Rel au v w) : yes v = truth w := by
  cases h with
  | int n => rfl
  | «show» => rfl
  | tuple h => cases h <;> rfl
  | values h => rfl
  | fn => rfl

theorem curry_sim {v w} (h : Rel au v w) (s : List Int) : Sim (Rel au) (curry v s) (curryV w s) := by
  cases h with
  | int n => exact .pure (.int n) s
  | «show» => exact .fail _ s
  | tuple h => exact .pure (.tuple h) s
  | values h => exact .pure (.values h) s
  | fn g hc hp hl h0 ok hds hpend henv hrel hnone => exact .pure (.fn g (fun _ => rfl) nofun hl h0 ok hds hpend henv hrel hnone) s

theorem give_eq (k : Nat) : (vs has : List RV) → has.length ≤ k →
    give k has vs = ((has ++ vs).take k, (has ++ vs).drop k)
  | [], has, h => by simp [give, List.take_of_length_le h, h]
  | v :: vs, has, h => by
    simp only [give]
    split
    · rename_i h; subst h; simp
    · rw [give_eq k vs _ (by simp; omega)]; simp

theorem curried_sim {run : List RV → M RV} {run' : List V → M V} {again : RV → List RV → M RV} {again' : V → List V → M V}
    {wait : List RV → RV} {wait' : List V → V} {ps : List String} {ds pend args : List RV} {ds' pend' args' : List V} (ctx : Bool)
    (hds : RelAll au ds ds') (hpend : RelAll au pend pend') (hargs : RelAll au args args') (hl : pend.length ≤ ps.length)
    (hrun : ∀ a a' s, RelAll au a a' → ps.length - ds.length ≤ a.length → a.length ≤ ps.length → Sim (Rel au) (run a s) (run' a' s))
    (hagain : ∀ c i x ps ds e env pend f' vs vs' s, Rel au (.fn c i x ps ds e env pend) f' → RelAll au vs vs' →
      Sim (Rel au) (again (.fn c i x ps ds e env pend) vs s) (((curryV f').bind fun l => again' l vs') s))
    (hwait : ∀ a a', RelAll au a a' → a.length ≤ ps.length → Rel au (wait a) (wait' a')) (s : List Int) :
    Sim (Rel au) (feed run again wait (ps.length - ds.length) (give ps.length pend args) s) (curried ctx run' again' wait' ps ds' pend' args' s) := by
  rw [give_eq _ _ _ hl]
  have hall := hpend.append hargs
  have e1 := hds.length
  have e2 := hpend.length
  have e3 := hargs.length
  have e4 := hall.length
  have e5 : (pend ++ args).length = pend.length + args.length := List.length_append
  unfold curried decide
  by_cases h1 : (pend' ++ args').length < ps.length - ds'.length
  · rw [if_pos h1, List.take_of_length_le (by omega), List.drop_of_length_le (by omega)]
    simp only [feed]
    rw [if_pos (by omega)]
    exact .pure (hwait _ _ hall (by omega)) s
  · rw [if_neg h1]
    by_cases h2 : (pend' ++ args').length ≤ ps.length
    · rw [if_pos h2, List.take_of_length_le (by omega), List.drop_of_length_le (by omega)]
      simp only [feed]
      rw [if_neg (by omega)]
      exact hrun _ _ s hall (by omega) (by omega)
    · rw [if_neg h2]
      have hn : args'.length - ((pend' ++ args').length - ps.length) = ps.length - pend.length := by omega
      have ht : (pend ++ args).take ps.length = pend ++ args.take (ps.length - pend.length) := by
        rw [List.take_append, List.take_of_length_le hl]
      have hd : (pend ++ args).drop ps.length = args.drop (ps.length - pend.length) := by
        rw [List.drop_append, List.drop_of_length_le hl]; rfl
      have hne : args.drop (ps.length - pend.length) ≠ [] := by
        intro h
        have := congrArg List.length h
        simp only [List.length_drop, List.length_nil] at this
        omega
      rw [ht, hd]
      simp only [hn]
      have hrest := hargs.drop (ps.length - pend.length)
      have htake := hargs.take (ps.length - pend.length)
      have hr := hrun _ _ s (hpend.append htake) (by simp; omega) (by simp; omega)
      revert hne hrest
      generalize args.drop (ps.length - pend.length) = rest
      generalize args'.drop (ps.length - pend.length) = rest'
      intro hne hrest
      cases rest with
      | nil => exact absurd rfl hne
      | cons u rest =>
        simp only [feed]
        refine hr.bind ?_
        intro r r' s hr
        cases hr with
        | int n => exact .stop _ s
        | «show» => exact .fail _ s
        | tuple _ => exact .stop _ s
        | fn g hc hp hl h0 ok hds hpend henv hrel hnone =>
          exact hagain _ _ _ _ _ _ _ _ _ _ _ s (.fn g hc hp hl h0 ok hds hpend henv hrel hnone) hrest
        | values hvs =>
          cases hvs with
          | nil => exact .stop _ s
          | cons hv hvs =>
            cases hv with
            | int n => exact .stop _ s
            | «show» => exact .fail _ s
            | tuple _ => exact .stop _ s
            | values _ => exact .stop _ s
            | fn g hc hp hl h0 ok hds hpend henv hrel hnone =>
              exact hagain _ _ _ _ _ _ _ _ _ _ _ s (.fn g hc hp hl h0 ok hds hpend henv hrel hnone) (hvs.append hrest)

/-! ## Transformed code -/

theorem trans_sub (m a b) : trans m (.sub a b) = .sub (trans m a) (trans m b) := by cases m <;> simp only [trans, untouched, auto]
theorem trans_ite (m a b c) : trans m (.ite a b c) = .ite (trans m a) (trans m b) (trans m c) := by cases m <;> simp only [trans, untouched, auto]
theorem trans_int (m n) : trans m (.int n) = .int n := by cases m <;> simp only [trans, untouched, auto]
theorem trans_name (m n) : trans m (.name n) = .name n := by cases m <;> simp only [trans, untouched, auto]
theorem trans_show (m) : trans m .show = .show := by cases m <;> simp only [trans, untouched, auto]
theorem trans_tuple (m es) : trans m (.tuple es) = .tuple (transAll m es) := by cases m <;> simp only [trans, transAll, untouched, auto]
theorem trans_values (m es) : trans m (.values es) = .values (transAll m es) := by cases m <;> simp only [trans, transAll, untouched, auto]
theorem trans_leave (m e) : trans m (.leave e) = .leave (trans .plain e) := by cases m <;> simp only [trans, untouched, auto]
theorem transAll_nil (m) : transAll m .nil = .nil := by cases m <;> simp only [transAll, untouchedAll, autoAll]
theorem transAll_cons (m e es) : transAll m (.cons e es) = .cons (trans m e) (transAll m es) := by
  cases m <;> simp only [trans, transAll, untouchedAll, autoAll]

theorem Ok.plain (e : E) : Ok au false .plain e := fun _ => ⟨fun _ => rfl, nofun⟩

theorem Ok.sub {i m a b} (h : Ok au i m (.sub a b)) : Ok au i m a ∧ Ok au i m b := by
  refine ⟨fun ha => ⟨(h ha).1, fun hi => ?_⟩, fun ha => ⟨(h ha).1, fun hi => ?_⟩⟩ <;> have := (h ha).2 hi <;> cases m <;> simp_all [FineM, Bare, Fine]

theorem Ok.ite {i m a b c} (h : Ok au i m (.ite a b c)) : Ok au i m a ∧ Ok au i m b ∧ Ok au i m c := by
  refine ⟨fun ha => ⟨(h ha).1, fun hi => ?_⟩, fun ha => ⟨(h ha).1, fun hi => ?_⟩, fun ha => ⟨(h ha).1, fun hi => ?_⟩⟩ <;>
    have := (h ha).2 hi <;> cases m <;> simp_all [FineM, Bare, Fine]

theorem Ok.tuple {i m es} (h : Ok au i m (.tuple es)) : OkAll au i m es := by
  refine fun ha => ⟨(h ha).1, fun hi => ?_⟩
  have := (h ha).2 hi
  cases m <;> simp_all [FineM, FineMAll, Bare, Fine]

theorem Ok.values {i m es} (h : Ok au i m (.values es)) : OkAll au i m es := by
  refine fun ha => ⟨(h ha).1, fun hi => ?_⟩
  have := (h ha).2 hi
  cases m <;> simp_all [FineM, FineMAll, Bare, Fine]

theorem OkAll.cons {i m e es} (h : OkAll au i m (.cons e es)) : Ok au i m e ∧ OkAll au i m es := by
  refine ⟨fun ha => ⟨(h ha).1, fun hi => ?_⟩, fun ha => ⟨(h ha).1, fun hi => ?_⟩⟩ <;> have := (h ha).2 hi <;>
    cases m <;> simp_all [FineM, FineMAll, BareAll, FineAll]

theorem trans_lam {i m ps ds e} (h : Ok au i m (.lam ps ds e)) : ∃ c md me, trans m (.lam ps ds e) = .lam c ps (transAll md ds) (trans me e) ∧
    ((au && i) = true → c = true) ∧ OkAll au i md ds ∧ Ok au i me e := by
  cases m with
  | plain =>
    refine ⟨false, .plain, .plain, by simp only [trans, transAll, untouched], ?_, fun ha => ⟨fun _ => rfl, fun hi => ?_⟩,
      fun ha => ⟨fun _ => rfl, fun hi => ?_⟩⟩
    · intro ha
      rw [Bool.and_eq_true] at ha
      simpa [FineM, Bare] using (h ha.1).2 ha.2
    · simpa [FineM, Bare] using (h ha).2 hi
    · simpa [FineM, Bare] using (h ha).2 hi
  | block b =>
    cases b with
    | true =>
      refine ⟨false, .block true, .block true, by simp [trans, transAll, auto], ?_, fun ha => ⟨fun hi => (h ha).1 hi, fun hi => ?_⟩,
        fun ha => ⟨fun hi => (h ha).1 hi, fun hi => ?_⟩⟩
      · intro ha
        rw [Bool.and_eq_true] at ha
        simpa [FineM, Fine] using (h ha.1).2 ha.2
      · simpa [FineM, Fine] using (h ha).2 hi
      · simpa [FineM, Fine] using (h ha).2 hi
    | false =>
      refine ⟨true, .plain, .block false, by simp [trans, transAll, auto], fun _ => rfl, fun ha => ⟨fun _ => rfl, fun hi => ?_⟩,
        fun ha => ⟨fun hi => (h ha).1 hi, fun hi => ?_⟩⟩
      · exact ((h ha).2 hi).2.1
      · exact ((h ha).2 hi).2.2

theorem trans_fdef {i m x ps ds e rest} (h : Ok au i m (.fdef x ps ds e rest)) :
    ∃ c, trans m (.fdef x ps ds e rest) = .fdef c x ps (transAll m ds) (trans m e) (trans m rest) ∧
    ((au && i) = true → c = true) ∧ OkAll au i m ds ∧ Ok au i m e ∧ Ok au i m rest := by
  cases m with
  | plain =>
    refine ⟨false, by simp only [trans, transAll, untouched], ?_, fun ha => ⟨fun _ => rfl, fun hi => ?_⟩, fun ha => ⟨fun _ => rfl, fun hi => ?_⟩,
      fun ha => ⟨fun _ => rfl, fun hi => ?_⟩⟩
    · intro ha
      rw [Bool.and_eq_true] at ha
      simpa [FineM, Bare] using (h ha.1).2 ha.2
    · simpa [FineM, Bare] using (h ha).2 hi
    · simpa [FineM, Bare] using (h ha).2 hi
    · simpa [FineM, Bare] using (h ha).2 hi
  | block b =>
    refine ⟨true, by simp only [trans, transAll, auto], fun _ => rfl, fun ha => ⟨fun hi => (h ha).1 hi, fun hi => ?_⟩,
      fun ha => ⟨fun hi => (h ha).1 hi, fun hi => ?_⟩, fun ha => ⟨fun hi => (h ha).1 hi, fun hi => ?_⟩⟩
    · exact ((h ha).2 hi).1
    · exact ((h ha).2 hi).2.1
    · exact ((h ha).2 hi).2.2

theorem trans_call {i m f args} (h : Ok au i m (.call f args)) : ∃ c m', trans m (.call f args) = .call c (trans m' f) (transAll m' args) ∧
    ((au && i) = true → c = true) ∧ Ok au i m' f ∧ OkAll au i m' args := by
  cases m with
  | plain =>
    refine ⟨false, .plain, by simp only [trans, transAll, untouched], ?_, fun ha => ⟨fun _ => rfl, fun hi => ?_⟩, fun ha => ⟨fun _ => rfl, fun hi => ?_⟩⟩
    · intro ha
      rw [Bool.and_eq_true] at ha
      simpa [FineM, Bare] using (h ha.1).2 ha.2
    · simpa [FineM, Bare] using (h ha).2 hi
    · simpa [FineM, Bare] using (h ha).2 hi
  | block b =>
    refine ⟨true, .block (b || hasCurry (.call f args)), by simp only [trans, transAll, auto], fun _ => rfl, fun ha => ⟨fun hi => ?_, fun hi => ?_⟩,
      fun ha => ⟨fun hi => ?_, fun hi => ?_⟩⟩
    · exact absurd ((h ha).1 hi) nofun
    · rw [hasCurry_call]
      have := (h ha).2 hi
      simp only [FineM, Fine] at this
      exact this.1
    · exact absurd ((h ha).1 hi) nofun
    · rw [hasCurry_call]
      have := (h ha).2 hi
      simp only [FineM, Fine] at this
      exact this.2

/-- Apart from lambdas that are curried by hand. -/
theorem trans_curry {i m e} (h : Ok au i m (.curry e)) : ∃ m', trans m (.curry e) = .curry (trans m' e) ∧
    ((au && i) = false ∨ (∀ ps ds b, e ≠ .lam ps ds b) → Ok au i m' e) ∧
    ∀ ps ds b, e = .lam ps ds b → ∃ c md mb, trans m' e = .lam c ps (transAll md ds) (trans mb b) ∧ OkAll au i md ds ∧ Ok au i mb b := by
  cases m with
  | plain =>
    have hb : Ok au i .plain e := fun ha => ⟨fun _ => rfl, fun hi => by simpa [FineM, Bare] using (h ha).2 hi⟩
    refine ⟨.plain, by simp only [trans, untouched], fun _ => hb, ?_⟩
    rintro ps ds b rfl
    obtain ⟨c, md, me, h1, _, h2, h3⟩ := trans_lam hb
    exact ⟨c, md, me, h1, h2, h3⟩
  | block b =>
    refine ⟨.block (b || hasCurry (.curry e)), by simp only [trans, auto], ?_, ?_⟩
    · rintro hor ha
      refine ⟨fun hi => absurd ((h ha).1 hi) nofun, fun hi => ?_⟩
      have := (h ha).2 hi
      rw [hasCurry_curry]
      rcases hor with hor | hor
      · simp [ha, hi] at hor
      · cases e <;> simp_all [FineM, Fine]
    · rintro ps ds e rfl
      have : hasCurry (.curry (.lam ps ds e)) = true := by simp [hasCurry, isDecoratedLambda, curryAmong]
      rw [this, Bool.or_true]
      refine ⟨false, .block true, .block true, by simp [trans, transAll, auto], fun ha => ⟨fun hi => absurd ((h ha).1 hi) nofun, fun hi => ?_⟩,
        fun ha => ⟨fun hi => absurd ((h ha).1 hi) nofun, fun hi => ?_⟩⟩
      · have := (h ha).2 hi
        simp only [FineM, Fine] at this
        exact this.1
      · have := (h ha).2 hi
        simp only [FineM, Fine] at this
        exact this.2

/-! ## The theorem -/

mutual
theorem eval_sim : (n : Nat) → (i : Bool) → (m : Mode) → (ctx : Bool) → {env : List (String × RV)} → {env' : List (String × V)} → EnvRel au env env' →
    (e : E) → Ok au i m e → (s : List Int) → Sim (Rel au) (Spec.eval au n i env e s) (eval n ctx env' (trans m e) s)
  | 0, _, _, _, _, _, _, _, _, s => by simp only [Spec.eval, eval]; exact .fail _ s
  | n + 1, i, m, ctx, env, env', he, .int k, ok, s => by rw [trans_int]; simp only [Spec.eval, eval]; exact .pure (.int k) s
  | n + 1, i, m, ctx, env, env', he, .name x, ok, s => by
    rw [trans_name]; simp only [Spec.eval, eval]
    rcases find_rel he x with ⟨v, w, h1, h2, h⟩ | ⟨h1, h2⟩
    · rw [h1, h2]; exact .pure h s
    · rw [h1, h2]; exact .fail _ s
  | n + 1, i, m, ctx, env, env', he, .sub a b, ok, s => by
    rw [trans_sub]; simp only [Spec.eval, eval]
    refine (eval_sim n i m ctx he a ok.sub.1 s).bind fun v w s h => (eval_sim n i m ctx he b ok.sub.2 s).bind fun v' w' s h' => ?_
    cases h with
    | int k => cases h' with
      | int l => exact .pure (.int _) s
      | _ => exact .fail _ s
    | _ => exact .fail _ s
  | n + 1, i, m, ctx, env, env', he, .ite b t e, ok, s => by
    rw [trans_ite]; simp only [Spec.eval, eval]
    refine (eval_sim n i m ctx he t ok.ite.2.1 s).bind fun v w s h => ?_
    rw [yes_truth h]
    cases truth w with
    | true => exact eval_sim n i m ctx he b ok.ite.1 s
    | false => exact eval_sim n i m ctx he e ok.ite.2.2 s
  | n + 1, i, m, ctx, env, env', he, .lam ps ds e, ok, s => by
    obtain ⟨c, md, me, h1, h2, h3, h4⟩ := trans_lam ok
    rw [h1]; simp only [Spec.eval, eval]
    refine (evalAll_sim n i md ctx he ds h3 s).bind fun v w s h => .pure ?_ s
    exact he.rel_fn (x := none) h2 (fun _ => rfl) (Nat.zero_le _) (c0 := true) (fun _ => rfl) h4 h .nil
  | n + 1, i, m, ctx, env, env', he, .call f args, ok, s => by
    obtain ⟨c, m', h1, h2, h3, h4⟩ := trans_call ok
    rw [h1]; simp only [Spec.eval, eval]
    exact (eval_sim n i m' ctx he f h3 s).bind fun v w s h => (evalAll_sim n i m' ctx he args h4 s).bind fun vs ws s hs =>
      call_sim n (au && i) c ctx (fun h => .inl (h2 h)) h hs s
  | n + 1, i, m, ctx, env, env', he, .tuple es, ok, s => by
    rw [trans_tuple]; simp only [Spec.eval, eval]
    exact (evalAll_sim n i m ctx he es ok.tuple s).bind fun v w s h => .pure (.tuple h) s
  | n + 1, i, m, ctx, env, env', he, .values es, ok, s => by
    rw [trans_values]; simp only [Spec.eval, eval]
    exact (evalAll_sim n i m ctx he es ok.values s).bind fun v w s h => .pure (.values h) s
  | n + 1, i, m, ctx, env, env', he, .show, ok, s => by rw [trans_show]; simp only [Spec.eval, eval]; exact .pure .show s
  | n + 1, i, m, ctx, env, env', he, .curry e, ok, s => by
    obtain ⟨m', h1, h2, h3⟩ := trans_curry ok
    rw [h1]; simp only [Spec.eval, eval]
    by_cases hl : ∃ ps ds b, e = .lam ps ds b
    · obtain ⟨ps, ds, b, rfl⟩ := hl
      obtain ⟨c, md, mb, h4, h5, h6⟩ := h3 ps ds b rfl
      rw [h4]
      cases n with
      | zero => simp only [Spec.eval, eval]; exact .fail _ s
      | succ n =>
        simp only [Spec.eval, eval]
        refine Sim.bind (R := fun v w => ∀ s, Sim (Rel au) (Spec.curry v s) (curryV w s)) ?_ fun v w s h => h s
        refine (evalAll_sim n i md ctx he ds h5 s).bind fun v w s h => .pure ?_ s
        intro s
        exact .pure (he.rel_fn (c := true) (x := none) (ps := ps) (fun _ => rfl) nofun (Nat.zero_le _) (c0 := true) (fun _ => rfl) h6 h .nil) s
    · refine (eval_sim n i m' ctx he e (h2 (.inr fun ps ds b h => hl ⟨ps, ds, b, h⟩)) s).bind fun v w s h => curry_sim h s
  | n + 1, i, m, ctx, env, env', he, .fdef x ps ds e rest, ok, s => by
    obtain ⟨c, h1, h2, h3, h4, h5⟩ := trans_fdef ok
    rw [h1]; simp only [Spec.eval, eval]
    refine (evalAll_sim n i m ctx he ds h3 s).bind fun v w s h => ?_
    exact eval_sim n i m ctx (.cons (he.rel_fn (x := some x) h2 (fun _ => rfl) (Nat.zero_le _) h2 h4 h .nil) he) rest h5 s
  | n + 1, i, m, ctx, env, env', he, .leave e, ok, s => by
    rw [trans_leave]; simp only [Spec.eval, eval]
    exact eval_sim n false .plain ctx he e (.plain e) s
theorem evalAll_sim : (n : Nat) → (i : Bool) → (m : Mode) → (ctx : Bool) → {env : List (String × RV)} → {env' : List (String × V)} → EnvRel au env env' →
    (es : Es) → OkAll au i m es → (s : List Int) → Sim (RelAll au) (Spec.evalAll au n i env es s) (evalAll n ctx env' (transAll m es) s)
  | 0, _, _, _, _, _, _, _, _, s => by simp only [Spec.evalAll, evalAll]; exact .fail _ s
  | n + 1, i, m, ctx, env, env', he, .nil, ok, s => by rw [transAll_nil]; simp only [Spec.evalAll, evalAll]; exact .pure .nil s
  | n + 1, i, m, ctx, env, env', he, .cons e es, ok, s => by
    rw [transAll_cons]; simp only [Spec.evalAll, evalAll]
    exact (eval_sim n i m ctx he e ok.cons.1 s).bind fun v w s h => (evalAll_sim n i m ctx he es ok.cons.2 s).bind fun vs ws s hs => .pure (.cons h hs) s
theorem call_sim : (n : Nat) → (b c ctx : Bool) → {f : RV} → {f' : V} → {vs : List RV} → {ws : List V} →
    (b = true → c = true ∨ ∃ x ps ds t env pend, f' = .fn true x ps ds t env pend) → Rel au f f' → RelAll au vs ws → (s : List Int) → Sim (Rel au) (apply au n b f vs s) (call n c ctx f' ws s)
  | 0, _, _, _, _, _, _, _, _, _, _, s => by simp only [apply, call]; exact .fail _ s
  | n + 1, b, c, ctx, f, f', vs, ws, hb, h, hs, s => by
    cases h with
    | int n => exact .stop _ s
    | «show» =>
      simp only [apply, call]
      cases hs with
      | nil => exact .fail _ s
      | cons h hs =>
        cases hs with
        | cons h' hs => cases h <;> exact .fail _ s
        | nil => cases h with
          | int n => exact .pure (.int n) _
          | _ => exact .fail _ s
    | tuple _ => exact .stop _ s
    | values _ => exact .stop _ s
    | fn g hc hp hl h0 ok hds hpend henv hrel hnone =>
      rename_i c1 c2 c0 i x ps ds ds' m e env env' pend pend'
      have he : EnvRel au env env' := ⟨fun x v h => ⟨g x, henv x v h, hrel x v h⟩, hnone⟩
      have cur : ∀ s, Sim (Rel au) (feed (fun args => Spec.eval au n i (scope au i x ps ds e env args) e) (fun f args => apply au n true f args)
          (fun args => .fn true i x ps ds e env args) (ps.length - ds.length) (give ps.length pend vs) s)
          (curried ctx (fun args => eval n true (frame (x.map (c0, ·)) ps ds' (trans m e) env' args) (trans m e)) (fun f args => call n false true f args)
            (fun args => .fn true (x.map (c0, ·)) ps ds' (trans m e) env' args) ps ds' pend' ws s) := by
        intro s
        refine curried_sim ctx hds hpend hs hl ?_ ?_ ?_ s
        · intro a a' s ha h1 h2
          exact eval_sim n i m true (scope_frame he h0 ok hds ha h1 h2) e ok s
        · intro c i x ps ds e env pend f' vs vs' s hf hvs
          cases hf with
          | fn g hc hp hl h0 ok hds hpend henv hrel hnone =>
            exact call_sim n true false true (fun _ => .inr ⟨_, _, _, _, _, _, rfl⟩) (.fn g (fun _ => rfl) hp hl h0 ok hds hpend henv hrel hnone) hvs s
        · intro a a' ha hal
          exact he.rel_fn (fun _ => rfl) nofun hal h0 ok hds ha
      simp only [apply, call]
      by_cases h1 : (b || c1) = true
      · have h2 : (c || c2) = true := by
          rw [Bool.or_eq_true] at h1 ⊢
          rcases h1 with h1 | h1
          · rcases hb h1 with h | ⟨x, ps, ds, t, env, pend, h⟩
            · exact .inl h
            · cases h; exact .inr rfl
          · exact .inr (hc h1)
        rw [if_pos h1, if_pos h2]
        exact cur s
      · rw [if_neg h1]
        have h3 : c1 = false := by simp at h1; exact h1.2
        have e1 := hds.length
        have e2 := hs.length
        have hpn := hp h3
        subst hpn
        cases hpend
        by_cases h4 : ps.length ≤ vs.length + ds.length ∧ vs.length ≤ ps.length
        · rw [if_pos h4]
          by_cases h2 : (c || c2) = true
          · rw [if_pos h2]
            unfold curried decide
            rw [if_neg (by simp; omega), if_pos (by simp; omega)]
            exact eval_sim n i m true (scope_frame he h0 ok hds hs (by omega) h4.2) e ok s
          · rw [if_neg h2, if_pos (by omega)]
            exact eval_sim n i m ctx (scope_frame he h0 ok hds hs (by omega) h4.2) e ok s
        · rw [if_neg h4]
          exact .stop _ s
end

mutual
theorem seen_rel {v : RV} {w : V} : Rel au v w → seenV w = seenRV v
  | .int _ | .show | .fn .. => rfl
  | .tuple h => by simp only [seenV, seenRV, seen_all h]
  | .values h => by simp only [seenV, seenRV, seen_all h]
theorem seen_all {vs : List RV} {ws : List V} : RelAll au vs ws → seenVs ws = seenRVs vs
  | .nil => rfl
  | .cons h hs => by simp only [seenVs, seenRVs, seen_rel h, seen_all hs]
end

end Unpy.Autocurry.Lemmas
