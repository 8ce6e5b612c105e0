import Verif.Spec.Resignal
import Verif.Props.Conditions
/-!
# `resignal` (C82), `available_restarts` and `available_handlers` (C83)
-/
namespace Unpy.Props
open Unpy Unpy.Cond Unpy.Spec.Cond
open Unpy.Fold (Err)
variable {σ ε Ty C V : Type} {E : Env σ ε Ty (Cnd C) V}

/-! ## examples: conditions and types are numbers, 0 is `BaseException`, 10 the type of 1 and 5; the world is a log -/

private def E1 : Env (List Nat) Empty Nat (Cnd Nat) Nat where
  isa := fun c t => c.inst == t || t == 0 || (t == 10 && (c.inst == 1 || c.inst == 5))
  ctrl := fun _ => .mk 99 .error none
  none := 0
  warn := fun c s => (.ok (), s ++ [c.inst])

private abbrev P1 := Prog (List Nat) Empty Nat (Cnd Nat) Nat
private def st1 (hs : List (List (Nat × (Cnd Nat → P1)))) : St (List Nat) Empty Nat (Cnd Nat) Nat := ⟨[], hs, 0, [], 0⟩
/-- write down which condition came, and that of its cause -/
private def seen (n : Nat) : Cnd Nat → P1 := fun c =>
  .look fun s => .put (s ++ [n, c.inst, ((c.cause).map Cnd.inst).getD 0]) (.ret 0)

/-! ## C82 -/

/-- C82: the handler of a `resignal` block: it signals what the condition is converted into, one after the other,
until one of these does not return; if they all return, it declines. -/
theorem C82_handler {m : List (Ty × C)} {c : Cnd C} {st r st'} :
    Ends E (resignalHandler E m c) st r st' ↔
      (r = .ok E.none ∧ RunsAll E (converted E m c) st (.ok ()) st') ∨
      (∃ e, r = .error e ∧ RunsAll E (converted E m c) st (.error e) st') := by
  induction m generalizing st with
  | nil =>
    simp only [resignalHandler, converted, List.filter_nil, List.map_nil]
    constructor
    · rintro ⟨n, h⟩
      match n, h with
      | n + 1, h => simp [eval] at h; obtain ⟨rfl, rfl⟩ := h; exact .inl ⟨rfl, .nil⟩
    · rintro (⟨rfl, h⟩ | ⟨e, _, h⟩)
      · cases h; exact ⟨1, rfl⟩
      · cases h
  | cons e m ih =>
    obtain ⟨lib, app⟩ := e
    simp only [resignalHandler, converted, List.filter_cons]
    split
    · rename_i hm
      simp only [List.map_cons]
      constructor
      · intro h
        obtain ⟨n, h⟩ := ends_inv h
        rw [eval] at h
        cases he : eval E n (c.protocol.call E app (some c)) st with
        | none => simp [he] at h
        | some o =>
          simp only [he] at h
          rcases o with ⟨(e | v), s1⟩
          · simp at h; obtain ⟨rfl, rfl⟩ := h; exact .inr ⟨e, rfl, .stop ⟨n, he⟩⟩
          · rcases ih.mp ⟨n, h⟩ with ⟨h1, h2⟩ | ⟨e, h1, h2⟩
            · exact .inl ⟨h1, .next ⟨n, he⟩ h2⟩
            · exact .inr ⟨e, h1, .next ⟨n, he⟩ h2⟩
      · rintro (⟨rfl, h⟩ | ⟨e, rfl, h⟩)
        · cases h with | next h1 h2 => exact ends_seq_ok h1 (ih.mpr (.inl ⟨rfl, h2⟩))
        · cases h with
          | next h1 h2 => exact ends_seq_ok h1 (ih.mpr (.inr ⟨e, rfl, h2⟩))
          | stop h1 => exact ends_seq_err h1
    · exact ih

example : Ends E1 (resignalHandler E1 [(5, 6), (1, 2), (10, 3)] (.mk 1 .signal none))
    (st1 [[(2, seen 8), (3, seen 9)]]) (.ok 0) { st1 [[(2, seen 8), (3, seen 9)]] with world := [8, 2, 1, 9, 3, 1] } :=
  ⟨12, rfl⟩

/-- C82: what runs when `c` is signalled inside a `resignal` block (with no handlers further in): the signals it is
converted into; then, if all these return, the handlers for `c` itself outside the block. -/
theorem C82_block {base : Ty} {m : List (Ty × C)} {c : Cnd C} {hs s r s'} (hb : E.isa c base = true) :
    RunsAll E (matching E c ([(base, resignalHandler E m)] :: hs)) s r s' ↔
      RunsAll E (converted E m c ++ matching E c hs) s r s' := by
  rw [matching_cons, matching_one_cons, if_pos hb]
  have h0 : matching E c [([] : List (Ty × (Cnd C → Prog σ ε Ty (Cnd C) V)))] = [] := rfl
  rw [h0, List.singleton_append]
  constructor
  · intro h
    cases h with
    | next h1 h2 =>
      rcases C82_handler.mp h1 with ⟨_, h3⟩ | ⟨e, he, _⟩
      · exact runsAll_append_ok h3 h2
      · cases he
    | stop h1 =>
      rcases C82_handler.mp h1 with ⟨he, _⟩ | ⟨e, he, h3⟩
      · cases he
      · cases he; exact runsAll_append_err h3
  · intro h
    rcases runsAll_append_inv h with ⟨s1, h1, h2⟩ | ⟨e, rfl, h1⟩
    · exact .next (C82_handler.mpr (.inl ⟨rfl, h1⟩)) h2
    · exact .stop (C82_handler.mpr (.inr ⟨e, rfl, h1⟩))

example : RunsAll E1 (matching E1 (.mk 1 .signal none) [[(0, resignalHandler E1 [(1, 2)])], [(1, seen 7), (2, seen 8)]])
    (st1 [[(0, resignalHandler E1 [(1, 2)])], [(1, seen 7), (2, seen 8)]]) (.ok ())
    { st1 [[(0, resignalHandler E1 [(1, 2)])], [(1, seen 7), (2, seen 8)]] with world := [8, 2, 1, 7, 1, 0] } :=
  .next ⟨12, rfl⟩ (.next ⟨3, rfl⟩ .nil)

/-- C82: no entry matches: the block makes no difference to what runs. -/
theorem C82_no_match {base : Ty} {m : List (Ty × C)} {c : Cnd C} {hs s r s'} (hb : E.isa c base = true)
    (hm : ∀ e ∈ m, E.isa c e.1 = false) :
    RunsAll E (matching E c ([(base, resignalHandler E m)] :: hs)) s r s' ↔ RunsAll E (matching E c hs) s r s' := by
  rw [C82_block hb]
  have : converted E m c = [] := by
    simp only [converted, List.map_eq_nil_iff, List.filter_eq_nil_iff]
    intro e he; simp [hm e he]
  rw [this, List.nil_append]

example : ∀ e ∈ [(1, 2), (3, 4)], E1.isa (.mk 7 .error none) e.1 = false := by decide

private theorem converted_first {m m1 m2 : List (Ty × C)} {lib app} {c : Cnd C} (hm : m = m1 ++ (lib, app) :: m2)
    (h1 : ∀ e ∈ m1, E.isa c e.1 = false) (h2 : E.isa c lib = true) :
    converted E m c = c.protocol.call E app (some c) :: converted E m2 c := by
  have : m1.filter (fun e => E.isa c e.1) = [] := by
    rw [List.filter_eq_nil_iff]; intro e he; simp [h1 e he]
  simp [converted, hm, List.filter_append, this, h2]

/-- C82: `error(c)` inside a `resignal` block is `error` of the value of the first matching entry, with `c` as its
cause, at the same place; what other entries match does not matter.  Missing: the other protocols, for which it is
false (`C82_signal_refuted`). -/
theorem C82_error_partial {base : Ty} {m m1 m2 : List (Ty × C)} {lib : Ty} {app c : C} {k : Option (Cnd C)} {st r st'}
    (hb : E.isa (.mk c .error k) base = true) (hm : m = m1 ++ (lib, app) :: m2)
    (h1 : ∀ e ∈ m1, E.isa (.mk c .error k) e.1 = false) (h2 : E.isa (.mk c .error k) lib = true) :
    Ends E (resignal E base m (Protocol.error.call E c k)) st r st' ↔
      ∃ s, Ends E (Protocol.error.call E app (some (.mk c .error k))) (pushH [(base, resignalHandler E m)] st) r s ∧
        st' = popH s := by
  have hconv := converted_first hm h1 h2
  have hnoret : ∀ s s', ¬ RunsAll E (converted E m (.mk c .error k)) s (.ok ()) s' := by
    intro s s' h
    rw [hconv] at h
    cases h with | next h _ => exact C43_error.1 _ _ h
  have key : ∀ {st : St σ ε Ty (Cnd C) V} {hs r s}, st.hstack = [(base, resignalHandler E m)] :: hs →
      (Ends E (Protocol.error.call E c k) st r s ↔
        Ends E (Protocol.error.call E app (some (.mk c .error k))) st r s) := by
    intro st hs r s hst
    have hq : Quiet E (.mk c .error k) st := by
      intro inner outer s1 hi hr
      cases inner with
      | nil => cases hr; rfl
      | cons b inner =>
        rw [hst] at hi
        obtain ⟨rfl, _⟩ := List.cons.inj hi
        rw [C82_block hb] at hr
        rcases runsAll_append_inv hr with ⟨_, h, _⟩ | ⟨_, h, _⟩
        · exact absurd h (hnoret _ _)
        · cases h
    show Ends E (.signal _ _) st r s ↔ _
    rw [C43_signal_partial hq, hst, ]
    constructor
    · rintro (⟨s1, h, _⟩ | ⟨e, rfl, h⟩)
      · rw [C82_block hb] at h
        rcases runsAll_append_inv h with ⟨_, h, _⟩ | ⟨_, h, _⟩
        · exact absurd h (hnoret _ _)
        · cases h
      · rw [C82_block hb, hconv] at h
        cases h with
        | next h _ => exact absurd h (C43_error.1 _ _)
        | stop h => exact h
    · intro h
      rcases r with e | v
      · refine .inr ⟨e, rfl, ?_⟩
        rw [C82_block hb, hconv]
        exact .stop h
      · exact absurd h (C43_error.1 _ _)
  constructor
  · rintro ⟨n, h⟩
    match n, h with
    | n + 1, h =>
      rw [resignal, eval] at h
      cases he : eval E n (Protocol.error.call E c k) (pushH [(base, resignalHandler E m)] st) with
      | none => simp [he] at h
      | some o =>
        obtain ⟨r0, s0⟩ := o
        simp only [he, Option.some.injEq, Prod.mk.injEq] at h
        obtain ⟨rfl, rfl⟩ := h
        exact ⟨s0, (key rfl).mp ⟨n, he⟩, rfl⟩
  · rintro ⟨s, h, rfl⟩
    exact ends_handlers ((key rfl).mpr h)

example : Ends E1 (resignal E1 0 [(5, 6), (1, 2), (10, 3)] (Protocol.error.call E1 1 none))
    (st1 [[(1, seen 7), (2, seen 8), (3, seen 9)]]) (.error (.err (.py .ControlError)))
    { st1 [[(1, seen 7), (2, seen 8), (3, seen 9)]] with world := [8, 2, 1], hver := 2 } := ⟨12, rfl⟩

/-- C82: in particular, if the value of that entry is itself not converted: the handlers for it outside the block
run, with `c` as its cause; if they decline, ControlError is raised.  Missing: the other protocols, and values that
are converted in turn (`C82_recursion_refuted`). -/
theorem C82_error_outcome_partial {base : Ty} {m m1 m2 : List (Ty × C)} {lib : Ty} {app c : C} {k : Option (Cnd C)} {st r st'}
    (hb : ∀ c, E.isa c base = true) (hm : m = m1 ++ (lib, app) :: m2)
    (h1 : ∀ e ∈ m1, E.isa (.mk c .error k) e.1 = false) (h2 : E.isa (.mk c .error k) lib = true)
    (happ : ∀ e ∈ m, E.isa (.mk app .error (some (.mk c .error k))) e.1 = false)
    (hq : Quiet E (.mk app .error (some (.mk c .error k))) (pushH [(base, resignalHandler E m)] st)) :
    Ends E (resignal E base m (Protocol.error.call E c k)) st r st' ↔
      ∃ s, st' = popH s ∧
        ((r = .error (.err (.py .ControlError)) ∧
          RunsAll E (matching E (.mk app .error (some (.mk c .error k))) st.hstack)
            (pushH [(base, resignalHandler E m)] st) (.ok ()) s) ∨
        (∃ e, r = .error e ∧ RunsAll E (matching E (.mk app .error (some (.mk c .error k))) st.hstack)
            (pushH [(base, resignalHandler E m)] st) (.error e) s)) := by
  rw [C82_error_partial (hb _) hm h1 h2]
  have hh : (pushH [(base, resignalHandler E m)] st).hstack = [(base, resignalHandler E m)] :: st.hstack := rfl
  constructor
  · rintro ⟨s, hs, rfl⟩
    refine ⟨s, rfl, ?_⟩
    rcases (C43_signal_partial hq).mp hs with ⟨s1, h, hk⟩ | ⟨e, rfl, h⟩
    · rw [hh, C82_no_match (hb _) happ] at h
      obtain ⟨n, hk⟩ := ends_inv hk
      simp [eval] at hk
      obtain ⟨rfl, rfl⟩ := hk
      exact .inl ⟨rfl, h⟩
    · rw [hh, C82_no_match (hb _) happ] at h
      exact .inr ⟨e, rfl, h⟩
  · rintro ⟨s, rfl, h⟩
    refine ⟨s, (C43_signal_partial hq).mpr ?_, rfl⟩
    rw [hh]
    rcases h with ⟨rfl, h⟩ | ⟨e, rfl, h⟩
    · exact .inl ⟨s, (C82_no_match (hb _) happ).mpr h, 1, rfl⟩
    · exact .inr ⟨e, rfl, (C82_no_match (hb _) happ).mpr h⟩

example : (∀ c, E1.isa c 0 = true) ∧ ∀ e ∈ [(1, 2)], E1.isa (.mk 2 .error (some (.mk 1 .error none))) e.1 = false :=
  ⟨fun c => by simp [E1], by decide⟩

/-- C82 fails for the other protocols: with `signal`, a condition that two entries match is converted into both, and
if these are declined, the original is delegated to the outer handlers all the same. -/
theorem C82_signal_refuted : ∃ (E : Env (List Nat) Empty Nat (Cnd Nat) Nat)
    (log : Nat → Cnd Nat → Prog (List Nat) Empty Nat (Cnd Nat) Nat) (st st' : St (List Nat) Empty Nat (Cnd Nat) Nat),
    (∀ n c s, Ends E (log n c) s (.ok 0) { s with world := s.world ++ [n, c.inst] }) ∧
    st.hstack = [[(1, log 7), (2, log 8), (3, log 9)]] ∧ st.world = [] ∧
    Ends E (resignal E 0 [(1, 2), (10, 3)] (Protocol.signal.call E 1 none)) st (.ok 0) st' ∧
    st'.world = [8, 2, 9, 3, 7, 1] :=
  ⟨E1, fun n c => .look fun s => .put (s ++ [n, c.inst]) (.ret 0), st1 _, _, fun _ _ _ => ⟨3, rfl⟩, rfl, rfl,
    ⟨12, rfl⟩, rfl⟩

/-- Another way in which C82 fails: if the value of the matching entry is itself an instance of the type of that
entry (say, `resignal({Exception: MyError})`), the conversion never ends, whatever the protocol. -/
theorem C82_recursion_refuted {base lib : Ty} {app c : C} {k : Option (Cnd C)} {p : Protocol} {st r st'}
    (hb : ∀ c, E.isa c base = true) (h : E.isa (.mk c p k) lib = true) (happ : ∀ p k, E.isa (.mk app p k) lib = true) :
    ¬ Ends E (resignal E base [(lib, app)] (p.call E c k)) st r st' := by
  have key : ∀ n, (∀ (x : Cnd C) (k : Prog σ ε Ty (Cnd C) V) (st : St σ ε Ty (Cnd C) V) (hs), E.isa x lib = true →
      st.hstack = [(base, resignalHandler E [(lib, app)])] :: hs → eval E n (.signal x k) st = none) ∧
      (∀ (p : Protocol) (x : C) k (st : St σ ε Ty (Cnd C) V) (hs), E.isa (.mk x p k) lib = true →
      st.hstack = [(base, resignalHandler E [(lib, app)])] :: hs → eval E n (p.call E x k) st = none) := by
    intro n
    induction n using Nat.strongRecOn with
    | _ n ih =>
      have hsig : ∀ (x : Cnd C) (k : Prog σ ε Ty (Cnd C) V) (st : St σ ε Ty (Cnd C) V) (hs), E.isa x lib = true →
          st.hstack = [(base, resignalHandler E [(lib, app)])] :: hs → eval E n (.signal x k) st = none := by
        intro x k st hs hx hst
        match n, ih with
        | 0, _ => rfl
        | 1, _ => rw [eval, hst, sigFrames]; simp [sigFrame, hb, eval]
        | n + 2, ih =>
          have hcall := (ih n (by omega)).2 x.protocol app (some x) st hs (happ _ _) hst
          rw [eval, hst, sigFrames]
          simp [sigFrame, hb, resignalHandler, hx, eval, hcall]
      refine ⟨hsig, ?_⟩
      intro p x k st hs hx hst
      cases p with
      | signal => exact hsig _ _ _ hs hx hst
      | error => exact hsig _ _ _ hs hx hst
      | cerror =>
        match n, ih with
        | 0, _ => rfl
        | n + 1, ih =>
          have := (ih n (by omega)).1 (.mk x .cerror k) (.raise (.py .ControlError)) (pushR [("proceed", noneFn E)] st) hs
            hx hst
          simp only [Protocol.call, cerror, eval, error, this]
      | warn =>
        match n, ih with
        | 0, _ => rfl
        | 1, _ => rfl
        | 2, _ => rfl
        | n + 3, ih =>
          have := (ih n (by omega)).1 (.mk x .warn k) (.ret E.none)
            (pushR [("_proceed", noneFn E)] (pushR [("muffle", noneFn E)] st)) hs hx hst
          simp only [Protocol.call, Cond.warn, eval, this]
  rintro ⟨n, hn⟩
  match n, hn with
  | n + 1, hn =>
    rw [resignal, eval, (key n).2 p c k _ st.hstack h rfl] at hn
    cases hn

/-- for instance, with every type `lib` whatever -/
example : (∀ c, E1.isa c 0 = true) ∧ E1.isa (.mk 1 .cerror none) 10 = true ∧ ∀ p k, E1.isa (.mk 5 p k) 10 = true :=
  ⟨fun c => by simp [E1], rfl, fun _ _ => rfl⟩

/-- C44: a handler made by `invoker(name, *args)`, innermost for a condition of its type, sends that condition, however
signalled, to the restart.  (Missing: the names in `C44_names_refuted`, and the name `restart_name`, with which `invoker` itself raises.) -/
theorem C44_invoker_partial {C : Type} {E : Env σ ε Ty C V} {bs} {name : String} {args : Args V} {c : C} {t : Ty}
    {f : Args V → Prog σ ε Ty C V} {k : Prog σ ε Ty C V} {st : St σ ε Ty C V} {r s}
    (hfree : Free args) (hf : bs.lookup name = some f) (ht : E.isa c t = true) :
    Ends E (.restarts bs (.handlers [(t, invoker name args)] (.signal c k))) st r s ↔
      ∃ s1, Ends E (f args) { pushR bs st with hver := st.hver + 2 } r s1 ∧ s = popR s1 := by
  have hact : Active E (.handlers [(t, invoker name args)] (.signal c k)) (pushR bs st) (.invoke name args)
      (pushH [(t, invoker name args)] (pushR bs st)) ([.plain] ++ [.handlers [(t, invoker name args)]]) := by
    refine .inHandlers (fs := [.plain]) ?_
    refine Active.inHandler (fs := []) (inner := []) (b1 := []) (b2 := []) (t := t) (h := invoker name args)
      (outer := st.hstack) rfl ht .nil rfl .nil .here
  refine (C44_invoke_partial hact hfree hf (by simp [rOf]) (st'' := { pushR bs st with hver := st.hver + 2 }) ?_).1
  exact .plain (.handlers .nil)

example : Ends E1 (.restarts [("a", fun as => .ret (as.pos.headD 0))]
    (.handlers [(10, invoker "a" ⟨[5], []⟩)] (.signal (.mk 1 .signal none) (.ret 7)))) (st1 []) (.ok 5)
    { st1 [] with hver := 2, next := 1 } := ⟨12, rfl⟩

/-! ## C83 -/

private theorem unseen_mem {K F : Type} [DecidableEq K] (l : List (K × F)) (sn : List K) (k : K) (f : F) :
    (k, f) ∈ unseen sn l ↔ k ∉ sn ∧ ∃ a b, l = a ++ (k, f) :: b ∧ ∀ x ∈ a, x.1 ≠ k := by
  induction l generalizing sn with
  | nil => simp [unseen]
  | cons x l ih =>
    obtain ⟨k', f'⟩ := x
    simp only [unseen]
    split
    · rename_i hk
      rw [ih]
      constructor
      · rintro ⟨h1, a, b, rfl, h2⟩
        exact ⟨h1, (k', f') :: a, b, rfl, by
          intro x hx; rcases List.mem_cons.mp hx with rfl | hx
          · rintro rfl; exact h1 hk
          · exact h2 x hx⟩
      · rintro ⟨h1, a, b, he, h2⟩
        cases a with
        | nil => simp at he; exact absurd (he.1.1 ▸ hk) h1
        | cons y a =>
          simp at he
          exact ⟨h1, a, b, he.2, fun x hx => h2 x (by simp [hx])⟩
    · rename_i hk
      rw [List.mem_cons, ih]
      constructor
      · rintro (h | ⟨h1, a, b, rfl, h2⟩)
        · cases h; exact ⟨hk, [], l, rfl, by simp⟩
        · refine ⟨fun h => h1 (by simp [h]), (k', f') :: a, b, rfl, ?_⟩
          intro x hx; rcases List.mem_cons.mp hx with rfl | hx
          · rintro rfl; exact h1 (by simp)
          · exact h2 x hx
      · rintro ⟨h1, a, b, he, h2⟩
        cases a with
        | nil => simp at he; left; rw [he.1.1, he.1.2]
        | cons y a =>
          simp at he
          right
          have hne : k' ≠ k := by have := h2 y (by simp); rw [← he.1] at this; exact this
          exact ⟨by simp [h1, Ne.symm hne], a, b, he.2, fun x hx => h2 x (by simp [hx])⟩

private theorem unseen_nodup {K F : Type} [DecidableEq K] (l : List (K × F)) (sn : List K) :
    ((unseen sn l).map Prod.fst).Nodup := by
  induction l generalizing sn with
  | nil => simp [unseen]
  | cons x l ih =>
    obtain ⟨k', f'⟩ := x
    simp only [unseen]
    split
    · exact ih _
    · simp only [List.map_cons, List.nodup_cons]
      refine ⟨?_, ih _⟩
      intro h
      obtain ⟨⟨k, f⟩, hm, rfl⟩ := List.mem_map.mp h
      exact ((unseen_mem _ _ _ _).mp hm).1 (by simp)

private theorem first_iff_lookup {K F : Type} [BEq K] [LawfulBEq K] (l : List (K × F)) (k : K) (f : F) :
    (∃ a b, l = a ++ (k, f) :: b ∧ ∀ x ∈ a, x.1 ≠ k) ↔ l.lookup k = some f := by
  rw [List.lookup_eq_some_iff]
  constructor
  · rintro ⟨a, b, h, h2⟩; exact ⟨a, b, h, fun x hx => by simpa using Ne.symm (h2 x hx)⟩
  · rintro ⟨a, b, h, h2⟩; exact ⟨a, b, h, fun x hx => by have := h2 x hx; simp at this; exact Ne.symm this⟩

private theorem inScope_iff_lookup {F : Type} (rs : List (Nat × List (String × F))) (k : String) (f : F) :
    InScope rs k f ↔ (rs.flatMap (fun e => e.2)).lookup k = some f := by
  induction rs with
  | nil =>
    simp only [List.flatMap_nil, List.lookup_nil, reduceCtorEq, iff_false]
    rintro ⟨inner, id, bs, outer, h, _⟩
    simp at h
  | cons e rs ih =>
    obtain ⟨id0, bs0⟩ := e
    simp only [List.flatMap_cons, List.lookup_append]
    cases h0 : bs0.lookup k with
    | some f0 =>
      simp only [Option.some_or, Option.some.injEq]
      constructor
      · rintro ⟨inner, id, bs, outer, h, h1, h2⟩
        cases inner with
        | nil => simp at h; rw [← h.1.2, h0] at h1; simpa using h1
        | cons x inner =>
          simp at h
          have := h2 x (by simp); rw [← h.1] at this; simp [h0] at this
      · rintro rfl; exact ⟨[], id0, bs0, rs, rfl, h0, by simp⟩
    | none =>
      simp only [Option.none_or]
      rw [← ih]
      constructor
      · rintro ⟨inner, id, bs, outer, h, h1, h2⟩
        cases inner with
        | nil => simp at h; rw [← h.1.2, h0] at h1; simp at h1
        | cons x inner =>
          simp at h
          exact ⟨inner, id, bs, outer, h.2, h1, fun b hb => h2 b (by simp [hb])⟩
      · rintro ⟨inner, id, bs, outer, rfl, h1, h2⟩
        exact ⟨(id0, bs0) :: inner, id, bs, outer, rfl, h1, by
          intro b hb; rcases List.mem_cons.mp hb with rfl | hb
          · exact h0
          · exact h2 b hb⟩

private theorem insertBy_perm {α : Type} (key : α → String) (x : α) (l : List α) : (insertBy key x l).Perm (x :: l) := by
  induction l with
  | nil => exact .refl _
  | cons y l ih =>
    simp only [insertBy]
    split
    · exact .refl _
    · exact (ih.cons y).trans (.swap x y l)

private theorem sortedBy_perm {α : Type} (key : α → String) (l : List α) : (sortedBy key l).Perm l := by
  induction l with
  | nil => exact .refl _
  | cons x l ih => exact (insertBy_perm key x _).trans (ih.cons x)

private theorem sorted_by {α : Type} (key : α → String) (l : List α) :
    (sortedBy key l).Pairwise (fun a b => key a ≤ key b) := by
  have ins : ∀ (x : α) (l : List α), l.Pairwise (fun a b => key a ≤ key b) →
      (insertBy key x l).Pairwise (fun a b => key a ≤ key b) := by
    intro x l h
    induction l with
    | nil => simp [insertBy]
    | cons y l ih =>
      rw [List.pairwise_cons] at h
      simp only [insertBy]
      split
      · rename_i hxy
        refine List.pairwise_cons.mpr ⟨?_, List.pairwise_cons.mpr h⟩
        intro z hz
        rcases List.mem_cons.mp hz with rfl | hz
        · exact hxy
        · exact String.le_trans hxy (h.1 z hz)
      · rename_i hxy
        refine List.pairwise_cons.mpr ⟨?_, ih h.2⟩
        intro z hz
        rcases List.mem_cons.mp ((insertBy_perm key x l).mem_iff.mp hz) with rfl | hz
        · rcases String.le_total (key z) (key y) with h' | h'
          · exact absurd h' hxy
          · exact h'
        · exact h.1 z hz
  induction l with
  | nil => exact .nil
  | cons x l ih => exact ins x _ ih

/-- C83: `available_restarts()` lists each name once, in order; and a name with the restart in scope under it. -/
theorem C83_available_restarts {F : Type} (rstack : List (Nat × List (String × F))) :
    ((availableRestarts rstack).map Prod.fst).Pairwise (fun a b => a ≤ b ∧ a ≠ b) ∧
    ∀ name f, (name, f) ∈ availableRestarts rstack ↔ InScope rstack name f := by
  have hp := sortedBy_perm Prod.fst (unseen [] (rstack.flatMap (fun e => e.2)))
  constructor
  · rw [List.pairwise_map]
    have h1 := sorted_by Prod.fst (unseen [] (rstack.flatMap (fun e => e.2)))
    have h2 : ((availableRestarts rstack).map Prod.fst).Nodup := (hp.map Prod.fst).nodup_iff.mpr (unseen_nodup _ _)
    rw [List.Nodup, List.pairwise_map] at h2
    exact h1.and h2
  · intro name f
    rw [inScope_iff_lookup, ← first_iff_lookup]
    simp only [availableRestarts, hp.mem_iff, unseen_mem, List.not_mem_nil, not_false_eq_true, true_and]

example : availableRestarts [(1, [("b", 1), ("a", 2)]), (0, [("c", 3), ("b", 4)])] = [("a", 2), ("b", 1), ("c", 3)] := by
  decide +kernel

/-- C83: these are the restarts that `find_restart` finds. -/
theorem C83_agrees_with_find_restart (st : St σ ε Ty C V) (name : String) :
    (∃ f, (name, f) ∈ availableRestarts st.rstack) ↔ (findR name st.rstack).isSome := by
  simp only [(C83_available_restarts st.rstack).2]
  constructor
  · rintro ⟨f, inner, id, bs, outer, h, h1, h2⟩
    rw [h]
    clear h
    induction inner with
    | nil => simp [findR, h1]
    | cons x inner ih =>
      have := h2 x (by simp)
      simp only [List.cons_append, findR, this, Option.isSome_none, Bool.false_eq_true, if_false]
      exact ih (fun b hb => h2 b (by simp [hb]))
  · intro h
    simp only [inScope_iff_lookup]
    generalize st.rstack = rs at *
    induction rs with
    | nil => simp [findR] at h
    | cons x rs ih =>
      obtain ⟨id, bs⟩ := x
      simp only [findR] at h
      simp only [List.flatMap_cons, List.lookup_append]
      cases hb : bs.lookup name with
      | some f => exact ⟨f, by simp⟩
      | none =>
        simp only [hb, Option.isSome_none, Bool.false_eq_true, if_false] at h
        obtain ⟨f, hf⟩ := ih h
        exact ⟨f, by simpa using hf⟩

example : (findR "a" (st1 []).rstack).isSome = false := rfl

/-- C83: `available_handlers()` lists each type once, ordered by name; and a type with the handler that comes first among
those bound to it. -/
theorem C83_available_handlers {T F : Type} [DecidableEq T] (name : T → String) (hstack : List (List (List T × F))) :
    ((availableHandlers name hstack).map Prod.fst).Nodup ∧
    (availableHandlers name hstack).Pairwise (fun a b => name a.1 ≤ name b.1) ∧
    ∀ t h, (t, h) ∈ availableHandlers name hstack ↔ FirstBound hstack t h := by
  have hp := sortedBy_perm (fun a => name a.1)
    (unseen [] (hstack.flatten.flatMap (fun b => b.1.map (fun t => (t, b.2)))))
  refine ⟨(hp.map Prod.fst).nodup_iff.mpr (unseen_nodup _ _), sorted_by (fun a : T × F => name a.1) _, fun t h => ?_⟩
  rw [availableHandlers, hp.mem_iff, unseen_mem]
  simp only [List.not_mem_nil, not_false_eq_true, true_and, FirstBound]
  generalize hstack.flatten = l
  rw [first_iff_lookup]
  have one : ∀ (ts : List T) (g : F), (ts.map (fun t => (t, g))).lookup t = if t ∈ ts then some g else none := by
    intro ts g
    induction ts with
    | nil => simp
    | cons x ts ih =>
      simp only [List.map_cons, List.lookup_cons, ih, List.mem_cons]
      by_cases hx : t = x
      · subst hx; simp
      · rw [show (t == x) = false by simp [hx]]; simp [hx]
  induction l with
  | nil => simp
  | cons b l ih =>
    simp only [List.flatMap_cons, List.lookup_append, one]
    split
    · rename_i hm
      simp only [Option.some_or, Option.some.injEq]
      constructor
      · rintro rfl; exact ⟨[], b.1, l, rfl, hm, by simp⟩
      · rintro ⟨before, ts, after, h, h1, h2⟩
        cases before with
        | nil => simp at h; rw [h.1]
        | cons x before => simp at h; exact absurd hm (h.1 ▸ h2 x (by simp))
    · rename_i hm
      simp only [Option.none_or]
      refine ih.trans ⟨?_, ?_⟩
      · rintro ⟨before, ts, after, rfl, h1, h2⟩
        exact ⟨b :: before, ts, after, rfl, h1, by
          intro x hx; rcases List.mem_cons.mp hx with rfl | hx
          · exact hm
          · exact h2 x hx⟩
      · rintro ⟨before, ts, after, h, h1, h2⟩
        cases before with
        | nil => simp at h; rw [h.1] at hm; exact absurd h1 hm
        | cons x before =>
          simp at h
          exact ⟨before, ts, after, h.2, h1, fun y hy => h2 y (by simp [hy])⟩

example : availableHandlers (fun n : Nat => toString n) [[([3, 1], "f"), ([1], "g")], [([2], "h"), ([3], "i")]] =
    [(1, "f"), (2, "h"), (3, "f")] := by decide +kernel

end Unpy.Props
