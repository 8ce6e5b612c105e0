import Verif.Spec.FixTco
/-!
# Helper lemmas for `fixtco`
-/
namespace Unpy.FixTco
open Unpy Unpy.FixTco.Spec

variable {F A V E : Type}

theorem runPure_mono {c c' : F → A → Option (Out E V)} (h : ∀ f a r, c f a = some r → c' f a = some r)
    (p : Prog F A E V) (r : Out E V) (hp : runPure c p = some r) : runPure c' p = some r := by
  induction p with
  | ret v => exact hp
  | raise e => exact hp
  | jump f a => exact h f a r hp
  | call f a k ih =>
    rw [runPure] at hp ⊢
    cases hc : c f a with
    | none => rw [hc] at hp; cases hp
    | some r1 => rw [hc] at hp; rw [h f a r1 hc]; exact ih r1 hp

theorem plain_mono (body : F → A → Prog F A E V) {n m : Nat} (hnm : n ≤ m) (f : F) (a : A) (r : Out E V)
    (h : plain body n f a = some r) : plain body m f a = some r := by
  induction n generalizing m f a r with
  | zero => cases h
  | succ n ih =>
    cases m with
    | zero => omega
    | succ m => exact runPure_mono (fun f a r => ih (by omega) f a r) _ _ h

theorem plain_unique (body : F → A → Prog F A E V) {n m : Nat} {f : F} {a : A} {r r' : Out E V}
    (h : plain body n f a = some r) (h' : plain body m f a = some r') : r = r' := by
  rcases Nat.le_total n m with hl | hl
  · have := plain_mono body hl f a r h; rw [h'] at this; cases this; rfl
  · have := plain_mono body hl f a r' h'; rw [h] at this; cases this; rfl

theorem plain_least (body : F → A → Prog F A E V) (f : F) (a : A) (x : Out E V) : ∀ N, plain body N f a = some x →
    ∃ m, m + 1 ≤ N ∧ plain body m f a = none ∧ plain body (m + 1) f a = some x := by
  intro N
  induction N with
  | zero => intro hx; cases hx
  | succ N ihN =>
    intro hx
    cases hN : plain body N f a with
    | none => exact ⟨N, Nat.le_refl _, hN, hx⟩
    | some y =>
      have : y = x := plain_unique body hN hx
      subst this
      obtain ⟨m, h1, h2, h3⟩ := ihN hN
      exact ⟨m, by omega, h2, h3⟩

variable [DecidableEq F] [DecidableEq A]

/-- What the memo says about terminating calls is right. -/
def MemoOk (d : Defs F A E V) (st : St F A E V) : Prop :=
  ∀ f a r, lookup st.memo (f, a) = some r → ∀ n r', plain d.body n f a = some r' → r = r'

theorem memoOk_store {d : Defs F A E V} {st : St F A E V} (h : MemoOk d st) (f : F) (a : A) (r : Out E V)
    (hr : ∀ n r', plain d.body n f a = some r' → r = r') : MemoOk d { st with memo := ((f, a), r) :: st.memo } := by
  intro f' a' r1 h1
  unfold lookup at h1
  by_cases e : (f, a) = (f', a')
  · cases e
    simp at h1
    subst h1
    exact hr
  · rw [List.find?_cons_of_neg (by simpa using e)] at h1
    exact h f' a' r1 h1

/-- `n` calls deep is not enough for any of the active calls. -/
def Above (d : Defs F A E V) (n : Nat) (vis : List (Key F A)) : Prop := ∀ k ∈ vis, plain d.body n k.f k.args = none

/-- No active call terminates by plain recursion. -/
def NoneT (d : Defs F A E V) (vis : List (Key F A)) : Prop := ∀ k ∈ vis, ∀ n, plain d.body n k.f k.args = none

/-- The active calls need more depth than the current one. -/
def Fits (d : Defs F A E V) (f : F) (a : A) (vis : List (Key F A)) : Prop :=
  (∃ n x, plain d.body n f a = some x ∧ Above d n vis) ∨ ((∀ n, plain d.body n f a = none) ∧ NoneT d vis)

/-- The same for a body that is running. -/
def FitsBody (d : Defs F A E V) (f : F) (a : A) (vis : List (Key F A)) : Prop :=
  (∃ n x, runPure (plain d.body n) (d.body f a) = some x ∧ Above d n vis) ∨
    ((∀ n, plain d.body n f a = none) ∧ NoneT d vis)

theorem fits_of_noneT (d : Defs F A E V) (f : F) (a : A) (vis : List (Key F A)) (h : NoneT d vis) : Fits d f a vis := by
  by_cases ht : ∃ n x, plain d.body n f a = some x
  · obtain ⟨n, x, hx⟩ := ht
    exact .inl ⟨n, x, hx, fun k hk => h k hk n⟩
  · refine .inr ⟨fun n => ?_, h⟩
    cases hx : plain d.body n f a with
    | none => rfl
    | some x => exact absurd ⟨n, x, hx⟩ ht

theorem fitsBody_of_fits (d : Defs F A E V) (f : F) (a : A) (vis : List (Key F A)) (t : Bool) (h : Fits d f a vis) :
    FitsBody d f a (⟨t, f, a⟩ :: vis) := by
  rcases h with ⟨n, x, hx, hab⟩ | ⟨hno, hnt⟩
  · obtain ⟨m, hle, h1, h2⟩ := plain_least d.body f a x n hx
    refine .inl ⟨m, x, h2, ?_⟩
    intro k hk
    rcases List.mem_cons.mp hk with rfl | hk
    · exact h1
    · cases hq : plain d.body m k.f k.args with
      | none => rfl
      | some z =>
        have := plain_mono d.body (by omega : m ≤ n) k.f k.args z hq
        rw [hab k hk] at this; cases this
  · refine .inr ⟨hno, ?_⟩
    intro k hk
    rcases List.mem_cons.mp hk with rfl | hk
    · exact hno
    · exact hnt k hk

theorem not_mem_of_fits (d : Defs F A E V) (f : F) (a : A) (vis : List (Key F A)) (t : Bool) (h : Fits d f a vis)
    (hv : ⟨t, f, a⟩ ∈ vis) (n : Nat) : plain d.body n f a = none := by
  rcases h with ⟨m, x, hx, hab⟩ | ⟨hno, _⟩
  · have := hab _ hv
    rw [show plain d.body m f a = some x from hx] at this; cases this
  · exact hno n

theorem removeAll_append (c vis : List (Key F A)) : removeAll c (c ++ vis) = some vis := by
  induction c with
  | nil => rfl
  | cons k c ih => rw [removeAll, List.cons_append, if_pos List.mem_cons_self, List.erase_cons_head, ih]

theorem mem_removeAll (k : Key F A) : ∀ (c vis vis' : List (Key F A)), removeAll c vis = some vis' → k ∈ vis → k ∉ c →
    k ∈ vis' := by
  intro c
  induction c with
  | nil => intro vis vis' h hk _; cases h; exact hk
  | cons x c ih =>
    intro vis vis' h hk hc
    rw [removeAll] at h
    split at h
    · refine ih _ _ h ?_ (fun hx => hc (List.mem_cons_of_mem _ hx))
      exact (List.mem_erase_of_ne (fun e => hc (by rw [e]; exact List.mem_cons_self))).mpr hk
    · cases h

/-- Active calls stay active. -/
theorem go_sub (d : Defs F A E V) (fuel : Nat) :
    (∀ f a st r st' k, go d fuel (.call f a) st = some (r, st') → k ∈ st.visited → k ∈ st'.visited) ∧
    (∀ o f a c st r st' k, go d fuel (.tramp o f a c) st = some (r, st') → k ∈ st.visited → k ∉ c → k ∈ st'.visited) := by
  induction fuel with
  | zero => exact ⟨fun _ _ _ _ _ _ h => by (cases h), fun _ _ _ _ _ _ _ _ h => by (cases h)⟩
  | succ fuel ih =>
    obtain ⟨ih1, ih2⟩ := ih
    refine ⟨?_, ?_⟩
    · intro f a st r st' k h hk
      rw [go] at h
      simp only at h
      by_cases hv : (⟨false, f, a⟩ : Key F A) ∈ st.visited
      · rw [if_neg (not_not_intro hv)] at h
        cases h; exact hk
      · rw [if_pos hv] at h
        have hne : k ≠ ⟨false, f, a⟩ := fun e => hv (e ▸ hk)
        have tr : ∀ r1 st1, go d fuel (.tramp f f a []) { st with visited := ⟨false, f, a⟩ :: st.visited } = some (r1, st1) →
            k ∈ st1.visited := fun r1 st1 h1 => ih2 _ _ _ _ _ _ _ k h1 (List.mem_cons_of_mem _ hk) (by simp)
        generalize hres : (if d.memo f = true then
          match lookup st.memo (f, a) with
          | some r => some (r, ({ st with visited := ⟨false, f, a⟩ :: st.visited } : St F A E V))
          | none =>
            match go d fuel (.tramp f f a []) { st with visited := ⟨false, f, a⟩ :: st.visited } with
            | none => none
            | some (r, st') => some (r, { st' with memo := ((f, a), r) :: st'.memo })
        else go d fuel (.tramp f f a []) { st with visited := ⟨false, f, a⟩ :: st.visited }) = res at h
        have hg : ∀ r1 st1, res = some (r1, st1) → k ∈ st1.visited := by
          intro r1 st1 he
          rw [he] at hres
          split at hres
          · split at hres
            · cases hres; exact List.mem_cons_of_mem _ hk
            · split at hres
              · cases hres
              · rename_i r2 st2 ht
                cases hres
                have := tr _ _ ht
                exact this
          · exact tr _ _ hres
        cases res with
        | none => cases h
        | some q =>
          obtain ⟨r1, st1⟩ := q
          have := hg r1 st1 rfl
          simp only at h
          split at h
          · rename_i hp
            rw [List.isEmpty_iff.mp hp] at hk
            cases hk
          · split at h
            · cases h; exact (List.mem_erase_of_ne hne).mpr this
            · cases h; exact this
    · intro o f a c st r st' k h hk hc
      rw [go] at h
      have hrun : ∀ (p : Prog F A E V) (st : St F A E V) en st1, run (fun g b => go d fuel (.call g b)) p st = some (en, st1) →
          k ∈ st.visited → k ∈ st1.visited := by
        intro p
        induction p with
        | ret v => intro st en st1 h hk; cases h; exact hk
        | raise e => intro st en st1 h hk; cases h; exact hk
        | jump g b => intro st en st1 h hk; cases h; exact hk
        | call g b kk ihk =>
          intro st en st1 h hk
          rw [run] at h
          cases hc : go d fuel (.call g b) st with
          | none => rw [hc] at h; cases h
          | some q => rw [hc] at h; exact ihk q.1 q.2 en st1 h (ih1 g b st q.1 q.2 k hc hk)
      cases hr : run (fun g b => go d fuel (.call g b)) (d.body f a) st with
      | none => rw [hr] at h; cases h
      | some q =>
        obtain ⟨en, st1⟩ := q
        have hk1 := hrun _ _ _ _ hr hk
        rw [hr] at h
        cases en with
        | out r1 =>
          cases r1 with
          | error e => cases h; exact hk1
          | ok v =>
            simp only at h
            cases hra : removeAll c st1.visited with
            | none => rw [hra] at h; cases h; exact hk1
            | some vis => rw [hra] at h; cases h; exact mem_removeAll k c _ _ hra hk1 hc
        | jump g b =>
          simp only at h
          by_cases hy : (⟨true, g, b⟩ : Key F A) ∈ st1.visited
          · rw [if_pos hy] at h
            cases hra : removeAll c st1.visited with
            | none => rw [hra] at h; cases h; exact hk1
            | some vis => rw [hra] at h; cases h; exact mem_removeAll k c _ _ hra hk1 hc
          · rw [if_neg hy] at h
            refine ih2 _ _ _ _ _ _ _ k h (List.mem_cons_of_mem _ hk1) ?_
            intro hx
            rcases List.mem_cons.mp hx with e | hx
            · exact hy (e ▸ hk1)
            · exact hc hx

/-- What a task promises. -/
def Good (d : Defs F A E V) (r : Out E V) (st' : St F A E V) (vis : List (Key F A)) (f : F) (a : A) : Prop :=
  MemoOk d st' ∧ ((∃ v, r = .ok v) → st'.visited = vis) ∧ (∀ n x, plain d.body n f a = some x → r = x)

omit [DecidableEq F] [DecidableEq A] in
theorem propagates_error {k : Out E V → Prog F A E V} {f : F} {a : A} (h : Propagates (.call f a k)) (e : E) :
    k (.error e) = .raise e := by cases h with | call h1 _ => exact h1 e

omit [DecidableEq F] [DecidableEq A] in
theorem propagates_ok {k : Out E V → Prog F A E V} {f : F} {a : A} (h : Propagates (.call f a k)) (v : V) :
    Propagates (k (.ok v)) := by cases h with | call _ h2 => exact h2 v

/-- What running a body promises, given what calls promise. -/
theorem run_good (d : Defs F A E V) (call : F → A → St F A E V → Option (Out E V × St F A E V))
    (hcall : ∀ g b st r st', MemoOk d st → call g b st = some (r, st') → Fits d g b st.visited →
      Good d r st' st.visited g b) (vis : List (Key F A)) (f : F) (a : A) (hf : FitsBody d f a vis)
    (hpr : Propagates (d.body f a)) (st : St F A E V) (hm : MemoOk d st) (hv : st.visited = vis) (en : End F A E V)
    (st' : St F A E V) (h : run call (d.body f a) st = some (en, st')) :
    MemoOk d st' ∧ match en with
      | .out r => ((∃ v, r = .ok v) → st'.visited = vis) ∧ ∀ n x, plain d.body n f a = some x → r = x
      | .jump g b => st'.visited = vis ∧ Fits d g b vis ∧
          ∀ n x, plain d.body n f a = some x → ∃ m, plain d.body m g b = some x := by
  rcases hf with ⟨n, x, hx, hab⟩ | ⟨hno, hnt⟩
  · have key : ∀ (p : Prog F A E V), Propagates p → runPure (plain d.body n) p = some x → ∀ (st : St F A E V), MemoOk d st →
        st.visited = vis → run call p st = some (en, st') →
        MemoOk d st' ∧ match en with
          | .out r => ((∃ v, r = .ok v) → st'.visited = vis) ∧ r = x
          | .jump g b => st'.visited = vis ∧ plain d.body n g b = some x := by
      intro p
      induction p with
      | ret v => intro _ hx st hm hv h; cases hx; cases h; exact ⟨hm, fun _ => hv, rfl⟩
      | raise e => intro _ hx st hm hv h; cases hx; cases h; exact ⟨hm, fun h => by (obtain ⟨v, hv⟩ := h; cases hv), rfl⟩
      | jump g b => intro _ hx st hm hv h; cases h; exact ⟨hm, hv, hx⟩
      | call g b k ih =>
        intro hpr hx st hm hv h
        rw [runPure] at hx
        rw [run] at h
        cases hp : plain d.body n g b with
        | none => rw [hp] at hx; cases hx
        | some y =>
          rw [hp] at hx
          cases hc : call g b st with
          | none => rw [hc] at h; cases h
          | some q =>
            obtain ⟨r1, st1⟩ := q
            rw [hc] at h
            obtain ⟨g1, g2, g3⟩ := hcall g b st r1 st1 hm hc (.inl ⟨n, y, hp, by rw [hv]; exact hab⟩)
            have : r1 = y := g3 n y hp
            subst this
            cases r1 with
            | error e =>
              simp only [propagates_error hpr e] at h hx
              cases h; cases hx
              exact ⟨g1, fun h => (by obtain ⟨v, hv⟩ := h; cases hv), rfl⟩
            | ok v => exact ih (.ok v) (propagates_ok hpr v) hx st1 g1 (by rw [g2 ⟨v, rfl⟩, hv]) h
    obtain ⟨k1, k2⟩ := key _ hpr hx st hm hv h
    refine ⟨k1, ?_⟩
    have hx' : plain d.body (n + 1) f a = some x := hx
    cases en with
    | out r => exact ⟨k2.1, fun m y hy => k2.2.trans (plain_unique d.body hx' hy)⟩
    | jump g b =>
      refine ⟨k2.1, .inl ⟨n, x, k2.2, hab⟩, fun m y hy => ⟨n, ?_⟩⟩
      rw [k2.2, plain_unique d.body hx' hy]
  · have key : ∀ (p : Prog F A E V), Propagates p → ∀ (st : St F A E V), MemoOk d st →
        st.visited = vis → run call p st = some (en, st') →
        MemoOk d st' ∧ match en with
          | .out r => ((∃ v, r = .ok v) → st'.visited = vis)
          | .jump _ _ => st'.visited = vis := by
      intro p
      induction p with
      | ret v => intro _ st hm hv h; cases h; exact ⟨hm, fun _ => hv⟩
      | raise e => intro _ st hm hv h; cases h; exact ⟨hm, fun h => by obtain ⟨v, hv⟩ := h; cases hv⟩
      | jump g b => intro _ st hm hv h; cases h; exact ⟨hm, hv⟩
      | call g b k ih =>
        intro hpr st hm hv h
        rw [run] at h
        cases hc : call g b st with
        | none => rw [hc] at h; cases h
        | some q =>
          obtain ⟨r1, st1⟩ := q
          rw [hc] at h
          obtain ⟨g1, g2, g3⟩ := hcall g b st r1 st1 hm hc (fits_of_noneT d g b _ (by rw [hv]; exact hnt))
          cases r1 with
          | error e =>
            simp only [propagates_error hpr e] at h
            cases h
            exact ⟨g1, fun h => (by obtain ⟨v, hv⟩ := h; cases hv)⟩
          | ok v => exact ih (.ok v) (propagates_ok hpr v) st1 g1 (by rw [g2 ⟨v, rfl⟩, hv]) h
    obtain ⟨k1, k2⟩ := key _ hpr st hm hv h
    refine ⟨k1, ?_⟩
    cases en with
    | out r => exact ⟨k2, fun m y hy => by rw [hno m] at hy; cases hy⟩
    | jump g b => exact ⟨k2, fits_of_noneT d g b vis hnt, fun m y hy => by rw [hno m] at hy; cases hy⟩

/-- The core. -/
theorem go_good (d : Defs F A E V) (hpr : ∀ f a, Propagates (d.body f a)) (fuel : Nat) :
    (∀ f a st r st', MemoOk d st → go d fuel (.call f a) st = some (r, st') → Fits d f a st.visited →
      Good d r st' st.visited f a) ∧
    (∀ o f a c base st r st', MemoOk d st → st.visited = c ++ base → FitsBody d f a st.visited →
      go d fuel (.tramp o f a c) st = some (r, st') → Good d r st' base f a) := by
  induction fuel with
  | zero => exact ⟨fun _ _ _ _ _ _ h => by (cases h), fun _ _ _ _ _ _ _ _ _ _ _ h => by (cases h)⟩
  | succ fuel ih =>
    obtain ⟨ih1, ih2⟩ := ih
    refine ⟨?_, ?_⟩
    · intro f a st r st' hm h hf
      rw [go] at h
      simp only at h
      by_cases hv : (⟨false, f, a⟩ : Key F A) ∈ st.visited
      · rw [if_neg (not_not_intro hv)] at h
        cases h
        exact ⟨hm, fun _ => rfl, fun n x hx => by rw [not_mem_of_fits d f a _ false hf hv n] at hx; cases hx⟩
      · rw [if_pos hv] at h
        have tr : ∀ r1 st1, go d fuel (.tramp f f a []) { st with visited := ⟨false, f, a⟩ :: st.visited } = some (r1, st1) →
            Good d r1 st1 (⟨false, f, a⟩ :: st.visited) f a := fun r1 st1 h1 =>
          ih2 f f a [] _ { st with visited := ⟨false, f, a⟩ :: st.visited } r1 st1 (fun f a r h => hm f a r h) rfl (fitsBody_of_fits d f a st.visited false hf) h1
        generalize hres : (if d.memo f = true then
          match lookup st.memo (f, a) with
          | some r => some (r, ({ st with visited := ⟨false, f, a⟩ :: st.visited } : St F A E V))
          | none =>
            match go d fuel (.tramp f f a []) { st with visited := ⟨false, f, a⟩ :: st.visited } with
            | none => none
            | some (r, st') => some (r, { st' with memo := ((f, a), r) :: st'.memo })
        else go d fuel (.tramp f f a []) { st with visited := ⟨false, f, a⟩ :: st.visited }) = res at h
        have hg : ∀ r1 st1, res = some (r1, st1) → Good d r1 st1 (⟨false, f, a⟩ :: st.visited) f a := by
          intro r1 st1 he
          rw [he] at hres
          split at hres
          · split at hres
            · rename_i hl
              cases hres
              exact ⟨fun f a r h => hm f a r h, fun _ => rfl, fun n x hx => hm f a r1 hl n x hx⟩
            · split at hres
              · cases hres
              · rename_i r2 st2 ht
                cases hres
                obtain ⟨t1, t2, t3⟩ := tr _ _ ht
                exact ⟨memoOk_store t1 f a _ (fun n x hx => t3 n x hx), t2, t3⟩
          · exact tr _ _ hres
        cases res with
        | none => cases h
        | some q =>
          obtain ⟨r1, st1⟩ := q
          obtain ⟨g1, g2, g3⟩ := hg r1 st1 rfl
          simp only at h
          have hmem : (⟨false, f, a⟩ : Key F A) ∈ st1.visited := by
            split at hres
            · split at hres
              · cases hres; exact List.mem_cons_self
              · split at hres
                · cases hres
                · rename_i r2 st2 ht
                  cases hres
                  have := (go_sub d fuel).2 _ _ _ _ _ _ _ ⟨false, f, a⟩ ht List.mem_cons_self (by simp)
                  exact this
            · exact (go_sub d fuel).2 _ _ _ _ _ _ _ _ hres List.mem_cons_self (by simp)
          split at h
          · rename_i hp
            cases h
            exact ⟨g1, fun _ => (List.isEmpty_iff.mp hp).symm, g3⟩
          · cases h
            refine ⟨g1, fun hok => ?_, g3⟩
            simp only [g2 hok, List.erase_cons_head]
    · intro o f a c base st r st' hm hv hf h
      rw [go] at h
      cases hr : run (fun g b => go d fuel (.call g b)) (d.body f a) st with
      | none => rw [hr] at h; cases h
      | some q =>
        obtain ⟨en, st1⟩ := q
        rw [hr] at h
        obtain ⟨m1, m2⟩ := run_good d _ (fun g b st r st' h1 h2 h3 => ih1 g b st r st' h1 h2 h3) st.visited f a hf
          (hpr f a) st hm rfl en st1 hr
        cases en with
        | out r1 =>
          cases r1 with
          | error e =>
            cases h
            exact ⟨m1, fun h => by (obtain ⟨v, hv⟩ := h; cases hv), m2.2⟩
          | ok v =>
            simp only [m2.1 ⟨v, rfl⟩, hv, removeAll_append] at h
            cases h
            exact ⟨fun f a r h => m1 f a r h, fun _ => rfl, m2.2⟩
        | jump g b =>
          obtain ⟨m2, m3, m4⟩ := m2
          simp only at h
          by_cases hy : (⟨true, g, b⟩ : Key F A) ∈ st1.visited
          · rw [if_pos hy, m2, hv, removeAll_append] at h
            cases h
            refine ⟨fun f a r h => m1 f a r h, fun _ => rfl, fun n x hx => ?_⟩
            obtain ⟨m, hm⟩ := m4 n x hx
            rw [m2] at hy
            rw [not_mem_of_fits d g b _ true m3 hy m] at hm; cases hm
          · rw [if_neg hy] at h
            obtain ⟨g1, g2, g3⟩ := ih2 o g b (⟨true, g, b⟩ :: c) base { st1 with visited := ⟨true, g, b⟩ :: st1.visited } r st' (fun f a r h => m1 f a r h)
              (by simp only [m2, hv]; rfl) (by simp only; rw [m2]; exact fitsBody_of_fits d g b _ true m3) h
            exact ⟨g1, g2, fun n x hx => by obtain ⟨m, hm⟩ := m4 n x hx; exact g3 m x hm⟩

/-- If the trampoline runs, the call does. -/
theorem call_of_tramp (d : Defs F A E V) (fuel : Nat) (f : F) (a : A) (st : St F A E V)
    (h : (⟨false, f, a⟩ : Key F A) ∉ st.visited →
      ∃ q, go d fuel (.tramp f f a []) { st with visited := ⟨false, f, a⟩ :: st.visited } = some q) :
    ∃ q, go d (fuel + 1) (.call f a) st = some q := by
  rw [go]
  simp only
  by_cases hv : (⟨false, f, a⟩ : Key F A) ∈ st.visited
  · rw [if_neg (not_not_intro hv)]; exact ⟨_, rfl⟩
  · obtain ⟨q, hq⟩ := h hv
    rw [if_pos hv]
    generalize hres : (if d.memo f = true then
          match lookup st.memo (f, a) with
          | some r => some (r, ({ st with visited := ⟨false, f, a⟩ :: st.visited } : St F A E V))
          | none =>
            match go d fuel (.tramp f f a []) { st with visited := ⟨false, f, a⟩ :: st.visited } with
            | none => none
            | some (r, st') => some (r, { st' with memo := ((f, a), r) :: st'.memo })
        else go d fuel (.tramp f f a []) { st with visited := ⟨false, f, a⟩ :: st.visited }) = res
    have : ∃ q, res = some q := by
      rw [← hres]
      split
      · split
        · exact ⟨_, rfl⟩
        · rw [hq]; exact ⟨_, rfl⟩
      · exact ⟨q, hq⟩
    obtain ⟨q', rfl⟩ := this
    simp only
    split
    · exact ⟨_, rfl⟩
    · split
      · exact ⟨_, rfl⟩
      · exact ⟨_, rfl⟩

/-- Twice the depth of the plain recursion is enough. -/
theorem go_enough (d : Defs F A E V) (hpr : ∀ f a, Propagates (d.body f a)) (fuel : Nat) :
    (∀ n, 2 * n ≤ fuel → ∀ f a st x, MemoOk d st → plain d.body n f a = some x → Above d n st.visited →
      ∃ q, go d fuel (.call f a) st = some q) ∧
    (∀ n, 2 * n + 1 ≤ fuel → ∀ o f a c st x, MemoOk d st → runPure (plain d.body n) (d.body f a) = some x →
      Above d n st.visited → ∃ q, go d fuel (.tramp o f a c) st = some q) := by
  induction fuel with
  | zero =>
    refine ⟨fun n hn f a st x _ h => ?_, fun n hn => by omega⟩
    cases (by omega : n = 0); cases h
  | succ fuel ih =>
    obtain ⟨ih1, ih2⟩ := ih
    have step : ∀ n f a (st : St F A E V) x t, plain d.body n f a = some x → Above d n st.visited →
        ∃ m, m + 1 ≤ n ∧ runPure (plain d.body m) (d.body f a) = some x ∧ Above d m (⟨t, f, a⟩ :: st.visited) := by
      intro n f a st x t hx hab
      obtain ⟨m, hle, h1, h2⟩ := plain_least d.body f a x n hx
      refine ⟨m, hle, h2, ?_⟩
      intro k hk
      rcases List.mem_cons.mp hk with rfl | hk
      · exact h1
      · cases hq : plain d.body m k.f k.args with
        | none => rfl
        | some z =>
          have := plain_mono d.body (by omega : m ≤ n) k.f k.args z hq
          rw [hab k hk] at this; cases this
    refine ⟨?_, ?_⟩
    · intro n hn f a st x hm hx hab
      obtain ⟨m, hle, h1, h2⟩ := step n f a st x false hx hab
      exact call_of_tramp d fuel f a st fun _ => ih2 m (by omega) f f a []
        { st with visited := ⟨false, f, a⟩ :: st.visited } x (fun f a r h => hm f a r h) h1 h2
    · intro n hn o f a c st x hm hx hab
      rw [go]
      have hrun : ∀ (p : Prog F A E V), Propagates p → runPure (plain d.body n) p = some x → ∀ (st1 : St F A E V),
          MemoOk d st1 → st1.visited = st.visited → ∃ q, run (fun g b => go d fuel (.call g b)) p st1 = some q := by
        intro p
        induction p with
        | ret v => intro _ _ st1 _ _; exact ⟨_, rfl⟩
        | raise e => intro _ _ st1 _ _; exact ⟨_, rfl⟩
        | jump g b => intro _ _ st1 _ _; exact ⟨_, rfl⟩
        | call g b k ihk =>
          intro hp hx st1 h1 h2
          rw [runPure] at hx
          rw [run]
          cases hpl : plain d.body n g b with
          | none => rw [hpl] at hx; cases hx
          | some y =>
            rw [hpl] at hx
            have ha : Above d n st1.visited := by rw [h2]; exact hab
            obtain ⟨⟨r1, st2⟩, hq⟩ := ih1 n (by omega) g b st1 y h1 hpl ha
            rw [hq]
            obtain ⟨g1, g2, g3⟩ := (go_good d hpr fuel).1 g b st1 r1 st2 h1 hq (.inl ⟨n, y, hpl, ha⟩)
            have : r1 = y := g3 n y hpl
            subst this
            cases r1 with
            | error e => simp only [propagates_error hp e]; exact ⟨_, rfl⟩
            | ok v => exact ihk (.ok v) (propagates_ok hp v) hx st2 g1 (by rw [g2 ⟨v, rfl⟩, h2])
      obtain ⟨⟨en, st1⟩, hq⟩ := hrun _ (hpr f a) hx st hm rfl
      obtain ⟨m1, m2⟩ := run_good d _ (fun g b st r st' h1 h2 h3 => (go_good d hpr fuel).1 g b st r st' h1 h2 h3)
        st.visited f a (.inl ⟨n, x, hx, hab⟩) (hpr f a) st hm rfl en st1 hq
      rw [hq]
      cases en with
      | out r1 =>
        cases r1 with
        | error e => exact ⟨_, rfl⟩
        | ok v => simp only; split <;> exact ⟨_, rfl⟩
      | jump g b =>
        simp only
        split
        · split <;> exact ⟨_, rfl⟩
        · -- the jump target needs less depth
          have hj : plain d.body n g b = some x := by
            have : ∀ (p : Prog F A E V), Propagates p → runPure (plain d.body n) p = some x → ∀ (st2 : St F A E V), MemoOk d st2 →
                st2.visited = st.visited → run (fun g b => go d fuel (.call g b)) p st2 = some (.jump g b, st1) →
                plain d.body n g b = some x := by
              intro p
              induction p with
              | ret v => intro _ _ st2 _ _ h; cases h
              | raise e => intro _ _ st2 _ _ h; cases h
              | jump g' b' => intro _ hx st2 _ _ h; cases h; exact hx
              | call g' b' k ihk =>
                intro hp hx st2 h1 h2 h
                rw [runPure] at hx
                rw [run] at h
                cases hpl : plain d.body n g' b' with
                | none => rw [hpl] at hx; cases hx
                | some y =>
                  rw [hpl] at hx
                  cases hc : go d fuel (.call g' b') st2 with
                  | none => rw [hc] at h; cases h
                  | some q =>
                    obtain ⟨r1, st3⟩ := q
                    rw [hc] at h
                    obtain ⟨g1, g2, g3⟩ := (go_good d hpr fuel).1 g' b' st2 r1 st3 h1 hc (.inl ⟨n, y, hpl, by rw [h2]; exact hab⟩)
                    have : r1 = y := g3 n y hpl
                    subst this
                    cases r1 with
                    | error e => simp only [propagates_error hp e] at h; cases h
                    | ok v => exact ihk (.ok v) (propagates_ok hp v) hx st3 g1 (by rw [g2 ⟨v, rfl⟩, h2]) h
            exact this _ (hpr f a) hx st hm rfl hq
          have hv1 := m2.1
          obtain ⟨m, hle, h1, h2⟩ := step n g b st1 x true hj (by rw [hv1]; exact hab)
          exact ih2 m (by omega) o g b _ { st1 with visited := ⟨true, g, b⟩ :: st1.visited } x
            (fun f a r h => m1 f a r h) h1 h2

/-- The keys of a set of calls. -/
def keys (U : List (F × A)) : List (Key F A) := U.map (fun p => ⟨false, p.1, p.2⟩) ++ U.map (fun p => ⟨true, p.1, p.2⟩)

omit [DecidableEq F] [DecidableEq A] in
theorem mem_keys {U : List (F × A)} {f : F} {a : A} (h : (f, a) ∈ U) (t : Bool) : (⟨t, f, a⟩ : Key F A) ∈ keys U := by
  unfold keys
  rw [List.mem_append]
  cases t
  · exact .inl (List.mem_map.mpr ⟨(f, a), h, rfl⟩)
  · exact .inr (List.mem_map.mpr ⟨(f, a), h, rfl⟩)

/-- How many of the keys are not active. -/
def free (U : List (F × A)) (vis : List (Key F A)) : Nat := ((keys U).filter (fun k => k ∉ vis)).length

theorem free_mono (U : List (F × A)) {vis vis' : List (Key F A)} (h : ∀ k ∈ vis, k ∈ vis') : free U vis' ≤ free U vis := by
  unfold free
  generalize keys U = L
  induction L with
  | nil => simp
  | cons x L ih =>
    by_cases hx : x ∈ vis'
    · rw [List.filter_cons_of_neg (by simp [hx])]
      by_cases hx2 : x ∈ vis
      · rw [List.filter_cons_of_neg (by simp [hx2])]; exact ih
      · rw [List.filter_cons_of_pos (by simp [hx2])]; simp only [List.length_cons]; omega
    · have hx2 : x ∉ vis := fun hh => hx (h x hh)
      rw [List.filter_cons_of_pos (by simp [hx]), List.filter_cons_of_pos (by simp [hx2])]
      simp only [List.length_cons]; omega

theorem free_lt (U : List (F × A)) (vis : List (Key F A)) (k : Key F A) (hk : k ∈ keys U) (hv : k ∉ vis) :
    free U (k :: vis) < free U vis := by
  unfold free
  have : ∀ (L : List (Key F A)), (L.filter (fun x => x ∉ k :: vis)).length ≤ (L.filter (fun x => x ∉ vis)).length ∧
      (k ∈ L → (L.filter (fun x => x ∉ k :: vis)).length < (L.filter (fun x => x ∉ vis)).length) := by
    intro L
    induction L with
    | nil => simp
    | cons x L ihL =>
      by_cases hx : x = k
      · subst hx
        rw [List.filter_cons_of_neg (by simp), List.filter_cons_of_pos (by simpa using hv)]
        have := ihL.1
        simp only [List.length_cons]
        exact ⟨by omega, fun _ => by omega⟩
      · by_cases hxv : x ∈ vis
        · rw [List.filter_cons_of_neg (by simp [hxv]), List.filter_cons_of_neg (by simp [hxv])]
          refine ⟨ihL.1, fun h => ihL.2 ?_⟩
          rcases List.mem_cons.mp h with h | h
          · exact absurd h.symm hx
          · exact h
        · rw [List.filter_cons_of_pos (by simp [hxv, hx]), List.filter_cons_of_pos (by simp [hxv])]
          simp only [List.length_cons]
          refine ⟨by have := ihL.1; omega, fun h => ?_⟩
          rcases List.mem_cons.mp h with h | h
          · exact absurd h.symm hx
          · have := ihL.2 h; omega
  exact (this _).2 hk

/-- With finitely many calls in sight, there is always enough depth. -/
theorem go_finite (d : Defs F A E V) (U : List (F × A)) (hU : ∀ f a, (f, a) ∈ U → CallsIn U (d.body f a)) (fuel : Nat) :
    (∀ f a st, (f, a) ∈ U → 2 * free U st.visited + 1 ≤ fuel → ∃ q, go d fuel (.call f a) st = some q) ∧
    (∀ o f a c st, (f, a) ∈ U → st.visited ≠ [] → 2 * free U st.visited + 2 ≤ fuel →
      ∃ q, go d fuel (.tramp o f a c) st = some q) := by
  induction fuel with
  | zero => exact ⟨fun f a st _ h => by omega, fun o f a c st _ _ h => by omega⟩
  | succ fuel ih =>
    obtain ⟨ih1, ih2⟩ := ih
    refine ⟨?_, ?_⟩
    · intro f a st hf hlen
      refine call_of_tramp d fuel f a st fun hv => ih2 _ _ _ _ _ hf (by simp) ?_
      have := free_lt U st.visited ⟨false, f, a⟩ (mem_keys hf false) hv
      simp only
      omega
    · intro o f a c st hf hne hlen
      rw [go]
      have hrun : ∀ (p : Prog F A E V), CallsIn U p → ∀ (st1 : St F A E V), (∀ k ∈ st.visited, k ∈ st1.visited) →
          ∃ en st2, run (fun g b => go d fuel (.call g b)) p st1 = some (en, st2) ∧ (∀ k ∈ st.visited, k ∈ st2.visited) ∧
            ∀ g b, en = .jump g b → (g, b) ∈ U := by
        intro p hp
        induction hp with
        | ret v => intro st1 h1; exact ⟨_, _, rfl, h1, fun _ _ h => by cases h⟩
        | raise e => intro st1 h1; exact ⟨_, _, rfl, h1, fun _ _ h => by cases h⟩
        | jump hin => intro st1 h1; exact ⟨_, _, rfl, h1, fun _ _ h => by cases h; exact hin⟩
        | call hin _ ihk =>
          intro st1 h1
          rw [run]
          have := free_mono U h1
          obtain ⟨⟨r2, st2⟩, hq⟩ := ih1 _ _ st1 hin (by omega)
          simp only [hq]
          exact ihk r2 st2 (fun k hk => (go_sub d fuel).1 _ _ _ _ _ k hq (h1 k hk))
      obtain ⟨en, st1, hq, hsub, hj⟩ := hrun _ (hU f a hf) st (fun k hk => hk)
      rw [hq]
      cases en with
      | out r1 =>
        cases r1 with
        | error e => exact ⟨_, rfl⟩
        | ok v => simp only; split <;> exact ⟨_, rfl⟩
      | jump g b =>
        simp only
        split
        · split <;> exact ⟨_, rfl⟩
        · rename_i hy
          refine ih2 _ _ _ _ _ (hj g b rfl) (by simp) ?_
          have h1 := free_lt U st1.visited ⟨true, g, b⟩ (mem_keys (hj g b rfl) true) hy
          have h2 := free_mono U hsub
          simp only
          omega

theorem reach_visited {d : Defs F A E V} {st : St F A E V} (h : Reach d st) : st.visited = [] := by
  induction h with
  | init => rfl
  | @call st st' fuel f a r _ hc ih =>
    cases fuel with
    | zero => cases hc
    | succ fuel =>
      rw [go] at hc
      simp only [ih, List.not_mem_nil, not_false_eq_true, if_true, List.isEmpty_nil] at hc
      split at hc
      · cases hc
      · cases hc; rfl

theorem reach_memoOk {d : Defs F A E V} (hpr : ∀ f a, Propagates (d.body f a)) {st : St F A E V} (h : Reach d st) :
    MemoOk d st := by
  induction h with
  | init => intro f a r hl; cases hl
  | @call st st' fuel f a r hr hc ih =>
    have hv := reach_visited hr
    exact ((go_good d hpr fuel).1 f a st r st' ih hc (fits_of_noneT d f a _ (by rw [hv]; intro k hk; cases hk))).1

end Unpy.FixTco
