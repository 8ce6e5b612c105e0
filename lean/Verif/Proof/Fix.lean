import Verif.Spec.Fix
/-!
# Helper lemmas for `fix`
-/
namespace Unpy.Fix
open Unpy Unpy.Fix.Spec

variable {F A V E : Type}

theorem runPure_mono {c c' : F → A → Option (Out E V)} (h : ∀ f a r, c f a = some r → c' f a = some r)
    (p : Prog F A E V) (r : Out E V) (hp : runPure c p = some r) : runPure c' p = some r := by
  induction p with
  | ret v => exact hp
  | raise e => exact hp
  | call f a k ih =>
    rw [runPure] at hp ⊢
    cases hc : c f a with
    | none => rw [hc] at hp; cases hp
    | some r1 => rw [hc] at hp; rw [h f a r1 hc]; exact ih r1 hp

theorem plain_mono (body : F → A → Prog F A E V) {n m : Nat} (hnm : n ≤ m) (f : F) (a : A) (r : Out E V)
    (h : plain body n f a = some r) : plain body m f a = some r := by
  induction n generalizing m f a r with
  | zero => cases h
  | succ n ih =>
    cases m with
    | zero => omega
    | succ m => exact runPure_mono (fun f a r => ih (by omega) f a r) _ _ h

theorem plain_unique (body : F → A → Prog F A E V) {n m : Nat} {f : F} {a : A} {r r' : Out E V}
    (h : plain body n f a = some r) (h' : plain body m f a = some r') : r = r' := by
  rcases Nat.le_total n m with hl | hl
  · have := plain_mono body hl f a r h; rw [h'] at this; cases this; rfl
  · have := plain_mono body hl f a r' h'; rw [h] at this; cases this; rfl

variable [DecidableEq F] [DecidableEq A]

/-- What the memo says about terminating calls is right. -/
def MemoOk (d : Defs F A E V) (st : St F A E V) : Prop :=
  ∀ f a r, lookup st.memo (f, a) = some r → ∀ n r', plain d.body n f a = some r' → r = r'

theorem memoOk_store {d : Defs F A E V} {st : St F A E V} (h : MemoOk d st) (f : F) (a : A) (r : Out E V)
    (hr : ∀ n r', plain d.body n f a = some r' → r = r') : MemoOk d { st with memo := ((f, a), r) :: st.memo } := by
  intro f' a' r1 h1
  unfold lookup at h1
  by_cases e : (f, a) = (f', a')
  · cases e
    simp at h1
    subst h1
    exact hr
  · rw [List.find?_cons_of_neg (by simpa using e)] at h1
    exact h f' a' r1 h1

/-- `n` calls deep is not enough for any of the active calls. -/
def Above (d : Defs F A E V) (n : Nat) (vis : List (F × A)) : Prop := ∀ k ∈ vis, plain d.body n k.1 k.2 = none

/-- No active call terminates by plain recursion. -/
def NoneT (d : Defs F A E V) (vis : List (F × A)) : Prop := ∀ k ∈ vis, ∀ n, plain d.body n k.1 k.2 = none

/-- The core: memo stays right, `visited` is restored, and terminating calls give their plain value. -/
theorem callFix_inv (d : Defs F A E V) (fuel : Nat) : ∀ (f : F) (a : A) (st : St F A E V) (r : Out E V) (st' : St F A E V),
    MemoOk d st → callFix d fuel f a st = some (r, st') →
    ((∃ n x, plain d.body n f a = some x ∧ Above d n st.visited) ∨ ((∀ n, plain d.body n f a = none) ∧ NoneT d st.visited)) →
    MemoOk d st' ∧ st'.visited = st.visited ∧ (∀ n x, plain d.body n f a = some x → r = x) := by
  induction fuel with
  | zero => intro f a st r st' _ h; cases h
  | succ fuel ih =>
    intro f a st r st' hm h hc
    rw [callFix] at h
    split at h
    · rename_i hv
      -- running the body
      have runT : ∀ (n : Nat) (vis : List (F × A)), Above d n vis → ∀ (p : Prog F A E V) (st1 : St F A E V) r1 st2 x,
          MemoOk d st1 → st1.visited = vis → runPure (plain d.body n) p = some x →
          run (callFix d fuel) p st1 = some (r1, st2) → MemoOk d st2 ∧ st2.visited = vis ∧ r1 = x := by
        intro n vis hab p
        induction p with
        | ret v => intro st1 r1 st2 x h1 h2 h3 h4; cases h3; cases h4; exact ⟨h1, h2, rfl⟩
        | raise e => intro st1 r1 st2 x h1 h2 h3 h4; cases h3; cases h4; exact ⟨h1, h2, rfl⟩
        | call f1 a1 k ihk =>
          intro st1 r1 st2 x h1 h2 h3 h4
          rw [runPure] at h3
          rw [run] at h4
          cases hp : plain d.body n f1 a1 with
          | none => rw [hp] at h3; cases h3
          | some y =>
            rw [hp] at h3
            cases hcall : callFix d fuel f1 a1 st1 with
            | none => rw [hcall] at h4; cases h4
            | some q =>
              obtain ⟨r2, st3⟩ := q
              rw [hcall] at h4
              obtain ⟨i1, i2, i3⟩ := ih f1 a1 st1 r2 st3 h1 hcall (.inl ⟨n, y, hp, by rw [h2]; exact hab⟩)
              have : r2 = y := i3 n y hp
              subst this
              exact ihk r2 st3 r1 st2 x i1 (by rw [i2, h2]) h3 h4
      have runN : ∀ (vis : List (F × A)), NoneT d vis → ∀ (p : Prog F A E V) (st1 : St F A E V) r1 st2,
          MemoOk d st1 → st1.visited = vis → run (callFix d fuel) p st1 = some (r1, st2) →
          MemoOk d st2 ∧ st2.visited = vis := by
        intro vis hno p
        induction p with
        | ret v => intro st1 r1 st2 h1 h2 h4; cases h4; exact ⟨h1, h2⟩
        | raise e => intro st1 r1 st2 h1 h2 h4; cases h4; exact ⟨h1, h2⟩
        | call f1 a1 k ihk =>
          intro st1 r1 st2 h1 h2 h4
          rw [run] at h4
          cases hcall : callFix d fuel f1 a1 st1 with
          | none => rw [hcall] at h4; cases h4
          | some q =>
            obtain ⟨r2, st3⟩ := q
            rw [hcall] at h4
            have : (∃ n x, plain d.body n f1 a1 = some x ∧ Above d n st1.visited) ∨
                ((∀ n, plain d.body n f1 a1 = none) ∧ NoneT d st1.visited) := by
              by_cases ht : ∃ n x, plain d.body n f1 a1 = some x
              · obtain ⟨n, x, hx⟩ := ht
                exact .inl ⟨n, x, hx, fun k hk => by rw [h2] at hk; exact hno k hk n⟩
              · refine .inr ⟨fun n => ?_, by rw [h2]; exact hno⟩
                cases hx : plain d.body n f1 a1 with
                | none => rfl
                | some x => exact absurd ⟨n, x, hx⟩ ht
            obtain ⟨i1, i2, _⟩ := ih f1 a1 st1 r2 st3 h1 hcall this
            exact ihk r2 st3 r1 st2 i1 (by rw [i2, h2]) h4
      -- the body of this call
      have body : ∀ r1 st2, run (callFix d fuel) (d.body f a) { st with visited := (f, a) :: st.visited } = some (r1, st2) →
          MemoOk d st2 ∧ st2.visited = (f, a) :: st.visited ∧ (∀ n x, plain d.body n f a = some x → r1 = x) := by
        intro r1 st2 hrun
        rcases hc with ⟨n0, x0, hx0, hab0⟩ | ⟨hno, hnt⟩
        · -- the least depth that suffices
          have least : ∀ N x, plain d.body N f a = some x → ∃ n, n + 1 ≤ N ∧ plain d.body n f a = none ∧ plain d.body (n + 1) f a = some x := by
            intro N
            induction N with
            | zero => intro x hx; cases hx
            | succ N ihN =>
              intro x hx
              cases hN : plain d.body N f a with
              | none => exact ⟨N, Nat.le_refl _, hN, hx⟩
              | some y =>
                obtain ⟨n, h1, h2, h3⟩ := ihN y hN
                have : y = x := plain_unique d.body hN hx
                subst this
                exact ⟨n, by omega, h2, h3⟩
          obtain ⟨n, hle, hn, hx⟩ := least n0 x0 hx0
          rw [plain] at hx
          have hab : Above d n ((f, a) :: st.visited) := by
            intro k hk
            rcases List.mem_cons.mp hk with rfl | hk
            · exact hn
            · cases hq : plain d.body n k.1 k.2 with
              | none => rfl
              | some z =>
                have := plain_mono d.body (by omega : n ≤ n0) k.1 k.2 z hq
                rw [hab0 k hk] at this; cases this
          obtain ⟨j1, j2, j3⟩ := runT n _ hab (d.body f a) { st with visited := (f, a) :: st.visited } r1 st2 x0 (fun f a r h => hm f a r h) rfl hx hrun
          exact ⟨j1, j2, fun m x hm' => j3.trans (plain_unique d.body hx0 hm')⟩
        · obtain ⟨j1, j2⟩ := runN ((f, a) :: st.visited) (by
            intro k hk
            rcases List.mem_cons.mp hk with rfl | hk
            · exact hno
            · exact hnt k hk) (d.body f a) { st with visited := (f, a) :: st.visited } r1 st2 (fun f a r h => hm f a r h) rfl hrun
          exact ⟨j1, j2, fun n x hx => by rw [hno n] at hx; cases hx⟩
      -- with the memo
      have memo : ∀ r1 st2, callMemo d (callFix d fuel) f a { st with visited := (f, a) :: st.visited } = some (r1, st2) →
          MemoOk d st2 ∧ st2.visited = (f, a) :: st.visited ∧ (∀ n x, plain d.body n f a = some x → r1 = x) := by
        intro r1 st2 hcm
        unfold callMemo at hcm
        split at hcm
        · split at hcm
          · rename_i r2 hl
            cases hcm
            exact ⟨fun f a r h => hm f a r h, rfl, fun n x hx => hm f a r1 hl n x hx⟩
          · split at hcm
            · cases hcm
            · rename_i r2 st3 hrun
              cases hcm
              obtain ⟨b1, b2, b3⟩ := body _ _ hrun
              exact ⟨memoOk_store b1 f a _ (fun n x hx => b3 n x hx), b2, b3⟩
        · exact body _ _ hcm
      split at h
      · cases h
      · rename_i r1 st2 hcm
        obtain ⟨m1, m2, m3⟩ := memo r1 st2 hcm
        split at h
        · rename_i hp
          cases h
          refine ⟨m1, ?_, m3⟩
          simp only
          rw [List.isEmpty_iff] at hp
          exact hp.symm
        · split at h
          · cases h
            refine ⟨m1, ?_, m3⟩
            simp only [m2, List.erase_cons_head]
          · rename_i hmem
            exact absurd (by rw [m2]; simp) hmem
    · rename_i hv
      cases h
      refine ⟨hm, rfl, ?_⟩
      intro n x hx
      exfalso
      have hv : (f, a) ∈ st.visited := Classical.not_not.mp hv
      rcases hc with ⟨n0, x0, hx0, hab⟩ | ⟨hno, _⟩
      · have := hab (f, a) hv
        rw [hx0] at this; cases this
      · rw [hno n] at hx; cases hx

/-- `visited` is restored by every call. -/
theorem callFix_visited (d : Defs F A E V) (fuel : Nat) : ∀ (f : F) (a : A) (st : St F A E V) (r : Out E V)
    (st' : St F A E V), callFix d fuel f a st = some (r, st') → st'.visited = st.visited := by
  induction fuel with
  | zero => intro f a st r st' h; cases h
  | succ fuel ih =>
    intro f a st r st' h
    have hrun : ∀ (p : Prog F A E V) (st1 : St F A E V) r1 st2, run (callFix d fuel) p st1 = some (r1, st2) →
        st2.visited = st1.visited := by
      intro p
      induction p with
      | ret v => intro st1 r1 st2 h; cases h; rfl
      | raise e => intro st1 r1 st2 h; cases h; rfl
      | call f1 a1 k ihk =>
        intro st1 r1 st2 h
        rw [run] at h
        cases hcall : callFix d fuel f1 a1 st1 with
        | none => rw [hcall] at h; cases h
        | some q =>
          obtain ⟨r2, st3⟩ := q
          rw [hcall] at h
          rw [ihk r2 st3 r1 st2 h, ih f1 a1 st1 r2 st3 hcall]
    have hmemo : ∀ st1 r1 st2, callMemo d (callFix d fuel) f a st1 = some (r1, st2) → st2.visited = st1.visited := by
      intro st1 r1 st2 h
      unfold callMemo at h
      split at h
      · split at h
        · cases h; rfl
        · split at h
          · cases h
          · rename_i r2 st3 hr
            cases h
            have := hrun _ _ _ _ hr
            exact this
      · exact hrun _ _ _ _ h
    rw [callFix] at h
    split at h
    · split at h
      · cases h
      · rename_i r1 st2 hcm
        have m2 := hmemo _ _ _ hcm
        simp only at m2
        split at h
        · rename_i hp
          cases h
          rw [List.isEmpty_iff] at hp
          exact hp.symm
        · split at h
          · cases h; simp only [m2, List.erase_cons_head]
          · rename_i hmem
            exact absurd (by rw [m2]; simp) hmem
    · cases h; rfl

/-- Without memos, the set of visited calls does what a call stack does. -/
theorem callFix_guarded (d : Defs F A E V) (hmemo : ∀ f, d.memo f = false) (fuel : Nat) : ∀ (f : F) (a : A)
    (st : St F A E V), (callFix d fuel f a st).map Prod.fst = guarded d.body d.bottom fuel st.visited f a := by
  induction fuel with
  | zero => intro f a st; rfl
  | succ fuel ih =>
    intro f a st
    have hrun : ∀ (vis : List (F × A)) (p : Prog F A E V) (st1 : St F A E V), st1.visited = vis →
        (run (callFix d fuel) p st1).map Prod.fst = runPure (guarded d.body d.bottom fuel vis) p := by
      intro vis p
      induction p with
      | ret v => intro st1 _; rfl
      | raise e => intro st1 _; rfl
      | call f1 a1 k ihk =>
        intro st1 hv
        rw [run, runPure, ← hv, ← ih f1 a1 st1]
        cases hcall : callFix d fuel f1 a1 st1 with
        | none => rfl
        | some q =>
          obtain ⟨r2, st3⟩ := q
          simp only [Option.map_some]
          rw [ihk r2 st3 (by rw [callFix_visited d fuel f1 a1 st1 r2 st3 hcall, hv]), hv]
    rw [callFix, guarded]
    by_cases hv : (f, a) ∈ st.visited
    · rw [if_neg (not_not_intro hv), if_pos hv]; rfl
    · rw [if_pos hv, if_neg hv]
      have hcm : callMemo d (callFix d fuel) f a { st with visited := (f, a) :: st.visited } =
          run (callFix d fuel) (d.body f a) { st with visited := (f, a) :: st.visited } := by
        unfold callMemo; rw [hmemo f]; rfl
      have key := hrun ((f, a) :: st.visited) (d.body f a) { st with visited := (f, a) :: st.visited } rfl
      rw [hcm, ← key]
      cases hr : run (callFix d fuel) (d.body f a) { st with visited := (f, a) :: st.visited } with
      | none => rfl
      | some q =>
        obtain ⟨r1, st2⟩ := q
        have hv2 : st2.visited = (f, a) :: st.visited := by
          have : ∀ (p : Prog F A E V) (st1 : St F A E V) r1 st2, run (callFix d fuel) p st1 = some (r1, st2) →
              st2.visited = st1.visited := by
            intro p
            induction p with
            | ret v => intro st1 r1 st2 h; cases h; rfl
            | raise e => intro st1 r1 st2 h; cases h; rfl
            | call f1 a1 k ihk =>
              intro st1 r1 st2 h
              rw [run] at h
              cases hcall : callFix d fuel f1 a1 st1 with
              | none => rw [hcall] at h; cases h
              | some q =>
                obtain ⟨r2, st3⟩ := q
                rw [hcall] at h
                rw [ihk r2 st3 r1 st2 h, callFix_visited d fuel f1 a1 st1 r2 st3 hcall]
          exact this _ _ _ _ hr
        simp only
        split
        · rfl
        · split
          · rfl
          · rename_i h; exact absurd (by rw [hv2]; simp) h

theorem plain_least (body : F → A → Prog F A E V) (f : F) (a : A) (x : Out E V) : ∀ N, plain body N f a = some x →
    ∃ m, m + 1 ≤ N ∧ plain body m f a = none ∧ plain body (m + 1) f a = some x := by
  intro N
  induction N with
  | zero => intro hx; cases hx
  | succ N ihN =>
    intro hx
    cases hN : plain body N f a with
    | none => exact ⟨N, Nat.le_refl _, hN, hx⟩
    | some y =>
      have : y = x := plain_unique body hN hx
      subst this
      obtain ⟨m, h1, h2, h3⟩ := ihN hN
      exact ⟨m, by omega, h2, h3⟩

/-- If the body runs, the call does. -/
theorem callFix_of_run (d : Defs F A E V) (fuel : Nat) (f : F) (a : A) (st : St F A E V)
    (h : (f, a) ∉ st.visited → ∃ q, run (callFix d fuel) (d.body f a) { st with visited := (f, a) :: st.visited } = some q) :
    ∃ q, callFix d (fuel + 1) f a st = some q := by
  rw [callFix]
  by_cases hv : (f, a) ∈ st.visited
  · rw [if_neg (not_not_intro hv)]; exact ⟨_, rfl⟩
  · obtain ⟨q, hq⟩ := h hv
    rw [if_pos hv]
    have : ∃ q, callMemo d (callFix d fuel) f a { st with visited := (f, a) :: st.visited } = some q := by
      unfold callMemo
      split
      · split
        · exact ⟨_, rfl⟩
        · rw [hq]; exact ⟨_, rfl⟩
      · exact ⟨q, hq⟩
    obtain ⟨q', hq'⟩ := this
    rw [hq']
    simp only
    split
    · exact ⟨_, rfl⟩
    · split
      · exact ⟨_, rfl⟩
      · exact ⟨_, rfl⟩

/-- Enough depth for a plainly terminating call. -/
theorem callFix_enough (d : Defs F A E V) (fuel : Nat) : ∀ (n : Nat), n ≤ fuel → ∀ (f : F) (a : A) (st : St F A E V)
    (x : Out E V), MemoOk d st → plain d.body n f a = some x → Above d n st.visited →
    ∃ q, callFix d fuel f a st = some q := by
  induction fuel with
  | zero => intro n hn f a st x _ h; cases (by omega : n = 0); cases h
  | succ fuel ih =>
    intro N hN f a st x hm hx hab
    obtain ⟨m, hmn, hnone, hsome⟩ := plain_least d.body f a x N hx
    rw [plain] at hsome
    have hrun : ∀ (vis : List (F × A)), Above d m vis → ∀ (p : Prog F A E V) (st1 : St F A E V) (y : Out E V), MemoOk d st1 →
        st1.visited = vis → runPure (plain d.body m) p = some y → ∃ q, run (callFix d fuel) p st1 = some q := by
      intro vis hab p
      induction p with
      | ret v => intro st1 y _ _ _; exact ⟨_, rfl⟩
      | raise e => intro st1 y _ _ _; exact ⟨_, rfl⟩
      | call f1 a1 k ihk =>
        intro st1 y h1 h2 h3
        rw [runPure] at h3
        rw [run]
        cases hp : plain d.body m f1 a1 with
        | none => rw [hp] at h3; cases h3
        | some z =>
          rw [hp] at h3
          have ha : Above d m st1.visited := by rw [h2]; exact hab
          obtain ⟨⟨r2, st3⟩, hq⟩ := ih m (by omega) f1 a1 st1 z h1 hp ha
          rw [hq]
          obtain ⟨i1, i2, i3⟩ := callFix_inv d fuel f1 a1 st1 r2 st3 h1 hq (.inl ⟨m, z, hp, ha⟩)
          have : r2 = z := i3 m z hp
          subst this
          exact ihk r2 st3 y i1 (by rw [i2, h2]) h3
    refine callFix_of_run d fuel f a st fun _ => ?_
    refine hrun ((f, a) :: st.visited) ?_ (d.body f a) { st with visited := (f, a) :: st.visited } x (fun f a r h => hm f a r h) rfl hsome
    intro k hk
    rcases List.mem_cons.mp hk with rfl | hk
    · exact hnone
    · cases hq : plain d.body m k.1 k.2 with
      | none => rfl
      | some z =>
        have := plain_mono d.body (by omega : m ≤ N) k.1 k.2 z hq
        rw [hab k hk] at this; cases this

/-- With finitely many calls in sight, there is always enough depth. -/
theorem callFix_finite (d : Defs F A E V) (U : List (F × A)) (hU : ∀ f a, (f, a) ∈ U → CallsIn U (d.body f a))
    (fuel : Nat) : ∀ (f : F) (a : A) (st : St F A E V), (f, a) ∈ U →
    (U.filter (fun k => k ∉ st.visited)).length < fuel → ∃ q, callFix d fuel f a st = some q := by
  induction fuel with
  | zero => intro f a st _ h; omega
  | succ fuel ih =>
    intro f a st hf hlen
    refine callFix_of_run d fuel f a st fun hv => ?_
    have hlt : (U.filter (fun k => k ∉ (f, a) :: st.visited)).length < (U.filter (fun k => k ∉ st.visited)).length := by
      have : ∀ (L : List (F × A)), (L.filter (fun k => k ∉ (f, a) :: st.visited)).length ≤ (L.filter (fun k => k ∉ st.visited)).length ∧
          ((f, a) ∈ L → (L.filter (fun k => k ∉ (f, a) :: st.visited)).length < (L.filter (fun k => k ∉ st.visited)).length) := by
        intro L
        induction L with
        | nil => simp
        | cons x L ihL =>
          by_cases hx : x = (f, a)
          · subst hx
            have h1 : decide ((f, a) ∉ (f, a) :: st.visited) = false := by simp
            have h2 : decide ((f, a) ∉ st.visited) = true := by simpa using hv
            rw [List.filter_cons_of_neg (by simp [h1]), List.filter_cons_of_pos (by simpa using h2)]
            have := ihL.1
            simp only [List.length_cons]
            exact ⟨by omega, fun _ => by omega⟩
          · by_cases hxv : x ∈ st.visited
            · rw [List.filter_cons_of_neg (by simp [hxv]), List.filter_cons_of_neg (by simp [hxv])]
              refine ⟨ihL.1, fun h => ihL.2 ?_⟩
              rcases List.mem_cons.mp h with h | h
              · exact absurd h.symm hx
              · exact h
            · rw [List.filter_cons_of_pos (by simp [hxv, hx]), List.filter_cons_of_pos (by simp [hxv])]
              simp only [List.length_cons]
              refine ⟨by have := ihL.1; omega, fun h => ?_⟩
              rcases List.mem_cons.mp h with h | h
              · exact absurd h.symm hx
              · have := ihL.2 h; omega
      exact (this U).2 hf
    have hrun : ∀ (p : Prog F A E V), CallsIn U p → ∀ (st1 : St F A E V), st1.visited = (f, a) :: st.visited →
        ∃ q, run (callFix d fuel) p st1 = some q := by
      intro p hp
      induction hp with
      | ret v => intro st1 _; exact ⟨_, rfl⟩
      | raise e => intro st1 _; exact ⟨_, rfl⟩
      | call hin _ ihk =>
        intro st1 hv1
        rw [run]
        obtain ⟨⟨r2, st2⟩, hq⟩ := ih _ _ st1 hin (by rw [hv1]; omega)
        rw [hq]
        exact ihk r2 st2 (by rw [callFix_visited d fuel _ _ st1 r2 st2 hq, hv1])
    exact hrun _ (hU f a hf) _ rfl

theorem reach_visited {d : Defs F A E V} {st : St F A E V} (h : Reach d st) : st.visited = [] := by
  induction h with
  | init => rfl
  | call _ hc ih => rw [callFix_visited d _ _ _ _ _ _ hc, ih]

theorem reach_memoOk {d : Defs F A E V} {st : St F A E V} (h : Reach d st) : MemoOk d st := by
  induction h with
  | init => intro f a r hl; cases hl
  | @call st st' fuel f a r hr hc ih =>
    have hv := reach_visited hr
    refine (callFix_inv d fuel f a st r st' ih hc ?_).1
    by_cases ht : ∃ n x, plain d.body n f a = some x
    · obtain ⟨n, x, hx⟩ := ht
      exact .inl ⟨n, x, hx, by rw [hv]; intro k hk; cases hk⟩
    · refine .inr ⟨fun n => ?_, by rw [hv]; intro k hk; cases hk⟩
      cases hx : plain d.body n f a with
      | none => rfl
      | some x => exact absurd ⟨n, x, hx⟩ ht

end Unpy.Fix
