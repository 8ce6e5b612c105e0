import Verif.Proof.GMemoMany
/-!
Generators in layers do not deadlock: some thread can go on, and each step leaves less to do.
-/
namespace Unpy.GMemoMany
open Unpy.GMemoSelf (Out)
open Unpy.Spec.GMemoMany

variable {G S V E : Type}

/-! How much there is to do for an item, if `w` says how much there is to do for the items that it needs. -/

/-- the work until the generator delivers -/
inductive Cost (p : Prog G S V E) (o : G → Nat → Out V E) (w : G × Nat → Nat) (g : G) : S × (Nat → Nat) → Nat → Prop where
  | yield {s pos v s'} : p.step g s = .yield v s' → Cost p o w g (s, pos) 1
  | raise {s pos e} : p.step g s = .raise e → Cost p o w g (s, pos) 1
  | stop {s pos} : p.step g s = .stop → Cost p o w g (s, pos) 1
  | ask {s pos i k n} : p.step g s = .ask i k → Cost p o w g (k (o (p.inner g i) (pos i)), taken pos i) n →
      Cost p o w g (s, pos) (n + 2 + w (p.inner g i, pos i))

variable {p : Prog G S V E} {o : G → Nat → Out V E} {sts : G → Nat → Option (S × (Nat → Nat))} {w w' : G × Nat → Nat} {g : G}

theorem cost_det {c : S × (Nat → Nat)} {n n' : Nat} (h : Cost p o w g c n) (h' : Cost p o w g c n') : n = n' := by
  induction h generalizing n' with
  | yield h => cases h' <;> simp_all
  | raise h => cases h' <;> simp_all
  | stop h => cases h' <;> simp_all
  | ask h _ ih =>
    cases h' with
    | yield h2 => rw [h] at h2; cases h2
    | raise h2 => rw [h] at h2; cases h2
    | stop h2 => rw [h] at h2; cases h2
    | ask h2 hk2 => rw [h] at h2; cases h2; rw [ih hk2]

theorem cost_of_goes (w : G × Nat → Nat) {c r c'} (h : Goes p o g c r c') : ∃ n, Cost p o w g c n := by
  induction h with
  | yield h => exact ⟨1, .yield h⟩
  | raise h => exact ⟨1, .raise h⟩
  | stop h => exact ⟨1, .stop h⟩
  | ask h _ ih => obtain ⟨n, hn⟩ := ih; exact ⟨_, .ask h hn⟩

theorem cost_congr {c n} (h : Cost p o w g c n) (hw : ∀ g' m, Asks p o g c g' m → w' (g', m) = w (g', m)) : Cost p o w' g c n := by
  induction h with
  | yield h => exact .yield h
  | raise h => exact .raise h
  | stop h => exact .stop h
  | ask h _ ih =>
    rw [← hw _ _ (.here h)]
    exact .ask h (ih (fun g' m ha => hw g' m (.later h ha)))

open Classical in
noncomputable def costOf (p : Prog G S V E) (o : G → Nat → Out V E) (w : G × Nat → Nat) (g : G) (c : S × (Nat → Nat)) : Nat :=
  if h : ∃ n, Cost p o w g c n then Classical.choose h else 0

theorem costOf_eq {c n} (h : Cost p o w g c n) : costOf p o w g c = n := by
  unfold costOf
  have hx : ∃ n, Cost p o w g c n := ⟨n, h⟩
  rw [dif_pos hx]
  exact cost_det (Classical.choose_spec hx) h

/-- a lower item -/
def rel (layer : G → Nat) (b a : G × Nat) : Prop := (b.1 = a.1 ∧ b.2 < a.2) ∨ layer b.1 < layer a.1

theorem rel_wf (layer : G → Nat) : WellFounded (rel layer) := by
  refine Subrelation.wf (r := InvImage (Prod.Lex (· < ·) (· < ·)) (fun a : G × Nat => (layer a.1, a.2))) ?_
    (InvImage.wf _ (Prod.lex Nat.lt_wfRel Nat.lt_wfRel).wf)
  intro b a h
  rcases h with ⟨h1, h2⟩ | h
  · show Prod.Lex _ _ (layer b.1, b.2) (layer a.1, a.2)
    rw [h1]; exact .right _ h2
  · exact .left _ _ h

open Classical in
/-- the work for an item -/
noncomputable def weight (p : Prog G S V E) (o : G → Nat → Out V E) (sts : G → Nat → Option (S × (Nat → Nat))) (layer : G → Nat) :
    G × Nat → Nat :=
  (rel_wf layer).fix (fun a ih => match sts a.1 a.2 with
    | none => 4
    | some c => costOf p o (fun b => if h : rel layer b a then ih b h else 0) a.1 c + 4)

theorem weight_none {layer : G → Nat} {n : Nat} (h : sts g n = none) : weight p o sts layer (g, n) = 4 := by
  unfold weight
  rw [WellFounded.fix_eq]
  simp only [h]

theorem weight_some {layer : G → Nat} (hsol : Solves p o sts) (hl : Layered p o sts layer) {n : Nat} {c} (h : sts g n = some c) :
    ∃ m, Cost p o (weight p o sts layer) g c m ∧ weight p o sts layer (g, n) = m + 4 := by
  obtain ⟨m, hm⟩ := cost_of_goes (weight p o sts layer) (sol_some hsol h)
  refine ⟨m, hm, ?_⟩
  unfold weight
  rw [WellFounded.fix_eq]
  simp only [h]
  rw [costOf_eq (n := m)]
  refine cost_congr hm (fun g' m' ha => ?_)
  rw [dif_pos (show rel layer (g', m') (g, n) from hl g n c g' m' h ha)]
  rfl

theorem needs_rel {layer : G → Nat} (hl : Layered p o sts layer) {a b : G × Nat} (h : Needs p o sts a b) : rel layer b a := by
  induction h with
  | one h ha => exact hl _ _ _ _ _ h ha
  | trans _ _ ih1 ih2 =>
    rcases ih1 with ⟨a1, a2⟩ | a1
    · rcases ih2 with ⟨b1, b2⟩ | b1
      · exact .inl ⟨b1.trans a1, by omega⟩
      · exact .inr (by rw [a1] at b1; exact b1)
    · rcases ih2 with ⟨b1, b2⟩ | b1
      · exact .inr (by rw [b1]; exact a1)
      · exact .inr (by omega)

theorem layered_acyclic {layer : G → Nat} (hl : Layered p o sts layer) : Acyclic p o sts := by
  intro a h
  rcases needs_rel hl h with ⟨_, h⟩ | h
  · exact Nat.lt_irrefl _ h
  · exact Nat.lt_irrefl _ h

/-! The work left for a thread. -/

section
variable (p o w)

noncomputable def topCost (gens : G → Gen S V E) (f : Frame G V E) : Nat := match f.stage with
  | .wait => w (f.g, f.j)
  | .check => w (f.g, f.j) - 1
  | .run => (match (gens f.g).state with
    | some s => costOf p o w f.g (s, (gens f.g).pos)
    | none => 0) + 2
  | .done _ => 1

noncomputable def lowCost (x : Gen S V E) (g : G) : Nat := match x.state with
  | none => 0
  | some s => match p.step g s with
    | .ask i k => costOf p o w g (k (o (p.inner g i) (x.pos i)), taken x.pos i) + 3
    | _ => 0

noncomputable def lows (gens : G → Gen S V E) : List (Frame G V E) → Nat
  | [] => 0
  | f :: fs => lowCost p o w (gens f.g) f.g + lows gens fs

noncomputable def stackCost (gens : G → Gen S V E) : List (Frame G V E) → Nat
  | [] => 0
  | f :: fs => topCost p o w gens f + lows p o w gens fs

def todoCost (outer : Nat → G) : (Nat → Nat) → List Nat → Nat
  | _, [] => 0
  | pos, i :: is => 1 + w (outer i, pos i) + todoCost outer (bump pos i) is

/-- the positions of the instances when the call in progress is done -/
def posThen (th : Thread G V E) : Nat → Nat := match th.frames.getLast? with
  | some f => bump th.pos f.i
  | none => th.pos

noncomputable def left (outer : Nat → Nat → G) (st : St G S V E) (t : Nat) : Nat :=
  stackCost p o w st.gens (st.threads t).frames + todoCost w (outer t) (posThen (st.threads t)) (st.threads t).todo

end

theorem lows_congr {gens gens' : G → Gen S V E} : ∀ {fs : List (Frame G V E)},
    (∀ f ∈ fs, (gens' f.g).state = (gens f.g).state ∧ (gens' f.g).pos = (gens f.g).pos) → lows p o w gens' fs = lows p o w gens fs
  | [], _ => rfl
  | f :: fs, h => by
    have h1 := h f (by simp)
    simp only [lows, lowCost, h1.1, h1.2]
    rw [lows_congr (fun f hf => h f (by simp [hf]))]

theorem posThen_stage (g : G) (i j : Nat) (s s' : Stage V E) (rest : List (Frame G V E)) (todo todo' : List Nat) (pos : Nat → Nat) :
    posThen ⟨⟨g, i, j, s⟩ :: rest, todo, pos⟩ = posThen ⟨⟨g, i, j, s'⟩ :: rest, todo', pos⟩ := by
  cases rest with
  | nil => rfl
  | cons h rest => simp [posThen, List.getLast?_cons_cons]

variable [DecidableEq G] {outer : Nat → Nat → G} {todo : Nat → List Nat} {st : St G S V E} {t : Nat}

/-- A step changes only generators whose locks the thread holds. -/
theorem step_other (inv : Inv p o sts outer todo st) : (∀ t', t' ≠ t → (step p outer st t).threads t' = st.threads t') ∧
    ∀ g, held g (st.threads t).frames = 0 → ((step p outer st t).gens g).state = (st.gens g).state ∧
      ((step p outer st t).gens g).pos = (st.gens g).pos := by
  have hc := inv.chain t
  cases hf : (st.threads t).frames with
  | nil =>
    rw [step_nil p outer hf]
    cases (st.threads t).todo with
    | nil => exact ⟨fun _ _ => rfl, fun _ _ => ⟨rfl, rfl⟩⟩
    | cons i is => exact ⟨fun t' e => by simp [setThread_threads, e], fun _ _ => ⟨rfl, rfl⟩⟩
  | cons f rest =>
    obtain ⟨g, i, j, stage⟩ := f
    have hne : holds stage = true → ∀ g', held g' (⟨g, i, j, stage⟩ :: rest : List (Frame G V E)) = 0 → g' ≠ g := by
      rintro hs g' h rfl
      simp [held, hs] at h
    have h1 : ∀ s' : Stage V E, ∀ x, ∀ t', t' ≠ t → (((st.setThread t { st.threads t with frames := ⟨g, i, j, s'⟩ :: rest }).setGen g x).threads t') =
        st.threads t' := by
      intro s' x t' e; simp [setThread_threads, e]
    have h2 : ∀ s' : Stage V E, ∀ x, ∀ g', g' ≠ g → (((st.setThread t { st.threads t with frames := ⟨g, i, j, s'⟩ :: rest }).setGen g x).gens g') =
        st.gens g' := by
      intro s' x g' e; simp [setGen_gens, e]
    have h3 : holds stage = true → ∀ s' : Stage V E, ∀ x, (∀ t', t' ≠ t →
        (((st.setThread t { st.threads t with frames := ⟨g, i, j, s'⟩ :: rest }).setGen g x).threads t') = st.threads t') ∧
        ∀ g', held g' (⟨g, i, j, stage⟩ :: rest : List (Frame G V E)) = 0 →
          (((st.setThread t { st.threads t with frames := ⟨g, i, j, s'⟩ :: rest }).setGen g x).gens g').state = (st.gens g').state ∧
          (((st.setThread t { st.threads t with frames := ⟨g, i, j, s'⟩ :: rest }).setGen g x).gens g').pos = (st.gens g').pos :=
      fun hs s' x => ⟨h1 s' x, fun g' h => by rw [h2 s' x g' (hne hs g' h)]; exact ⟨rfl, rfl⟩⟩
    cases stage with
    | wait =>
      rw [step_wait p outer hf]
      have h4 : ∀ l, (∀ t', t' ≠ t → (((st.setThread t { st.threads t with frames := ⟨g, i, j, .check⟩ :: rest }).setGen g
            { st.gens g with lock := l }).threads t') = st.threads t') ∧
          ∀ g', held g' (⟨g, i, j, .wait⟩ :: rest : List (Frame G V E)) = 0 →
          (((st.setThread t { st.threads t with frames := ⟨g, i, j, .check⟩ :: rest }).setGen g { st.gens g with lock := l }).gens g').state =
            (st.gens g').state ∧
          (((st.setThread t { st.threads t with frames := ⟨g, i, j, .check⟩ :: rest }).setGen g { st.gens g with lock := l }).gens g').pos =
            (st.gens g').pos := by
        intro l
        refine ⟨h1 _ _, fun g' _ => ?_⟩
        rw [setGen_gens]
        split
        · next e => subst e; exact ⟨rfl, rfl⟩
        · exact ⟨rfl, rfl⟩
      cases (st.gens g).lock with
      | none => exact h4 _
      | some q =>
        obtain ⟨a, n⟩ := q
        simp only
        split
        · exact h4 _
        · exact ⟨fun _ _ => rfl, fun _ _ => ⟨rfl, rfl⟩⟩
    | check =>
      rw [step_check p outer hf]
      cases (st.gens g).memo[j]? with
      | some r => exact ⟨fun t' e => by simp [setThread_threads, e], fun _ _ => ⟨rfl, rfl⟩⟩
      | none =>
        simp only
        split
        · exact h3 rfl _ _
        · cases (st.gens g).state with
          | none => exact h3 rfl _ _
          | some s => exact h3 rfl _ _
    | run =>
      rw [step_run p outer hf]
      cases (st.gens g).state with
      | none => exact ⟨fun _ _ => rfl, fun _ _ => ⟨rfl, rfl⟩⟩
      | some s =>
        simp only
        cases p.step g s with
        | yield v s' => exact h3 rfl _ _
        | raise e => exact h3 rfl _ _
        | stop => exact h3 rfl _ _
        | ask i' k => exact ⟨fun t' e => by simp [setThread_threads, e], fun _ _ => ⟨rfl, rfl⟩⟩
    | done r =>
      rw [step_done p outer hf]
      rw [hf] at hc
      cases rest with
      | nil =>
        simp only [deliver]
        refine ⟨fun t' e => by simp [setThread_threads, e], fun g' h => ?_⟩
        simp only [setThread_gens, setGen_gens, if_neg (hne rfl g' h)]
        trivial
      | cons h rest =>
        obtain ⟨c1, c2, c3, ⟨s, k, c4, c5⟩, c6⟩ := hc
        simp only at c1 c2 c3 c4 c5
        have hst1 : ((st.setGen g { st.gens g with lock := release (st.gens g).lock }).gens h.g).state = some s := by
          rw [setGen_gens]; split
          · next e => rw [← e]; exact c4
          · exact c4
        simp only [deliver, hst1, c5]
        refine ⟨fun t' e => by simp [setThread_threads, e], fun g' h' => ?_⟩
        have hne2 : g' ≠ h.g := by
          rintro rfl
          have := held_pos (mem_runGs.2 ⟨h, by simp, rfl, c1⟩ : h.g ∈ runGs (⟨g, i, j, .done r⟩ :: h :: rest))
          omega
        simp only [setGen_gens, if_neg hne2, setThread_gens, if_neg (hne rfl g' h')]
        trivial

theorem four_le {layer : G → Nat} (hsol : Solves p o sts) (hl : Layered p o sts layer) (a : G × Nat) : 4 ≤ weight p o sts layer a := by
  obtain ⟨g, n⟩ := a
  cases h : sts g n with
  | none => rw [weight_none h]; exact Nat.le_refl _
  | some c => obtain ⟨m, _, e⟩ := weight_some hsol hl h; omega

/-- The work left after the call on top has gone on. -/
theorem left_retop {s s' : Stage V E} {i j : Nat} {rest : List (Frame G V E)} (hf : (st.threads t).frames = ⟨g, i, j, s⟩ :: rest) (x : Gen S V E)
    (hx : (x.state = (st.gens g).state ∧ x.pos = (st.gens g).pos) ∨ ∀ f ∈ rest, f.g ≠ g)
    (hlt : ∀ gens : G → Gen S V E, gens g = x → topCost p o w gens ⟨g, i, j, s'⟩ < topCost p o w st.gens ⟨g, i, j, s⟩) :
    left p o w outer ((st.setThread t { st.threads t with frames := ⟨g, i, j, s'⟩ :: rest }).setGen g x) t < left p o w outer st t := by
  have h1 : lows p o w ((st.setThread t { st.threads t with frames := ⟨g, i, j, s'⟩ :: rest }).setGen g x).gens rest = lows p o w st.gens rest := by
    refine lows_congr (fun f hfm => ?_)
    rw [setGen_gens]
    split
    · next e =>
      rcases hx with h | h
      · rw [e]; exact h
      · exact absurd e (h f hfm)
    · exact ⟨rfl, rfl⟩
  have h2 := hlt ((st.setThread t { st.threads t with frames := ⟨g, i, j, s'⟩ :: rest }).setGen g x).gens (by simp [setGen_gens])
  have h3 : posThen (((st.setThread t { st.threads t with frames := ⟨g, i, j, s'⟩ :: rest }).setGen g x).threads t) = posThen (st.threads t) := by
    simp only [setGen_threads, setThread_threads, if_true]
    rw [posThen_stage g i j s' s rest _ (st.threads t).todo (st.threads t).pos]
    rw [← hf]
  have h5 : ((st.setThread t { st.threads t with frames := ⟨g, i, j, s'⟩ :: rest }).setGen g x).threads t =
      { st.threads t with frames := ⟨g, i, j, s'⟩ :: rest } := by simp [setThread_threads]
  generalize (st.setThread t { st.threads t with frames := ⟨g, i, j, s'⟩ :: rest }).setGen g x = st' at h1 h2 h3 h5 ⊢
  unfold left
  rw [h3, h5]
  simp only [hf, stackCost]
  rw [h1]
  omega

/-- A thread with nothing left to do, and one that waits for another. -/
def Idle (st : St G S V E) (t : Nat) : Prop := (st.threads t).frames = [] ∧ (st.threads t).todo = []

def Blocked (st : St G S V E) (t : Nat) : Prop := ∃ g i j rest a n, (st.threads t).frames = ⟨g, i, j, .wait⟩ :: rest ∧
  (st.gens g).lock = some (a, n) ∧ a ≠ t

theorem step_dec {layer : G → Nat} (hsol : Solves p o sts) (hl : Layered p o sts layer) (inv : Inv p o sts outer todo st)
    (hi : ¬ Idle st t) (hb : ¬ Blocked st t) :
    left p o (weight p o sts layer) outer (step p outer st t) t < left p o (weight p o sts layer) outer st t := by
  have hac := layered_acyclic hl
  have h4 := four_le (p := p) hsol hl
  cases hf : (st.threads t).frames with
  | nil =>
    rw [step_nil p outer hf]
    cases htd : (st.threads t).todo with
    | nil => exact absurd ⟨hf, htd⟩ hi
    | cons i is =>
      simp only [left, setThread_threads, if_true, hf, htd, stackCost, todoCost, topCost, lows, posThen, List.getLast?_nil, List.getLast?_singleton]
      omega
  | cons f rest =>
    obtain ⟨g, i, j, stage⟩ := f
    have hle : j ≤ (st.gens g).memo.length := frame_pos inv hf
    obtain ⟨n, hn, hx⟩ := inv.gen g
    have hlen : (st.gens g).memo.length = n := by rw [hn, upTo_length]
    have hc := inv.chain t
    rw [hf] at hc
    have htail := chain_tail hc
    have hgj := h4 (g, j)
    have hrest : (st.gens g).memo.length ≤ j → holds stage = true → ∀ f ∈ rest, f.g ≠ g := by
      intro hj hs f hfm e
      exact not_busy hac inv hf hs hj (mem_runGs.2 ⟨f, hfm, e, htail f hfm⟩)
    cases stage with
    | wait =>
      rw [step_wait p outer hf]
      cases hlk : (st.gens g).lock with
      | none => exact left_retop hf _ (.inl ⟨rfl, rfl⟩) (fun gens _ => by simp only [topCost]; omega)
      | some q =>
        obtain ⟨a, c⟩ := q
        simp only
        split
        · exact left_retop hf _ (.inl ⟨rfl, rfl⟩) (fun gens _ => by simp only [topCost]; omega)
        · next e => exact absurd ⟨g, i, j, rest, a, c, hf, hlk, e⟩ hb
    | check =>
      rw [step_check p outer hf]
      cases hm : (st.gens g).memo[j]? with
      | some r =>
        have := left_retop (p := p) (o := o) (w := weight p o sts layer) (outer := outer) (s' := .done r) hf (st.gens g) (.inl ⟨rfl, rfl⟩)
          (fun gens _ => by simp only [topCost]; omega)
        have e : (st.setThread t { st.threads t with frames := ⟨g, i, j, .done r⟩ :: rest }).setGen g (st.gens g) =
            st.setThread t { st.threads t with frames := ⟨g, i, j, .done r⟩ :: rest } := by
          simp only [St.setGen, St.setThread, St.mk.injEq, and_true]
          funext g'
          split
          · next e => rw [e]
          · rfl
        rw [e] at this
        exact this
      | none =>
        have hjn : j = n := by
          have h2 := List.getElem?_eq_none_iff.1 hm
          omega
        simp only
        split
        · exact left_retop hf _ (.inl ⟨rfl, rfl⟩) (fun gens _ => by simp only [topCost]; omega)
        · next hrun =>
          cases hst : (st.gens g).state with
          | none => exact left_retop hf _ (.inl ⟨hst.symm, rfl⟩) (fun gens _ => by simp only [topCost]; omega)
          | some s =>
            refine left_retop hf _ (.inl ⟨hst.symm, rfl⟩) (fun gens e => ?_)
            have hrun' : (st.gens g).running = false := by simpa using hrun
            rw [hrun', hst] at hx
            simp only [Option.map_some] at hx
            obtain ⟨m, hm1, hm2⟩ := weight_some hsol hl hx
            simp only [topCost, e]
            rw [costOf_eq hm1, hjn, hm2]
            omega
    | run =>
      rw [step_run p outer hf]
      have hfo : (st.gens g).running = true ∧ j = (st.gens g).memo.length := inv.frame t ⟨g, i, j, .run⟩ (by rw [hf]; simp)
      rw [hfo.1] at hx
      obtain ⟨s, c, e1, e2, e3, e4⟩ := hx
      have hr := hrest (by omega) rfl
      rw [e1]
      simp only
      cases hs : p.step g s with
      | yield v s' => exact left_retop hf _ (.inr hr) (fun gens e => by simp only [topCost]; omega)
      | raise e => exact left_retop hf _ (.inr hr) (fun gens e => by simp only [topCost]; omega)
      | stop => exact left_retop hf _ (.inr hr) (fun gens e => by simp only [topCost]; omega)
      | ask i' k =>
        obtain ⟨m, hm⟩ := cost_of_goes (weight p o sts layer) (goes_next e2 hs)
        have hm2 := Cost.ask hs hm
        simp only [left, setThread_threads, if_true, hf, stackCost, lows, setThread_gens, topCost, lowCost, e1, hs]
        rw [costOf_eq hm, costOf_eq hm2]
        have : posThen { st.threads t with frames := ⟨p.inner g i', i', (st.gens g).pos i', .wait⟩ :: ⟨g, i, j, .run⟩ :: rest } = posThen (st.threads t) := by
          simp only [posThen, hf, List.getLast?_cons_cons]
        rw [this]
        omega
    | done r =>
      rw [step_done p outer hf]
      have hfo : r = o g j ∧ j < (st.gens g).memo.length := inv.frame t ⟨g, i, j, .done r⟩ (by rw [hf]; simp)
      cases rest with
      | nil =>
        simp only [deliver, left, setThread_threads, if_true, setGen_threads, hf, stackCost, lows, topCost, posThen, List.getLast?_nil,
          List.getLast?_singleton]
        omega
      | cons h rest =>
        obtain ⟨c1, c2, c3, ⟨s, k, c4, c5⟩, c6⟩ := hc
        simp only at c1 c2 c3 c4 c5
        have hst1 : ((st.setGen g { st.gens g with lock := release (st.gens g).lock }).gens h.g).state = some s := by
          rw [setGen_gens]; split
          · next e => rw [← e]; exact c4
          · exact c4
        have hps1 : ((st.setGen g { st.gens g with lock := release (st.gens g).lock }).gens h.g).pos = (st.gens h.g).pos := by
          rw [setGen_gens]; split
          · next e => rw [← e]
          · rfl
        have hnd := inv.nodup t
        rw [hf, runGs_cons_ne _ _ (by simp), runGs_cons_of _ _ c1] at hnd
        have hnin := (List.nodup_cons.1 hnd).1
        simp only [deliver, hst1, c5, hps1]
        generalize hst' : ((((st.setGen g { st.gens g with lock := release (st.gens g).lock }).setThread t
          { (st.setGen g { st.gens g with lock := release (st.gens g).lock }).threads t with frames := h :: rest }).setGen h.g
            { (st.setGen g { st.gens g with lock := release (st.gens g).lock }).gens h.g with state := some (k r), pos := bump (st.gens h.g).pos i }) : St G S V E) = st'
        have hth : st'.threads t = { st.threads t with frames := h :: rest } := by subst hst'; simp [setThread_threads]
        have hgh : (st'.gens h.g).state = some (k r) ∧ (st'.gens h.g).pos = bump (st.gens h.g).pos i := by subst hst'; simp [setGen_gens]
        have hlows : lows p o (weight p o sts layer) st'.gens rest = lows p o (weight p o sts layer) st.gens rest := by
          refine lows_congr (fun f hfm => ?_)
          have hne : f.g ≠ h.g := by
            intro e
            exact hnin (mem_runGs.2 ⟨f, hfm, e, htail f (by simp [hfm])⟩)
          subst hst'
          rw [setGen_gens, if_neg hne, setThread_gens, setGen_gens]
          split
          · next e => rw [e]; exact ⟨rfl, rfl⟩
          · exact ⟨rfl, rfl⟩
        have hpt : posThen (st'.threads t) = posThen (st.threads t) := by
          rw [hth]; simp only [posThen, hf, List.getLast?_cons_cons]
        unfold left
        rw [hpt, hth]
        simp only [hf, stackCost, hlows]
        have ht : topCost p o (weight p o sts layer) st'.gens h = costOf p o (weight p o sts layer) h.g (k r, bump (st.gens h.g).pos i) + 2 := by
          simp only [topCost, c1, hgh.1, hgh.2]
        have hlow : lowCost p o (weight p o sts layer) (st.gens h.g) h.g =
            costOf p o (weight p o sts layer) h.g (k r, bump (st.gens h.g).pos i) + 3 := by
          simp only [lowCost, c4, c5]
          rw [hfo.1, c2, c3, ← taken_eq_bump]
        rw [ht]
        simp only [lows, hlow, topCost]
        omega

/-- Some thread can go on. -/
theorem progress {layer : G → Nat} (hl : Layered p o sts layer) (inv : Inv p o sts outer todo st) (h : ¬ Idle st t) :
    ∃ t', ¬ Idle st t' ∧ ¬ Blocked st t' := by
  have key : ∀ (L : Nat) (t : Nat) (g : G) (i j : Nat) (rest : List (Frame G V E)), (st.threads t).frames = ⟨g, i, j, .wait⟩ :: rest → layer g = L →
      ∃ t', ¬ Idle st t' ∧ ¬ Blocked st t' := by
    intro L
    induction L using Nat.strongRecOn with
    | _ L ih =>
      intro t g i j rest hf hL
      by_cases hb : Blocked st t
      · obtain ⟨g', i', j', rest', a, n, hf', hlk, hne⟩ := hb
        rw [hf] at hf'
        cases hf'
        have hn : 0 < n := by
          rcases Nat.eq_zero_or_pos n with rfl | h
          · exact absurd hlk (inv.lockPos g a)
          · exact h
        have hheld : held g (st.threads a).frames = n := by rw [inv.lock a g, hlk]; simp [own]
        cases hfa : (st.threads a).frames with
        | nil => rw [hfa] at hheld; simp [held] at hheld; omega
        | cons f rest' =>
          have hni : ¬ Idle st a := fun h => by have := h.1; rw [hfa] at this; cases this
          by_cases hba : Blocked st a
          · obtain ⟨g2, i2, j2, rest2, a2, n2, hf2, hlk2, hne2⟩ := hba
            rw [hfa] at hf2
            injection hf2 with hf21 hf22
            subst hf21; subst hf22
            have hmem : ∃ x ∈ rest', x.g = g := by
              rw [hfa] at hheld
              simp only [held, holds, Bool.false_eq_true, and_false, if_false, Nat.zero_add] at hheld
              have : ∀ (l : List (Frame G V E)), 0 < held g l → ∃ x ∈ l, x.g = g := by
                intro l
                induction l with
                | nil => intro h; simp [held] at h
                | cons x l ihl =>
                  intro h
                  by_cases e : x.g = g
                  · exact ⟨x, by simp, e⟩
                  · simp only [held, e, false_and, if_false, Nat.zero_add] at h
                    obtain ⟨y, hy, e⟩ := ihl h
                    exact ⟨y, by simp [hy], e⟩
              exact this rest' (by omega)
            obtain ⟨x, hx, hxg⟩ := hmem
            have hc := inv.chain a
            have hfr := inv.frame a
            rw [hfa] at hc hfr
            have hnd := needs_of_chain inv.gen rest' _ (fun y hy => hfr y (by simp [hy])) hc x hx
            rcases needs_rel hl hnd with ⟨e, _⟩ | h
            · simp only at e
              rw [e, hxg, hlk] at hlk2
              cases hlk2
              exact absurd rfl hne2
            · simp only [hxg] at h
              exact ih (layer g2) (by omega) a g2 i2 j2 rest' hfa rfl
          · exact ⟨a, hni, hba⟩
      · exact ⟨t, fun h => (by have := h.1; rw [hf] at this; cases this), hb⟩
  by_cases hb : Blocked st t
  · obtain ⟨g, i, j, rest, a, n, hf, _⟩ := hb
    exact key _ t g i j rest hf rfl
  · exact ⟨t, h, hb⟩

/-- The work left for the first `N` threads. -/
noncomputable def total (p : Prog G S V E) (o : G → Nat → Out V E) (w : G × Nat → Nat) (outer : Nat → Nat → G) (st : St G S V E) : Nat → Nat
  | 0 => 0
  | N + 1 => total p o w outer st N + left p o w outer st N

theorem total_le {st' : St G S V E} (h : ∀ t', left p o w outer st' t' ≤ left p o w outer st t') :
    ∀ N, total p o w outer st' N ≤ total p o w outer st N
  | 0 => Nat.le_refl _
  | N + 1 => Nat.add_le_add (total_le h N) (h N)

theorem total_lt {st' : St G S V E} (h : ∀ t', left p o w outer st' t' ≤ left p o w outer st t') (hlt : left p o w outer st' t < left p o w outer st t) :
    ∀ N, t < N → total p o w outer st' N < total p o w outer st N
  | 0, hN => absurd hN (Nat.not_lt_zero _)
  | N + 1, hN => by
    simp only [total]
    have h1 := total_le h N
    have h2 := h N
    by_cases e : t = N
    · subst e; omega
    · have := total_lt h hlt N (by omega); omega

theorem left_other (inv : Inv p o sts outer todo st) (t' : Nat) (e : t' ≠ t) : left p o w outer (step p outer st t) t' = left p o w outer st t' := by
  obtain ⟨h1, h2⟩ := step_other (t := t) inv
  have hex : ∀ g, g ∈ runGs (st.threads t').frames → ((step p outer st t).gens g).state = (st.gens g).state ∧
      ((step p outer st t).gens g).pos = (st.gens g).pos := by
    intro g hg
    refine h2 g ?_
    rcases Nat.eq_zero_or_pos (held g (st.threads t).frames) with h | h
    · exact h
    · exact absurd hg (not_running_elsewhere inv h t' e)
  have hc := inv.chain t'
  unfold left
  rw [h1 t' e]
  congr 1
  cases hf : (st.threads t').frames with
  | nil => rfl
  | cons f rest =>
    rw [hf] at hex hc
    have htail := chain_tail hc
    simp only [stackCost]
    rw [lows_congr (fun x hx => hex x.g (mem_runGs.2 ⟨x, by simp [hx], rfl, htail x hx⟩))]
    congr 1
    obtain ⟨g, i, j, stage⟩ := f
    cases stage with
    | run =>
      obtain ⟨e1, e2⟩ := hex g (by simp [runGs])
      simp only [topCost, e1, e2]
    | wait => rfl
    | check => rfl
    | done r => rfl

theorem step_idle (h : Idle st t) : step p outer st t = st := by
  rw [step_nil p outer h.1, h.2]

theorem all_finish {layer : G → Nat} (hsol : Solves p o sts) (hl : Layered p o sts layer) (N : Nat) : ∀ (m : Nat) (st : St G S V E),
    Inv p o sts outer todo st → (∀ t, N ≤ t → Idle st t) → total p o (weight p o sts layer) outer st N = m →
    ∃ more : List Nat, ∀ t, Idle (more.foldl (step p outer) st) t := by
  intro m
  induction m using Nat.strongRecOn with
  | _ m ih =>
    intro st inv hN hm
    by_cases h : ∀ t, Idle st t
    · exact ⟨[], h⟩
    · have : ∃ t, ¬ Idle st t := Classical.not_forall.1 h
      obtain ⟨t, ht⟩ := this
      obtain ⟨t', h1, h2⟩ := progress hl inv ht
      have hdec := step_dec hsol hl inv h1 h2
      have hoth := left_other (w := weight p o sts layer) (t := t') inv
      have hlt : t' < N := by
        rcases Nat.lt_or_ge t' N with h | h
        · exact h
        · exact absurd (hN t' h) h1
      have htot := total_lt (N := N) (fun t'' => by
        by_cases e : t'' = t'
        · subst e; exact Nat.le_of_lt hdec
        · rw [hoth t'' e]; exact Nat.le_refl _) hdec hlt
      obtain ⟨more, hmore⟩ := ih _ (by rw [← hm]; exact htot) (step p outer st t') (step_inv hsol (layered_acyclic hl) st inv t') (by
        intro t'' h
        have e : t'' ≠ t' := by omega
        unfold Idle
        rw [(step_other inv).1 t'' e]
        exact hN t'' h) rfl
      exact ⟨t' :: more, hmore⟩

end Unpy.GMemoMany
