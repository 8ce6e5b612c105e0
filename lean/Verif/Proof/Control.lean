import Verif.Spec.Control
/-! Lemmas about the control channel -/
namespace Unpy.Proof.Control
open Unpy.Control Unpy.Spec.Control

theorem run_append (cm : Json → Json → Option Json) (a b : List Ev) (w : S) :
    run cm (a ++ b) w = ((run cm b (run cm a w).1).1, (run cm a w).2 ++ (run cm b (run cm a w).1).2) := by
  induction a generalizing w with
  | nil => simp [run]
  | cons e a ih => simp [run, ih, List.append_assoc]

/-- the state after a history -/
def state (cm : Json → Json → Option Json) (h : List Ev) : S := (run cm h.reverse S.init).1

theorem state_cons (cm : Json → Json → Option Json) (e h) : state cm (e :: h) = (step cm (state cm h) e).1 := by
  simp [state, run_append, run]

theorem out_cons (cm : Json → Json → Option Json) (e h) : (run cm (e :: h).reverse S.init).2 = (run cm h.reverse S.init).2 ++ (step cm (state cm h) e).2 := by
  simp [state, run_append, run]

/-! ## Requests -/

theorem lookup_field (k) (kvs : List (String × Json)) : lookup k kvs = field kvs k := by
  induction kvs with
  | nil => rfl
  | cons x kvs ih =>
    obtain ⟨k', j⟩ := x
    by_cases h : k' = k
    · subst h; simp [lookup, field]
    · have : (k' == k) = false := by simpa using h
      simp only [lookup, if_neg h, ih]
      simp [field, List.find?_cons, this]

theorem isStr_iff (s j) : isStr s j = true ↔ j = .str s := by
  cases j <;> simp [isStr]

theorem names_det {n n' id} (h : Names n id) (h' : Names n' id) : n = n' := by
  cases id <;> simp only [Names] at h h' <;> omega

theorem asKey_names {j : Json} {n} (h : asKey j = some (some n)) : ∀ m, Names m j ↔ m = n := by
  intro m
  cases j with
  | num i =>
    simp only [asKey] at h
    by_cases hi : i < 0
    · rw [if_pos hi] at h; simp at h
    · rw [if_neg hi] at h; simp only [Option.some.injEq] at h; simp only [Names]; omega
  | bool b => simp only [asKey, Option.some.injEq] at h; simp only [Names, h]
  | _ => simp [asKey] at h

theorem asKey_no {j : Json} (h : asKey j = some none) : ∀ m, ¬ Names m j := by
  intro m
  cases j with
  | num i =>
    simp only [asKey] at h
    by_cases hi : i < 0
    · simp only [Names]; omega
    · rw [if_neg hi] at h; simp at h
  | bool b => simp [asKey] at h
  | _ => simp [Names]

theorem asKey_hash {j : Json} : asKey j = none ↔ ¬ IsKey j := by
  cases j <;> simp [asKey, IsKey]

theorem isPart_iff {s t : List Char} : isPart s t = true ↔ s <:+: t := by
  induction t with
  | nil => cases s <;> simp [isPart]
  | cons c t ih => rw [isPart, Bool.or_eq_true, ih, List.isPrefixOf_iff_prefix, List.infix_cons_iff]

/-! ## Sessions -/

theorem open_range {h n} (ho : Open h n) : 1 ≤ n ∧ n ≤ sessions h := by
  induction h with
  | nil => cases ho
  | cons e h ih =>
    cases e with
    | opens i =>
      simp only [Open, sessions] at ho ⊢
      rcases ho with ho | ho
      · omega
      · have := ih ho; omega
    | closes m => exact ih ho.2
    | _ => exact ih ho

theorem alive_range {h n} (ho : Alive h n) : 1 ≤ n ∧ n ≤ sessions h := by
  induction h with
  | nil => cases ho
  | cons e h ih =>
    cases e with
    | opens i =>
      simp only [Alive, sessions] at ho ⊢
      rcases ho with ho | ho
      · omega
      · have := ih ho; omega
    | exits m => exact ih ho.2
    | _ => exact ih ho

/-- the sessions of a state are those of the history -/
def Agree (h : List Ev) (w : S) : Prop :=
  w.sess.length = sessions h ∧
  ∀ n s, w.sess[n]? = some s → (s.active = true ↔ Open h (n + 1)) ∧ (s.hasThread = true ↔ Ready h (n + 1)) ∧ s.ident = ident h (n + 1) ∧ (s.alive = true ↔ Alive h (n + 1))

theorem step_sess_eq (cm : Json → Json → Option Json) (w : S) (e : Ev) (he : ∀ i, e ≠ .opens i ∧ e ≠ .ready i ∧ e ≠ .closes i ∧ e ≠ .exits i) : (step cm w e).1.sess = w.sess := by
  cases e with
  | opens i => exact absurd rfl (he i).1
  | ready i => exact absurd rfl (he i).2.1
  | closes i => exact absurd rfl (he i).2.2.1
  | exits i => exact absurd rfl (he i).2.2.2
  | connect c => rfl
  | recv c m => simp only [step]; split <;> (try split) <;> rfl
  | deliver c => simp only [step]; split <;> (try split) <;> rfl

theorem agree (cm : Json → Json → Option Json) : ∀ h, Agree h (state cm h)
  | [] => ⟨rfl, fun n s hs => by simp [state, run, S.init] at hs⟩
  | e :: h => by
    have ⟨ih1, ih2⟩ := agree cm h
    rw [state_cons]
    generalize state cm h = w at ih1 ih2 ⊢
    cases e with
    | opens i =>
      refine ⟨by simp [step, sessions, ih1], fun n s hs => ?_⟩
      simp only [step] at hs
      by_cases hn : n < w.sess.length
      · rw [List.getElem?_append_left hn] at hs
        have := ih2 n s hs
        have hne : ¬ n = sessions h := by omega
        simp only [Open, Ready, ident, Alive, Nat.add_right_cancel_iff, hne, false_or, if_false, ne_eq, not_false_eq_true, true_and]
        exact this
      · have hlen : n = w.sess.length := by
          have := (List.getElem?_eq_some_iff.1 hs).1
          simp at this; omega
        subst hlen
        rw [List.getElem?_append_right (Nat.le_refl _)] at hs
        simp at hs; subst hs
        simp [Open, Ready, ident, Alive, ih1]
    | ready i =>
      cases i with
      | zero =>
        refine ⟨by simpa [step, setSess, sessions] using ih1, fun n s hs => ?_⟩
        have := ih2 n s (by simpa [step, setSess] using hs)
        simp only [Open, Ready, ident, Alive]
        simpa using this
      | succ i =>
        refine ⟨by simpa [step, setSess, sessions] using ih1, fun n s hs => ?_⟩
        simp only [step, setSess, List.getElem?_modify] at hs
        simp only [Open, Ready, ident, Alive]
        by_cases hi : i = n
        · subst hi; simp at hs
          obtain ⟨s', hs', rfl⟩ := hs
          have := ih2 _ _ hs'
          simpa using ⟨this.1, this.2.2⟩
        · simp [hi] at hs ⊢
          exact ih2 _ _ hs
    | closes i =>
      cases i with
      | zero =>
        refine ⟨by simpa [step, setSess, sessions] using ih1, fun n s hs => ?_⟩
        have := ih2 n s (by simpa [step, setSess] using hs)
        simp only [Open, Ready, ident, Alive]
        simpa using this
      | succ i =>
        refine ⟨by simpa [step, setSess, sessions] using ih1, fun n s hs => ?_⟩
        simp only [step, setSess, List.getElem?_modify] at hs
        simp only [Open, Ready, ident, Alive]
        by_cases hi : i = n
        · subst hi; simp at hs
          obtain ⟨s', hs', rfl⟩ := hs
          have := ih2 _ _ hs'
          simpa using this.2
        · simp [hi] at hs ⊢
          exact ih2 _ _ hs
    | exits i =>
      cases i with
      | zero =>
        refine ⟨by simpa [step, setSess, sessions] using ih1, fun n s hs => ?_⟩
        have := ih2 n s (by simpa [step, setSess] using hs)
        simp only [Open, Ready, ident, Alive]
        simpa using this
      | succ i =>
        refine ⟨by simpa [step, setSess, sessions] using ih1, fun n s hs => ?_⟩
        simp only [step, setSess, List.getElem?_modify] at hs
        simp only [Open, Ready, ident, Alive]
        by_cases hi : i = n
        · subst hi; simp at hs
          obtain ⟨s', hs', rfl⟩ := hs
          have := ih2 _ _ hs'
          simpa using ⟨this.1, this.2.1, this.2.2.1⟩
        · simp [hi] at hs ⊢
          exact ih2 _ _ hs
    | connect c => exact ⟨ih1, ih2⟩
    | recv c m =>
      have := step_sess_eq cm w (.recv c m) (by simp)
      exact ⟨by rw [this]; exact ih1, by rw [this]; exact ih2⟩
    | deliver c =>
      have := step_sess_eq cm w (.deliver c) (by simp)
      exact ⟨by rw [this]; exact ih1, by rw [this]; exact ih2⟩

theorem getSess_of {h w} (ha : Agree h w) {n s} (hs : getSess w n = some s) :
    (s.active = true ↔ Open h n) ∧ (s.hasThread = true ↔ Ready h n) ∧ s.ident = ident h n ∧ (s.alive = true ↔ Alive h n) := by
  cases n with
  | zero => simp [getSess] at hs
  | succ n => exact ha.2 n s hs

theorem getSess_some {h w} (ha : Agree h w) {n} (h1 : 1 ≤ n) (h2 : n ≤ sessions h) : ∃ s, getSess w n = some s := by
  cases n with
  | zero => omega
  | succ n =>
    have hlt : n < w.sess.length := by rw [ha.1]; omega
    exact ⟨w.sess[n], by simp [getSess, hlt]⟩

theorem getSess_none {h w} (ha : Agree h w) {n} (hn : getSess w n = none) : ¬ Open h n := fun ho => by
  have ⟨h1, h2⟩ := open_range ho
  obtain ⟨s, hs⟩ := getSess_some ha h1 h2
  rw [hs] at hn; cases hn

theorem isActive_iff {h w} (ha : Agree h w) (n) : isActive w n = true ↔ Open h n := by
  simp only [isActive]
  split
  · rename_i s hs; exact (getSess_of ha hs).1
  · rename_i hs; simp [getSess_none ha hs]

/-- running threads have distinct idents -/
theorem ident_inj {cm h} (hl : Legal cm h) : ∀ n m, Alive h n → Alive h m → ident h n = ident h m → n = m := by
  induction hl with
  | nil => intro n m hn; cases hn
  | @opens h i hl hi ih =>
    intro n m hn hm he
    simp only [Alive, ident] at hn hm he
    by_cases h1 : n = sessions h + 1 <;> by_cases h2 : m = sessions h + 1
    · omega
    · rw [if_pos h1, if_neg h2] at he
      exact absurd he.symm (hi m (hm.resolve_left h2))
    · rw [if_neg h1, if_pos h2] at he
      exact absurd he (hi n (hn.resolve_left h1))
    · rw [if_neg h1, if_neg h2] at he
      exact ih n m (hn.resolve_left h1) (hm.resolve_left h2) he
  | exits _ _ _ ih => intro n m hn hm he; exact ih n m hn.2 hm.2 he
  | _ => rename_i ih; intro n m hn hm he; exact ih n m hn hm he

/-! ## Channels -/

theorem paired_det {h c n m} (h1 : Paired h c n) (h2 : Paired h c m) : n = m := by
  induction h with
  | nil => cases h1
  | cons e h ih =>
    cases e with
    | connect d => exact ih h1.2 h2.2
    | recv d j =>
      cases j with
      | none => exact ih h1 h2
      | some j =>
        rcases h1 with ⟨hd, id, hj, hn, ho⟩ | ⟨hp, hno⟩ <;> rcases h2 with ⟨hd', id', hj', hn', ho'⟩ | ⟨hp', hno'⟩
        · rw [hj] at hj'; cases hj'; exact names_det hn hn'
        · exact absurd ⟨hd, id, n, hj, hn, ho⟩ hno'
        · exact absurd ⟨hd', id', m, hj', hn', ho'⟩ hno
        · exact ih hp hp'
    | _ => exact ih h1 h2

theorem answerable_interrupt {cm j} (h : request j = .interrupt) : Answerable cm j := by
  simp [Answerable, h]

theorem after_det {cm h c m s s'} (h1 : After cm h c m s) (h2 : After cm h c m s') : s = s' := by
  cases h1 with
  | closed => cases h2; rfl
  | failed hj => cases h2 with
    | failed => rfl
    | interrupts hj' => exact absurd (answerable_interrupt hj') hj
    | waits hj' => exact absurd hj' hj
  | interrupts hj hp ho hr => cases h2 with
    | failed hj' => exact absurd (answerable_interrupt hj) hj'
    | interrupts _ hp' => rw [paired_det hp hp']
    | waits _ hn => exact absurd hr (hn _ hj hp ho)
  | waits hj hn => cases h2 with
    | failed hj' => exact absurd hj hj'
    | interrupts hj' hp ho hr => exact absurd hr (hn _ hj' hp ho)
    | waits => rfl

theorem has_det {cm h c s s'} (h1 : Has cm h c s) (h2 : Has cm h c s') : s = s' := by
  induction h1 generalizing s' with
  | init => cases h2; rfl
  | connect => cases h2 with
    | connect => rfl
    | connects hd => exact absurd rfl hd
  | recv hw hs ih => cases h2 with
    | recv hw' hs' => exact after_det hs hs'
    | recvs hd => exact absurd rfl hd
  | deliver hw ih => cases h2 with
    | deliver => rfl
    | delivers hd => exact absurd rfl hd
  | connects hd hs ih => cases h2 with
    | connect => exact absurd rfl hd
    | connects _ h => exact ih h
  | recvs hd hs ih => cases h2 with
    | recv => exact absurd rfl hd
    | recvs _ h => exact ih h
  | delivers hd hs ih => cases h2 with
    | deliver => exact absurd rfl hd
    | delivers _ h => exact ih h
  | opens hs ih => cases h2; rename_i h; exact ih h
  | ready hs ih => cases h2; rename_i h; exact ih h
  | closes hs ih => cases h2; rename_i h; exact ih h
  | exits hs ih => cases h2; rename_i h; exact ih h

/-- the channel of a state is that of the history -/
def Rel (cm : Json → Json → Option Json) (h : List Ev) (c : Nat) : Chan → Prop
  | .closed => Has cm h c .closed
  | .idle p => Has cm h c .waits ∧ ∀ n, Paired h c n ↔ p = some n
  | .busy p t => p = t ∧ Has cm h c (.interrupts t) ∧ ∀ n, Paired h c n ↔ t = n

/-- what the handler does agrees with the specification -/
def Does (cm : Json → Json → Option Json) (h : List Ev) (c : Nat) (m : Option Json) : Action → Prop
  | .hangup => After cm h c m .closed
  | .reply r p => After cm h c m .waits ∧ (∃ j, m = some j ∧ Answerable cm j ∧ Answer cm h c j r) ∧ ∀ n, Paired (.recv c m :: h) c n ↔ p = some n
  | .interrupt p t => p = t ∧ After cm h c m (.interrupts t) ∧ ∀ n, Paired (.recv c m :: h) c n ↔ t = n

theorem paired_same {h c j} (hj : ∀ id, request j ≠ .pair (some id)) (n) : Paired (.recv c (some j) :: h) c n ↔ Paired h c n := by
  simp only [Paired]
  constructor
  · rintro (⟨_, id, hid, _⟩ | ⟨hp, _⟩)
    · exact absurd hid (hj id)
    · exact hp
  · exact fun hp => .inr ⟨hp, fun ⟨_, id, _, hid, _⟩ => hj id hid⟩

theorem does_plain {cm h c j r p} (hp : ∀ n, Paired h c n ↔ p = some n) (h1 : ∀ id, request j ≠ .pair (some id)) (h2 : request j ≠ .interrupt)
    (ha : Answerable cm j) (hr : Answer cm h c j r) : Does cm h c (some j) (.reply r p) :=
  ⟨.waits ha fun n hj => absurd hj h2, ⟨j, rfl, ha, hr⟩, fun n => (paired_same h1 n).trans (hp n)⟩

theorem does_pair {cm h c kvs p w} (ha : Agree h w) (hp : ∀ n, Paired h c n ↔ p = some n) (hj : request (.obj kvs) = .pair (field kvs "id")) :
    Does cm h c (some (.obj kvs)) (pair w p kvs) := by
  simp only [pair, lookup_field]
  cases hid : field kvs "id" with
  | none =>
    rw [hid] at hj
    exact does_plain hp (by simp [hj]) (by simp [hj]) (by simp [Answerable, hj]) (.noId hj)
  | some id =>
    rw [hid] at hj
    simp only []
    cases hk : asKey id with
    | none => exact .failed (by simpa [Answerable, hj] using asKey_hash.1 hk)
    | some k =>
      have hans : Answerable cm (.obj kvs) := by
        simp only [Answerable, hj]
        exact Classical.byContradiction fun hc => by rw [asKey_hash.2 hc] at hk; cases hk
      have hwait : After cm h c (some (.obj kvs)) .waits := .waits hans fun n hn => by simp [hj] at hn
      have hno : (∀ n, Names n id → ¬ Open h n) → Does cm h c (some (.obj kvs)) (.reply (.failed .noSession) p) := fun hno =>
        ⟨hwait, ⟨_, rfl, hans, .noSession hj hno⟩, fun n => by
          rw [← hp n]
          simp only [Paired]
          constructor
          · rintro (⟨_, id', hid', hn, ho⟩ | ⟨hp, _⟩)
            · rw [hj] at hid'; cases hid'; exact absurd ho (hno _ hn)
            · exact hp
          · exact fun hp => .inr ⟨hp, fun ⟨_, id', n', hid', hn, ho⟩ => by rw [hj] at hid'; cases hid'; exact hno _ hn ho⟩⟩
      cases k with
      | none => exact hno fun n hn => absurd hn (asKey_no hk n)
      | some k =>
        simp only []
        have hk' := asKey_names hk
        split
        · rename_i hact
          have ho := (isActive_iff ha k).1 hact
          refine ⟨hwait, ⟨_, rfl, hans, .paired hj ((hk' k).2 rfl) ho⟩, fun n => ?_⟩
          simp only [Paired, Option.some.injEq]
          constructor
          · rintro (⟨_, id', hid', hn, _⟩ | ⟨_, hno⟩)
            · rw [hj] at hid'; cases hid'; exact ((hk' n).1 hn).symm
            · exact absurd ⟨trivial, id, k, hj, (hk' k).2 rfl, ho⟩ hno
          · rintro rfl; exact .inl ⟨trivial, id, hj, (hk' _).2 rfl, ho⟩
        · rename_i hact
          exact hno fun n hn => by rw [(hk' n).1 hn]; exact fun ho => hact ((isActive_iff ha k).2 ho)

theorem does_tab {cm h c kvs p} (hp : ∀ n, Paired h c n ↔ p = some n) (hj : request (.obj kvs) = .complete (field kvs "text") (field kvs "state")) :
    Does cm h c (some (.obj kvs)) (tabComplete cm p kvs) := by
  simp only [tabComplete, lookup_field]
  cases ht : field kvs "text" with
  | none =>
    rw [ht] at hj
    exact does_plain hp (by simp [hj]) (by simp [hj]) (by simp [Answerable, hj]) (.noText hj)
  | some t =>
    rw [ht] at hj
    cases hs : field kvs "state" with
    | none =>
      rw [hs] at hj
      exact does_plain hp (by simp [hj]) (by simp [hj]) (by simp [Answerable, hj]) (.noState hj)
    | some s =>
      rw [hs] at hj
      simp only []
      cases hr : cm t s with
      | none => exact .failed (by simp [Answerable, hj, hr])
      | some r => exact does_plain hp (by simp [hj]) (by simp [hj]) (by simp [Answerable, hj, hr]) (.completion hj hr)

theorem does_kb {cm h c kvs p w} (ha : Agree h w) (hp : ∀ n, Paired h c n ↔ p = some n) (hj : request (.obj kvs) = .interrupt) :
    Does cm h c (some (.obj kvs)) (kbInterrupt w p) := by
  have hans := answerable_interrupt (cm := cm) hj
  have hsame : ∀ n, Paired (.recv c (some (.obj kvs)) :: h) c n ↔ Paired h c n := paired_same (by simp [hj])
  cases p with
  | none =>
    have hno : ∀ n, ¬ Paired h c n := fun n hn => by simpa using (hp n).1 hn
    exact ⟨.waits hans fun n _ hn => absurd hn (hno n), ⟨_, rfl, hans, .notPaired hj hno⟩, fun n => (hsame n).trans (hp n)⟩
  | some k =>
    have hk : Paired h c k := (hp k).2 rfl
    have huniq : ∀ n, Paired h c n → n = k := fun n hn => by have := (hp n).1 hn; simpa using this.symm
    have key : ∀ r, Answer cm h c (.obj kvs) r → (Open h k → ¬ Ready h k) → Does cm h c (some (.obj kvs)) (.reply r (some k)) := fun r hr hno =>
      ⟨.waits hans fun n _ hn ho => by rw [huniq n hn] at ho ⊢; exact hno ho, ⟨_, rfl, hans, hr⟩, fun n => (hsame n).trans (hp n)⟩
    simp only [kbInterrupt]
    cases hs : getSess w k with
    | none =>
      have ho := getSess_none ha hs
      exact key _ (.gone hj hk ho) fun h => absurd h ho
    | some s =>
      have hg := getSess_of ha hs
      simp only []
      cases hact : s.active with
      | false =>
        have ho : ¬ Open h k := fun ho => by have := hg.1.2 ho; rw [hact] at this; cases this
        simpa using key _ (.gone hj hk ho) fun h => absurd h ho
      | true =>
        have ho := hg.1.1 hact
        cases hth : s.hasThread with
        | false =>
          have hr : ¬ Ready h k := fun hr => by have := hg.2.1.2 hr; rw [hth] at this; cases this
          simpa using key _ (.noThread hj hk ho hr) fun _ => hr
        | true =>
          have hr := hg.2.1.1 hth
          simp only [Bool.not_true, Bool.false_eq_true, if_false]
          exact ⟨rfl, .interrupts hj hk ho hr, fun n => (hsame n).trans ((hp n).trans (by simp))⟩

theorem request_obj {kvs : List (String × Json)} (hne : kvs ≠ []) : request (.obj kvs) = (match field kvs "command" with
    | some (.str "DescribeServer") => .describe
    | some (.str "PairWithSession") => .pair (field kvs "id")
    | some (.str "TabComplete") => .complete (field kvs "text") (field kvs "state")
    | some (.str "KeyboardInterrupt") => .interrupt
    | some _ => .unknown
    | .none => .noCommand) := by
  cases kvs with
  | nil => exact absurd rfl hne
  | cons x kvs => rfl

theorem does_handle {cm h c p w} (ha : Agree h w) (hp : ∀ n, Paired h c n ↔ p = some n) (m) : Does cm h c m (handle cm w p m) := by
  cases m with
  | none => exact .closed
  | some j =>
    by_cases ho : ∃ kvs, j = .obj kvs
    · obtain ⟨kvs, rfl⟩ := ho
      by_cases hne : kvs = []
      · subst hne
        exact .failed (by simp [Answerable, request])
      · have hreq := request_obj hne
        have ht : truthy (.obj kvs) = true := by cases kvs <;> simp_all [truthy]
        simp only [handle, ht, hasCommand, lookup_field, Bool.not_true, Bool.false_eq_true, if_false]
        cases hc : field kvs "command" with
        | none =>
          rw [hc] at hreq
          simp only [Option.isSome_none]
          exact does_plain hp (by simp [hreq]) (by simp [hreq]) (by simp [Answerable, hreq]) (.noCommand hreq)
        | some cmd =>
          rw [hc] at hreq
          simp only [Option.isSome_some]
          by_cases h1 : cmd = .str "DescribeServer"
          · subst h1
            rw [if_pos (by simp [isStr])]
            exact does_plain hp (by simp [hreq]) (by simp [hreq]) (by simp [Answerable, hreq]) (.describe hreq)
          rw [if_neg (mt (isStr_iff _ _).1 h1)]
          by_cases h2 : cmd = .str "PairWithSession"
          · subst h2
            rw [if_pos (by simp [isStr])]
            exact does_pair ha hp hreq
          rw [if_neg (mt (isStr_iff _ _).1 h2)]
          by_cases h3 : cmd = .str "TabComplete"
          · subst h3
            rw [if_pos (by simp [isStr])]
            exact does_tab hp hreq
          rw [if_neg (mt (isStr_iff _ _).1 h3)]
          by_cases h4 : cmd = .str "KeyboardInterrupt"
          · subst h4
            rw [if_pos (by simp [isStr])]
            exact does_kb ha hp hreq
          rw [if_neg (mt (isStr_iff _ _).1 h4)]
          have hu : request (.obj kvs) = .unknown := by
            rw [hreq]; split <;> simp_all
          exact does_plain hp (by simp [hu]) (by simp [hu]) (by simp [Answerable, hu]) (.unknown hu)
    · have bad : request j = .none → handle cm w p (some j) = .hangup → Does cm h c (some j) (handle cm w p (some j)) := fun hr hh => by
        rw [hh]; exact .failed (by simp [Answerable, hr])
      have miss : request j = .noCommand → handle cm w p (some j) = .reply (.failed .missingCommand) p → Does cm h c (some j) (handle cm w p (some j)) := fun hr hh => by
        rw [hh]; exact does_plain hp (by simp [hr]) (by simp [hr]) (by simp [Answerable, hr]) (.noCommand hr)
      cases j with
      | obj kvs => exact absurd ⟨kvs, rfl⟩ ho
      | null => exact bad rfl rfl
      | bool b => exact bad rfl (by simp [handle, hasCommand])
      | num i => exact bad rfl (by simp [handle, hasCommand])
      | str s =>
        by_cases hs : s = ""
        · subst hs; exact bad rfl rfl
        · have hreq : request (.str s) = if "command".toList <:+: s.toList then .none else .noCommand := by
            unfold request; split <;> simp_all
          by_cases hc : "command".toList <:+: s.toList
          · refine bad (by rw [hreq, if_pos hc]) ?_
            simp only [handle, truthy, hasCommand, isPart_iff.2 hc]
            simp [hs]
          · refine miss (by rw [hreq, if_neg hc]) ?_
            have : isPart "command".toList s.toList = false := by rw [Bool.eq_false_iff]; exact mt isPart_iff.1 hc
            simp only [handle, truthy, hasCommand, this]
            simp [hs]
      | arr js =>
        cases js with
        | nil => exact bad rfl rfl
        | cons x js =>
          have hreq : request (.arr (x :: js)) = if HasStr "command" (x :: js) then .none else .noCommand := rfl
          have hh : (x :: js).any (isStr "command") = HasStr "command" (x :: js) := by
            rw [HasStr]; congr 1
          cases hc : HasStr "command" (x :: js) with
          | true =>
            refine bad (by rw [hreq, hc]; rfl) ?_
            simp only [handle, truthy, hasCommand, hh, hc]; simp
          | false =>
            refine miss (by rw [hreq, hc]; rfl) ?_
            simp only [handle, truthy, hasCommand, hh, hc]; simp

theorem rel_other {cm h c x e} (hr : Rel cm h c x) (hs : ∀ s, Has cm h c s → Has cm (e :: h) c s) (hp : ∀ n, Paired (e :: h) c n ↔ Paired h c n) : Rel cm (e :: h) c x := by
  cases x with
  | closed => exact hs _ hr
  | idle p => exact ⟨hs _ hr.1, fun n => (hp n).trans (hr.2 n)⟩
  | busy p t => exact ⟨hr.1, hs _ hr.2.1, fun n => (hp n).trans (hr.2.2 n)⟩

theorem paired_other {h c d m} (hd : d ≠ c) (n) : Paired (.recv d m :: h) c n ↔ Paired h c n := by
  cases m with
  | none => exact Iff.rfl
  | some j => simp [Paired, hd]

theorem rel {cm h} (hl : Legal cm h) : ∀ c, Rel cm h c ((state cm h).chan c) := by
  induction hl with
  | nil => exact fun c => .init
  | opens hl hi ih => intro c; rw [state_cons]; exact rel_other (ih c) (fun s => .opens) fun n => Iff.rfl
  | @ready h k hl hn ih =>
    intro c; rw [state_cons]
    have : (step cm (state cm h) (.ready k)).1.chan = (state cm h).chan := by simp only [step, setSess]; split <;> rfl
    rw [this]; exact rel_other (ih c) (fun s => .ready) fun n => Iff.rfl
  | @closes h k hl hn ih =>
    intro c; rw [state_cons]
    have : (step cm (state cm h) (.closes k)).1.chan = (state cm h).chan := by simp only [step, setSess]; split <;> rfl
    rw [this]; exact rel_other (ih c) (fun s => .closes) fun n => Iff.rfl
  | @exits h k hl hn ho ih =>
    intro c; rw [state_cons]
    have : (step cm (state cm h) (.exits k)).1.chan = (state cm h).chan := by simp only [step, setSess]; split <;> rfl
    rw [this]; exact rel_other (ih c) (fun s => .exits) fun n => Iff.rfl
  | @connect h d hl hc ih =>
    intro c; rw [state_cons]
    simp only [step, setChan]
    split
    · rename_i hcd; subst hcd; exact ⟨.connect, fun n => by simp [Paired]⟩
    · rename_i hcd
      have hdc : d ≠ c := fun e => hcd e.symm
      exact rel_other (ih c) (fun s => .connects hdc) fun n => by simp [Paired, hdc]
  | @recv h d m hl hc ih =>
    intro c; rw [state_cons]
    have hd := ih d
    cases hch : (state cm h).chan d with
    | closed => rw [hch] at hd; have := has_det hc hd; cases this
    | busy p t => rw [hch] at hd; have := has_det hc hd.2.1; cases this
    | idle p =>
      rw [hch] at hd
      have hdo := does_handle (cm := cm) (c := d) (agree cm h) hd.2 m
      have hother : ∀ c, c ≠ d → Rel cm (.recv d m :: h) c ((state cm h).chan c) := fun c hcd =>
        rel_other (ih c) (fun s => .recvs fun e => hcd e.symm) (paired_other fun e => hcd e.symm)
      simp only [step, hch]
      cases hh : handle cm (state cm h) p m with
      | hangup =>
        rw [hh] at hdo
        simp only [setChan]
        split
        · rename_i e; subst e; exact .recv hd.1 hdo
        · rename_i e; exact hother c e
      | reply r q =>
        rw [hh] at hdo
        simp only [setChan]
        split
        · rename_i e; subst e; exact ⟨.recv hd.1 hdo.1, hdo.2.2⟩
        · rename_i e; exact hother c e
      | interrupt q t =>
        rw [hh] at hdo
        simp only [setChan]
        split
        · rename_i e; subst e; exact ⟨hdo.1, .recv hd.1 hdo.2.1, hdo.2.2⟩
        · rename_i e; exact hother c e
  | @deliver h d k hl hc ih =>
    intro c; rw [state_cons]
    have hd := ih d
    cases hch : (state cm h).chan d with
    | closed => rw [hch] at hd; have := has_det hc hd; cases this
    | idle p => rw [hch] at hd; have := has_det hc hd.1; cases this
    | busy p t =>
      rw [hch] at hd
      obtain ⟨rfl, h1, h2⟩ := hd
      have key : Rel cm (.deliver d :: h) c (if c = d then .idle (some p) else (state cm h).chan c) := by
        split
        · rename_i e; subst e; exact ⟨.deliver h1, fun n => (h2 n).trans (by simp)⟩
        · rename_i e; exact rel_other (ih c) (fun s => .delivers fun e' => e e'.symm) fun n => Iff.rfl
      simp only [step, hch]
      split <;> exact key

theorem chan_waits {cm h c} (hl : Legal cm h) (hw : Has cm h c .waits) : ∃ p, (state cm h).chan c = .idle p ∧ ∀ n, Paired h c n ↔ p = some n := by
  have := rel hl c
  cases hch : (state cm h).chan c with
  | closed => rw [hch] at this; have := has_det hw this; cases this
  | busy p t => rw [hch] at this; have := has_det hw this.2.1; cases this
  | idle p => rw [hch] at this; exact ⟨p, rfl, this.2⟩

theorem chan_busy {cm h c n} (hl : Legal cm h) (hw : Has cm h c (.interrupts n)) : (state cm h).chan c = .busy n n := by
  have := rel hl c
  cases hch : (state cm h).chan c with
  | closed => rw [hch] at this; have := has_det hw this; cases this
  | idle p => rw [hch] at this; have := has_det hw this.1; cases this
  | busy p t => rw [hch] at this; obtain ⟨rfl, h1, _⟩ := this; have := has_det hw h1; cases this; rfl

theorem answer_det {cm h c j r r'} (h1 : Answer cm h c j r) (h2 : Answer cm h c j r') : r = r' := by
  cases h1 with
  | paired hj hn ho => cases h2 with
    | paired => rfl
    | noSession hj' hno => rw [hj] at hj'; cases hj'; exact absurd ho (hno _ hn)
    | _ => simp_all
  | noSession hj hno => cases h2 with
    | noSession => rfl
    | paired hj' hn ho => rw [hj] at hj'; cases hj'; exact absurd ho (hno _ hn)
    | _ => simp_all
  | notPaired hj hp => cases h2 with
    | notPaired => rfl
    | gone _ hp' => exact absurd hp' (hp _)
    | noThread _ hp' => exact absurd hp' (hp _)
    | _ => simp_all
  | gone hj hp ho => cases h2 with
    | gone => rfl
    | notPaired _ hp' => exact absurd hp (hp' _)
    | noThread _ hp' ho' => exact absurd (paired_det hp' hp ▸ ho') ho
    | _ => simp_all
  | noThread hj hp ho hr => cases h2 with
    | noThread => rfl
    | notPaired _ hp' => exact absurd hp (hp' _)
    | gone _ hp' ho' => exact absurd (paired_det hp hp' ▸ ho) ho'
    | _ => simp_all
  | _ => cases h2 <;> simp_all

theorem out_recv {cm h c j} (hl : Legal cm h) (hw : Has cm h c .waits) (hj : Answerable cm j)
    (hn : ∀ n, request j = .interrupt → Paired h c n → Open h n → ¬ Ready h n) :
    ∃ r, Answer cm h c j r ∧ (step cm (state cm h) (.recv c (some j))).2 = [.reply c r] := by
  obtain ⟨p, hp, hpair⟩ := chan_waits hl hw
  have hd := does_handle (cm := cm) (c := c) (agree cm h) hpair (some j)
  simp only [step, hp]
  cases hh : handle cm (state cm h) p (some j) with
  | hangup => rw [hh] at hd; have := after_det hd (.waits hj hn); cases this
  | interrupt q t => rw [hh] at hd; have := after_det hd.2.1 (.waits hj hn); cases this
  | reply r q =>
    rw [hh] at hd
    obtain ⟨_, ⟨j', hj', _, ha⟩, _⟩ := hd
    cases hj'
    exact ⟨r, ha, rfl⟩

theorem out_hangup {cm h c m} (hl : Legal cm h) (hw : Has cm h c .waits) (hs : After cm h c m .closed) :
    (step cm (state cm h) (.recv c m)).2 = [.hangup c] := by
  obtain ⟨p, hp, hpair⟩ := chan_waits hl hw
  have hd := does_handle (cm := cm) (c := c) (agree cm h) hpair m
  simp only [step, hp]
  cases hh : handle cm (state cm h) p m with
  | hangup => rfl
  | interrupt q t => rw [hh] at hd; have := after_det hd.2.1 hs; cases this
  | reply r q => rw [hh] at hd; have := after_det hd.1 hs; cases this

theorem out_busy {cm h c m n} (hl : Legal cm h) (hw : Has cm h c .waits) (hs : After cm h c m (.interrupts n)) :
    (step cm (state cm h) (.recv c m)).2 = [] := by
  obtain ⟨p, hp, hpair⟩ := chan_waits hl hw
  have hd := does_handle (cm := cm) (c := c) (agree cm h) hpair m
  simp only [step, hp]
  cases hh : handle cm (state cm h) p m with
  | hangup => rw [hh] at hd; have := after_det hd hs; cases this
  | interrupt q t => rfl
  | reply r q => rw [hh] at hd; have := after_det hd.1 hs; cases this

/-! ## Interrupts -/

theorem victim_some {h w} (ha : Agree h w) {n v} (hv : victim w n = some v) : Alive h v ∧ ident h v = ident h n := by
  simp only [victim] at hv
  split at hv
  · cases hv
  · rename_i s hs
    simp only [Option.map_eq_some_iff] at hv
    obtain ⟨i, hi, rfl⟩ := hv
    rw [List.findIdx?_eq_some_iff_getElem] at hi
    obtain ⟨hlt, hx, _⟩ := hi
    have := ha.2 i w.sess[i] (by simp [hlt])
    simp only [Bool.and_eq_true, beq_iff_eq] at hx
    exact ⟨this.2.2.2.1 hx.1, by rw [← this.2.2.1, hx.2, (getSess_of ha hs).2.2.1]⟩

theorem victim_none {h w} (ha : Agree h w) {n} (hn : 1 ≤ n ∧ n ≤ sessions h) (hv : victim w n = none) : ∀ v, Alive h v → ident h v ≠ ident h n := by
  intro v hav heq
  obtain ⟨s, hs⟩ := getSess_some ha hn.1 hn.2
  have ⟨h1, h2⟩ := alive_range hav
  obtain ⟨s', hs'⟩ := getSess_some ha h1 h2
  simp only [victim, hs, Option.map_eq_none_iff, List.findIdx?_eq_none_iff] at hv
  have hm : s' ∈ w.sess := by
    cases v with
    | zero => omega
    | succ v => exact List.mem_of_getElem? hs'
  have := hv s' hm
  have h1 := getSess_of ha hs
  have h2 := getSess_of ha hs'
  simp [h2.2.2.2.2 hav, h2.2.2.1, heq, h1.2.2.1] at this

theorem closes_range {cm h n} (hl : Legal cm h) (hc : Ev.closes n ∈ h) : n ≤ sessions h ∧ ¬ Open h n := by
  induction hl with
  | nil => cases hc
  | @opens h i hl hi ih =>
    simp only [List.mem_cons, reduceCtorEq, false_or] at hc
    have := ih hc
    simp only [sessions, Open]
    exact ⟨by omega, fun h => h.elim (fun h => by omega) this.2⟩
  | @closes h m hl hm ih =>
    simp only [List.mem_cons, Ev.closes.injEq] at hc
    simp only [sessions, Open]
    rcases hc with rfl | hc
    · exact ⟨(open_range hm).2, fun h => h.1 rfl⟩
    · exact ⟨(ih hc).1, fun h => (ih hc).2 h.2⟩
  | _ =>
    rename_i ih
    simp only [List.mem_cons, reduceCtorEq, false_or] at hc
    exact ih hc

theorem paired_range {cm h c n} (hl : Legal cm h) (hp : Paired h c n) : 1 ≤ n ∧ n ≤ sessions h := by
  induction hl with
  | nil => cases hp
  | opens hl hi ih => have := ih hp; simp only [sessions]; omega
  | connect hl hc ih => exact ih hp.2
  | @recv h d m hl hc ih =>
    cases m with
    | none => exact ih hp
    | some j =>
      rcases hp with ⟨_, _, _, _, ho⟩ | ⟨hp, _⟩
      · exact open_range ho
      · exact ih hp
  | _ => rename_i ih; exact ih hp

theorem interrupts_range {cm h c n} (hl : Legal cm h) (hw : Has cm h c (.interrupts n)) : 1 ≤ n ∧ n ≤ sessions h := by
  have := rel hl c
  rw [chan_busy hl hw] at this
  exact paired_range hl ((this.2.2 n).2 rfl)

/-- where the interrupt comes from -/
theorem requested {cm h c n} (hl : Legal cm h) (hw : Has cm h c (.interrupts n)) :
    ∃ h₁ h₂ j, h = h₁ ++ .recv c (some j) :: h₂ ∧ request j = .interrupt ∧ Paired h₂ c n ∧ Open h₂ n ∧ Ready h₂ n ∧ ∀ e ∈ h₁, ¬ About c e := by
  induction hl with
  | nil => cases hw
  | @connect h d hl hc ih =>
    cases hw with
    | connects hd hs =>
      obtain ⟨h₁, h₂, j, rfl, h1, h2, h3, h4, h5⟩ := ih hs
      exact ⟨.connect d :: h₁, h₂, j, rfl, h1, h2, h3, h4, by simpa [About, hd] using h5⟩
  | @recv h d m hl hc ih =>
    cases hw with
    | recv _ ha =>
      cases ha with
      | interrupts hj hp ho hr => exact ⟨[], h, _, rfl, hj, hp, ho, hr, by simp⟩
    | recvs hd hs =>
      obtain ⟨h₁, h₂, j, rfl, h1, h2, h3, h4, h5⟩ := ih hs
      exact ⟨.recv d m :: h₁, h₂, j, rfl, h1, h2, h3, h4, by simpa [About, hd] using h5⟩
  | @deliver h d k hl hc ih =>
    cases hw with
    | delivers hd hs =>
      obtain ⟨h₁, h₂, j, rfl, h1, h2, h3, h4, h5⟩ := ih hs
      exact ⟨.deliver d :: h₁, h₂, j, rfl, h1, h2, h3, h4, by simpa [About, hd] using h5⟩
  | opens _ _ ih | ready _ _ ih | closes _ _ ih | exits _ _ _ ih =>
    cases hw
    rename_i hs
    obtain ⟨h₁, h₂, j, rfl, h1, h2, h3, h4, h5⟩ := ih hs
    exact ⟨_ :: h₁, h₂, j, rfl, h1, h2, h3, h4, by simpa [About] using h5⟩

/-! ## Other channels -/

theorem isActive_sess {w w' : S} (h : w.sess = w'.sess) : isActive w = isActive w' ∧ getSess w = getSess w' ∧ victim w = victim w' := by
  have hg : getSess w = getSess w' := by funext n; cases n <;> simp [getSess, h]
  exact ⟨by funext n; simp [isActive, hg], hg, by funext n; simp [victim, hg, h]⟩

theorem handle_sess {cm} {w w' : S} (h : w.sess = w'.sess) (p m) : handle cm w p m = handle cm w' p m := by
  have := isActive_sess h
  have hpair : ∀ kvs, pair w p kvs = pair w' p kvs := fun kvs => by simp only [pair, this.1]
  have hkb : kbInterrupt w p = kbInterrupt w' p := by cases p <;> simp only [kbInterrupt, this.2.1]
  cases m with
  | none => rfl
  | some j => simp only [handle, hpair, hkb]

theorem setSess_same {w w' : S} {c} (hs : w.sess = w'.sess) (hc : w.chan c = w'.chan c) (n f) :
    (setSess w n f).sess = (setSess w' n f).sess ∧ (setSess w n f).chan c = (setSess w' n f).chan c := by
  cases n <;> simp [setSess, hs, hc]

theorem step_here {cm} {w w' : S} {c e} (he : Elsewhere c e = false) (hs : w.sess = w'.sess) (hc : w.chan c = w'.chan c) :
    (step cm w e).2 = (step cm w' e).2 ∧ (∀ o ∈ (step cm w e).2, channel o = c) ∧ (step cm w e).1.sess = (step cm w' e).1.sess ∧ (step cm w e).1.chan c = (step cm w' e).1.chan c := by
  cases e with
  | opens i => exact ⟨rfl, by simp [step], by simp [step, hs], hc⟩
  | ready i => exact ⟨rfl, by simp [step], setSess_same hs hc _ _⟩
  | closes i => exact ⟨rfl, by simp [step], setSess_same hs hc _ _⟩
  | exits i => exact ⟨rfl, by simp [step], setSess_same hs hc _ _⟩
  | connect d =>
    have : d = c := by simpa [Elsewhere] using he
    subst this
    exact ⟨rfl, by simp [step], hs, by simp [step, setChan]⟩
  | recv d m =>
    have : d = c := by simpa [Elsewhere] using he
    subst this
    simp only [step, ← hc]
    split
    · rename_i p _
      rw [handle_sess hs]
      split <;> simp [setChan, hs, channel]
    · simp [hs, hc]
  | deliver d =>
    have : d = c := by simpa [Elsewhere] using he
    subst this
    simp only [step, ← hc]
    split
    · rename_i p t _
      rw [(isActive_sess hs).2.2]
      split <;> simp [setChan, hs, channel]
    · simp [hs, hc]

theorem step_there {cm} {w : S} {c e} (he : Elsewhere c e = true) :
    (∀ o ∈ (step cm w e).2, channel o ≠ c) ∧ (step cm w e).1.sess = w.sess ∧ (step cm w e).1.chan c = w.chan c := by
  cases e with
  | connect d =>
    have : c ≠ d := fun e => by subst e; simp [Elsewhere] at he
    simp [step, setChan, this]
  | recv d m =>
    have : c ≠ d := fun e => by subst e; simp [Elsewhere] at he
    have h' : d ≠ c := this.symm
    simp only [step]
    split
    · split <;> simp [setChan, this, h', channel]
    · simp
  | deliver d =>
    have : c ≠ d := fun e => by subst e; simp [Elsewhere] at he
    have h' : d ≠ c := this.symm
    simp only [step]
    split
    · split <;> simp [setChan, this, h', channel]
    · simp
  | _ => simp [Elsewhere] at he

theorem independent {cm} {c} : ∀ (es : List Ev) (w w' : S), w.sess = w'.sess → w.chan c = w'.chan c →
    (run cm es w).2.filter (channel · == c) = (run cm (es.filter (!Elsewhere c ·)) w').2
  | [], w, w', _, _ => rfl
  | e :: es, w, w', hs, hc => by
    cases he : Elsewhere c e with
    | false =>
      have ⟨h1, h2, h3, h4⟩ := step_here (cm := cm) he hs hc
      simp only [List.filter_cons, he, Bool.not_false, if_true, run, List.filter_append]
      rw [independent es _ _ h3 h4, ← h1, List.filter_eq_self.2 (by simpa using h2)]
    | true =>
      have ⟨h1, h2, h3⟩ := step_there (cm := cm) (w := w) he
      simp only [List.filter_cons, he, Bool.not_true, Bool.false_eq_true, if_false, run, List.filter_append]
      rw [independent es _ _ (h2.trans hs) (h3.trans hc), List.filter_eq_nil_iff.2 (by simpa using h1), List.nil_append]

/-! ## One answer for each message -/

/-- 1 if the channel is about to interrupt a session -/
def pending : Chan → Nat
  | .busy .. => 1
  | _ => 0

theorem count (cm : Json → Json → Option Json) (c : Nat) : ∀ h, Legal cm h →
    (((run cm h.reverse S.init).2.filter (IsAnswer c)).length + pending ((state cm h).chan c) = (h.filter (IsMessage c)).length)
  | [], _ => rfl
  | e :: h, hl => by
    have ih : Legal cm h → _ := count cm c h
    rw [out_cons, List.filter_append, List.length_append, state_cons]
    cases hl with
    | opens hl => have := ih hl; simp only [step, List.filter_cons, IsMessage] at this ⊢; simpa using this
    | ready hl =>
      have := ih hl
      simp only [step, List.filter_cons, IsMessage, (setSess_same (w := state cm h) rfl rfl _ _).2]
      simpa [setSess] using by split <;> simpa using this
    | closes hl =>
      have := ih hl
      simp only [step, List.filter_cons, IsMessage]
      simpa [setSess] using by split <;> simpa using this
    | exits hl =>
      have := ih hl
      simp only [step, List.filter_cons, IsMessage]
      simpa [setSess] using by split <;> simpa using this
    | @connect _ d hl hc =>
      have := ih hl
      have hr := rel hl d
      by_cases hd : c = d
      · subst hd
        cases hch : (state cm h).chan c with
        | closed => rw [hch] at this; simpa [step, setChan, List.filter_cons, IsMessage, pending] using this
        | idle p => rw [hch] at hr; have := has_det hc hr.1; cases this
        | busy p t => rw [hch] at hr; have := has_det hc hr.2.1; cases this
      · simpa [step, setChan, List.filter_cons, IsMessage, hd] using this
    | @recv _ d m hl hc =>
      have := ih hl
      obtain ⟨p, hp, _⟩ := chan_waits hl hc
      by_cases hd : c = d
      · subst hd
        rw [hp] at this
        simp only [step, hp, List.filter_cons, IsMessage, beq_self_eq_true, if_true, List.length_cons, ← this]
        split <;> simp [setChan, pending, IsAnswer]
      · have hd' : d ≠ c := fun e => hd e.symm
        have hb : (d == c) = false := by simpa using hd'
        simp only [step, hp, List.filter_cons, IsMessage, hb]
        split <;> simpa [setChan, hd, IsAnswer, hb] using this
    | @deliver _ d n hl hc =>
      have := ih hl
      have hp := chan_busy hl hc
      by_cases hd : c = d
      · subst hd
        rw [hp] at this
        simp only [step, hp, List.filter_cons, IsMessage]
        split <;> simpa [setChan, pending, IsAnswer] using this
      · have hd' : d ≠ c := fun e => hd e.symm
        have hb : (d == c) = false := by simpa using hd'
        simp only [step, hp, List.filter_cons, IsMessage]
        split <;> simpa [setChan, hd, IsAnswer, hb] using this

/-! ## Background jobs -/

/-- the results after some jobs -/
def results : Results → List Job → Results
  | r, [] => r
  | r, .starts _ :: js => results r js
  | r, .begins i :: js => results (begins r i) js
  | r, .finishes i o :: js => results (finishes r i o) js
  | r, .fg x :: js => results (fg r x).2 js

theorem jobs_append (r js ks) : jobs r (js ++ ks) = jobs r js ++ jobs (results r js) ks := by
  induction js generalizing r with
  | nil => rfl
  | cons j js ih => cases j <;> simp [jobs, results, ih]

theorem results_append (r js ks) : results r (js ++ ks) = results (results r js) ks := by
  induction js generalizing r with
  | nil => rfl
  | cons j js ih => cases j <;> simp [results, ih]

theorem fg_untouched {r : Results} {x : Arg} {i} (h : x.ident ≠ some i) : (fg r x).2 i = r i := by
  have : ∀ k, x.ident = some k → i ≠ k := fun k hk e => h (by rw [hk, e])
  simp only [fg]
  split
  · rfl
  · rfl
  · split
    · rfl
    · rename_i k hk
      split <;> simp [Results.put, this k hk]

theorem untouched {r js i} (h : ∀ j ∈ js, Untouched i j) : results r js i = r i := by
  induction js generalizing r with
  | nil => rfl
  | cons j js ih =>
    have hj := h j (by simp)
    have := fun r => ih (r := r) fun k hk => h k (by simp [hk])
    cases j with
    | starts k => simp [results, this]
    | begins k =>
      have hne : i ≠ k := fun e => hj e.symm
      simp [results, this, begins, Results.put, hne]
    | finishes k o =>
      have hne : i ≠ k := fun e => hj e.symm
      cases o <;> simp [results, this, finishes, Results.put, hne]
    | fg x => simp only [results, this]; exact fg_untouched hj

end Unpy.Proof.Control
