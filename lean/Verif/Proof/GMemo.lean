import Verif.Model.GMemo
/-! Invariants of the gmemoize machine. -/
namespace Unpy.GMemo
universe u v
variable {K : Type u} {Out : Type v} [DecidableEq K] {g : K → Nat → Nat → Out}

/-- the first `n` outcomes of a stream -/
def firsts (f : Nat → Out) (n : Nat) : List Out := (List.range n).map f

theorem firsts_succ (f : Nat → Out) (n : Nat) : firsts f (n + 1) = firsts f n ++ [f n] := by
  simp [firsts, List.range_succ]

theorem firsts_getElem? (f : Nat → Out) (n i : Nat) :
    (firsts f n)[i]? = if i < n then some (f i) else none := by
  unfold firsts
  by_cases h : i < n <;> simp [h]

theorem advance_firsts (f : Nat → Out) (n j : Nat) :
    advance (firsts f n) n f j =
      if j < n then (f j, firsts f n, n) else (f n, firsts f (n + 1), n + 1) := by
  unfold advance
  rw [firsts_getElem?]
  by_cases h : j < n <;> simp [h, firsts_succ]

structure Inv (g : K → Nat → Nat → Out) (st : St K Out) : Prop where
  cell : ∀ (c : Nat) (x : Cell K Out), st.cells[c]? = some x → x.memo = firsts (g x.key c) x.calls
  instCell : ∀ (i : Nat) (x : Inst), st.insts[i]? = some x → x.cell < st.cells.length
  memos : ∀ (k : K) (c : Nat), find st.memos k = some c → ∃ x : Cell K Out, st.cells[c]? = some x ∧ x.key = k
  ready : ∀ (th : Nat) (k : K), st.pend th = .ready k → (find st.memos k).isSome
  logOK : ∀ e ∈ st.log, ∃ (x : Inst) (y : Cell K Out) (n : Nat), st.insts[e.1]? = some x ∧ st.cells[x.cell]? = some y ∧
    n < y.calls ∧ e.2 = g y.key x.cell n
  produced : ∀ (c : Nat) (y : Cell K Out), st.cells[c]? = some y → ∀ n, n < y.calls →
    ∃ (i : Nat) (x : Inst), st.insts[i]? = some x ∧ x.cell = c ∧ (i, g y.key c n) ∈ st.log

theorem find_cons (k k' : K) (c : Nat) (ms : List (K × Nat)) :
    find ((k, c) :: ms) k' = if k = k' then some c else find ms k' := by
  unfold find
  by_cases h : k = k' <;> simp [h]

theorem lt_of_getElem? {α : Type _} {l : List α} {i : Nat} {x : α} (h : l[i]? = some x) : i < l.length := by
  rcases Nat.lt_or_ge i l.length with h' | h'
  · exact h'
  · rw [List.getElem?_eq_none h'] at h; simp at h

theorem getElem?_append_some {α : Type _} {l : List α} {i : Nat} {x : α} (h : l[i]? = some x) (m : List α) :
    (l ++ m)[i]? = some x := by
  rw [List.getElem?_append_left (lt_of_getElem? h)]; exact h

theorem getElem?_snoc {α : Type _} {l : List α} {i : Nat} {x y : α} (h : (l ++ [y])[i]? = some x) :
    l[i]? = some x ∨ (i = l.length ∧ x = y) := by
  rcases Nat.lt_trichotomy i l.length with h' | h' | h'
  · rw [List.getElem?_append_left h'] at h; exact .inl h
  · subst h'; simp at h; exact .inr ⟨rfl, h.symm⟩
  · rw [List.getElem?_eq_none (by simp; omega)] at h; simp at h

theorem setPend_inv {st : St K Out} (inv : Inv g st) (th : Nat) (p : Pend K)
    (h : ∀ k, p = .ready k → (find st.memos k).isSome) : Inv g (st.setPend th p) := by
  refine ⟨inv.cell, inv.instCell, inv.memos, ?_, inv.logOK, inv.produced⟩
  intro th' k hp
  simp only [St.setPend] at hp
  split at hp
  · exact h k hp
  · exact inv.ready th' k hp

/-- The state after the locked part of `__next__`. -/
theorem go_reading_eq {st : St K Out} (inv : Inv g st) {th i j : Nat} (hp : st.pend th = .reading i j)
    {x : Inst} {y : Cell K Out} (hx : st.insts[i]? = some x) (hy : st.cells[x.cell]? = some y) :
    step g st (.go th) =
      { st.setPend th .idle with
        cells := st.cells.set x.cell ⟨y.key, firsts (g y.key x.cell) (if j < y.calls then y.calls else y.calls + 1),
          if j < y.calls then y.calls else y.calls + 1⟩
        insts := st.insts.set i ⟨x.cell, x.j + 1⟩
        log := st.log ++ [(i, g y.key x.cell (if j < y.calls then j else y.calls))] } := by
  have h := inv.cell _ _ hy
  simp only [step, hp, hx, hy]
  rw [h, advance_firsts]
  by_cases hj : j < y.calls <;> simp [hj]

theorem step_inv {st : St K Out} (inv : Inv g st) (e : Event K) : Inv g (step g st e) := by
  cases e with
  | call th k =>
    simp only [step]
    split
    · split
      · exact setPend_inv inv th _ (by simp)
      · rename_i c hc
        exact setPend_inv inv th _ (by intro k' e; simp at e; subst e; simp [hc])
    · exact inv
  | next th i =>
    simp only [step]
    split
    · exact setPend_inv inv th _ (by simp)
    · exact inv
  | go th =>
    cases hp : st.pend th with
    | idle => simp only [step, hp]; exact inv
    | missed k =>
      simp only [step, hp]
      refine ⟨?_, ?_, ?_, ?_, ?_, ?_⟩
      · intro c x h
        rcases getElem?_snoc h with h | ⟨rfl, rfl⟩
        · exact inv.cell c x h
        · rfl
      · intro i x h
        have := inv.instCell i x h
        simp; omega
      · intro k' c h
        rw [find_cons] at h
        split at h
        · rename_i e; subst e; simp at h; subst h
          exact ⟨⟨k, [], 0⟩, by simp, rfl⟩
        · obtain ⟨x, h1, h2⟩ := inv.memos k' c h
          exact ⟨x, getElem?_append_some h1 _, h2⟩
      · intro th' k' hp'
        show (find ((k, st.cells.length) :: st.memos) k').isSome
        rw [find_cons]
        split
        · rfl
        · rename_i hne
          have hp'' : (if th' = th then Pend.ready k else st.pend th') = .ready k' := hp'
          split at hp''
          · simp at hp''; exact absurd hp'' hne
          · exact inv.ready th' k' hp''
      · intro e he
        obtain ⟨x, y, n, h1, h2, h3, h4⟩ := inv.logOK e he
        exact ⟨x, y, n, h1, getElem?_append_some h2 _, h3, h4⟩
      · intro c y h n hn
        rcases getElem?_snoc h with h | ⟨rfl, rfl⟩
        · exact inv.produced c y h n hn
        · simp at hn
    | ready k =>
      simp only [step, hp]
      split
      · rename_i c hc
        obtain ⟨y, hy, hyk⟩ := inv.memos k c hc
        refine ⟨inv.cell, ?_, inv.memos, ?_, ?_, ?_⟩
        · intro i x h
          rcases getElem?_snoc h with h | ⟨rfl, rfl⟩
          · exact inv.instCell i x h
          · exact lt_of_getElem? hy
        · intro th' k' hp'
          have hp'' : (if th' = th then Pend.idle else st.pend th') = .ready k' := hp'
          split at hp''
          · simp at hp''
          · exact inv.ready th' k' hp''
        · intro e he
          obtain ⟨x, y, n, h1, h2, h3, h4⟩ := inv.logOK e he
          exact ⟨x, y, n, getElem?_append_some h1 _, h2, h3, h4⟩
        · intro c' y' h n hn
          obtain ⟨i, x, h1, h2, h3⟩ := inv.produced c' y' h n hn
          exact ⟨i, x, getElem?_append_some h1 _, h2, h3⟩
      · exact inv
    | reading i j =>
      cases hx : st.insts[i]? with
      | none => simp only [step, hp, hx]; exact inv
      | some x =>
        have hlt := inv.instCell i x hx
        obtain ⟨y, hy⟩ : ∃ y, st.cells[x.cell]? = some y := ⟨st.cells[x.cell], by simp [hlt]⟩
        rw [go_reading_eq inv hp hx hy]
        have hi := lt_of_getElem? hx
        obtain ⟨Y, hYd⟩ : ∃ Y : Cell K Out, Y = ⟨y.key, firsts (g y.key x.cell)
          (if j < y.calls then y.calls else y.calls + 1), if j < y.calls then y.calls else y.calls + 1⟩ :=
          ⟨_, rfl⟩
        rw [← hYd]
        have hYk : Y.key = y.key := by rw [hYd]
        have hYc : Y.calls = if j < y.calls then y.calls else y.calls + 1 := by rw [hYd]
        have hYm : Y.memo = firsts (g Y.key x.cell) Y.calls := by rw [hYd]
        have hY : (st.cells.set x.cell Y)[x.cell]? = some Y := by simp [hlt]
        refine ⟨?_, ?_, ?_, ?_, ?_, ?_⟩
        · intro c x' h
          simp only [List.getElem?_set] at h
          split at h
          · rename_i e; subst e
            simp [hlt] at h
            subst h
            exact hYm
          · exact inv.cell c x' h
        · intro i' x' h
          simp only [List.getElem?_set] at h
          simp only [List.length_set]
          split at h
          · rename_i e; subst e
            simp [hi] at h
            subst h
            exact hlt
          · exact inv.instCell i' x' h
        · intro k c h
          obtain ⟨y', h1, h2⟩ := inv.memos k c h
          by_cases hc : x.cell = c
          · subst hc
            rw [hy] at h1; simp at h1; subst h1
            exact ⟨Y, hY, by rw [hYk, h2]⟩
          · exact ⟨y', by simp [List.getElem?_set, hc, h1], h2⟩
        · intro th' k' hp'
          have hp'' : (if th' = th then Pend.idle else st.pend th') = .ready k' := hp'
          split at hp''
          · simp at hp''
          · exact inv.ready th' k' hp''
        · intro e he
          simp only [List.mem_append, List.mem_singleton] at he
          rcases he with he | he
          · obtain ⟨x', y', n, h1, h2, h3, h4⟩ := inv.logOK e he
            by_cases hc : x.cell = x'.cell
            · rw [← hc, hy] at h2; simp at h2; subst h2
              by_cases hii : i = e.1
              · rw [← hii, hx] at h1; simp at h1; subst h1
                refine ⟨⟨x.cell, x.j + 1⟩, Y, n, by simp [← hii, hi], hY, ?_, by rw [h4, hYk]⟩
                rw [hYc]; split <;> omega
              · refine ⟨x', Y, n, by simp [List.getElem?_set, hii, h1], by rw [← hc]; exact hY, ?_, by rw [h4, hYk]⟩
                rw [hYc]; split <;> omega
            · have hii : i ≠ e.1 := by
                intro e'; rw [← e', hx] at h1; simp at h1; exact hc (by rw [h1])
              exact ⟨x', y', n, by simp [List.getElem?_set, hii, h1],
                by simp [List.getElem?_set, hc, h2], h3, h4⟩
          · subst he
            refine ⟨⟨x.cell, x.j + 1⟩, Y, (if j < y.calls then j else y.calls), by simp [hi],
              hY, ?_, by rw [hYk]⟩
            rw [hYc]; split <;> omega
        · intro c y' h n hn
          simp only [List.getElem?_set] at h
          have old : ∀ y'', st.cells[c]? = some y'' → n < y''.calls →
              ∃ (i' : Nat) (x' : Inst), (st.insts.set i ⟨x.cell, x.j + 1⟩)[i']? = some x' ∧ x'.cell = c ∧
                (i', g y''.key c n) ∈ st.log := by
            intro y'' h1 h2
            obtain ⟨i', x', h3, h4, h5⟩ := inv.produced c y'' h1 n h2
            by_cases hii : i = i'
            · subst hii; rw [hx] at h3; simp at h3; subst h3
              exact ⟨i, ⟨x.cell, x.j + 1⟩, by simp [hi], h4, h5⟩
            · exact ⟨i', x', by simp [List.getElem?_set, hii, h3], h4, h5⟩
          split at h
          · rename_i e; subst e
            simp [hlt] at h
            subst h
            rw [hYc] at hn
            rw [hYk]
            by_cases hn' : n < y.calls
            · obtain ⟨i', x', h1, h2, h3⟩ := old y hy hn'
              exact ⟨i', x', h1, h2, List.mem_append_left _ h3⟩
            · split at hn
              · omega
              · rename_i hj
                have : n = y.calls := by omega
                subst this
                refine ⟨i, ⟨x.cell, x.j + 1⟩, by simp [hi], rfl, ?_⟩
                simp [hj]
          · obtain ⟨i', x', h1, h2, h3⟩ := old y' h hn
            exact ⟨i', x', h1, h2, List.mem_append_left _ h3⟩

theorem init_inv : Inv g (init : St K Out) := by
  refine ⟨?_, ?_, ?_, ?_, ?_, ?_⟩ <;> simp [init, find]

theorem foldl_inv (evs : List (Event K)) {st : St K Out} (inv : Inv g st) : Inv g (evs.foldl (step g) st) := by
  induction evs generalizing st with
  | nil => exact inv
  | cons e evs ih => exact ih (step_inv inv e)

theorem run_inv (evs : List (Event K)) : Inv g (run g evs) := foldl_inv evs init_inv

/-! Exclusive use of the instances -/

structure InvX (g : K → Nat → Nat → Out) (st : St K Out) : Prop where
  reading : ∀ (th i j : Nat), st.pend th = .reading i j → ∃ c : Nat, st.insts[i]? = some ⟨c, j⟩
  delivered : ∀ (i : Nat) (x : Inst), st.insts[i]? = some x → ∀ (y : Cell K Out), st.cells[x.cell]? = some y →
    st.delivered i = firsts (g y.key x.cell) x.j ∧ x.j ≤ y.calls
  undelivered : ∀ (i : Nat), st.insts[i]? = none → st.delivered i = []
  most : ∀ (c : Nat) (y : Cell K Out), st.cells[c]? = some y → y.calls = 0 ∨ ∃ i : Nat, st.insts[i]? = some ⟨c, y.calls⟩

def NoShare (st : St K Out) : Prop :=
  ∀ t₁ t₂ i j₁ j₂, st.pend t₁ = .reading i j₁ → st.pend t₂ = .reading i j₂ → t₁ = t₂

theorem delivered_append (st : St K Out) (i i' : Nat) (r : Out) (st' : St K Out)
    (h : st'.log = st.log ++ [(i, r)]) :
    st'.delivered i' = if i = i' then st.delivered i' ++ [r] else st.delivered i' := by
  unfold St.delivered
  rw [h, List.filter_append]
  by_cases e : i = i' <;> simp [e]

theorem setPend_invX {st : St K Out} (inv : InvX g st) (th : Nat) (p : Pend K)
    (h : ∀ (i j : Nat), p = .reading i j → ∃ c : Nat, st.insts[i]? = some ⟨c, j⟩) : InvX g (st.setPend th p) := by
  refine ⟨?_, inv.delivered, inv.undelivered, inv.most⟩
  intro th' i j hp
  simp only [St.setPend] at hp
  split at hp
  · exact h i j hp
  · exact inv.reading th' i j hp

theorem step_invX {st : St K Out} (inv0 : Inv g st) (inv : InvX g st) (hs : NoShare st) (e : Event K) :
    InvX g (step g st e) := by
  cases e with
  | call th k =>
    simp only [step]
    split
    · split <;> exact setPend_invX inv th _ (by simp)
    · exact inv
  | next th i =>
    simp only [step]
    split
    · rename_i x _ hx
      exact setPend_invX inv th _ (by
        intro i' j' e; simp at e; obtain ⟨rfl, rfl⟩ := e; exact ⟨x.cell, by simpa using hx⟩)
    · exact inv
  | go th =>
    cases hp : st.pend th with
    | idle => simp only [step, hp]; exact inv
    | missed k =>
      simp only [step, hp]
      refine ⟨?_, ?_, inv.undelivered, ?_⟩
      · intro th' i j hp'
        have hp'' : (if th' = th then Pend.ready k else st.pend th') = .reading i j := hp'
        split at hp''
        · simp at hp''
        · exact inv.reading th' i j hp''
      · intro i x hx y hy
        rcases getElem?_snoc hy with hy | ⟨e, _⟩
        · exact inv.delivered i x hx y hy
        · have := inv0.instCell i x hx; omega
      · intro c y h
        rcases getElem?_snoc h with h | ⟨rfl, rfl⟩
        · exact inv.most c y h
        · exact .inl rfl
    | ready k =>
      simp only [step, hp]
      split
      · rename_i c hc
        refine ⟨?_, ?_, ?_, ?_⟩
        · intro th' i j hp'
          have hp'' : (if th' = th then Pend.idle else st.pend th') = .reading i j := hp'
          split at hp''
          · simp at hp''
          · obtain ⟨c, h⟩ := inv.reading th' i j hp''
            exact ⟨c, getElem?_append_some h _⟩
        · intro i x hx y hy
          rcases getElem?_snoc hx with hx | ⟨rfl, rfl⟩
          · exact inv.delivered i x hx y hy
          · exact ⟨by rw [show (firsts (g y.key c) 0 : List Out) = [] from rfl];
                      exact inv.undelivered _ (by simp), Nat.zero_le _⟩
        · intro i h
          apply inv.undelivered
          simp at h ⊢; omega
        · intro c' y h
          rcases inv.most c' y h with h | ⟨i, h⟩
          · exact .inl h
          · exact .inr ⟨i, getElem?_append_some h _⟩
      · exact inv
    | reading i j =>
      obtain ⟨c, hx⟩ := inv.reading th i j hp
      have hlt := inv0.instCell i _ hx
      simp only at hlt
      obtain ⟨y, hy⟩ : ∃ y, st.cells[c]? = some y := ⟨st.cells[c], by simp [hlt]⟩
      rw [go_reading_eq inv0 hp hx hy]
      have hi := lt_of_getElem? hx
      obtain ⟨hd, hle⟩ := inv.delivered i _ hx y hy
      simp only at hd hle
      refine ⟨?_, ?_, ?_, ?_⟩
      · intro th' i' j' hp'
        have hp'' : (if th' = th then Pend.idle else st.pend th') = .reading i' j' := hp'
        split at hp''
        · simp at hp''
        · rename_i hne
          have hii : i ≠ i' := by
            intro e; subst e; exact hne (hs _ _ _ _ _ hp'' hp)
          obtain ⟨c', h⟩ := inv.reading th' i' j' hp''
          exact ⟨c', by simp [List.getElem?_set, hii, h]⟩
      · intro i' x' hx' y' hy'
        rw [delivered_append st i i' _ _ rfl]
        simp only [List.getElem?_set] at hx' hy'
        by_cases hii : i = i'
        · subst hii
          simp [hi] at hx'
          subst hx'
          simp [hlt] at hy'
          subst hy'
          simp only [if_true]
          refine ⟨?_, by split <;> omega⟩
          rw [hd, firsts_succ]
          have : (if j < y.calls then j else y.calls) = j := by split <;> omega
          rw [this]
        · simp only [hii, if_false] at hx' ⊢
          split at hy'
          · rename_i e
            simp [← e, hlt] at hy'
            subst hy'
            simp only
            have := inv.delivered i' x' hx' y (by rw [← e]; exact hy)
            exact ⟨by rw [← e] at this ⊢; exact this.1, by split <;> omega⟩
          · exact inv.delivered i' x' hx' y' hy'
      · intro i' h
        simp at h
        rw [delivered_append st i i' _ _ rfl]
        have hii : i ≠ i' := by omega
        simp only [hii, if_false]
        exact inv.undelivered i' (by simp; omega)
      · intro c' y' h
        simp only [List.getElem?_set] at h
        split at h
        · rename_i e; subst e
          simp [hlt] at h
          subst h
          simp only
          by_cases hj : j < y.calls
          · simp only [hj, if_true]
            rcases inv.most c y hy with h | ⟨i', h⟩
            · omega
            · right
              by_cases hii : i = i'
              · subst hii; rw [hx] at h; simp at h; omega
              · exact ⟨i', by simp [List.getElem?_set, hii, h]⟩
          · simp only [hj, if_false]
            right
            refine ⟨i, ?_⟩
            have : j = y.calls := by omega
            simp [hi, this]
        · rename_i hc
          rcases inv.most c' y' h with h' | ⟨i', h'⟩
          · exact .inl h'
          · right
            have hii : i ≠ i' := by
              intro e; subst e; rw [hx] at h'; simp at h'; exact hc h'.1
            exact ⟨i', by simp [List.getElem?_set, hii, h']⟩

theorem init_invX : InvX g (init : St K Out) := by
  refine ⟨?_, ?_, ?_, ?_⟩ <;> simp [init, St.delivered]

theorem run_invX (evs : List (Event K)) (h : ∀ pre suf, evs = pre ++ suf → NoShare (run g pre)) :
    InvX g (run g evs) := by
  suffices H : ∀ (suf pre : List (Event K)), evs = pre ++ suf → InvX g (run g pre) → InvX g (run g evs) from
    H evs [] rfl init_invX
  intro suf
  induction suf with
  | nil => intro pre e hi; rw [e]; simpa using hi
  | cons e suf ih =>
    intro pre he hi
    apply ih (pre ++ [e]) (by rw [he]; simp)
    have : run g (pre ++ [e]) = step g (run g pre) e := by simp [run, List.foldl_append]
    rw [this]
    exact step_invX (run_inv pre) hi (h pre _ he) e

/-! One underlying generator per key, if the first calls for a key do not race -/

structure InvC (st : St K Out) : Prop where
  nodup : (st.cells.map (fun x => x.key)).Nodup
  known : ∀ x ∈ st.cells, (find st.memos x.key).isSome
  missed : ∀ th k, st.pend th = .missed k → find st.memos k = none

def NoRace (st : St K Out) : Prop :=
  ∀ t₁ t₂ k, st.pend t₁ = .missed k → st.pend t₂ = .missed k → t₁ = t₂

theorem setPend_invC {st : St K Out} (inv : InvC st) (th : Nat) (p : Pend K)
    (h : ∀ k, p = .missed k → find st.memos k = none) : InvC (st.setPend th p) := by
  refine ⟨inv.nodup, inv.known, ?_⟩
  intro th' k hp
  simp only [St.setPend] at hp
  split at hp
  · exact h k hp
  · exact inv.missed th' k hp

theorem step_invC {st : St K Out} (inv : InvC st) (hs : NoRace st) (e : Event K) :
    InvC (step g st e) := by
  cases e with
  | call th k =>
    simp only [step]
    split
    · split
      · rename_i h
        exact setPend_invC inv th _ (by intro k' e; simp at e; subst e; exact h)
      · exact setPend_invC inv th _ (by simp)
    · exact inv
  | next th i =>
    simp only [step]
    split
    · exact setPend_invC inv th _ (by simp)
    · exact inv
  | go th =>
    cases hp : st.pend th with
    | idle => simp only [step, hp]; exact inv
    | missed k =>
      simp only [step, hp]
      have hm := inv.missed th k hp
      refine ⟨?_, ?_, ?_⟩
      · simp only [List.map_append, List.map_cons, List.map_nil]
        rw [List.nodup_append]
        refine ⟨inv.nodup, by simp, ?_⟩
        intro a ha b hb e
        simp at hb; subst hb; subst e
        simp at ha
        obtain ⟨x, hx, hk⟩ := ha
        have := inv.known x hx
        rw [hk, hm] at this; simp at this
      · intro x hx
        show (find ((k, st.cells.length) :: st.memos) x.key).isSome
        rw [find_cons]
        split
        · rfl
        · rename_i hne
          simp at hx
          rcases hx with hx | rfl
          · exact inv.known x hx
          · simp at hne
      · intro th' k' hp'
        have hp'' : (if th' = th then Pend.ready k else st.pend th') = .missed k' := hp'
        split at hp''
        · simp at hp''
        · rename_i hne
          show find ((k, st.cells.length) :: st.memos) k' = none
          rw [find_cons, if_neg]
          · exact inv.missed th' k' hp''
          · intro e; subst e; exact hne (hs _ _ _ hp'' hp)
    | ready k =>
      simp only [step, hp]
      split
      · refine ⟨inv.nodup, inv.known, ?_⟩
        intro th' k' hp'
        have hp'' : (if th' = th then Pend.idle else st.pend th') = .missed k' := hp'
        split at hp''
        · simp at hp''
        · exact inv.missed th' k' hp''
      · exact inv
    | reading i j =>
      simp only [step, hp]
      split
      · exact inv
      · rename_i x hx
        split
        · exact inv
        · rename_i y hy
          refine ⟨?_, ?_, ?_⟩
          · have : (st.cells.set x.cell ⟨y.key, (advance y.memo y.calls (g y.key x.cell) j).2.1,
                (advance y.memo y.calls (g y.key x.cell) j).2.2⟩).map (fun x => x.key) =
                st.cells.map (fun x => x.key) := by
              apply List.ext_getElem?
              intro n
              simp only [List.getElem?_map, List.getElem?_set]
              split
              · rename_i e; subst e; rw [hy]
                simp [lt_of_getElem? hy]
              · rfl
            show ((st.cells.set x.cell _).map _).Nodup
            rw [this]; exact inv.nodup
          · intro z hz
            have hz : z ∈ st.cells.set x.cell _ := hz
            rcases List.mem_or_eq_of_mem_set hz with hz | rfl
            · exact inv.known z hz
            · exact inv.known y (List.mem_of_getElem? hy)
          · intro th' k' hp'
            have hp'' : (if th' = th then Pend.idle else st.pend th') = .missed k' := hp'
            split at hp''
            · simp at hp''
            · exact inv.missed th' k' hp''

theorem run_invC (evs : List (Event K)) (h : ∀ pre suf, evs = pre ++ suf → NoRace (run g pre)) :
    InvC (run g evs) := by
  suffices H : ∀ (suf pre : List (Event K)), evs = pre ++ suf → InvC (run g pre) → InvC (run g evs) from
    H evs [] rfl ⟨by simp [run, init], by simp [run, init], by simp [run, init]⟩
  intro suf
  induction suf with
  | nil => intro pre e hi; rw [e]; simpa using hi
  | cons e suf ih =>
    intro pre he hi
    apply ih (pre ++ [e]) (by rw [he]; simp)
    have : run g (pre ++ [e]) = step g (run g pre) e := by simp [run, List.foldl_append]
    rw [this]
    exact step_invC hi (h pre _ he) e

/-! The arguments an instance was made with -/

def InvM (st : St K Out) : Prop :=
  st.made.length = st.insts.length ∧ ∀ (i : Nat) (x : Inst) (y : Cell K Out), st.insts[i]? = some x →
    st.cells[x.cell]? = some y → st.made[i]? = some y.key

theorem step_invM {st : St K Out} (inv0 : Inv g st) (inv : InvM st) (e : Event K) :
    InvM (step g st e) := by
  cases e with
  | call th k =>
    simp only [step]
    split
    · split <;> exact inv
    · exact inv
  | next th i =>
    simp only [step]
    split <;> exact inv
  | go th =>
    cases hp : st.pend th with
    | idle => simp only [step, hp]; exact inv
    | missed k =>
      simp only [step, hp]
      refine ⟨inv.1, ?_⟩
      intro i x y hx hy
      rcases getElem?_snoc hy with hy | ⟨e, _⟩
      · exact inv.2 i x y hx hy
      · have := inv0.instCell i x hx; omega
    | ready k =>
      simp only [step, hp]
      split
      · rename_i c hc
        refine ⟨by simp [inv.1], ?_⟩
        intro i x y hx hy
        rcases getElem?_snoc hx with hx | ⟨rfl, rfl⟩
        · exact getElem?_append_some (inv.2 i x y hx hy) _
        · obtain ⟨y', h1, h2⟩ := inv0.memos k c hc
          have hy : st.cells[c]? = some y := hy
          rw [h1] at hy; simp at hy; subst hy
          simp [← inv.1, h2]
      · exact inv
    | reading i j =>
      simp only [step, hp]
      split
      · exact inv
      · rename_i x hx
        split
        · exact inv
        · rename_i y hy
          refine ⟨by simpa [St.setPend] using inv.1, ?_⟩
          intro i' x' y' hx' hy'
          simp only [List.getElem?_set] at hx' hy'
          have key : ∀ (x'' : Inst), st.insts[i']? = some x'' → x''.cell = x'.cell →
              st.made[i']? = some y'.key := by
            intro x'' h1 h2
            split at hy'
            · rename_i e
              simp [lt_of_getElem? hy] at hy'
              subst hy'
              exact inv.2 i' x'' y h1 (by rw [h2, ← e]; exact hy)
            · exact inv.2 i' x'' y' h1 (by rw [h2]; exact hy')
          split at hx'
          · rename_i e; subst e
            simp [lt_of_getElem? hx] at hx'
            exact key x hx (by rw [← hx'])
          · exact key x' hx' rfl

theorem run_invM (evs : List (Event K)) : InvM (run g evs) := by
  suffices H : ∀ (evs : List (Event K)) (st : St K Out), Inv g st → InvM st → InvM (evs.foldl (step g) st) from
    H evs _ init_inv ⟨rfl, by simp [init]⟩
  intro evs
  induction evs with
  | nil => intro st _ h; exact h
  | cons e evs ih => intro st h0 h; exact ih _ (step_inv h0 e) (step_invM h0 h e)

theorem getElem?_nodup_map {α β : Type _} {l : List α} {f : α → β} (h : (l.map f).Nodup) {i j : Nat} {x y : α}
    (hx : l[i]? = some x) (hy : l[j]? = some y) (e : f x = f y) : i = j := by
  have hi := lt_of_getElem? hx
  have hj := lt_of_getElem? hy
  unfold List.Nodup at h
  rw [List.pairwise_iff_getElem] at h
  rw [List.getElem?_eq_getElem hi] at hx
  rw [List.getElem?_eq_getElem hj] at hy
  simp only [Option.some.injEq] at hx hy
  rcases Nat.lt_trichotomy i j with h' | h' | h'
  · refine absurd ?_ (h i j (by simpa using hi) (by simpa using hj) h')
    simp [hx, hy, e]
  · exact h'
  · refine absurd ?_ (h j i (by simpa using hj) (by simpa using hi) h')
    simp [hx, hy, e]

end Unpy.GMemo
