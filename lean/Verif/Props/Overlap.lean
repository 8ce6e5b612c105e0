import Verif.Spec.Overlap
/-! # C139: blocks that overlap -/
namespace Unpy.Props
open Unpy Unpy.Overlap Unpy.Spec.Overlap
variable {F R : Type}

private theorem find_innermost (empty : F → Bool) (has : F → Option R) (he : ∀ b, empty b = true → has b = none) (base : List F) :
    ∀ blocks : List (Nat × F), Innermost has blocks (find has base) (find has ((blocks.map (·.2)).filter (fun b => !empty b) ++ base))
  | [] => .inr ⟨by simp, by simp⟩
  | (i, b) :: blocks => by
    have ih := find_innermost empty has he base blocks
    cases hb : has b with
    | some x =>
      have e : empty b = false := by
        cases h : empty b with
        | false => rfl
        | true => simp [he b h] at hb
      exact .inl ⟨[], i, b, blocks, x, rfl, hb, by simp [e, find, hb], by simp⟩
    | none =>
      have : find has ((((i, b) :: blocks).map (·.2)).filter (fun b => !empty b) ++ base)
          = find has ((blocks.map (·.2)).filter (fun b => !empty b) ++ base) := by
        cases h : empty b <;> simp [h, find, hb]
      rw [this]
      rcases ih with ⟨before, j, c, after, x, rfl, h1, h2, h3⟩ | ⟨h1, h2⟩
      · exact .inl ⟨(i, b) :: before, j, c, after, x, rfl, h1, h2, by
          intro e he'
          rcases List.mem_cons.1 he' with rfl | he'
          · exact hb
          · exact h3 e he'⟩
      · exact .inr ⟨by
          intro e he'
          rcases List.mem_cons.1 he' with rfl | he'
          · exact hb
          · exact h1 e he', h2⟩

private theorem filter_self (l : List (Nat × F)) (i : Nat) (b : F) (rest : List (Nat × F)) (h : l = (i, b) :: rest) (hn : (l.map (·.1)).Nodup) :
    l.filter (fun e => e.1 ≠ i) = rest := by
  subst h
  simp only [List.map_cons, List.nodup_cons] at hn
  rw [List.filter_cons]
  simp only [ne_eq, not_true_eq_false, decide_false, Bool.false_eq_true, if_false]
  rw [List.filter_eq_self]
  intro e he
  simp only [decide_eq_true_eq]
  intro h
  exact hn.1 (h ▸ List.mem_map.2 ⟨e, he, rfl⟩)

private theorem nodup_filter (l : List (Nat × F)) (i : Nat) (hn : (l.map (·.1)).Nodup) : ((l.filter (fun e => e.1 ≠ i)).map (·.1)).Nodup :=
  (List.filter_sublist.map _).nodup hn

private theorem run_nested (empty : F → Bool) (base : List F) : ∀ (ops : List (Op F)) (l : List (Nat × F)), (l.map (·.1)).Nodup → Allowed l ops → Nested l ops →
    run empty ((l.map (·.2)).filter (fun b => !empty b) ++ base) ops = ((live l ops).map (·.2)).filter (fun b => !empty b) ++ base
  | [], _, _, _, _ => rfl
  | .enter i b :: ops, l, hn, ha, h => by
    rw [live, run, List.foldl_cons]
    rw [← run_nested empty base ops ((i, b) :: l) (by simpa using ⟨by simpa using ha.1, hn⟩) ha.2 h]
    rw [run]
    cases hb : empty b <;> simp [step, hb]
  | .leave i b :: ops, l, hn, ha, h => by
    obtain ⟨rest, hl, h⟩ := h
    have hf := filter_self l i b rest hl hn
    rw [live, run, List.foldl_cons]
    have ha' := ha.2
    rw [hf] at ha' ⊢
    rw [← run_nested empty base ops rest (by subst hl; exact (List.nodup_cons.1 hn).2) ha' h]
    rw [run]
    subst hl
    cases hb : empty b <;> simp [step, hb]

/-- C139.  At any time, what the innermost block in effect says is what counts; blocks that have been left have no effect, and what was there before is as it was.
Partial: the blocks are nested, as those of ordinary functions always are.  (Missing: generators that are suspended inside a block, see
`C139_overlap_refuted`.) -/
theorem C139_innermost_partial (empty : F → Bool) (has : F → Option R) (he : ∀ b, empty b = true → has b = none) (base : List F) (ops : List (Op F))
    (ha : Allowed [] ops) (h : Nested [] ops) :
    Innermost has (live [] ops) (find has base) (find has (run empty base ops)) := by
  have := run_nested empty base ops [] (by simp) ha h
  simp only [List.map_nil, List.filter_nil, List.nil_append] at this
  rw [this]
  exact find_innermost empty has he base _

private theorem drop_tail_eq (n : Nat) (s : List F) : s.tail.drop n = s.drop (n + 1) := by
  rw [List.drop_tail]

private theorem filter_count (empty : F → Bool) (l : List (Nat × F)) (i : Nat) (b : F) (hn : (l.map (·.1)).Nodup) (hm : (i, b) ∈ l) :
    (l.filter (fun e => !empty e.2)).length = ((l.filter (fun e => e.1 ≠ i)).filter (fun e => !empty e.2)).length + (if empty b then 0 else 1) := by
  induction l with
  | nil => simp at hm
  | cons e l ih =>
    obtain ⟨j, c⟩ := e
    by_cases hj : j = i
    · subst hj
      have hc : c = b := by
        rcases List.mem_cons.1 hm with h | h
        · exact (Prod.mk.inj h).2.symm
        · exact absurd (List.mem_map.2 ⟨(j, b), h, rfl⟩ : j ∈ l.map (·.1)) (List.nodup_cons.1 hn).1
      subst hc
      rw [filter_self ((j, c) :: l) j c l rfl hn, List.filter_cons]
      cases empty c <;> simp
    · have hm' : (i, b) ∈ l := by
        rcases List.mem_cons.1 hm with h | h
        · exact absurd (Prod.mk.inj h).1.symm hj
        · exact h
      have := ih (List.nodup_cons.1 hn).2 hm'
      simp only [List.filter_cons, hj, ne_eq, not_false_eq_true, decide_true, if_true]
      cases empty c <;> simp_all <;> omega

private theorem run_overlap (empty : F → Bool) (base : List F) : ∀ (ops : List (Op F)) (l : List (Nat × F)) (s : List F), (l.map (·.1)).Nodup → Allowed l ops →
    s.drop (l.filter (fun e => !empty e.2)).length = base → (l.filter (fun e => !empty e.2)).length + base.length = s.length →
    (run empty s ops).drop ((live l ops).filter (fun e => !empty e.2)).length = base ∧
      ((live l ops).filter (fun e => !empty e.2)).length + base.length = (run empty s ops).length
  | [], _, _, _, _, h, h' => ⟨h, h'⟩
  | .enter i b :: ops, l, s, hn, ha, h, h' => by
    rw [live, run, List.foldl_cons]
    refine run_overlap empty base ops ((i, b) :: l) (step empty s (.enter i b)) (by simpa using ⟨by simpa using ha.1, hn⟩) ha.2 ?_ ?_
    · cases hb : empty b <;> simpa [step, hb] using h
    · cases hb : empty b <;> simp [step, hb] <;> omega
  | .leave i b :: ops, l, s, hn, ha, h, h' => by
    rw [live, run, List.foldl_cons]
    have hc := filter_count empty l i b hn ha.1
    refine run_overlap empty base ops (l.filter (fun e => e.1 ≠ i)) (step empty s (.leave i b)) (nodup_filter l i hn) ha.2 ?_ ?_
    · cases hb : empty b with
      | true => simp only [hb, if_true, Nat.add_zero] at hc; simp only [step, hb, if_true]; rw [← hc]; exact h
      | false =>
        simp only [hb, Bool.false_eq_true, if_false] at hc
        simp only [step, hb, Bool.false_eq_true, if_false]
        rw [drop_tail_eq, ← hc]; exact h
    · cases hb : empty b with
      | true => simp only [hb, if_true, Nat.add_zero] at hc; simp only [step, hb, if_true]; omega
      | false =>
        simp only [hb, Bool.false_eq_true, if_false] at hc
        simp only [step, hb, Bool.false_eq_true, if_false, List.length_tail]; omega

/-- C139.  However blocks overlap, what was there before is never lost, and once all of them have been left, all is as it was before. -/
theorem C139_restored (empty : F → Bool) (base : List F) (ops : List (Op F)) (ha : Allowed [] ops) :
    base <:+ run empty base ops ∧ (live [] ops = [] → run empty base ops = base) := by
  obtain ⟨h, h'⟩ := run_overlap empty base ops [] base (by simp) ha (by simp) (by simp)
  refine ⟨⟨(run empty base ops).take ((live [] ops).filter (fun e => !empty e.2)).length, ?_⟩, fun hl => ?_⟩
  · have := List.take_append_drop ((live [] ops).filter (fun e => !empty e.2)).length (run empty base ops)
    rwa [h] at this
  simpa [hl] using h

/-- C139 refuted for blocks that overlap: two generators enter their blocks one after the other, and then the first leaves its block.  What the second has bound is gone while its block is in
effect, and what the first has bound stays. -/
theorem C139_overlap_refuted (empty : F → Bool) (has : F → Option R) (base : List F) (b c : F) (x y : R) (hb : empty b = false) (hc : empty c = false)
    (hx : has b = some x) (hy : has c = some y) :
    let ops := [.enter 1 b, .enter 2 c, .leave 1 b]
    Allowed [] ops ∧ live [] ops = [(2, c)] ∧ find has (run empty base ops) = some x := by
  refine ⟨by simp [Allowed], by simp [live], by simp [run, step, hb, hc, find, hx]⟩

/-- C139.  Blocks in different threads do not matter to each other, however they overlap. -/
theorem C139_threads (empty : F → Bool) (stacks : Nat → List F) (ops : List (Nat × Op F)) (t : Nat) :
    runThreads empty stacks ops t = run empty (stacks t) ((ops.filter (fun o => o.1 = t)).map (·.2)) := by
  induction ops generalizing stacks with
  | nil => rfl
  | cons o ops ih =>
    rw [runThreads, List.foldl_cons]
    refine (ih _).trans ?_
    by_cases h : o.1 = t
    · simp [h, run]
    · have h' : ¬ t = o.1 := fun e => h e.symm
      simp [h, h', run]

/-- C139 refuted for a block of dynamic variables that is entered in one thread and left in another, as by a generator that is handed over: what it has bound stays in the first thread for good, and in
the second the innermost block in effect loses its bindings. -/
theorem C139_thread_refuted (empty : F → Bool) (b c : F) (hb : empty b = false) (hc : empty c = false) :
    runThreads empty (fun _ => []) [(0, .enter 1 b), (1, .enter 2 c), (1, .leave 1 b)] 0 = [b] ∧
    runThreads empty (fun _ => []) [(0, .enter 1 b), (1, .enter 2 c), (1, .leave 1 b)] 1 = [] := by
  simp [runThreads, step, hb, hc]

/-- Dynamic variables: the bindings are dicts, and a block without bindings is passed over. -/
example : find (fun b : List (String × Nat) => (b.find? (·.1 = "a")).map (·.2)) (run List.isEmpty [[("a", 0)]] [.enter 1 [("a", 1)], .enter 2 [], .enter 3 [("b", 2)], .leave 1 [("a", 1)]]) = some 1
    ∧ find (fun b : List (String × Nat) => (b.find? (·.1 = "b")).map (·.2)) (run List.isEmpty [[("a", 0)]] [.enter 1 [("a", 1)], .enter 2 [], .enter 3 [("b", 2)], .leave 1 [("a", 1)]]) = none := by
  decide
example : Allowed (F := Nat) [] [.enter 1 10, .enter 2 20, .leave 2 20, .enter 3 30] ∧ Nested (F := Nat) [] [.enter 1 10, .enter 2 20, .leave 2 20, .enter 3 30]
    ∧ live (F := Nat) [] [.enter 1 10, .enter 2 20, .leave 2 20, .enter 3 30] = [(3, 30), (1, 10)] := by
  simp [Allowed, Nested, live]
example : Allowed (F := Nat) [] [.enter 1 10, .enter 2 20, .leave 1 10, .leave 2 20] ∧ live (F := Nat) [] [.enter 1 10, .enter 2 20, .leave 1 10, .leave 2 20] = [] := by
  simp [Allowed, live]

end Unpy.Props
