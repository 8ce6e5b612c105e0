import Verif.Proof.MathInfix
/-!
# Property C160: infix arithmetic with mathematical sequences
-/
namespace Unpy.Props
open Unpy Unpy.MathInfix Unpy.MathInfix.Spec
open Unpy.Mathseq.Spec (At)
variable {N : Type}

private theorem kind_of_math {a : Obj N} : Kind.of a = .math ↔ ∃ n f, a = .iter true n f := by
  rcases a with x | ⟨_ | _, n, f⟩ <;> simp [Kind.of]

private theorem kind_of_num {a : Obj N} : Kind.of a = .num ↔ ∃ x, a = .num x := by
  rcases a with x | ⟨_ | _, n, f⟩ <;> simp [Kind.of]

private theorem sBin_kind (W : World N) (o : Op) (a b : Obj N) :
    Kind.of (sBin W o a b) = match Kind.of a, Kind.of b with
      | .num, .num => if o = .divmod then .plain else .num
      | _, _ => .math := by
  rcases a with x | ⟨_ | _, n, f⟩ <;> rcases b with y | ⟨_ | _, n', f'⟩ <;>
    simp [sBin, streamBin, Kind.of, Obj.tree, Mathseq.binop, Mathseq.binopLeft, graft, mathify]
  by_cases h : o = .divmod <;> simp [prim, h]

/-- A binary operator: what it returns has the numbers, the length and the kind that the function form has. -/
private theorem binary_at (W : World N) (o : Op) (a b : Obj N)
    (hk : Kind.of a = .math ∨ Kind.of b = .math ∨ (Kind.of a = .num ∧ Kind.of b = .num))
    (h : Mirrored W ∨ (o ∈ [.lt, .le, .eq, .ne, .ge, .gt] → Kind.of b = .math → Kind.of a = .math)) :
    ∃ v, binary W o a b = .ok v ∧ Kind.of v = Kind.of (sBin W o a b) ∧ lengthOf v = lengthOf (sBin W o a b) ∧
      ∀ p z, At v.tree p z ↔ At (sBin W o a b).tree p z := by
  by_cases ha : Kind.of a = .math
  · obtain ⟨n, f, rfl⟩ := kind_of_math.mp ha
    exact ⟨_, rfl, by rw [method_eq], by rw [method_eq], fun p z => by rw [method_eq]⟩
  · by_cases hb : Kind.of b = .math
    · obtain ⟨n, f, rfl⟩ := kind_of_math.mp hb
      have hr : Mirrored W ∨ o ∉ [.lt, .le, .eq, .ne, .ge, .gt] := by
        rcases h with h | h
        · exact .inl h
        · exact .inr fun ho => ha (h ho hb)
      refine ⟨rmethod W o (.iter true n f) a, ?_, ?_, rmethod_at W o a _ hr⟩
      · rcases a with x | ⟨_ | _, n', f'⟩
        · rfl
        · rfl
        · exact absurd rfl ha
      · rw [sBin_kind]
        cases o <;> simp only [rmethod, method_eq, sBin_kind] <;> rcases a with x | ⟨_ | _, n', f'⟩ <;> rfl
    · obtain ⟨h1, h2⟩ : Kind.of a = .num ∧ Kind.of b = .num := by
        rcases hk with hk | hk | hk
        · exact absurd hk ha
        · exact absurd hk hb
        · exact hk
      obtain ⟨x, rfl⟩ := kind_of_num.mp h1
      obtain ⟨y, rfl⟩ := kind_of_num.mp h2
      exact ⟨_, rfl, rfl, rfl, fun _ _ => Iff.rfl⟩

private theorem term_bin {W : World N} {ρ : Nat → Obj N} {o : Op} {a b : Ex N} {x y v : Obj N}
    (hx : ∀ p z, At x.tree p z ↔ Term W ρ a p z) (hy : ∀ p z, At y.tree p z ↔ Term W ρ b p z)
    (hv : ∀ p z, At v.tree p z ↔ At (sBin W o x y).tree p z) (p : List Nat) (z : N) :
    At v.tree p z ↔ Term W ρ (.bin o a b) p z := by
  rw [hv, sBin_at]
  simp only [Term, Meet, hx, hy]

/-- C160: an expression with infix operators (and function forms such as `sadd`), in which each operation has an operand with math support or two numbers: it is evaluated without an
exception; the result has math support if an operand has; its length is that of the shortest sequence; and the numbers in it, at all depths, are those of the operation applied to
the numbers that meet there, in the order in which they are written, with numbers repeated for all places of a sequence.
(Missing: comparisons whose left operand has no math support, if `x > y` is not the same as `y < x`: `C160_mirror_refuted`; chained comparisons and `not`: `C160_chain_refuted`,
`C160_truth_refuted`; and `pow` with three arguments and a number first: `C160_pow3_refuted`.) -/
theorem C160_terms_partial (W : World N) (ρ : Nat → Obj N) (e : Ex N) (k : Kind) (hk : kind ρ e = some k)
    (hm : Mirrored W ∨ LeftMath ρ e) :
    ∃ v, eval W ρ e = .ok v ∧ Kind.of v = k ∧ lengthOf v = length ρ e ∧ ∀ p z, At v.tree p z ↔ Term W ρ e p z := by
  induction e generalizing k with
  | name i =>
    simp only [kind, Option.some.injEq] at hk
    exact ⟨ρ i, rfl, hk, rfl, fun _ _ => Iff.rfl⟩
  | bin o a b iha ihb =>
    obtain ⟨ka, ha⟩ : ∃ ka, kind ρ a = some ka := by
      cases h : kind ρ a with
      | none => simp [kind, h] at hk
      | some ka => exact ⟨ka, rfl⟩
    obtain ⟨kb, hb⟩ : ∃ kb, kind ρ b = some kb := by
      cases h : kind ρ b with
      | none => cases ka <;> simp [kind, ha, h] at hk
      | some kb => exact ⟨kb, rfl⟩
    obtain ⟨x, hx1, hx2, hx3, hx4⟩ := iha ka ha (hm.imp id fun h => h.1)
    obtain ⟨y, hy1, hy2, hy3, hy4⟩ := ihb kb hb (hm.imp id fun h => h.2.1)
    obtain ⟨v, hv1, hv2, hv3, hv4⟩ := binary_at W o x y
      (by rw [hx2, hy2]; cases ka <;> cases kb <;> simp [kind, ha, hb] at hk ⊢)
      (hm.imp id fun h ho hb' => by
        have := h.2.2 ho (by rw [hb, ← hy2, hb'])
        rw [ha] at this
        rw [hx2]; exact Option.some.inj this)
    refine ⟨v, by simp [eval, hx1, hy1, bind, Except.bind, hv1], ?_, ?_, fun p z => term_bin hx4 hy4 hv4 p z⟩
    · rw [hv2, sBin_kind, hx2, hy2]
      cases ka <;> cases kb <;> simp [kind, ha, hb] at hk ⊢ <;> exact hk
    · rw [hv3, sBin_length, hx3, hy3]; rfl
  | fn o a b iha ihb =>
    obtain ⟨ka, ha⟩ : ∃ ka, kind ρ a = some ka := by
      cases h : kind ρ a with
      | none => simp [kind, h] at hk
      | some ka => exact ⟨ka, rfl⟩
    obtain ⟨kb, hb⟩ : ∃ kb, kind ρ b = some kb := by
      cases h : kind ρ b with
      | none => cases ka <;> simp [kind, ha, h] at hk
      | some kb => exact ⟨kb, rfl⟩
    obtain ⟨x, hx1, hx2, hx3, hx4⟩ := iha ka ha (hm.imp id fun h => h.1)
    obtain ⟨y, hy1, hy2, hy3, hy4⟩ := ihb kb hb (hm.imp id fun h => h.2)
    refine ⟨sBin W o x y, by simp [eval, hx1, hy1, bind, Except.bind], ?_, ?_, fun p z => ?_⟩
    · rw [sBin_kind, hx2, hy2]
      cases ka <;> cases kb <;> simp [kind, ha, hb] at hk ⊢ <;> exact hk
    · rw [sBin_length, hx3, hy3]; rfl
    · have := term_bin (o := o) hx4 hy4 (fun _ _ => Iff.rfl) p z
      rw [this]; simp only [Term]
  | pow3 a b m iha ihb =>
    obtain ⟨ka, ha⟩ : ∃ ka, kind ρ a = some ka := by
      cases h : kind ρ a with
      | none => simp [kind, h] at hk
      | some ka => exact ⟨ka, rfl⟩
    obtain ⟨kb, hb⟩ : ∃ kb, kind ρ b = some kb := by
      cases h : kind ρ b with
      | none => cases ka <;> simp [kind, ha, h] at hk
      | some kb => exact ⟨kb, rfl⟩
    obtain ⟨x, hx1, hx2, hx3, hx4⟩ := iha ka ha (hm.imp id fun h => h.1)
    obtain ⟨y, hy1, hy2, hy3, hy4⟩ := ihb kb hb (hm.imp id fun h => h.2)
    have hat : ∀ p z, At (spow3 W x y m).tree p z ↔ Term W ρ (.pow3 a b m) p z := by
      intro p z
      rw [spow3, streamBin_at]
      simp only [Term, Meet, hx4, hy4, show ∀ x : N, (Obj.num x).tree = .leaf x from fun _ => rfl, leaf_at]
      constructor
      · rintro ⟨q, r, x', y', rfl, h, rfl, rfl⟩; exact ⟨x', y', by simpa using h, rfl⟩
      · rintro ⟨x', y', h, rfl⟩; exact ⟨p, [], x', y', by simp, h, rfl, rfl⟩
    cases ka with
    | math =>
      obtain ⟨n, f, rfl⟩ := kind_of_math.mp hx2
      refine ⟨spow3 W (.iter true n f) y m, by simp [eval, hx1, hy1, bind, Except.bind, pow3], ?_, ?_, hat⟩
      · have : k = .math := by simpa [kind, ha, hb] using hk.symm
        rw [this]; cases y <;> rfl
      · rw [spow3, streamBin_length]; simp only [length, ← hx3, ← hy3]
    | plain => cases kb <;> simp [kind, ha, hb] at hk
    | num =>
      cases kb with
      | math => simp [kind, ha, hb] at hk
      | plain => simp [kind, ha, hb] at hk
      | num =>
        obtain ⟨x, rfl⟩ := kind_of_num.mp hx2
        obtain ⟨y, rfl⟩ := kind_of_num.mp hy2
        refine ⟨spow3 W (.num x) (.num y) m, by simp [eval, hx1, hy1, bind, Except.bind, pow3, spow3, streamBin], ?_, ?_, hat⟩
        · have : k = .num := by simpa [kind, ha, hb] using hk.symm
          rw [this]; rfl
        · simp only [length, ← hx3, ← hy3]; rfl
  | un o a iha =>
    cases ha : kind ρ a with
    | none => simp [kind, ha] at hk
    | some ka =>
      obtain ⟨x, hx1, hx2, hx3, hx4⟩ := iha ka ha (hm.imp id fun h => h)
      have hat : ∀ p z, At (sUn W o x).tree p z ↔ Term W ρ (.un o a) p z := by
        intro p z; rw [sUn, streamUn_at]; simp only [Term, hx4]
      have hl : lengthOf (sUn W o x) = length ρ (.un o a) := by rw [sUn, streamUn_length, hx3]; rfl
      cases ka with
      | plain => simp [kind, ha] at hk
      | math =>
        obtain ⟨n, f, rfl⟩ := kind_of_math.mp hx2
        exact ⟨sUn W o (.iter true n f), by simp only [eval, hx1, bind, Except.bind]; rfl, Eq.trans (b := Kind.math) rfl (by simpa [kind, ha] using hk), hl, hat⟩
      | num =>
        obtain ⟨x, rfl⟩ := kind_of_num.mp hx2
        exact ⟨sUn W o (.num x), by simp only [eval, hx1, bind, Except.bind]; rfl, Eq.trans (b := Kind.num) rfl (by simpa [kind, ha] using hk), hl, hat⟩
  | round2 a d iha =>
    cases ha : kind ρ a with
    | none => simp [kind, ha] at hk
    | some ka =>
      obtain ⟨x, hx1, hx2, hx3, hx4⟩ := iha ka ha (hm.imp id fun h => h)
      have hat : ∀ p z, At (sround2 W x d).tree p z ↔ Term W ρ (.round2 a d) p z := by
        intro p z; rw [sround2, streamUn_at]; simp only [Term, hx4]
      have hl : lengthOf (sround2 W x d) = length ρ (.round2 a d) := by rw [sround2, streamUn_length, hx3]; rfl
      cases ka with
      | plain => simp [kind, ha] at hk
      | math =>
        obtain ⟨n, f, rfl⟩ := kind_of_math.mp hx2
        exact ⟨sround2 W (.iter true n f) d, by simp only [eval, hx1, bind, Except.bind]; rfl, Eq.trans (b := Kind.math) rfl (by simpa [kind, ha] using hk), hl, hat⟩
      | num =>
        obtain ⟨x, rfl⟩ := kind_of_num.mp hx2
        exact ⟨sround2 W (.num x) d, by simp only [eval, hx1, bind, Except.bind]; rfl, Eq.trans (b := Kind.num) rfl (by simpa [kind, ha] using hk), hl, hat⟩
  | chain => simp [kind] at hk
  | not => simp [kind] at hk

/-- Names: 0 is the number 10, 1 is `imathify` of 0, 1, 2, ..., and 2 is the list `[3, 4]`. -/
private def env : Nat → Obj Int
  | 0 => .num 10
  | 1 => .iter true none (fun i => .leaf i)
  | _ => .iter false (some 2) (fun i => .leaf (i + 3))

/-- `(10 - m - [3, 4])[1]` is `10 - 1 - 4`, and `divmod(10, [3, 4] + m)[1][0]` is `10 // 5`. -/
example :
    (∃ v, eval ints env (.bin .sub (.bin .sub (.name 0) (.name 1)) (.name 2)) = .ok v ∧ Kind.of v = .math ∧
      lengthOf v = some (some 2) ∧ At v.tree [1] (10 - 1 - 4)) ∧
    (∃ v, eval ints env (.bin .divmod (.name 0) (.bin .add (.name 2) (.name 1))) = .ok v ∧ At v.tree [1, 0] 2) := by
  refine ⟨?_, ?_⟩
  · obtain ⟨v, h1, h2, h3, h4⟩ := C160_terms_partial ints env (.bin .sub (.bin .sub (.name 0) (.name 1)) (.name 2)) .math rfl
      (.inr ⟨⟨trivial, trivial, by decide⟩, trivial, by decide⟩)
    refine ⟨v, h1, h2, h3, (h4 _ _).mpr ?_⟩
    refine ⟨[1], [], 9, 4, rfl, ⟨[1], [1], ?_, ?_, List.prefix_rfl, List.prefix_rfl, .inl rfl⟩, rfl, rfl⟩
    · exact ⟨[1], [], 10, 1, rfl, ⟨[], [1], .leaf _, .node (by simp) (.leaf 1), List.nil_prefix, List.prefix_rfl, .inr rfl⟩, rfl, rfl⟩
    · exact .node (by simp) (.leaf 4)
  · obtain ⟨v, h1, h2, h3, h4⟩ := C160_terms_partial ints env (.bin .divmod (.name 0) (.bin .add (.name 2) (.name 1))) .math rfl
      (.inr ⟨trivial, ⟨trivial, trivial, by decide⟩, by decide⟩)
    refine ⟨v, h1, (h4 _ _).mpr ?_⟩
    refine ⟨[1], [0], 10, 5, rfl, ⟨[], [1], .leaf _, ?_, List.nil_prefix, List.prefix_rfl, .inr rfl⟩, .inl ⟨rfl, rfl⟩⟩
    exact ⟨[1], [], 4, 1, rfl, ⟨[1], [1], .node (by simp) (.leaf 4), .node (by simp) (.leaf 1), List.prefix_rfl, List.prefix_rfl, .inl rfl⟩, rfl, rfl⟩

/-- C160: a function form such as `ssub` does the same for any two operands, with math support or without, and whatever the comparisons are; the result has math support if one of them is iterable. -/
theorem C160_functions (W : World N) (o : Op) (a b : Obj N) :
    (Kind.of (sBin W o a b) = .math ↔ Kind.of a ≠ .num ∨ Kind.of b ≠ .num) ∧
    (lengthOf a ≠ none ∨ lengthOf b ≠ none → lengthOf (sBin W o a b) = shorter (lengthOf a) (lengthOf b)) ∧
    ∀ p z, At (sBin W o a b).tree p z ↔
      ∃ q r x y, p = q ++ r ∧ Meet (At a.tree) (At b.tree) q x y ∧ Number W o x y r z := by
  refine ⟨?_, ?_, fun p z => sBin_at W o a b p z⟩
  · rw [sBin_kind]
    rcases a with x | ⟨_ | _, n, f⟩ <;> rcases b with y | ⟨_ | _, n', f'⟩ <;> simp [Kind.of]
    by_cases h : o = .divmod <;> simp [h]
  · intro h
    rw [sBin_length]
    rcases a with x | ⟨m, _ | n, f⟩ <;> rcases b with y | ⟨m', _ | n', f'⟩ <;> simp [lengthOf, shorter] at h ⊢

/-- `ssub([3, 4], 10)[1]` is `4 - 10`. -/
example : At (sBin ints .sub (env 2) (env 0)).tree [1] (-6) :=
  ((C160_functions ints .sub (env 2) (env 0)).2.2 _ _).mpr
    ⟨[1], [], 4, 10, rfl, ⟨[1], [], .node (by simp) (.leaf 4), .leaf _, List.prefix_rfl, List.nil_prefix, .inl rfl⟩, rfl, rfl⟩

/-- C160, refuted: a comparison with the sequence on the right does not call the operator as it is written, but the mirrored one, with the operands swapped: `c < m` has the items `x > c`. -/
theorem C160_mirror_refuted : ∃ (W : World Int) (ρ : Nat → Obj Int) (v : Obj Int),
    eval W ρ (.bin .lt (.name 0) (.name 1)) = .ok v ∧ Kind.of v = .math ∧
    At v.tree [0] (W.num .gt 7 5) ∧ ρ 0 = .num 5 ∧ At (ρ 1).tree [0] 7 ∧
    ¬ At v.tree [0] (W.num .lt 5 7) := by
  refine ⟨{ ints with num := fun o x _ => if o = .lt then x else if o = .gt then x + 100 else 0 },
    fun i => if i = 0 then .num 5 else .iter true (some 1) (fun _ => .leaf 7), _, rfl, rfl, ?_, rfl, .node (by simp) (.leaf 7), ?_⟩
  · exact .node (by simp) (.leaf _)
  · intro h
    cases h with
    | node _ h => exact absurd (leaf_at.mp h).2 (by decide)

/-- C160: a chained comparison `a < b < c` in which `a < b` has math support is `b < c`: what `a < b` is does not matter. -/
theorem C160_chain (W : World N) (ρ : Nat → Obj N) (o1 o2 : Op) (a b c : Ex N) (x y z r : Obj N)
    (ha : eval W ρ a = .ok x) (hb : eval W ρ b = .ok y) (hc : eval W ρ c = .ok z) (hr : binary W o1 x y = .ok r)
    (hm : Kind.of r = .math) : eval W ρ (.chain o1 o2 a b c) = binary W o2 y z := by
  obtain ⟨n, f, rfl⟩ := kind_of_math.mp hm
  simp [eval, ha, hb, hc, hr, bind, Except.bind, truth]

/-- C160, refuted: `a < m < b` is not termwise: for `m = imathify((0,))`, `5 < m < 10` has the item `True`, though `5 < 0 < 10` is false. -/
theorem C160_chain_refuted : ∃ (ρ : Nat → Obj Int) (v : Obj Int),
    ρ 0 = .num 5 ∧ ρ 1 = .iter true (some 1) (fun _ => .leaf 0) ∧ ρ 2 = .num 10 ∧
    eval ints ρ (.chain .lt .lt (.name 0) (.name 1) (.name 2)) = .ok v ∧ At v.tree [0] 1 ∧ ¬ ((5 : Int) < 0 ∧ (0 : Int) < 10) :=
  ⟨fun i => if i = 0 then .num 5 else if i = 1 then .iter true (some 1) (fun _ => .leaf 0) else .num 10, _, rfl, rfl, rfl, rfl,
    .node (by simp) (.leaf 1), by decide⟩

example : eval ints env (.chain .lt .lt (.name 0) (.name 1) (.name 0)) = binary ints .lt (env 1) (env 0) :=
  C160_chain ints env .lt .lt _ _ _ (env 0) (env 1) (env 0) _ rfl rfl rfl rfl rfl

/-- C160: the truth value of a sequence with math support is `True`, whatever is in it; so a condition `a == b` is always true. -/
theorem C160_truth (W : World N) (o : Op) (a b r : Obj N) (hk : Kind.of a = .math ∨ Kind.of b = .math)
    (h : binary W o a b = .ok r) : truth W r = true := by
  have : Kind.of r = .math := by
    rcases a with x | ⟨_ | _, n, f⟩
    · rcases b with y | ⟨_ | _, n', f'⟩
      · simp [Kind.of] at hk
      · simp [Kind.of] at hk
      · simp only [binary, Except.ok.injEq] at h
        subst h
        cases o <;> simp only [rmethod, method_eq, sBin_kind] <;> rfl
    · rcases b with y | ⟨_ | _, n', f'⟩
      · simp [Kind.of] at hk
      · simp [Kind.of] at hk
      · simp only [binary, Except.ok.injEq] at h
        subst h
        cases o <;> simp only [rmethod, method_eq, sBin_kind] <;> rfl
    · simp only [binary, Except.ok.injEq] at h
      subst h
      rw [method_eq, sBin_kind]
      rcases b with y | ⟨_ | _, n', f'⟩ <;> rfl
  obtain ⟨n, f, rfl⟩ := kind_of_math.mp this
  rfl

/-- C160, refuted: `not (a == b)` is false also for sequences that differ at each place. -/
theorem C160_truth_refuted : ∃ (ρ : Nat → Obj Int),
    ρ 0 = .iter true (some 1) (fun _ => .leaf 0) ∧ ρ 1 = .iter true (some 1) (fun _ => .leaf 1) ∧
    eval ints ρ (.not (.bin .eq (.name 0) (.name 1))) = .ok (.num 0) :=
  ⟨fun i => if i = 0 then .iter true (some 1) (fun _ => .leaf 0) else .iter true (some 1) (fun _ => .leaf 1), rfl, rfl, rfl⟩

example : ∃ r, binary ints .eq (env 1) (env 0) = .ok r ∧ truth ints r = true :=
  ⟨_, rfl, C160_truth ints .eq (env 1) (env 0) _ (.inl rfl) rfl⟩

/-- C160, refuted: `pow(2, m, 5)` raises `TypeError`, though `2 ** m`, `pow(m, 2, 5)` and `spow(2, m, 5)` are termwise. -/
theorem C160_pow3_refuted (W : World N) (ρ : Nat → Obj N) (i j : Nat) (x mod : N) (n : Option Nat) (f : Nat → Mathseq.Tree N)
    (hi : ρ i = .num x) (hj : ρ j = .iter true n f) :
    eval W ρ (.pow3 (.name i) (.name j) mod) = .error .TypeError ∧
    (∃ v, eval W ρ (.bin .pow (.name i) (.name j)) = .ok v) ∧
    (∃ v, eval W ρ (.pow3 (.name j) (.name i) mod) = .ok v) ∧
    ∀ k y, (∀ m, n = some m → k < m) → f k = .leaf y → At (spow3 W (ρ i) (ρ j) mod).tree [k] (W.pow3 x y mod) := by
  refine ⟨by simp [eval, hi, hj, bind, Except.bind, MathInfix.pow3], ⟨_, by simp only [eval, hi, hj, bind, Except.bind]; rfl⟩,
    ⟨_, by simp only [eval, hi, hj, bind, Except.bind]; rfl⟩, fun k y hk hf => ?_⟩
  rw [hi, hj, spow3, streamBin_at]
  exact ⟨[k], [], x, y, rfl, ⟨[], [k], .leaf x, .node hk (hf ▸ .leaf y), List.nil_prefix, List.prefix_rfl, .inr rfl⟩, .leaf _⟩

example : eval ints env (.pow3 (.name 0) (.name 1) 7) = .error .TypeError :=
  (C160_pow3_refuted ints env 0 1 10 7 _ _ rfl rfl).1

end Unpy.Props
