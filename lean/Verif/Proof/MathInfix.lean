import Verif.Spec.MathInfix
import Verif.Props.Mathseq
/-!
# Helper lemmas for infix arithmetic with sequences
-/
namespace Unpy.MathInfix
open Unpy.Mathseq.Spec (At Along)
open Spec
variable {N : Type}

theorem along_iff {t : Mathseq.Tree N} {p : List Nat} {x : N} : Along t p x ↔ ∃ q, q <+: p ∧ At t q x := by
  constructor
  · intro h
    induction h with
    | leaf x p => exact ⟨[], List.nil_prefix, .leaf x⟩
    | node hi _ ih =>
      obtain ⟨q, hq, h⟩ := ih
      exact ⟨_ :: q, (List.cons_prefix_cons).mpr ⟨rfl, hq⟩, .node hi h⟩
  · rintro ⟨q, ⟨r, rfl⟩, h⟩
    induction h with
    | leaf x => exact .leaf x _
    | node hi _ ih => exact .node hi ih

theorem graft_at (t : Mathseq.Tree (Mathseq.Tree N)) (p : List Nat) (z : N) :
    At (graft t) p z ↔ ∃ q r u, p = q ++ r ∧ At t q u ∧ At u r z := by
  induction t generalizing p with
  | leaf u =>
    rw [graft]
    constructor
    · intro h; exact ⟨[], p, u, rfl, .leaf u, h⟩
    · rintro ⟨q, r, u', rfl, h1, h2⟩; cases h1; exact h2
  | node n f ih =>
    rw [graft]
    constructor
    · intro h
      cases h with
      | node hi h =>
        obtain ⟨q, r, u, rfl, h1, h2⟩ := (ih _ _).mp h
        exact ⟨_ :: q, r, u, rfl, .node hi h1, h2⟩
    · rintro ⟨q, r, u, rfl, h1, h2⟩
      cases h1 with
      | node hi h1 => exact .node hi ((ih _ _).mpr ⟨_, r, u, rfl, h1, h2⟩)

theorem leaf_at {x z : N} {p : List Nat} : At (.leaf x) p z ↔ p = [] ∧ z = x := by
  constructor
  · intro h; cases h; exact ⟨rfl, rfl⟩
  · rintro ⟨rfl, rfl⟩; exact .leaf _

theorem prim_at (W : World N) (o : Op) (x y : N) (p : List Nat) (z : N) :
    At (prim W o x y).tree p z ↔ Number W o x y p z := by
  by_cases ho : o = .divmod
  · simp only [prim, Number, ho, if_true, Obj.tree]
    constructor
    · intro h
      cases h with
      | node hi h =>
        rename_i i p
        obtain ⟨rfl, rfl⟩ := leaf_at.mp h
        have := hi 2 rfl
        match i, this with
        | 0, _ => exact .inl ⟨rfl, rfl⟩
        | 1, _ => exact .inr ⟨rfl, rfl⟩
    · rintro (⟨rfl, rfl⟩ | ⟨rfl, rfl⟩)
      · exact .node (by simp) (.leaf _)
      · exact .node (by simp) (.leaf _)
  · simp only [prim, Number, ho, if_false, Obj.tree]
    exact leaf_at

theorem streamBin_tree (op : N → N → Obj N) (a b : Obj N) :
    (streamBin op a b).tree = graft (Mathseq.binop (fun x y => (op x y).tree) a.tree b.tree) := by
  cases a <;> cases b <;> rfl

theorem meet_iff {a b : Mathseq.Tree N} {p : List Nat} {x y : N} :
    (Along a p x ∧ Along b p y ∧ (At a p x ∨ At b p y)) ↔ Meet (At a) (At b) p x y := by
  constructor
  · rintro ⟨h1, h2, h3 | h3⟩
    · obtain ⟨r, hr, h2⟩ := along_iff.mp h2
      exact ⟨p, r, h3, h2, List.prefix_rfl, hr, .inl rfl⟩
    · obtain ⟨q, hq, h1⟩ := along_iff.mp h1
      exact ⟨q, p, h1, h3, hq, List.prefix_rfl, .inr rfl⟩
  · rintro ⟨q, r, h1, h2, hq, hr, h⟩
    refine ⟨along_iff.mpr ⟨q, hq, h1⟩, along_iff.mpr ⟨r, hr, h2⟩, ?_⟩
    rcases h with rfl | rfl
    · exact .inl h1
    · exact .inr h2

theorem streamBin_at (op : N → N → Obj N) (a b : Obj N) (p : List Nat) (z : N) :
    At (streamBin op a b).tree p z ↔
      ∃ q r x y, p = q ++ r ∧ Meet (At a.tree) (At b.tree) q x y ∧ At (op x y).tree r z := by
  rw [streamBin_tree, graft_at]
  constructor
  · rintro ⟨q, r, u, hp, h1, h2⟩
    obtain ⟨x, y, h3, h4, h5, rfl⟩ := (Props.C57_binop _ _ _ _ _).mp h1
    exact ⟨q, r, x, y, hp, meet_iff.mp ⟨h3, h4, h5⟩, h2⟩
  · rintro ⟨q, r, x, y, hp, h1, h2⟩
    obtain ⟨h3, h4, h5⟩ := meet_iff.mpr h1
    exact ⟨q, r, _, hp, (Props.C57_binop _ _ _ _ _).mpr ⟨x, y, h3, h4, h5, rfl⟩, h2⟩

theorem streamUn_at (op : N → N) (a : Obj N) (p : List Nat) (z : N) :
    At (streamUn op a).tree p z ↔ ∃ x, At a.tree p x ∧ z = op x := by
  have : (streamUn op a).tree = Mathseq.unop op a.tree := by cases a <;> rfl
  rw [this, Props.C57_unop]

theorem streamUn_length (op : N → N) (a : Obj N) : lengthOf (streamUn op a) = lengthOf a := by cases a <;> rfl

theorem streamBin_length (op : N → N → Obj N) (a b : Obj N) :
    lengthOf (streamBin op a b) = match a, b with
      | .num x, .num y => lengthOf (op x y)
      | _, _ => shorter (lengthOf a) (lengthOf b) := by
  cases a with
  | num x => cases b <;> rfl
  | iter m n f =>
    cases b with
    | num y => cases n <;> rfl
    | iter m' n' f' =>
      cases n <;> cases n' <;> simp [streamBin, Obj.tree, Mathseq.binop, graft, mathify, lengthOf, shorter, Mathseq.minLen, Nat.min_def]

theorem prim_length (W : World N) (o : Op) (x y : N) : lengthOf (prim W o x y) = if o = .divmod then some (some 2) else none := by
  by_cases h : o = .divmod <;> simp [prim, h, lengthOf]

theorem sBin_length (W : World N) (o : Op) (a b : Obj N) :
    lengthOf (sBin W o a b) = match shorter (lengthOf a) (lengthOf b) with
      | none => if o = .divmod then some (some 2) else none
      | some n => some n := by
  rw [sBin, streamBin_length]
  cases a with
  | num x =>
    cases b with
    | num y => simpa [lengthOf, shorter] using prim_length W o x y
    | iter m n f => simp [lengthOf, shorter]
  | iter m n f =>
    cases b with
    | num y => cases n <;> simp [lengthOf, shorter]
    | iter m' n' f' => cases n <;> cases n' <;> simp [lengthOf, shorter]

theorem meet_swap {A B : List Nat → N → Prop} {p : List Nat} {x y : N} : Meet A B p x y ↔ Meet B A p y x :=
  ⟨fun ⟨q, r, h1, h2, h3, h4, h5⟩ => ⟨r, q, h2, h1, h4, h3, h5.symm⟩,
   fun ⟨q, r, h1, h2, h3, h4, h5⟩ => ⟨r, q, h2, h1, h4, h3, h5.symm⟩⟩

theorem sBin_at (W : World N) (o : Op) (a b : Obj N) (p : List Nat) (z : N) :
    At (sBin W o a b).tree p z ↔
      ∃ q r x y, p = q ++ r ∧ Meet (At a.tree) (At b.tree) q x y ∧ Number W o x y r z := by
  simp only [sBin, streamBin_at, prim_at]

theorem method_eq (W : World N) (o : Op) (a b : Obj N) : method W o a b = sBin W o a b := by cases o <;> rfl

theorem shorter_comm (m n : Option (Option Nat)) : shorter m n = shorter n m := by
  rcases m with _ | _ | m <;> rcases n with _ | _ | n <;> simp [shorter]
  by_cases h : m ≤ n
  · by_cases h' : n ≤ m <;> simp [h, h']; omega
  · have h' : n ≤ m := by omega
    simp [h, h']

/-- The mirrored comparison, where it is the same for numbers. -/
theorem flip_at (W : World N) (o o' : Op) (ho : o ≠ .divmod) (ho' : o' ≠ .divmod)
    (h : ∀ x y, W.num o' y x = W.num o x y) (a b : Obj N) :
    lengthOf (sBin W o' b a) = lengthOf (sBin W o a b) ∧
    ∀ p z, At (sBin W o' b a).tree p z ↔ At (sBin W o a b).tree p z := by
  constructor
  · rw [sBin_length, sBin_length, shorter_comm]; simp [ho, ho']
  · intro p z
    simp only [sBin_at, Number, ho, ho', if_false]
    constructor
    · rintro ⟨q, r, x, y, hp, hm, hr, rfl⟩
      exact ⟨q, r, y, x, hp, meet_swap.mp hm, hr, h y x⟩
    · rintro ⟨q, r, x, y, hp, hm, hr, rfl⟩
      exact ⟨q, r, y, x, hp, meet_swap.mp hm, hr, (h x y).symm⟩

theorem rmethod_at (W : World N) (o : Op) (a b : Obj N)
    (h : Mirrored W ∨ o ∉ [.lt, .le, .eq, .ne, .ge, .gt]) :
    lengthOf (rmethod W o b a) = lengthOf (sBin W o a b) ∧
    ∀ p z, At (rmethod W o b a).tree p z ↔ At (sBin W o a b).tree p z := by
  rcases h with h | h
  · obtain ⟨h1, h2, h3, h4⟩ := h
    cases o <;> first | exact ⟨rfl, fun _ _ => Iff.rfl⟩ | simp only [rmethod, method_eq]
    · exact flip_at W _ _ (by decide) (by decide) (fun x y => h1 y x) a b
    · exact flip_at W _ _ (by decide) (by decide) (fun x y => h2 y x) a b
    · exact flip_at W _ _ (by decide) (by decide) (fun x y => h3 y x) a b
    · exact flip_at W _ _ (by decide) (by decide) (fun x y => h4 y x) a b
    · exact flip_at W _ _ (by decide) (by decide) (fun x y => (h2 x y).symm) a b
    · exact flip_at W _ _ (by decide) (by decide) (fun x y => (h1 x y).symm) a b
  · cases o <;> first | exact ⟨rfl, fun _ _ => Iff.rfl⟩ | exact absurd (by decide) h

end Unpy.MathInfix
