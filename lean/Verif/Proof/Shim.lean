import Verif.Spec.Shim
/-!
# Boxes and shims: helper lemmas
-/
namespace Unpy.Proof.Shim
open Unpy.Shim Unpy.Spec.Shim

theorem eq_core (a b : V) : eq a b = decide (core a = core b) := by
  fun_induction eq a b with
  | case1 x y ih => rw [ih]; rfl
  | case2 x b h ih => rw [ih]; exact decide_eq_decide.2 ⟨fun h => h.symm, fun h => h.symm⟩
  | case3 x b ih => rw [ih]; exact decide_eq_decide.2 ⟨fun h => h.symm, fun h => h.symm⟩
  | case4 x b ih => rw [ih]; exact decide_eq_decide.2 ⟨fun h => h.symm, fun h => h.symm⟩
  | case5 m n => simp only [core]; exact Bool.beq_eq_decide_eq m n
  | case6 m y ih => rw [ih]; rfl
  | case7 m y ih => rw [ih]; rfl
  | case8 m y ih => rw [ih]; rfl

theorem primary_box (s : Shim) : s.box = primary s := by cases s <;> rfl

/-- The state agrees with the history. -/
structure Agree (c : Static) (i : Init) (h : List Op) (w : W) : Prop where
  glob : ∀ b, c.isLocal b = false → ∀ t, content c.isLocal i.x h t b = some (w.x b)
  loc : ∀ b, c.isLocal b = true → ∀ t, content c.isLocal i.x h t b = w.storage b t
  dflt : ∀ b, c.isLocal b = true → default i.x h b = w.x b
  attrs : ∀ o k, attr c.isLocal i h o k = w.attrs o k

theorem Agree.get {c : Static} {i : Init} {h : List Op} {w : W} (ha : Agree c i h w) (t : Thread) (b : Box) : w.get c t b = inBox c.isLocal i.x h t b := by
  unfold W.get inBox
  cases hl : c.isLocal b with
  | false => rw [ha.glob b hl]; rfl
  | true => rw [ha.loc b hl, ha.dflt b hl]; rfl

theorem agree_init (c : Static) (i : Init) : Agree c i [] i.world where
  glob b hb t := by simp [content, hb, Init.world]
  loc b hb t := by simp [content, hb, Init.world]
  dflt b hb := rfl
  attrs o k := rfl

theorem agree_step {c : Static} {i : Init} {h : List Op} {w : W} (ha : Agree c i h w) (op : Op) : Agree c i (op :: h) (w.step c op) := by
  cases op with
  | set t b o =>
    cases hl : c.isLocal b with
    | false =>
      simp only [W.step, hl, Bool.false_eq_true, if_false]
      refine ⟨fun b' hb' t' => ?_, fun b' hb' t' => ?_, fun b' hb' => ?_, fun o' k' => ha.attrs o' k'⟩
      · simp only [content, hb', Bool.false_eq_true, false_implies, and_true]
        by_cases he : b = b'
        · simp [he]
        · simp [he, Ne.symm he, ha.glob b' hb' t']
      · have : ¬ b = b' := by rintro rfl; simp [hl] at hb'
        simp [content, this, ha.loc b' hb' t']
      · have : ¬ b' = b := by rintro rfl; simp [hl] at hb'
        simp [Unpy.Spec.Shim.default, this, ha.dflt b' hb']
    | true =>
      simp only [W.step, hl, if_true]
      refine ⟨fun b' hb' t' => ?_, fun b' hb' t' => ?_, fun b' hb' => ?_, fun o' k' => ha.attrs o' k'⟩
      · have : ¬ b = b' := by rintro rfl; simp [hl] at hb'
        simp [content, this, ha.glob b' hb' t']
      · simp only [content, hb', true_implies, ha.loc b' hb' t']
        by_cases he : b = b' ∧ t = t'
        · simp [he.1, he.2]
        · rw [if_neg he, if_neg]
          rintro ⟨rfl, rfl⟩; exact he ⟨rfl, rfl⟩
      · simp [Unpy.Spec.Shim.default, ha.dflt b' hb']
  | clear t b =>
    cases hl : c.isLocal b with
    | false =>
      simp only [W.step, hl, Bool.false_eq_true, if_false]
      refine ⟨fun b' hb' t' => ?_, fun b' hb' t' => ?_, fun b' hb' => ha.dflt b' hb', fun o' k' => ha.attrs o' k'⟩
      · simp [content, hb', ha.glob b' hb' t']
      · have : ¬ b = b' := by rintro rfl; simp [hl] at hb'
        simp [content, this, ha.loc b' hb' t']
    | true =>
      simp only [W.step, hl, if_true]
      refine ⟨fun b' hb' t' => ?_, fun b' hb' t' => ?_, fun b' hb' => ha.dflt b' hb', fun o' k' => ha.attrs o' k'⟩
      · simp [content, hb', ha.glob b' hb' t']
      · simp only [content, hb', and_true, ha.loc b' hb' t']
        by_cases he : b = b' ∧ t = t'
        · simp [he.1, he.2]
        · rw [if_neg he, if_neg]
          rintro ⟨rfl, rfl⟩; exact he ⟨rfl, rfl⟩
  | setdefault b o =>
    cases hl : c.isLocal b with
    | false =>
      simp only [W.step, hl, Bool.false_eq_true, if_false]
      refine ⟨fun b' hb' t' => ha.glob b' hb' t', fun b' hb' t' => ha.loc b' hb' t', fun b' hb' => ?_, fun o' k' => ha.attrs o' k'⟩
      have : ¬ b = b' := by rintro rfl; simp [hl] at hb'
      simp [Unpy.Spec.Shim.default, this, ha.dflt b' hb']
    | true =>
      simp only [W.step, hl, if_true]
      refine ⟨fun b' hb' t' => ?_, fun b' hb' t' => ha.loc b' hb' t', fun b' hb' => ?_, fun o' k' => ha.attrs o' k'⟩
      · have : ¬ b' = b := by rintro rfl; simp [hl] at hb'
        simp [content, this, ha.glob b' hb' t']
      · simp only [Unpy.Spec.Shim.default]
        by_cases he : b = b'
        · simp [he]
        · simp [he, Ne.symm he, ha.dflt b' hb']
  | setattr o k v =>
    refine ⟨fun b' hb' t' => ha.glob b' hb' t', fun b' hb' t' => ha.loc b' hb' t', fun b' hb' => ha.dflt b' hb', fun o' k' => ?_⟩
    simp only [attr, W.step, W.put, ha.attrs o' k']
    by_cases he : o = o' ∧ k = k'
    · simp [he.1, he.2]
    · rw [if_neg he, if_neg]
      rintro ⟨rfl, rfl⟩; exact he ⟨rfl, rfl⟩
  | setattrShim t s k v =>
    refine ⟨fun b' hb' t' => ha.glob b' hb' t', fun b' hb' t' => ha.loc b' hb' t', fun b' hb' => ha.dflt b' hb', fun o' k' => ?_⟩
    simp only [attr, W.step, W.put, ha.attrs o' k', primary_box, ha.get]
    by_cases he : inBox c.isLocal i.x h t (primary s) = o' ∧ k = k'
    · simp [he.1, he.2]
    · rw [if_neg he, if_neg]
      rintro ⟨rfl, rfl⟩; exact he ⟨rfl, rfl⟩

theorem agree_run (c : Static) (i : Init) (ops : List Op) : Agree c i ops.reverse (run c i ops) := by
  have : ∀ (ops : List Op) (h : List Op) (w : W), Agree c i h w → Agree c i (ops.reverse ++ h) (ops.foldl (W.step c) w) := by
    intro ops
    induction ops with
    | nil => intro h w ha; exact ha
    | cons op ops ih =>
      intro h w ha
      have := ih (op :: h) (w.step c op) (agree_step ha op)
      simpa using this
  simpa [run] using this ops [] i.world (agree_init c i)

theorem getattr_first (c : Static) (w : W) (t : Thread) (k : String) (hk : k ∉ ownNames) : ∀ s : Shim, (∀ o ∈ bare s, c.falsy o = false) →
    w.getattr c t k s = firstOf w.attrs k (tried (w.get c t) s)
  | .single b, _ => by
    simp only [W.getattr, hk, if_false, tried, firstOf]
    cases w.attrs (w.get c t b) k <;> rfl
  | .object b o, h => by
    simp only [W.getattr, hk, if_false, tried, firstOf, h o (by simp [bare])]
    cases w.attrs (w.get c t b) k with
    | some v => rfl
    | none => cases w.attrs o k <;> rfl
  | .boxed b d, _ => by
    simp only [W.getattr, hk, if_false, tried, firstOf]
    cases w.attrs (w.get c t b) k with
    | some v => rfl
    | none => cases w.attrs (w.get c t d) k <;> rfl
  | .shim b s, h => by
    simp only [W.getattr, hk, if_false, tried, firstOf]
    cases w.attrs (w.get c t b) k with
    | some v => rfl
    | none => exact getattr_first c w t k hk s fun o ho => h o (by simpa [bare] using ho)

end Unpy.Proof.Shim
