import Verif.Spec.Numutil
namespace Unpy.Numutil
open Unpy Spec

/-- Append what `step` gives for the next item. -/
def addTo {α β : Type} (step : α → Except PyErr (List β)) (acc : Except PyErr (List β)) (k : α) :
    Except PyErr (List β) :=
  match acc with
  | .error e => .error e
  | .ok out => match step k with
    | .error e => .error e
    | .ok items => .ok (out ++ items)

theorem foldl_ok {α β : Type} (step : α → Except PyErr (List β)) (g : α → List β) (ks : List α)
    (h : ∀ k ∈ ks, step k = .ok (g k)) : ∀ out,
    ks.foldl (addTo step) (.ok out) = (.ok (out ++ ks.flatMap g) : Except PyErr (List β)) := by
  induction ks with
  | nil => simp
  | cons k ks ih =>
    intro out
    rw [List.foldl_cons]
    simp only [addTo, h k (by simp)]
    rw [ih (fun k' hk' => h k' (by simp [hk']))]
    simp

/-- What one component contributes. -/
def contrib (fuel : Nat) (n : Int) (components : List Int) (k : Int) : Except PyErr (List (List Int)) :=
  if n - k = 0 then .ok [[k]]
  else match customAux fuel (n - k) (components.filter (fun x => decide (x ≤ n - k))) with
    | .error e => .error e
    | .ok items => .ok (items.map (fun item => k :: item))

theorem customAux_succ (fuel : Nat) (n : Int) (components : List Int) (hn : 1 ≤ n)
    (hc : ∀ x ∈ components, 1 ≤ x ∧ x ≤ n) :
    customAux (fuel + 1) n components = components.foldl (addTo (contrib fuel n components)) (.ok []) := by
  rw [customAux, if_neg (by omega), if_neg]
  · congr 1
    funext acc k
    cases acc with
    | error e => rfl
    | ok out =>
      simp only [addTo, contrib]
      split
      · rfl
      · split <;> simp_all
  · simp only [List.any_eq_true, not_exists, not_and]
    intro x hx
    simp [hc x hx]

theorem customAux_spec : ∀ (fuel : Nat) (n : Int) (components : List Int), n.toNat < fuel → 1 ≤ n →
    (∀ x ∈ components, 1 ≤ x ∧ x ≤ n) →
    ∃ L, customAux fuel n components = .ok L ∧ (∀ l, l ∈ L ↔ IsComposition (· ∈ components) n l) ∧
      (components.Nodup → L.Nodup) := by
  intro fuel
  induction fuel with
  | zero => intro n c h; omega
  | succ fuel ih =>
    intro n comps hf hn hc
    -- each component
    have hk : ∀ k ∈ comps, ∃ L, contrib fuel n comps k = .ok L ∧
        (∀ l, l ∈ L ↔ ∃ t, l = k :: t ∧ (∀ x ∈ t, x ∈ comps) ∧ t.sum = n - k) ∧ (comps.Nodup → L.Nodup) := by
      intro k hk
      have hck := hc k hk
      unfold contrib
      split
      · rename_i h0
        refine ⟨[[k]], rfl, fun l => ⟨?_, ?_⟩, by simp⟩
        · intro hl; simp at hl; subst hl; exact ⟨[], rfl, by simp, by simp [h0]⟩
        · rintro ⟨t, rfl, h1, h2⟩
          cases t with
          | nil => simp
          | cons a t =>
            exfalso
            rw [h0] at h2
            have hpos : ∀ (t : List Int), (∀ x ∈ t, 1 ≤ x) → 0 ≤ t.sum := by
              intro t ht
              induction t with
              | nil => simp
              | cons b t iht =>
                have := iht (fun x hx => ht x (by simp [hx]))
                have := ht b (by simp)
                simp; omega
            have h3 := hpos t (fun x hx => (hc x (h1 x (by simp [hx]))).1)
            have h4 := (hc a (h1 a (by simp))).1
            simp at h2; omega
      · rename_i h0
        obtain ⟨L, h1, h2, h3⟩ := ih (n - k) (comps.filter (fun x => decide (x ≤ n - k))) (by omega) (by omega)
          (fun x hx => by simp at hx; exact ⟨(hc x hx.1).1, hx.2⟩)
        refine ⟨L.map (fun item => k :: item), by rw [h1], fun l => ⟨?_, ?_⟩, ?_⟩
        · intro hl
          obtain ⟨t, ht, rfl⟩ := List.mem_map.mp hl
          obtain ⟨-, h4, h5⟩ := (h2 t).mp ht
          refine ⟨t, rfl, fun x hx => ?_, h5⟩
          have := h4 x hx
          simp at this; exact this.1
        · rintro ⟨t, rfl, h4, h5⟩
          refine List.mem_map.mpr ⟨t, (h2 t).mpr ⟨?_, ?_, h5⟩, rfl⟩
          · rintro rfl; simp at h5; omega
          · intro x hx
            have hle : ∀ (t : List Int), (∀ x ∈ t, 1 ≤ x) → ∀ x ∈ t, x ≤ t.sum := by
              intro t
              induction t with
              | nil => simp
              | cons b t iht =>
                intro ht x hx
                have hpos : ∀ (t : List Int), (∀ x ∈ t, 1 ≤ x) → 0 ≤ t.sum := by
                  intro t ht
                  induction t with
                  | nil => simp
                  | cons b t iht =>
                    have := iht (fun x hx => ht x (by simp [hx]))
                    have := ht b (by simp)
                    simp; omega
                have h6 := hpos t (fun x hx => ht x (by simp [hx]))
                rcases List.mem_cons.mp hx with rfl | hx
                · simp; omega
                · have := iht (fun x hx => ht x (by simp [hx])) x hx
                  have := ht b (by simp)
                  simp; omega
            have := hle t (fun x hx => (hc x (h4 x hx)).1) x hx
            simp only [List.mem_filter, decide_eq_true_eq]
            exact ⟨h4 x hx, by omega⟩
        · intro hnd
          have := h3 (hnd.filter _)
          exact List.Pairwise.map _ (fun a b hab h => hab (by simpa using h)) this
    let g : Int → List (List Int) := fun k => match contrib fuel n comps k with
      | .ok L => L
      | .error _ => []
    have hg : ∀ k ∈ comps, contrib fuel n comps k = .ok (g k) := by
      intro k hk'
      obtain ⟨L, hL, -⟩ := hk k hk'
      simp only [g, hL]
    refine ⟨comps.flatMap g, ?_, fun l => ⟨?_, ?_⟩, ?_⟩
    · rw [customAux_succ fuel n comps hn hc, foldl_ok _ g comps hg]; rfl
    · intro hl
      obtain ⟨k, hkm, hlk⟩ := List.mem_flatMap.mp hl
      obtain ⟨L, hL, h1, -⟩ := hk k hkm
      have : g k = L := by rw [hg k hkm] at hL; cases hL; rfl
      rw [this] at hlk
      obtain ⟨t, rfl, h2, h3⟩ := (h1 l).mp hlk
      refine ⟨by simp, ?_, by simp; omega⟩
      intro x hx
      rcases List.mem_cons.mp hx with rfl | hx
      · exact hkm
      · exact h2 x hx
    · rintro ⟨hne, h1, h2⟩
      cases l with
      | nil => exact absurd rfl hne
      | cons k t =>
        have hkm := h1 k (by simp)
        refine List.mem_flatMap.mpr ⟨k, hkm, ?_⟩
        obtain ⟨L, hL, h3, -⟩ := hk k hkm
        have : g k = L := by rw [hg k hkm] at hL; cases hL; rfl
        rw [this]
        exact (h3 _).mpr ⟨t, rfl, fun x hx => h1 x (by simp [hx]), by simp at h2; omega⟩
    · intro hnd
      have : ∀ (ks : List Int), (∀ k ∈ ks, k ∈ comps) → ks.Nodup → (ks.flatMap g).Nodup := by
        intro ks
        induction ks with
        | nil => simp
        | cons k ks ihk =>
          intro hsub hn
          rw [List.flatMap_cons]
          rw [List.nodup_cons] at hn
          have hmem : ∀ k ∈ comps, ∀ l ∈ g k, ∃ t, l = k :: t := by
            intro k hk' l hl
            obtain ⟨L, hL, h3, -⟩ := hk k hk'
            have : g k = L := by rw [hg k hk'] at hL; cases hL; rfl
            rw [this] at hl
            obtain ⟨t, rfl, -⟩ := (h3 l).mp hl
            exact ⟨t, rfl⟩
          rw [List.nodup_append]
          refine ⟨?_, ihk (fun k' h => hsub k' (by simp [h])) hn.2, ?_⟩
          · obtain ⟨L, hL, -, h4⟩ := hk k (hsub k (by simp))
            have : g k = L := by rw [hg k (hsub k (by simp))] at hL; cases hL; rfl
            rw [this]; exact h4 hnd
          · intro a ha b hb hab
            subst hab
            obtain ⟨t, rfl⟩ := hmem k (hsub k (by simp)) a ha
            obtain ⟨k', hk', hl⟩ := List.mem_flatMap.mp hb
            obtain ⟨t', ht'⟩ := hmem k' (hsub k' (by simp [hk'])) _ hl
            cases ht'
            exact hn.1 hk'
      exact this comps (fun _ h => h) hnd

theorem mem_downFrom (hi : Int) (k : Nat) (x : Int) : x ∈ downFrom hi k ↔ hi - k < x ∧ x ≤ hi := by
  induction k generalizing hi with
  | zero => simp [downFrom]
  | succ k ih => simp only [downFrom, List.mem_cons, ih]; omega

theorem nodup_downFrom (hi : Int) (k : Nat) : (downFrom hi k).Nodup := by
  induction k generalizing hi with
  | zero => simp [downFrom]
  | succ k ih =>
    rw [downFrom, List.nodup_cons, mem_downFrom]
    exact ⟨by omega, ih _⟩

theorem triangular_step (k : Nat) (s : Int) (h : 2 * s = k * (k + 1)) : 2 * (s + (k + 1)) = (k + 1 : Nat) * ((k + 1 : Nat) + 1) := by
  have : ((k + 1 : Nat) : Int) * ((k + 1 : Nat) + 1) = (k : Int) * (k + 1) + 2 * (k + 1) := by
    rw [Int.mul_comm, Int.natCast_add, Int.natCast_one, Int.add_assoc, Int.add_mul]
    rfl
  omega

/-- From row `k` on: the triangular numbers of rows `j ≥ k` up to `n`, strictly increasing. -/
theorem triangularUpto_spec (n : Int) : ∀ (fuel : Nat) (k : Nat) (s : Int), 1 ≤ k → 2 * s = k * (k + 1) →
    (n - s + 1).toNat ≤ fuel →
    (∀ m, m ∈ triangularUpto n fuel s (k + 1) ↔ m ≤ n ∧ ∃ j : Nat, k ≤ j ∧ 2 * m = j * (j + 1)) ∧
    (triangularUpto n fuel s (k + 1)).Nodup := by
  have mono : ∀ (j k : Nat), k ≤ j → (k : Int) * (k + 1) ≤ j * (j + 1) := by
    intro j k h
    have h1 : k * (k + 1) ≤ j * (j + 1) := Nat.mul_le_mul h (by omega)
    exact_mod_cast h1
  have smono : ∀ (j k : Nat), k < j → (k : Int) * (k + 1) < j * (j + 1) := by
    intro j k h
    have h1 : k * (k + 1) < j * (j + 1) := Nat.mul_lt_mul_of_lt_of_le h (by omega) (by omega)
    exact_mod_cast h1
  intro fuel
  induction fuel with
  | zero =>
    intro k s hk hs hf
    have : n < s := by omega
    refine ⟨fun m => ⟨by simp [triangularUpto], ?_⟩, by simp [triangularUpto]⟩
    rintro ⟨hm, j, hj, h2⟩
    have := mono j k hj
    omega
  | succ fuel ih =>
    intro k s hk hs hf
    rw [triangularUpto]
    split
    · rename_i hle
      have hstep := triangular_step k s hs
      have e : ((k + 1 : Nat) : Int) + 1 = (k : Int) + 1 + 1 := by omega
      obtain ⟨h1, h2⟩ := ih (k + 1) (s + (k + 1)) (by omega) hstep (by omega)
      rw [e] at h1 h2
      refine ⟨fun m => ?_, ?_⟩
      · rw [List.mem_cons, h1]
        constructor
        · rintro (rfl | ⟨h3, j, h4, h5⟩)
          · exact ⟨hle, k, Nat.le_refl _, hs⟩
          · exact ⟨h3, j, by omega, h5⟩
        · rintro ⟨h3, j, h4, h5⟩
          by_cases hj : j = k
          · subst hj; left; omega
          · exact .inr ⟨h3, j, by omega, h5⟩
      · rw [List.nodup_cons, h1]
        refine ⟨?_, h2⟩
        rintro ⟨-, j, hj, h5⟩
        have := smono j k (by omega)
        omega
    · rename_i hgt
      refine ⟨fun m => ⟨by simp, ?_⟩, by simp⟩
      rintro ⟨hm, j, hj, h2⟩
      have := mono j k hj
      omega

end Unpy.Numutil
