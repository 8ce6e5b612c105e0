import Verif.Model.It
import Verif.Spec.It
/-! Helper lemmas for the it.py properties. -/
namespace Unpy.It
universe u v
variable {α : Type u} {β : Type v}

theorem isliceN_eq (n : Nat) (xs : List α) : isliceN n xs = (xs.take n, xs.drop n) := by
  induction n generalizing xs with
  | zero => simp [isliceN]
  | succ n ih => cases xs <;> simp [isliceN, ih]

theorem fillQ_eq (n : Nat) (q xs : List α) :
    fillQ n q xs = if n ≤ xs.length then some (q ++ xs.take n, xs.drop n) else none := by
  induction n generalizing q xs with
  | zero => simp [fillQ]
  | succ n ih =>
    cases xs with
    | nil => simp [fillQ]
    | cons x xs => simp [fillQ, ih]

theorem butlastnLoop_eq (q it : List α) (h : q ≠ []) :
    butlastnLoop q it = ⟨(q ++ it).take (it.length + 1), none⟩ := by
  induction it generalizing q with
  | nil => cases q with
    | nil => exact absurd rfl h
    | cons y q => simp [butlastnLoop]
  | cons x it ih => cases q with
    | nil => exact absurd rfl h
    | cons y q =>
      rw [butlastnLoop, ih _ (by simp)]
      simp

theorem dequeOf_eq (n : Nat) (xs : List α) : dequeOf n xs = xs.drop (xs.length - n) := by
  suffices H : ∀ (xs ys : List α), (xs.foldl (dequePush n) (ys.drop (ys.length - n))) =
      (ys ++ xs).drop ((ys ++ xs).length - n) by
    have := H xs []; simpa [dequeOf] using this
  intro xs
  induction xs with
  | nil => simp
  | cons x xs ih =>
    intro ys
    have key : dequePush n (ys.drop (ys.length - n)) x = (ys ++ [x]).drop ((ys ++ [x]).length - n) := by
      unfold dequePush
      by_cases hn : n ≤ ys.length
      · have : (ys.drop (ys.length - n) ++ [x]).length = n + 1 := by simp; omega
        simp only [this]
        rw [if_pos (by omega)]
        rw [List.drop_append, List.drop_append]
        simp only [List.drop_drop, List.length_drop, List.length_append, List.length_singleton]
        congr 1
        · congr 1; omega
        · congr 1; omega
      · have h0 : ys.length - n = 0 := by omega
        have : (ys ++ [x]).length - n = 0 := by simp; omega
        rw [h0, this]
        simp; omega
    rw [List.foldl_cons, key, ih]
    simp

theorem windowedLoop_eq (q it : List α) (hq : q ≠ []) :
    windowedLoop q it =
      (List.range (it.length + 1)).map (fun i => ((q ++ it).drop i).take q.length) := by
  induction it generalizing q with
  | nil => simp [windowedLoop]
  | cons y it ih =>
    rw [windowedLoop, ih _ (by simp)]
    rw [List.length_cons, List.range_succ_eq_map (n := it.length + 1)]
    simp only [List.map_cons, List.drop_zero, List.take_left', List.map_map]
    congr 1
    apply List.map_congr_left
    intro i _
    have hl : (q.drop 1 ++ [y]).length = q.length := by
      have : 0 < q.length := List.length_pos_iff.mpr hq
      simp; omega
    simp only [Function.comp, hl]
    congr 1
    cases q with
    | nil => exact absurd rfl hq
    | cons a q => simp

theorem chunkStep_eq (n c : Nat) (it : List α) (hne : it ≠ []) :
    chunkStep n c it = some (it.take (min c (n-1) + 1), it.drop (min c (n-1) + 1)) := by
  cases it with
  | nil => exact absurd rfl hne
  | cons x it => simp [chunkStep, isliceN, isliceN_eq]

theorem chunkedWith_nil (n : Nat) (cs : List Nat) : chunkedWith n cs ([] : List α) = [] := by
  cases cs <;> simp [chunkedWith, chunkStep, isliceN]

theorem pyzip_nil : pyzip ([] : List (List α)) = [] := by rw [pyzip]; simp


theorem nextAll_eq (its : List (List α)) :
    nextAll its = (its.mapM (fun xs => xs[0]?)).map (fun ys => (ys, its.map List.tail)) := by
  induction its with
  | nil => simp [nextAll]
  | cons it rest ih =>
    cases it with
    | nil => simp [nextAll]
    | cons x xs =>
      rw [nextAll, ih]
      cases h : rest.mapM (fun xs => xs[0]?) <;> simp [h]

theorem mapM_tail (its : List (List α)) (i : Nat) :
    (its.map List.tail).mapM (fun xs => xs[i]?) = its.mapM (fun xs => xs[i+1]?) := by
  induction its with
  | nil => simp
  | cons it rest ih => simp [ih]

theorem mapM_mono (its : List (List α)) (i : Nat) (h : its.mapM (fun xs => xs[0]?) = none) :
    its.mapM (fun xs => xs[i]?) = none := by
  induction its with
  | nil => simp at h
  | cons it rest ih =>
    cases it with
    | nil => simp
    | cons x xs =>
      simp at h
      cases hh : rest.mapM (fun xs => xs[0]?) with
      | none => simp [ih hh]
      | some v => simp [hh] at h

theorem pyzip_getElem? (its : List (List α)) (hne : its ≠ []) (i : Nat) :
    (pyzip its)[i]? = its.mapM (fun xs => xs[i]?) := by
  fun_induction pyzip its generalizing i with
  | case1 => exact absurd rfl hne
  | case2 its h0 h =>
    rw [nextAll_eq] at h
    simp only [Option.map_eq_none_iff] at h
    simp [mapM_mono its i h]
  | case3 its h0 ys its' h ih =>
    rw [nextAll_eq] at h
    cases hh : its.mapM (fun xs => xs[0]?) with
    | none => simp [hh] at h
    | some v =>
      simp only [hh, Option.map_some, Option.some.injEq, Prod.mk.injEq] at h
      obtain ⟨rfl, rfl⟩ := h
      cases i with
      | zero => simp [hh]
      | succ i =>
        have := ih (by simpa using hne) i
        rw [mapM_tail] at this
        simpa using this

theorem nextAllFill_eq (fill : α) (its : List (List α)) :
    nextAllFill fill its = (its.map (fun xs => xs[0]?.getD fill), its.map List.tail) := by
  induction its with
  | nil => simp [nextAllFill]
  | cons it rest ih => cases it <;> simp [nextAllFill, ih]

theorem pyzipLongest_getElem? (fill : α) (its : List (List α)) (i : Nat) :
    (pyzipLongest fill its)[i]? =
      if its.any (fun xs => decide (i < xs.length)) then
        some (its.map (fun xs => xs[i]?.getD fill)) else none := by
  fun_induction pyzipLongest fill its generalizing i with
  | case1 its h =>
    have : ¬ its.any (fun xs => decide (i < xs.length)) = true := by
      simp only [List.any_eq_true, decide_eq_true_eq, not_exists, not_and]
      intro xs hx
      have := List.all_eq_true.mp h xs hx
      simp at this; simp [this]
    simp [this]
  | case2 its h r ih =>
    have hr : r = _ := nextAllFill_eq fill its
    cases i with
    | zero =>
      have : its.any (fun xs => decide (0 < xs.length)) = true := by
        simp only [List.all_eq_true, Classical.not_forall] at h
        obtain ⟨xs, hx, h⟩ := h
        simp only [List.any_eq_true, decide_eq_true_eq]
        refine ⟨xs, hx, ?_⟩
        cases xs <;> simp_all
      rw [if_pos this]
      simp [hr]
    | succ i =>
      have := ih i
      simp only [List.getElem?_cons_succ]
      rw [this, hr]
      simp only [List.any_map, List.map_map, Function.comp_def, List.length_tail,
        List.getElem?_tail]
      have e : (fun x : List α => decide (i < x.length - 1)) = fun xs => decide (i + 1 < xs.length) := by
        funext x; congr 1; simp; omega
      rw [e]

open Unpy.Spec.It

theorem atPositions_cons (keep : Nat → Bool) (x : α) (xs : List α) :
    atPositions keep (x :: xs) =
      (if keep 0 then [x] else []) ++ atPositions (fun i => keep (i+1)) xs := by
  unfold atPositions
  rw [List.length_cons, List.range_succ_eq_map]
  by_cases h : keep 0 <;>
    simp [h, List.filter_map, Function.comp_def, List.filterMap_map]

theorem atPositions_congr {k1 k2 : Nat → Bool} {xs : List α}
    (h : ∀ i, i < xs.length → k1 i = k2 i) : atPositions k1 xs = atPositions k2 xs := by
  unfold atPositions
  congr 1
  apply List.filter_congr
  intro i hi
  exact h i (by simpa using hi)

theorem uniqifyLoop_eq [DecidableEq β] (key : α → β) (seen : List β) (xs : List α) :
    uniqifyLoop key seen xs =
      atPositions (fun i => isFirstOcc key xs i && !(xs[i]?.map key).any (fun k => decide (k ∈ seen))) xs := by
  induction xs generalizing seen with
  | nil => simp [uniqifyLoop, atPositions]
  | cons x xs ih =>
    rw [atPositions_cons, uniqifyLoop]
    by_cases hx : key x ∈ seen
    · simp only [hx, if_true, ih]
      simp only [List.getElem?_cons_zero, Option.map_some, Option.any_some, hx]
      simp only [decide_true, Bool.not_true, Bool.and_false, Bool.false_eq_true, if_false, List.nil_append]
      apply atPositions_congr
      intro i hi
      simp only [isFirstOcc, List.getElem?_cons_succ]
      rw [List.range_succ_eq_map]
      simp only [List.all_cons, List.all_map, Function.comp_def, List.getElem?_cons_succ,
        List.getElem?_cons_zero, List.getElem?_eq_getElem hi, Option.map_some, Option.any_some]
      rw [Bool.eq_iff_iff]
      simp only [Bool.and_eq_true, Bool.not_eq_true', decide_eq_false_iff_not, bne_iff_ne, ne_eq,
        Option.some.injEq]
      constructor
      · rintro ⟨h1, h2⟩
        exact ⟨⟨fun e => h2 (e ▸ hx), h1⟩, h2⟩
      · rintro ⟨⟨_, h1⟩, h2⟩
        exact ⟨h1, h2⟩
    · simp only [hx, if_false, ih]
      have e0 : isFirstOcc key (x :: xs) 0 = true := by simp [isFirstOcc]
      simp only [List.getElem?_cons_zero, Option.map_some, Option.any_some, hx, e0]
      simp only [decide_false, Bool.not_false, Bool.and_true, if_true, List.singleton_append]
      congr 1
      apply atPositions_congr
      intro i hi
      simp only [isFirstOcc, List.getElem?_cons_succ]
      rw [List.range_succ_eq_map]
      simp only [List.all_cons, List.all_map, Function.comp_def, List.getElem?_cons_succ,
        List.getElem?_cons_zero, List.getElem?_eq_getElem hi, Option.map_some, Option.any_some]
      rw [Bool.eq_iff_iff]
      simp only [Bool.and_eq_true, Bool.not_eq_true', decide_eq_false_iff_not, bne_iff_ne, ne_eq,
        Option.some.injEq, List.mem_cons, not_or]
      constructor
      · rintro ⟨h1, h2, h3⟩
        exact ⟨⟨fun e => h2 e.symm, h1⟩, h3⟩
      · rintro ⟨⟨h0, h1⟩, h2⟩
        exact ⟨h1, fun e => h0 e.symm, h2⟩

theorem uniqLoop_eq [DecidableEq β] (key : α → β) (cur : Option β) (xs : List α) :
    uniqLoop key cur xs =
      atPositions (fun i => if i = 0 then decide (cur ≠ xs[0]?.map key) else isRunStart key xs i) xs := by
  induction xs generalizing cur with
  | nil => simp [uniqLoop, atPositions]
  | cons x xs ih =>
    rw [atPositions_cons, uniqLoop]
    have e : atPositions (fun i => if i + 1 = 0 then decide (cur ≠ (x :: xs)[0]?.map key)
        else isRunStart key (x :: xs) (i+1)) xs =
        atPositions (fun i => if i = 0 then decide (some (key x) ≠ xs[0]?.map key) else isRunStart key xs i) xs := by
      apply atPositions_congr
      intro i hi
      cases i with
      | zero => simp [isRunStart]; rw [Bool.eq_iff_iff]; simp
      | succ i => simp [isRunStart]
    rw [e]
    by_cases hx : cur = some (key x)
    · simp [hx, ih]
    · simp [hx, ih]

theorem roundrobin_full (its : List (List α)) (h : ∀ xs ∈ its, xs ≠ []) :
    roundrobin its = (its.filterMap (fun xs => xs[0]?), its.map List.tail, false) := by
  induction its with
  | nil => simp [roundrobin]
  | cons it rest ih =>
    cases it with
    | nil => exact absurd rfl (h [] (by simp))
    | cons x xs =>
      have := ih (fun xs hx => h xs (by simp [hx]))
      simp [roundrobin, this]

theorem roundrobin_short (its : List (List α)) (h : ∃ xs ∈ its, xs.length = 0) :
    (roundrobin its).2.2 = true ∧ (roundrobin its).1 =
      (its.takeWhile (fun xs => decide (0 < xs.length))).filterMap (fun xs => xs[0]?) := by
  induction its with
  | nil => simp at h
  | cons it rest ih =>
    cases it with
    | nil => simp [roundrobin]
    | cons x xs =>
      have := ih (by simpa using h)
      simp [roundrobin, this]

theorem filterMap_tail (its : List (List α)) (q : Nat) :
    (its.map List.tail).filterMap (fun xs => xs[q]?) = its.filterMap (fun xs => xs[q+1]?) := by
  simp [List.filterMap_map, Function.comp_def]

theorem interleave_eq (its : List (List α)) (m : Nat) (h : IsShortest its m) :
    interleave its = some (Spec.It.roundRobin its m) := by
  induction m generalizing its with
  | zero =>
    obtain ⟨h1, h2⟩ := h
    have hr := roundrobin_short its h2
    have hne : its ≠ [] := by rintro rfl; simp at h2
    rw [interleave]
    simp [hne, hr, Spec.It.roundRobin]
  | succ m ih =>
    obtain ⟨h1, h2⟩ := h
    have hne : its ≠ [] := by rintro rfl; simp at h2
    have hfull := roundrobin_full its (by
      intro xs hx e; have := h1 xs hx; simp [e] at this)
    have hs : IsShortest (its.map List.tail) m := by
      constructor
      · simp only [List.mem_map]; rintro xs ⟨ys, hy, rfl⟩
        have := h1 ys hy; simp; omega
      · obtain ⟨xs, hx, e⟩ := h2
        exact ⟨xs.tail, List.mem_map.mpr ⟨xs, hx, rfl⟩, by simp [e]⟩
    rw [interleave]
    simp only [hne, dite_false, hfull, Bool.false_eq_true, dite_false, ih _ hs]
    congr 1
    unfold Spec.It.roundRobin
    rw [List.range_succ_eq_map]
    simp only [List.flatMap_cons, List.flatMap_map, filterMap_tail, Nat.succ_eq_add_one, List.append_assoc]
    congr 2
    rw [List.takeWhile_map]
    simp only [Function.comp_def, List.length_tail, filterMap_tail]
    congr 2
    funext xs; congr 1; simp; omega

theorem powersetLoop_eq (bag : List (List α)) (xs ys : List α) :
    powersetLoop bag (xs ++ ys) = powersetLoop bag xs ++ powersetLoop (bag ++ powersetLoop bag xs) ys := by
  induction xs generalizing bag with
  | nil => simp [powersetLoop]
  | cons x xs ih => simp [powersetLoop, ih]

theorem powerset_snoc (xs : List α) (x : α) :
    powerset (xs ++ [x]) = powerset xs ++ [x] :: (powerset xs).map (· ++ [x]) := by
  simp [powerset, powersetLoop_eq, powersetLoop]

theorem snocInd {P : List α → Prop} (nil : P []) (snoc : ∀ xs x, P xs → P (xs ++ [x])) (xs : List α) : P xs := by
  suffices H : ∀ ys : List α, P ys.reverse by simpa using H xs.reverse
  intro ys
  induction ys with
  | nil => simpa using nil
  | cons y ys ih => simpa using snoc _ y ih

theorem sublist_snoc_iff (c xs : List α) (x : α) :
    c.Sublist (xs ++ [x]) ↔ c.Sublist xs ∨ ∃ d, d.Sublist xs ∧ c = d ++ [x] := by
  rw [List.sublist_append_iff]
  constructor
  · rintro ⟨a, b, rfl, ha, hb⟩
    cases hb with
    | cons _ h => left; simpa [List.sublist_nil.mp h] using ha
    | cons_cons _ h => right; exact ⟨a, ha, by simp [List.sublist_nil.mp h]⟩
  · rintro (h | ⟨d, hd, rfl⟩)
    · exact ⟨c, [], by simp, h, by simp⟩
    · exact ⟨d, [x], rfl, hd, by simp⟩

theorem mem_powerset (xs c : List α) : c ∈ powerset xs ↔ c ≠ [] ∧ c.Sublist xs := by
  induction xs using snocInd generalizing c with
  | nil => simp [powerset, powersetLoop]
  | snoc xs x ih =>
    rw [powerset_snoc, sublist_snoc_iff]
    simp only [List.mem_append, List.mem_cons, List.mem_map, ih]
    constructor
    · rintro (⟨h1, h2⟩ | rfl | ⟨d, ⟨h1, h2⟩, rfl⟩)
      · exact ⟨h1, .inl h2⟩
      · exact ⟨by simp, .inr ⟨[], by simp, rfl⟩⟩
      · exact ⟨by simp, .inr ⟨d, h2, rfl⟩⟩
    · rintro ⟨h1, h2 | ⟨d, hd, rfl⟩⟩
      · exact .inl ⟨h1, h2⟩
      · by_cases hd0 : d = []
        · subst hd0; exact .inr (.inl rfl)
        · exact .inr (.inr ⟨d, ⟨hd0, hd⟩, rfl⟩)

theorem powerset_nodup (xs : List α) (h : xs.Nodup) : (powerset xs).Nodup := by
  induction xs using snocInd with
  | nil => simp [powerset, powersetLoop]
  | snoc xs x ih =>
    have hx : xs.Nodup ∧ x ∉ xs := by
      rw [List.nodup_append] at h
      exact ⟨h.1, fun hm => h.2.2 x hm x (by simp) rfl⟩
    have ih := ih hx.1
    rw [powerset_snoc, List.nodup_append]
    refine ⟨ih, ?_, ?_⟩
    · rw [List.nodup_cons]
      constructor
      · simp only [List.mem_map, not_exists, not_and]
        intro d hd e
        have := ((mem_powerset xs d).mp hd).1
        simp at e; exact this e
      · rw [List.nodup_iff_pairwise_ne, List.pairwise_map]
        exact List.Pairwise.imp (fun hne e => hne (by simpa using e)) ih
    · intro c hc d hd e
      subst e
      have hsub := ((mem_powerset xs c).mp hc).2
      have hxc : x ∈ c := by
        simp only [List.mem_cons, List.mem_map] at hd
        rcases hd with rfl | ⟨d, _, rfl⟩ <;> simp
      exact hx.2 (hsub.subset hxc)

theorem powerset_length (xs : List α) : (powerset xs).length + 1 = 2 ^ xs.length := by
  induction xs using snocInd with
  | nil => simp [powerset, powersetLoop]
  | snoc xs x ih => rw [powerset_snoc]; simp [Nat.pow_succ]; omega

theorem powersetLoop_map (f : α → β) (bag : List (List α)) (xs : List α) :
    powersetLoop (bag.map (List.map f)) (xs.map f) = (powersetLoop bag xs).map (List.map f) := by
  induction xs generalizing bag with
  | nil => simp [powersetLoop]
  | cons x xs ih =>
    simp only [powersetLoop, List.map_cons]
    have e : bag.map (List.map f) ++ [[f x]] ++ (bag.map (List.map f)).map (fun c => c ++ [f x]) =
        (bag ++ [[x]] ++ bag.map (fun c => c ++ [x])).map (List.map f) := by
      simp [Function.comp_def]
    rw [e, ih]
    simp [Function.comp_def]

theorem unpackLoop_eq (n k : Nat) (fill : α) (steps j : Nat) (out it : List α) (tl : Option (List α))
    (hout : out.length = j) (hj : j + steps = n) :
    unpackLoop n k fill steps j ⟨out, it, tl⟩ =
      if steps ≤ it.length then
        ⟨out ++ it.take steps, it.drop steps,
          if j ≤ k ∧ k < n then some (it.drop (k - j)) else tl⟩
      else ⟨out ++ it ++ List.replicate (steps - it.length) fill, [], some []⟩ := by
  induction steps generalizing j out it tl with
  | zero =>
    have : ¬ (j ≤ k ∧ k < n) := by omega
    simp [unpackLoop, this]
  | succ steps ih =>
    cases it with
    | nil =>
      have : n - out.length = steps + 1 := by omega
      simp [unpackLoop, this]
    | cons x it =>
      rw [unpackLoop]
      simp only
      rw [ih (j+1) _ _ _ (by simp [hout]) (by omega)]
      simp only [List.length_cons, Nat.add_le_add_iff_right, List.take_succ_cons,
        List.drop_succ_cons, List.append_assoc, List.singleton_append, Nat.add_sub_add_right]
      congr 2
      by_cases hjk : j = k
      · subst hjk
        have h1 : ¬ (j + 1 ≤ j ∧ j < n) := by omega
        have h2 : j ≤ j ∧ j < n := by omega
        simp [h2]
      · by_cases h2 : j + 1 ≤ k ∧ k < n
        · have h3 : j ≤ k ∧ k < n := by omega
          have e : k - j = (k - (j+1)) + 1 := by omega
          simp [h2, h3, e]
        · have h3 : ¬ (j ≤ k ∧ k < n) := by omega
          simp [h2, h3, hjk]

theorem pad_loop_eq (n : Int) (fill : α) (k : Nat) (xs : List α) :
    pad.loop n fill k xs = xs ++ List.replicate (n - (k + xs.length : Nat)).toNat fill := by
  induction xs generalizing k with
  | nil => simp [pad.loop]
  | cons x xs ih =>
    rw [pad.loop, ih]
    simp only [List.length_cons, List.cons_append]
    congr 5; omega

theorem iindex_loop_eq [DecidableEq α] (x : α) (j : Nat) (xs : List α) :
    iindex.loop x j xs = if x ∈ xs then .ok (j + xs.findIdx (· == x)) else .error .ValueError := by
  induction xs generalizing j with
  | nil => simp [iindex.loop]
  | cons y ys ih =>
    rw [iindex.loop, ih]
    by_cases h : y = x
    · subst h; simp [List.findIdx_cons]
    · have h' : ¬ x = y := fun e => h e.symm
      have hb : (y == x) = false := by simpa using h
      simp only [h, if_false, List.mem_cons, h', false_or, List.findIdx_cons, hb, cond_false]
      split
      · congr 1; omega
      · rfl

theorem iterate1_succ (f : α → α) (x : α) (i : Nat) : iterate1 f x (i+1) = f (iterate1 f x i) := by
  induction i generalizing x with
  | zero => rfl
  | succ i ih => rw [iterate1, ih, iterate1]

end Unpy.It
