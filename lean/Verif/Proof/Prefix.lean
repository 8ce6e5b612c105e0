import Verif.Spec.Prefix
/-!
# Proofs about `with prefix`
-/
namespace Unpy.Prefix.Pf
open Unpy.Prefix Unpy.Prefix.Spec
variable {β D : Type}

/-! ## Lists -/

theorem dens_map (A : Meaning β D) : ∀ es : List (PE β), dens A es = es.map (den A)
  | [] => rfl
  | _ :: es => by simp only [dens, List.map_cons, dens_map A es]

def item (A : Meaning β D) (e : PE β) : Item D := ⟨opOf e, den A e, kwOf A e⟩

theorem items_map (A : Meaning β D) : ∀ es : List (PE β), items A es = es.map (item A)
  | [] => rfl
  | e :: es => by simp only [items, List.map_cons, items_map A es, item]

theorem visits_all (A : Meaning β D) (n : Nat) (f : PE β → Option (PE β)) : ∀ (es : List (PE β)),
    (∀ e ∈ es, (f e).map (interp A) = den A e n) → (visits f es).map (interps A) = all n (es.map (den A))
  | [], _ => rfl
  | e :: es, h => by
    have h₁ := h e List.mem_cons_self
    have h₂ := visits_all A n f es fun e he => h e (List.mem_cons_of_mem _ he)
    simp only [visits, List.map_cons, all, ← h₁, ← h₂]
    cases f e <;> cases visits f es <;> rfl

theorem depth_mem : ∀ {es : List (PE β)} {e}, e ∈ es → depth e ≤ depths es
  | x :: xs, e, h => by
    rcases List.mem_cons.1 h with rfl | h
    · simp only [depths]; omega
    · have := depth_mem h
      simp only [depths]; omega

theorem ok_mem : ∀ {es : List (PE β)} {e}, oks es = true → e ∈ es → ok e = true
  | x :: xs, e, ho, h => by
    simp only [oks, Bool.and_eq_true] at ho
    rcases List.mem_cons.1 h with rfl | h
    · exact ho.1
    · exact ok_mem ho.2 h

/-! ## Operators -/

theorem strip_eq (n : Nat) (op : PE β) (data : List (PE β)) : strip n op data =
    match levelAfter n (((op :: data).takeWhile fun e => (opOf e).isSome).map opOf),
      (op :: data).dropWhile fun e => (opOf e).isSome with
    | some n, op :: data => some (n, op, data)
    | _, _ => none := by
  induction data generalizing n op with
  | nil =>
    cases op with
    | name x =>
      by_cases hu : x = "u"
      · subst hu; cases n <;> simp [strip, isName, opOf, levelAfter]
      · by_cases hq : x = "q"
        · subst hq; simp [strip, isName, opOf, levelAfter]
        · have h₁ : ("u" == x) = false := by simp [Ne.symm hu]
          have h₂ : ("q" == x) = false := by simp [Ne.symm hq]
          simp [strip, isName, opOf, levelAfter, h₁, h₂, hu, hq]
    | _ => simp [strip, isName, opOf, levelAfter]
  | cons e data ih =>
    cases op with
    | name x =>
      by_cases hu : x = "u"
      · subst hu
        cases n with
        | zero => simp [strip, isName, opOf, levelAfter]
        | succ n =>
          rw [strip]
          simp only [isName, beq_self_eq_true, if_true, Nat.lt_one_iff, Nat.add_one_ne_zero, if_false, Nat.add_sub_cancel, ih]
          simp [opOf, List.takeWhile_cons, List.dropWhile_cons, levelAfter]
      · by_cases hq : x = "q"
        · subst hq
          rw [strip]
          simp only [isName, ih]
          simp [opOf, List.takeWhile_cons, List.dropWhile_cons, levelAfter]
        · have h₁ : ("u" == x) = false := by simp [Ne.symm hu]
          have h₂ : ("q" == x) = false := by simp [Ne.symm hq]
          simp [strip, isName, opOf, levelAfter, h₁, h₂, hu, hq]
    | _ => simp [strip, isName, opOf, levelAfter]

/-! ## Named arguments -/

theorem uniqify_snoc {α : Type} (x : Option String × α) : ∀ (l : List (Option String × α)) (seen : List (Option String)),
    It.uniqifyLoop Prod.fst seen (l ++ [x]) =
      It.uniqifyLoop Prod.fst seen l ++ if x.1 ∈ seen ∨ x.1 ∈ l.map Prod.fst then [] else [x]
  | [], seen => by
    by_cases h : x.1 ∈ seen <;> simp [It.uniqifyLoop, h]
  | y :: l, seen => by
    simp only [List.cons_append, It.uniqifyLoop, List.map_cons, List.mem_cons]
    by_cases hy : y.1 ∈ seen
    · simp only [hy, if_true]
      rw [uniqify_snoc x l seen]
      by_cases hx : x.1 ∈ seen
      · simp [hx]
      · have : x.1 ≠ y.1 := fun h => hx (h ▸ hy)
        by_cases h₃ : x.1 ∈ l.map Prod.fst
        · rw [if_pos (Or.inr h₃), if_pos (Or.inr (Or.inr h₃))]
        · rw [if_neg (by grind), if_neg (by grind)]
    · simp only [hy, if_false, List.cons_append]
      rw [uniqify_snoc x l (y.1 :: seen)]
      simp only [List.mem_cons]
      congr 2
      by_cases h : (x.1 = y.1 ∨ x.1 ∈ seen) ∨ x.1 ∈ l.map Prod.fst
      · rw [if_pos h, if_pos (by grind)]
      · rw [if_neg h, if_neg (by grind)]

theorem uniqify_rightmost {α : Type} : ∀ (l : List (Option String × α)),
    (It.uniqify Prod.fst l.reverse).reverse = rightmost l
  | [] => rfl
  | (k, v) :: l => by
    have ih := uniqify_rightmost l
    simp only [It.uniqify] at ih
    simp only [It.uniqify, List.reverse_cons, uniqify_snoc, List.reverse_append, ih, rightmost, List.not_mem_nil, false_or,
      List.map_reverse, List.mem_reverse]
    split <;> simp

theorem rightmost_map {α γ : Type} (g : α → γ) : ∀ (l : List (Option String × α)),
    rightmost (l.map fun p => (p.1, g p.2)) = (rightmost l).map fun p => (p.1, g p.2)
  | [] => rfl
  | (k, v) :: l => by
    have hm : (l.map fun p => (p.1, g p.2)).map Prod.fst = l.map Prod.fst := by simp
    simp only [List.map_cons, rightmost, hm, rightmost_map g l]
    split <;> rfl

theorem rightmost_sub {α : Type} : ∀ {l : List (Option String × α)} {p}, p ∈ rightmost l → p ∈ l
  | (k, v) :: l, p, h => by
    simp only [rightmost] at h
    split at h
    · exact List.mem_cons_of_mem _ (rightmost_sub h)
    · rcases List.mem_cons.1 h with rfl | h
      · exact List.mem_cons_self
      · exact List.mem_cons_of_mem _ (rightmost_sub h)

theorem kwOf_eq (A : Meaning β D) (e : PE β) : kwOf A e = if isKw e then
    some ((callArgs e).isEmpty, (keywords e).map fun p => (p.1, den A p.2)) else none := by
  cases e with
  | call f args names vals =>
    cases f with
    | name x =>
      by_cases hx : x = "kw"
      · subst hx
        simp [kwOf, isKw, isName, callArgs, keywords, dens_map, List.zip_map_right, Prod.map]
      · have : ("kw" == x) = false := by simp [Ne.symm hx]
        simp [kwOf, isKw, isName, hx, this]
    | _ => simp [kwOf, isKw, isName]
  | _ => simp [kwOf, isKw]

theorem kws_eq (A : Meaning β D) : ∀ (data : List (PE β)), (data.map (item A)).filterMap Item.kw =
    (data.filter isKw).map fun e => ((callArgs e).isEmpty, (keywords e).map fun p => (p.1, den A p.2))
  | [] => rfl
  | e :: data => by
    simp only [List.map_cons, List.filterMap_cons, item, kwOf_eq, List.filter_cons]
    by_cases h : isKw e = true
    · simp only [h, if_true, List.map_cons]
      exact congrArg _ (kws_eq A data)
    · simp only [h]
      exact kws_eq A data

theorem pos_eq (A : Meaning β D) : ∀ (data : List (PE β)), ((data.map (item A)).filter fun x => x.kw.isNone).map Item.val =
    (data.filter fun e => !isKw e).map (den A)
  | [] => rfl
  | e :: data => by
    have ih := pos_eq A data
    by_cases h : isKw e = true
    · simp only [List.map_cons, List.filter_cons, item, kwOf_eq, h, if_true, Option.isNone_some, Bool.not_true]
      exact ih
    · simp only [List.map_cons, List.filter_cons, item, kwOf_eq, h, Bool.not_false, if_true, Option.isNone_none]
      exact congrArg _ ih

theorem flat_eq (A : Meaning β D) (l : List (PE β)) :
    (l.map fun e => ((callArgs e).isEmpty, (keywords e).map fun p => (p.1, den A p.2))).flatMap Prod.snd =
      (l.flatMap keywords).map fun p => (p.1, den A p.2) := by
  induction l with
  | nil => rfl
  | cons e l ih => simp only [List.map_cons, List.flatMap_cons, List.map_append, ih]

theorem kw_some {e : PE β} (h : ok e = true) (hk : isKw e = true) : ∀ p ∈ keywords e, p.1.isSome = true := by
  cases e with
  | call f args names vals =>
    cases f with
    | name x =>
      simp only [isKw, isName, beq_iff_eq] at hk
      subst hk
      simp only [ok, namedKw, Bool.and_eq_true, beq_self_eq_true, Bool.true_and, Bool.not_eq_true'] at h
      intro p hp
      have := (List.of_mem_zip hp).1
      rcases hp1 : p.1 with _ | _
      · rw [hp1] at this
        have hc := h.2
        simp [this] at hc
      · rfl
    | _ => simp [isKw, isName] at hk
  | _ => simp [isKw] at hk

theorem cond_eq (A : Meaning β D) {data : List (PE β)} (h : ∀ e ∈ data, ok e = true) :
    ((data.filter isKw).map fun e => ((callArgs e).isEmpty, (keywords e).map fun p => (p.1, den A p.2))).all
      (fun k => k.1 && k.2.all fun x => x.1.isSome) = ((data.filter isKw).flatMap callArgs).isEmpty := by
  induction data with
  | nil => rfl
  | cons e data ih =>
    have ih := ih fun e he => h e (List.mem_cons_of_mem _ he)
    by_cases hk : isKw e = true
    · have hs := kw_some (h e List.mem_cons_self) hk
      have : ((keywords e).map fun p => (p.1, den A p.2)).all (fun x => x.1.isSome) = true := by
        simp only [List.all_map, List.all_eq_true, Function.comp]
        exact hs
      simp only [List.filter_cons, hk, if_true, List.map_cons, List.all_cons, this, ih, Bool.and_true, List.flatMap_cons]
      cases callArgs e <;> simp
    · simp only [List.filter_cons, hk]
      exact ih

/-! ## The whole -/

theorem map_snd_den (A : Meaning β D) (l : List (Option String × PE β)) :
    (l.map fun p => (p.1, den A p.2)).map Prod.snd = (l.map Prod.snd).map (den A) := by simp

theorem map_fst_den (A : Meaning β D) (l : List (Option String × PE β)) :
    (l.map fun p => (p.1, den A p.2)).map Prod.fst = l.map Prod.fst := by simp

theorem keywords_mem {e : PE β} {p} (h : p ∈ keywords e) : depth p.2 ≤ depth e ∧ (ok e = true → ok p.2 = true) := by
  cases e with
  | call f args names vals =>
    have hv := (List.of_mem_zip h).2
    refine ⟨?_, fun ho => ?_⟩
    · have := depth_mem hv
      simp only [depth]; omega
    · rw [ok, Bool.and_eq_true, Bool.and_eq_true] at ho
      exact ok_mem ho.1.2 hv
  | _ => simp [keywords] at h

theorem expand_den (A : Meaning β D) : ∀ (d n : Nat) (e : PE β), depth e ≤ d → ok e = true →
    (expand d n e).map (interp A) = den A e n := by
  intro d
  induction d with
  | zero => intro n e h _; cases e <;> simp [depth] at h
  | succ d ih =>
    intro n e hd ho
    have list : ∀ n (es : List (PE β)), depths es ≤ d → oks es = true →
        (visits (expand d n) es).map (interps A) = all n (es.map (den A)) := fun n es h h' =>
      visits_all A n _ es fun e he => ih n e (by have := depth_mem he; omega) (ok_mem h' he)
    cases e with
    | cst c => rfl
    | name x => rfl
    | call f args names vals =>
      simp only [depth] at hd
      rw [ok, Bool.and_eq_true, Bool.and_eq_true, Bool.and_eq_true] at ho
      have h₁ := ih n f (by omega) ho.1.1.1
      have h₂ := list n args (by omega) ho.1.1.2
      have h₃ := list n vals (by omega) ho.1.2
      simp only [expand, den, dens_map, ← h₁, ← h₂, ← h₃]
      cases expand d n f <;> cases visits (expand d n) args <;> cases visits (expand d n) vals <;> rfl
    | letx names vals body =>
      simp only [depth] at hd
      rw [ok, Bool.and_eq_true] at ho
      have h₁ := ih n body (by omega) ho.2
      have h₂ := list n vals (by omega) ho.1
      simp only [expand, den, dens_map, ← h₁, ← h₂]
      cases expand d n body <;> cases visits (expand d n) vals <;> rfl
    | doe es =>
      simp only [depth] at hd
      have h := list n es (by omega) ho
      simp only [expand, den, dens_map, ← h]
      cases visits (expand d n) es <;> rfl
    | node k es =>
      simp only [depth] at hd
      have h := list n es (by omega) ho
      simp only [expand, den, dens_map, ← h]
      cases visits (expand d n) es <;> rfl
    | sub v ix =>
      by_cases hix : ∃ es, ix = .tup es
      · obtain ⟨es, rfl⟩ := hix
        simp only [depth] at hd
        rw [ok, Bool.and_eq_true] at ho
        have h₁ := ih n v (by omega) ho.1
        have h₂ := list n es (by omega) ho.2
        simp only [expand, den, dens_map, ← h₁, ← h₂]
        cases expand d n v <;> cases visits (expand d n) es <;> rfl
      · have hne : ∀ es, ix = .tup es → False := fun es h => hix ⟨es, h⟩
        simp only [depth] at hd
        rw [ok, Bool.and_eq_true] at ho
        · have h₁ := ih n v (by omega) ho.1
          have h₂ := ih n ix (by omega) ho.2
          rw [expand, den]
          · simp only [← h₁, ← h₂]
            cases expand d n v <;> cases expand d n ix <;> rfl
          all_goals exact hne
        · exact hne
    | tup es =>
      simp only [depth] at hd
      cases es with
      | nil => simp [ok] at ho
      | cons op data =>
        have hmem : ∀ e ∈ op :: data, depth e ≤ d ∧ ok e = true := fun e he =>
          ⟨by have := depth_mem he; omega, ok_mem (by simpa [ok] using ho) he⟩
        have ht : ((op :: data).map (item A)).takeWhile (fun x => x.op.isSome) =
            ((op :: data).takeWhile fun e => (opOf e).isSome).map (item A) := List.takeWhile_map ..
        have hdr : ((op :: data).map (item A)).dropWhile (fun x => x.op.isSome) =
            ((op :: data).dropWhile fun e => (opOf e).isSome).map (item A) := List.dropWhile_map ..
        have hto : (((op :: data).takeWhile fun e => (opOf e).isSome).map (item A)).map Item.op =
            ((op :: data).takeWhile fun e => (opOf e).isSome).map opOf := by
          rw [List.map_map]; rfl
        simp only [expand, strip_eq, den, tupleMeaning, items_map, ht, hdr, hto]
        have hsub : ∀ e ∈ (op :: data).dropWhile (fun e => (opOf e).isSome), e ∈ op :: data := fun e he =>
          (List.dropWhile_sublist _).mem he
        have hall : ((op :: data).takeWhile fun e => (opOf e).isSome) ++ (op :: data).dropWhile (fun e => (opOf e).isSome) =
          op :: data := List.takeWhile_append_dropWhile
        generalize (op :: data).takeWhile (fun e => (opOf e).isSome) = ops at hall
        generalize (op :: data).dropWhile (fun e => (opOf e).isSome) = rest at hsub hall
        rcases levelAfter n (ops.map opOf) with _ | _ | m
        · rfl
        · cases rest with
          | nil => rfl
          | cons f args =>
            have hf := hmem f (hsub f List.mem_cons_self)
            have hargs : ∀ e ∈ args, depth e ≤ d ∧ ok e = true := fun e he => hmem e (hsub e (List.mem_cons_of_mem _ he))
            simp only [List.map_cons, callMeaning, kws_eq, flat_eq, rightmost_map, map_snd_den, map_fst_den, pos_eq,
              cond_eq A fun e he => (hargs e he).2, uniqify_rightmost, Nat.lt_irrefl, gt_iff_lt, if_false]
            by_cases hc : ((args.filter isKw).flatMap callArgs).isEmpty = true
            · rw [if_pos hc, if_pos hc]
              have h₁ := ih 0 f hf.1 hf.2
              have h₂ := visits_all A 0 (expand d 0) (args.filter fun e => !isKw e) fun e he =>
                ih 0 e (hargs e (List.mem_filter.1 he).1).1 (hargs e (List.mem_filter.1 he).1).2
              have h₃ := visits_all A 0 (expand d 0) ((rightmost ((args.filter isKw).flatMap keywords)).map Prod.snd) fun e he => by
                obtain ⟨p, hp, rfl⟩ := List.mem_map.1 he
                obtain ⟨c, hc, hpc⟩ := List.mem_flatMap.1 (rightmost_sub hp)
                have hc := hargs c (List.mem_filter.1 hc).1
                have hk := keywords_mem hpc
                exact ih 0 p.2 (by omega) (hk.2 hc.2)
              simp only [item, ← h₁, ← h₂, ← h₃]
              cases expand d 0 f <;> cases visits (expand d 0) (args.filter fun e => !isKw e) <;>
                cases visits (expand d 0) ((rightmost ((args.filter isKw).flatMap keywords)).map Prod.snd) <;> rfl
            · rw [if_neg hc, if_neg hc]; rfl
        · have hany : (rest.map (item A)).any (fun x => x.kw.isSome) = rest.any isKw := by
            rw [List.any_map]
            congr 1
            funext e
            simp only [Function.comp, item, kwOf_eq]
            cases isKw e <;> rfl
          cases rest with
          | nil =>
            have : ops ≠ [] := fun h => by simp [h] at hall
            simp [this]
          | cons f args =>
            have hl := visits_all A (m + 1) (expand d (m + 1)) (f :: args) fun e he =>
              ih (m + 1) e (hmem e (hsub e he)).1 (hmem e (hsub e he)).2
            have hval : ((f :: args).map (item A)).map Item.val = (f :: args).map (den A) := by
              rw [List.map_map]; rfl
            simp only [hany, hval, ← hl, Nat.zero_lt_succ, gt_iff_lt, if_true]
            by_cases hk : (f :: args).any isKw = true
            · simp [hk]
            · simp only [hk, Bool.or_false]
              cases visits (expand d (m + 1)) (f :: args) <;> rfl

end Unpy.Prefix.Pf
