import Verif.Spec.NamedLambda
namespace Unpy.NamedLambda.Lemmas
open Unpy.NamedLambda Unpy.NamedLambda.Spec

/-! ## Nothing but names is added -/

mutual
theorem erase_visit : (m : Mode) → (e : E) → erase (visit m e) = erase e
  | _, .const c => by simp only [visit]
  | _, .name x => by simp only [visit]
  | _, .attr e a => by simp only [visit, erase, erase_visit .plain e]
  | .bind c, .lam l ds b => by simp only [visit, erase, erase_visit .plain b]
  | .chain, .lam l ds b => by simp only [visit, erase, erase_visit .plain b]
  | .plain, .lam l ds b => by simp only [visit, erase, erase_visit .plain b, erase_visits ds]
  | .nameLast c, .lam l ds b => by simp only [visit, erase, erase_visit .plain b, erase_visits ds]
  | .chain, .call f args kws => by simp only [visit, erase, erase_visitLast .chain args]
  | .nameLast c, .call f args kws => by simp only [visit, erase, erase_visitLast (.bind c) args]
  | .bind c, .call f args kws => by
    have h : kws.isEmpty = true → kws = [] := by intro h; simpa using h
    simp only [visit]
    split
    · simp only [erase, erase_visitLast (.nameLast c) args]
    · split
      · simp only [erase, erase_visitLast .chain args]
      · split
        · next h' => simp only [erase, erase_visit .plain f, erase_visits args, h h']
        · simp only [erase, erase_visits args, erase_visitItems kws]
  | .plain, .call f args kws => by
    have h : kws.isEmpty = true → kws = [] := by intro h; simpa using h
    simp only [visit]
    split
    · next h' => simp only [erase, erase_visit .plain f, erase_visits args, h h']
    · simp only [erase, erase_visits args, erase_visitItems kws]
  | _, .dict items => by simp only [visit, erase, erase_visitItems items]
  | _, .walrus x e => by simp only [visit, erase, erase_visit (.bind (.str x)) e]
  | _, .envassign x e => by simp only [visit, erase, erase_visit (.bind (.str x)) e]
  | _, .letx bs body => by simp only [visit, erase, erase_visitItems bs, erase_visit .plain body]
  | _, .assign x e => by simp only [visit, erase, erase_visit (.bind (.str x)) e]
  | _, .op t es => by simp only [visit, erase, erase_visits es]
  | .chain, .named c e => by simp only [visit, erase, erase_visit .chain e]
  | .plain, .named c e => by simp only [visit, erase, erase_visit .plain e]
  | .bind _, .named c e => by simp only [visit, erase, erase_visit .plain e]
  | .nameLast _, .named c e => by simp only [visit, erase, erase_visit .plain e]
theorem erase_visits : (es : List E) → erases (visits es) = erases es
  | [] => by simp only [visits]
  | e :: es => by simp only [visits, erases, erase_visit .plain e, erase_visits es]
theorem erase_visitLast : (m : Mode) → (es : List E) → erases (visitLast m es) = erases es
  | _, [] => by simp only [visitLast]
  | m, [e] => by simp only [visitLast, erases, erase_visit m e]
  | m, e :: e' :: es => by
    simp only [visitLast, erases]
    have := erase_visitLast m (e' :: es)
    simp only [erases] at this
    rw [this]
theorem erase_visitItem : (i : Item) → eraseItem (visitItem i) = eraseItem i
  | .star e => by simp only [visitItem, eraseItem, erase_visit .plain e]
  | .lit c e => by simp only [visitItem, eraseItem, erase_visit (.bind c) e]
  | .pair k e => by simp only [visitItem, eraseItem, erase_visit .plain k, erase_visit .plain e]
theorem erase_visitItems : (is : List Item) → eraseItems (visitItems is) = eraseItems is
  | [] => by simp only [visitItems]
  | i :: is => by simp only [visitItems, eraseItems, erase_visitItem i, erase_visitItems is]
end

mutual
theorem erase_fin : (b : Bool) → (e : E) → erase (fin b e) = erase e
  | _, .const c => by simp only [fin]
  | _, .name x => by simp only [fin]
  | _, .attr e a => by simp only [fin, erase, erase_fin false e]
  | false, .lam l ds b => by simp only [fin, erase, erase_fin false b]
  | true, .lam l ds b => by simp only [fin, erase, erase_fin false b]
  | true, .call f args kws => by simp only [fin, erase, erase_finLast args]
  | false, .call f args kws => by
    simp only [fin]
    split
    · simp only [erase, erase_finLast args]
    · simp only [erase, erase_fin false f, erase_fins args, erase_finItems kws]
  | _, .dict items => by simp only [fin, erase, erase_finItems items]
  | _, .walrus x e => by simp only [fin, erase, erase_fin false e]
  | _, .envassign x e => by simp only [fin, erase, erase_fin false e]
  | _, .letx bs body => by simp only [fin, erase, erase_finItems bs, erase_fin false body]
  | _, .assign x e => by simp only [fin, erase, erase_fin false e]
  | _, .op t es => by simp only [fin, erase, erase_fins es]
  | true, .named c e => by simp only [fin, erase, erase_fin true e]
  | false, .named c e => by
    simp only [fin]
    split
    · simp only [erase, erase_fin true e]
    · simp only [erase, erase_fin false e]
theorem erase_fins : (es : List E) → erases (fins es) = erases es
  | [] => by simp only [fins]
  | e :: es => by simp only [fins, erases, erase_fin false e, erase_fins es]
theorem erase_finLast : (es : List E) → erases (finLast es) = erases es
  | [] => by simp only [finLast]
  | [e] => by simp only [finLast, erases, erase_fin true e]
  | e :: e' :: es => by
    simp only [finLast, erases]
    have := erase_finLast (e' :: es)
    simp only [erases] at this
    rw [this]
theorem erase_finItem : (i : Item) → eraseItem (finItem i) = eraseItem i
  | .star e => by simp only [finItem, eraseItem, erase_fin false e]
  | .lit c e => by simp only [finItem, eraseItem, erase_fin false e]
  | .pair k e => by simp only [finItem, eraseItem, erase_fin false k, erase_fin false e]
theorem erase_finItems : (is : List Item) → eraseItems (finItems is) = eraseItems is
  | [] => by simp only [finItems]
  | i :: is => by simp only [finItems, eraseItems, erase_finItem i, erase_finItems is]
end

/-! ## Without lambdas -/

mutual
theorem labels_ctx (ctx ctx' : List Const) : (e : E) → labels ctx e = [] → labels ctx' e = []
  | .lam l ds b, h => by simp [labels] at h
  | .call f args kws, h => by
    simp only [labels, List.append_eq_nil_iff] at h ⊢
    refine ⟨h.1, ?_, h.2.2⟩
    split
    · next h1 => rw [if_pos h1] at h; exact labelsAll_ctx ctx ctx' args h.2.1
    · next h1 => rw [if_neg h1] at h; exact h.2.1
  | .named c e, h => by
    simp only [labels] at h ⊢
    exact labels_ctx _ _ e h
  | .const _, _ => by simp only [labels]
  | .name _, _ => by simp only [labels]
  | .attr e a, h => by simp only [labels] at h ⊢; exact h
  | .dict is, h => by simp only [labels] at h ⊢; exact h
  | .walrus _ e, h => by simp only [labels] at h ⊢; exact h
  | .envassign _ e, h => by simp only [labels] at h ⊢; exact h
  | .letx _ _, h => by simp only [labels] at h ⊢; exact h
  | .assign _ e, h => by simp only [labels] at h ⊢; exact h
  | .op _ es, h => by simp only [labels] at h ⊢; exact h
theorem labelsAll_ctx (ctx ctx' : List Const) : (es : List E) → labelsAll ctx es = [] → labelsAll ctx' es = []
  | [], _ => by simp only [labelsAll]
  | e :: es, h => by
    simp only [labelsAll, List.append_eq_nil_iff] at h ⊢
    exact ⟨labels_ctx _ _ e h.1, labelsAll_ctx _ _ es h.2⟩
end

theorem noLams_isLam {ctx : List Const} {e : E} (h : labels ctx e = []) : isLam e = false := by
  cases e <;> first | rfl | simp [labels] at h

mutual
theorem noLams_decorated {ctx : List Const} : (e : E) → labels ctx e = [] → decorated e = false
  | .call f args kws, h => by
    simp only [labels, List.append_eq_nil_iff] at h
    simp only [decorated]
    exact noLams_decoratedArgs args h.2.1
  | .named c e, h => by
    simp only [labels] at h
    simp only [decorated, noLams_isLam h, noLams_decorated e h, Bool.or_self]
  | .lam l ds b, h => by simp [labels] at h
  | .const _, _ => by simp only [decorated]
  | .name _, _ => by simp only [decorated]
  | .attr e a, _ => by simp only [decorated]
  | .dict is, _ => by simp only [decorated]
  | .walrus _ e, _ => by simp only [decorated]
  | .envassign _ e, _ => by simp only [decorated]
  | .letx _ _, _ => by simp only [decorated]
  | .assign _ e, _ => by simp only [decorated]
  | .op _ es, _ => by simp only [decorated]
theorem noLams_decoratedArgs {ctx : List Const} : (es : List E) → labelsAll ctx es = [] → decoratedArgs es = false
  | [], _ => by simp only [decoratedArgs]
  | [e], h => by
    simp only [labelsAll, List.append_nil] at h
    simp only [decoratedArgs, noLams_isLam h, noLams_decorated e h, Bool.or_self]
  | _ :: _ :: _, _ => by simp only [decoratedArgs]
end

theorem noLams_mem {ctx : List Const} : {es : List E} → labelsAll ctx es = [] → ∀ e ∈ es, labels ctx e = []
  | e :: es, h, e', h' => by
    simp only [labelsAll, List.append_eq_nil_iff] at h
    rcases List.mem_cons.1 h' with h1 | h1
    · rw [h1]; exact h.1
    · exact noLams_mem h.2 e' h1

theorem noLams_last {ctx : List Const} {es : List E} (h : labelsAll ctx es = []) : lastLam es = false := by
  unfold lastLam
  cases hl : es.getLast? with
  | none => rfl
  | some a => exact noLams_isLam (noLams_mem h a (List.mem_of_getLast? hl))

theorem noLams_curryf {ctx : List Const} {e : E} (h : labels ctx e = []) : curryf e = false := by
  cases e with
  | call f args kws =>
    simp only [labels, List.append_eq_nil_iff] at h
    simp only [curryf, noLams_last h.2.1, Bool.and_false]
  | _ => rfl

theorem noLams_autocurry {ctx : List Const} {f : E} {args : List E} {kws : List Item} (h : labelsAll ctx args = []) :
    autocurryFinal (.call f args kws) = false := by
  simp only [autocurryFinal]
  cases hl : args.getLast? with
  | none => simp
  | some a => simp [noLams_curryf (noLams_mem h a (List.mem_of_getLast? hl))]

mutual
theorem visit_noLams : (m : Mode) → (e : E) → labels [] e = [] → visit m e = e
  | _, .lam l ds b, h => by simp [labels] at h
  | m, .call f args kws, h => by
    simp only [labels, List.append_eq_nil_iff] at h
    have ha : labelsAll [] args = [] := labelsAll_ctx _ _ _ h.2.1
    have hp : (if kws.isEmpty then E.call (visit .plain f) (visits args) [] else .call f (visits args) (visitItems kws)) = .call f args kws := by
      split
      · next hk => have hk : kws = [] := by simpa using hk
                   rw [visit_noLams .plain f h.1, visits_noLams args ha, hk]
      · rw [visits_noLams args ha, visitItems_noLams kws h.2.2]
    cases m with
    | plain => simp only [visit]; exact hp
    | chain => simp only [visit, visitLast_noLams .chain args ha]
    | nameLast c => simp only [visit, visitLast_noLams (.bind c) args ha]
    | bind c =>
      simp only [visit]
      rw [if_neg (by simp [noLams_autocurry ha]), if_neg (by simp [noLams_decoratedArgs args ha, curryFinal, noLams_last ha])]
      exact hp
  | m, .named c e, h => by
    simp only [labels] at h
    have h := labels_ctx _ [] e h
    cases m <;> simp only [visit, visit_noLams _ e h]
  | _, .const _, _ => by simp only [visit]
  | _, .name _, _ => by simp only [visit]
  | _, .attr e a, h => by simp only [labels] at h; simp only [visit, visit_noLams _ e h]
  | _, .dict is, h => by simp only [labels] at h; simp only [visit, visitItems_noLams is h]
  | _, .walrus _ e, h => by simp only [labels] at h; simp only [visit, visit_noLams _ e h]
  | _, .envassign _ e, h => by simp only [labels] at h; simp only [visit, visit_noLams _ e h]
  | _, .letx is e, h => by
    simp only [labels, List.append_eq_nil_iff] at h
    simp only [visit, visit_noLams _ e h.2, visitItems_noLams is h.1]
  | _, .assign _ e, h => by simp only [labels] at h; simp only [visit, visit_noLams _ e h]
  | _, .op _ es, h => by simp only [labels] at h; simp only [visit, visits_noLams es h]
theorem visits_noLams : (es : List E) → labelsAll [] es = [] → visits es = es
  | [], _ => by simp only [visits]
  | e :: es, h => by
    simp only [labelsAll, List.append_eq_nil_iff] at h
    simp only [visits, visit_noLams _ e h.1, visits_noLams es h.2]
theorem visitLast_noLams : (m : Mode) → (es : List E) → labelsAll [] es = [] → visitLast m es = es
  | _, [], _ => by simp only [visitLast]
  | m, [e], h => by
    simp only [labelsAll, List.append_eq_nil_iff] at h
    simp only [visitLast, visit_noLams _ e h.1]
  | m, e :: e' :: es, h => by
    rw [labelsAll, List.append_eq_nil_iff] at h
    simp only [visitLast, visitLast_noLams m (e' :: es) h.2]
theorem visitItem_noLams : (i : Item) → labelsItem i = [] → visitItem i = i
  | .star e, h => by simp only [labelsItem] at h; simp only [visitItem, visit_noLams _ e h]
  | .lit c e, h => by simp only [labelsItem] at h; simp only [visitItem, visit_noLams _ e h]
  | .pair k e, h => by
    simp only [labelsItem, List.append_eq_nil_iff] at h
    simp only [visitItem, visit_noLams _ e h.2, visit_noLams _ k h.1]
theorem visitItems_noLams : (is : List Item) → labelsItems is = [] → visitItems is = is
  | [], _ => by simp only [visitItems]
  | i :: is, h => by
    simp only [labelsItems, List.append_eq_nil_iff] at h
    simp only [visitItems, visitItem_noLams i h.1, visitItems_noLams is h.2]
end

mutual
theorem fin_noLams : (b : Bool) → (e : E) → labels [] e = [] → fin b e = e
  | _, .lam l ds b, h => by simp [labels] at h
  | m, .call f args kws, h => by
    simp only [labels, List.append_eq_nil_iff] at h
    have ha : labelsAll [] args = [] := labelsAll_ctx _ _ _ h.2.1
    cases m with
    | true => simp only [fin, finLast_noLams args ha]
    | false =>
      simp only [fin]
      rw [if_neg (by simp [noLams_decoratedArgs args ha]), fin_noLams false f h.1, fins_noLams args ha, finItems_noLams kws h.2.2]
  | m, .named c e, h => by
    simp only [labels] at h
    have h := labels_ctx _ [] e h
    cases m with
    | true => simp only [fin, fin_noLams _ e h]
    | false => simp only [fin, fin_noLams _ e h]; split <;> rfl
  | _, .const _, _ => by simp only [fin]
  | _, .name _, _ => by simp only [fin]
  | _, .attr e a, h => by simp only [labels] at h; simp only [fin, fin_noLams _ e h]
  | _, .dict is, h => by simp only [labels] at h; simp only [fin, finItems_noLams is h]
  | _, .walrus _ e, h => by simp only [labels] at h; simp only [fin, fin_noLams _ e h]
  | _, .envassign _ e, h => by simp only [labels] at h; simp only [fin, fin_noLams _ e h]
  | _, .letx is e, h => by
    simp only [labels, List.append_eq_nil_iff] at h
    simp only [fin, fin_noLams _ e h.2, finItems_noLams is h.1]
  | _, .assign _ e, h => by simp only [labels] at h; simp only [fin, fin_noLams _ e h]
  | _, .op _ es, h => by simp only [labels] at h; simp only [fin, fins_noLams es h]
theorem fins_noLams : (es : List E) → labelsAll [] es = [] → fins es = es
  | [], _ => by simp only [fins]
  | e :: es, h => by
    simp only [labelsAll, List.append_eq_nil_iff] at h
    simp only [fins, fin_noLams _ e h.1, fins_noLams es h.2]
theorem finLast_noLams : (es : List E) → labelsAll [] es = [] → finLast es = es
  | [], _ => by simp only [finLast]
  | [e], h => by
    simp only [labelsAll, List.append_eq_nil_iff] at h
    simp only [finLast, fin_noLams _ e h.1]
  | e :: e' :: es, h => by
    rw [labelsAll, List.append_eq_nil_iff] at h
    simp only [finLast, finLast_noLams (e' :: es) h.2]
theorem finItem_noLams : (i : Item) → labelsItem i = [] → finItem i = i
  | .star e, h => by simp only [labelsItem] at h; simp only [finItem, fin_noLams _ e h]
  | .lit c e, h => by simp only [labelsItem] at h; simp only [finItem, fin_noLams _ e h]
  | .pair k e, h => by
    simp only [labelsItem, List.append_eq_nil_iff] at h
    simp only [finItem, fin_noLams _ e h.2, fin_noLams _ k h.1]
theorem finItems_noLams : (is : List Item) → labelsItems is = [] → finItems is = is
  | [], _ => by simp only [finItems]
  | i :: is, h => by
    simp only [labelsItems, List.append_eq_nil_iff] at h
    simp only [finItems, finItem_noLams i h.1, finItems_noLams is h.2]
end

mutual
theorem expected_noLams (bs : Bool) (ctx : Option Const) : (e : E) → labels [] e = [] → expected bs ctx e = []
  | .lam l ds b, h => by simp [labels] at h
  | .call f args kws, h => by
    simp only [labels, List.append_eq_nil_iff] at h
    have ha : labelsAll [] args = [] := labelsAll_ctx _ _ _ h.2.1
    simp only [expected, expected_noLams bs _ f h.1, expectedAll_noLams bs _ args ha, expectedItems_noLams bs kws h.2.2, List.append_nil]
  | .named c e, h => by
    simp only [labels] at h
    simp only [expected, expected_noLams bs _ e (labels_ctx _ [] e h)]
  | .const _, _ => by simp only [expected]
  | .name _, _ => by simp only [expected]
  | .attr e a, h => by simp only [labels] at h; simp only [expected, expected_noLams _ _ e h]
  | .dict is, h => by simp only [labels] at h; simp only [expected, expectedItems_noLams _ is h]
  | .walrus _ e, h => by simp only [labels] at h; simp only [expected, expected_noLams _ _ e h]
  | .envassign _ e, h => by simp only [labels] at h; simp only [expected, expected_noLams _ _ e h]
  | .letx is e, h => by
    simp only [labels, List.append_eq_nil_iff] at h
    simp only [expected, expected_noLams _ _ e h.2, expectedItems_noLams _ is h.1, List.append_nil]
  | .assign _ e, h => by simp only [labels] at h; simp only [expected, expected_noLams _ _ e h]
  | .op _ es, h => by simp only [labels] at h; simp only [expected, expectedAll_noLams _ _ es h]
theorem expectedAll_noLams (bs : Bool) (ctx : Option Const) : (es : List E) → labelsAll [] es = [] → expectedAll bs ctx es = []
  | [], _ => by simp only [expectedAll]
  | e :: es, h => by
    simp only [labelsAll, List.append_eq_nil_iff] at h
    simp only [expectedAll, expected_noLams _ _ e h.1, expectedAll_noLams _ _ es h.2, List.append_nil]
theorem expectedItem_noLams (bs : Bool) : (i : Item) → labelsItem i = [] → expectedItem bs i = []
  | .star e, h => by simp only [labelsItem] at h; simp only [expectedItem, expected_noLams _ _ e h]
  | .lit c e, h => by simp only [labelsItem] at h; simp only [expectedItem, expected_noLams _ _ e h]
  | .pair k e, h => by
    simp only [labelsItem, List.append_eq_nil_iff] at h
    simp only [expectedItem, expected_noLams _ _ e h.2, expected_noLams _ _ k h.1, List.append_nil]
theorem expectedItems_noLams (bs : Bool) : (is : List Item) → labelsItems is = [] → expectedItems bs is = []
  | [], _ => by simp only [expectedItems]
  | i :: is, h => by
    simp only [labelsItems, List.append_eq_nil_iff] at h
    simp only [expectedItems, expectedItem_noLams bs i h.1, expectedItems_noLams bs is h.2, List.append_nil]
end

/-! ## The words of the specification -/

theorem says_eq (n : String) : (e : E) → says n e = isx (· == n) e
  | .const _ | .name _ | .attr _ _ | .lam _ _ _ | .call _ _ _ | .dict _ | .walrus _ _ | .envassign _ _ | .letx _ _ | .assign _ _ | .op _ _
  | .named _ _ => rfl

theorem saysNamelambda_eq : (e : E) → saysNamelambda e = isDecorator (· == "namelambda") e
  | .const _ | .name _ | .attr _ _ | .lam _ _ _ | .call _ _ _ | .dict _ | .walrus _ _ | .envassign _ _ | .letx _ _ | .assign _ _ | .op _ _
  | .named _ _ => by simp only [saysNamelambda, isDecorator, says_eq]

theorem isLambda_eq : (e : E) → isLambda e = isLam e
  | .const _ | .name _ | .attr _ _ | .lam _ _ _ | .call _ _ _ | .dict _ | .walrus _ _ | .envassign _ _ | .letx _ _ | .assign _ _ | .op _ _
  | .named _ _ => rfl

mutual
theorem inDecorators_eq : (e : E) → inDecorators e = decorated e
  | .call _ args _ => by simp only [inDecorators, decorated, inDecoratorsArgs_eq args]
  | .named _ e => by simp only [inDecorators, decorated, isLambda_eq, inDecorators_eq e]
  | .const _ | .name _ | .attr _ _ | .lam _ _ _ | .dict _ | .walrus _ _ | .envassign _ _ | .letx _ _ | .assign _ _ | .op _ _ => by
    simp only [inDecorators, decorated]
theorem inDecoratorsArgs_eq : (es : List E) → inDecoratorsArgs es = decoratedArgs es
  | [] => by simp only [inDecoratorsArgs, decoratedArgs]
  | [e] => by simp only [inDecoratorsArgs, decoratedArgs, isLambda_eq, inDecorators_eq e]
  | _ :: _ :: _ => by simp only [inDecoratorsArgs, decoratedArgs]
end

mutual
theorem namedByHand_eq : (e : E) → namedByHand e = hasNamed e
  | .call f args _ => by simp only [namedByHand, hasNamed, saysNamelambda_eq, namedByHandArgs_eq args]
  | .named _ e => by simp only [namedByHand, hasNamed]
  | .const _ | .name _ | .attr _ _ | .lam _ _ _ | .dict _ | .walrus _ _ | .envassign _ _ | .letx _ _ | .assign _ _ | .op _ _ => by
    simp only [namedByHand, hasNamed]
theorem namedByHandArgs_eq : (es : List E) → namedByHandArgs es = hasNamedArgs es
  | [] => by simp only [namedByHandArgs, hasNamedArgs]
  | [e] => by simp only [namedByHandArgs, hasNamedArgs, namedByHand_eq e]
  | _ :: _ :: _ => by simp only [namedByHandArgs, hasNamedArgs]
end

theorem curriedLast_eq (e : E) : curriedLast e = curryFinal e := by
  cases e with
  | call f args kws =>
    simp only [curriedLast, curryFinal, says_eq, lastLam]
    cases args.getLast? <;> simp [isLambda_eq]
  | _ => rfl

/-! ## Shapes -/

mutual
theorem fine_mono : (b : Bool) → (e : E) → Fine b e → Fine false e
  | true, .call f args kws, h => by
    simp only [Fine, says_eq, saysNamelambda_eq, isLambda_eq, inDecorators_eq, inDecoratorsArgs_eq, namedByHandArgs_eq, curriedLast_eq, Bool.true_and, Bool.false_and] at h ⊢
    exact ⟨h.1, h.2.1, h.2.2.1, fineAll_mono _ args h.2.2.2.1, h.2.2.2.2.1,
      fun h1 h2 => h.2.2.2.2.2.1 h1 (.inl trivial), h.2.2.2.2.2.2.1, nofun⟩
  | true, .const _, _ => by simp only [Fine, says_eq, saysNamelambda_eq, isLambda_eq, inDecorators_eq, inDecoratorsArgs_eq, namedByHandArgs_eq, curriedLast_eq]
  | true, .name _, _ => by simp only [Fine, says_eq, saysNamelambda_eq, isLambda_eq, inDecorators_eq, inDecoratorsArgs_eq, namedByHandArgs_eq, curriedLast_eq]
  | true, .attr e a, h => by simp only [Fine, says_eq, saysNamelambda_eq, isLambda_eq, inDecorators_eq, inDecoratorsArgs_eq, namedByHandArgs_eq, curriedLast_eq] at h ⊢; exact h
  | true, .lam l ds b, h => by simp only [Fine, says_eq, saysNamelambda_eq, isLambda_eq, inDecorators_eq, inDecoratorsArgs_eq, namedByHandArgs_eq, curriedLast_eq] at h ⊢; exact h
  | true, .dict is, h => by simp only [Fine, says_eq, saysNamelambda_eq, isLambda_eq, inDecorators_eq, inDecoratorsArgs_eq, namedByHandArgs_eq, curriedLast_eq] at h ⊢; exact h
  | true, .walrus _ e, h => by simp only [Fine, says_eq, saysNamelambda_eq, isLambda_eq, inDecorators_eq, inDecoratorsArgs_eq, namedByHandArgs_eq, curriedLast_eq] at h ⊢; exact h
  | true, .envassign _ e, h => by simp only [Fine, says_eq, saysNamelambda_eq, isLambda_eq, inDecorators_eq, inDecoratorsArgs_eq, namedByHandArgs_eq, curriedLast_eq] at h ⊢; exact h
  | true, .letx _ _, h => by simp only [Fine, says_eq, saysNamelambda_eq, isLambda_eq, inDecorators_eq, inDecoratorsArgs_eq, namedByHandArgs_eq, curriedLast_eq] at h ⊢; exact h
  | true, .assign _ e, h => by simp only [Fine, says_eq, saysNamelambda_eq, isLambda_eq, inDecorators_eq, inDecoratorsArgs_eq, namedByHandArgs_eq, curriedLast_eq] at h ⊢; exact h
  | true, .op _ es, h => by simp only [Fine, says_eq, saysNamelambda_eq, isLambda_eq, inDecorators_eq, inDecoratorsArgs_eq, namedByHandArgs_eq, curriedLast_eq] at h ⊢; exact h
  | true, .named _ es, h => by simp only [Fine, says_eq, saysNamelambda_eq, isLambda_eq, inDecorators_eq, inDecoratorsArgs_eq, namedByHandArgs_eq, curriedLast_eq] at h ⊢; exact h
  | false, _, h => h
theorem fineAll_mono : (b : Bool) → (es : List E) → FineAll b es → FineAll false es
  | _, [], _ => by simp only [FineAll]
  | b, e :: es, h => by
    simp only [FineAll] at h ⊢
    exact ⟨fine_mono b e h.1, fineAll_mono b es h.2⟩
end

theorem visits_length : (es : List E) → (visits es).length = es.length
  | [] => by simp only [visits]
  | e :: es => by simp only [visits, List.length_cons, visits_length es]

theorem isLam_visit (e : E) : isLam (visit .plain e) = isLam e := by
  cases e with
  | call f args kws => simp only [visit]; split <;> simp only [isLam]
  | _ => simp only [visit, isLam]

theorem isx_visit (p : String → Bool) (e : E) : isx p (visit .plain e) = isx p e := by
  cases e with
  | call f args kws => simp only [visit]; split <;> simp only [isx]
  | _ => simp only [visit, isx]

theorem isDecorator_visit (p : String → Bool) (e : E) : isDecorator p (visit .plain e) = isDecorator p e := by
  cases e with
  | call f args kws =>
    simp only [visit]
    split
    · exact isx_visit p f
    · rfl
  | _ => simp only [visit, isDecorator, isx]

mutual
theorem decorated_visit : (e : E) → decorated (visit .plain e) = decorated e
  | .call f args kws => by
    simp only [visit]
    split <;> simp only [decorated, decoratedArgs_visits args]
  | .named c e => by simp only [visit, decorated, isLam_visit, decorated_visit e]
  | .const _ => by simp only [visit]
  | .name _ => by simp only [visit]
  | .attr e a => by simp only [visit, decorated]
  | .lam l ds b => by simp only [visit, decorated]
  | .dict is => by simp only [visit, decorated]
  | .walrus _ e => by simp only [visit, decorated]
  | .envassign _ e => by simp only [visit, decorated]
  | .letx _ _ => by simp only [visit, decorated]
  | .assign _ e => by simp only [visit, decorated]
  | .op _ es => by simp only [visit, decorated]
theorem decoratedArgs_visits : (es : List E) → decoratedArgs (visits es) = decoratedArgs es
  | [] => by simp only [visits]
  | [e] => by simp only [visits, decoratedArgs, isLam_visit, decorated_visit e]
  | _ :: _ :: _ => by simp only [visits, decoratedArgs]
end

mutual
theorem hasNamed_visit : (e : E) → hasNamed (visit .plain e) = hasNamed e
  | .call f args kws => by
    simp only [visit]
    split <;> simp only [hasNamed, hasNamedArgs_visits args, isDecorator_visit]
  | .named c e => by simp only [visit, hasNamed]
  | .const _ => by simp only [visit]
  | .name _ => by simp only [visit]
  | .attr e a => by simp only [visit, hasNamed]
  | .lam l ds b => by simp only [visit, hasNamed]
  | .dict is => by simp only [visit, hasNamed]
  | .walrus _ e => by simp only [visit, hasNamed]
  | .envassign _ e => by simp only [visit, hasNamed]
  | .letx _ _ => by simp only [visit, hasNamed]
  | .assign _ e => by simp only [visit, hasNamed]
  | .op _ es => by simp only [visit, hasNamed]
theorem hasNamedArgs_visits : (es : List E) → hasNamedArgs (visits es) = hasNamedArgs es
  | [] => by simp only [visits]
  | [e] => by simp only [visits, hasNamedArgs, hasNamed_visit e]
  | _ :: _ :: _ => by simp only [visits, hasNamedArgs]
end

/-! ## What a bound tree becomes -/

theorem visit_call_noLams (f : E) (args : List E) (kws : List Item) (hf : NoLams f) (hk : NoLamsItems kws) :
    visit .plain (.call f args kws) = .call f (visits args) kws := by
  simp only [visit]
  split
  · next h => have h : kws = [] := by simpa using h
              rw [visit_noLams _ f hf, h]
  · rw [visitItems_noLams kws hk]

theorem visitLast_plain (m : Mode) (es : List E) (h : NoLamsAll es.dropLast) (hm : ∀ e, es.getLast? = some e → visit m e = visit .plain e) :
    visitLast m es = visits es := by
  induction es with
  | nil => simp only [visitLast, visits]
  | cons e es ih =>
    cases es with
    | nil => simp only [visitLast, visits, hm e (by simp)]
    | cons e' es =>
      simp only [NoLamsAll, List.dropLast_cons₂, labelsAll, List.append_eq_nil_iff] at h
      rw [visitLast, visits, ih h.2 (fun x hx => hm x (by simpa using hx)), visit_noLams _ e h.1]

theorem chain_lam {l : Nat} {ds : List E} {b : E} (h : NoLamsAll ds) : visit .chain (.lam l ds b) = visit .plain (.lam l ds b) := by
  simp only [visit, visits_noLams ds h]

theorem fineAll_last {b : Bool} : {es : List E} → FineAll b es → ∀ e ∈ es, Fine b e
  | e :: es, h, e', h' => by
    simp only [FineAll] at h
    rcases List.mem_cons.1 h' with h1 | h1
    · rw [h1]; exact h.1
    · exact fineAll_last h.2 e' h1

mutual
/-- To visit only the body of the lambda is to visit all. -/
theorem chain_plain : (e : E) → Fine true e → (isLam e = true ∨ decorated e = true) → hasNamed e = false →
    visit .chain e = visit .plain e
  | .lam l ds b, h, _, _ => by simp only [Fine, says_eq, saysNamelambda_eq, isLambda_eq, inDecorators_eq, inDecoratorsArgs_eq, namedByHandArgs_eq, curriedLast_eq] at h; exact chain_lam h.1
  | .call f args kws, h, hd, hn => by
    have hd : decoratedArgs args = true := by simpa [isLam, decorated] using hd
    simp only [hasNamed, Bool.or_eq_false_iff] at hn
    simp only [Fine, says_eq, saysNamelambda_eq, isLambda_eq, inDecorators_eq, inDecoratorsArgs_eq, namedByHandArgs_eq, curriedLast_eq, Bool.true_and] at h
    have hno := h.2.2.2.2.2.1 hd (.inl trivial)
    rw [visit_call_noLams f args kws hno.1 hno.2]
    simp only [visit, chain_plainArgs args h.2.2.2.1 hd hn.2]
  | .named c e, _, _, hn => by simp [hasNamed] at hn
  | .const _, _, hd, _ => by simp [isLam, decorated] at hd
  | .name _, _, hd, _ => by simp [isLam, decorated] at hd
  | .attr e a, _, hd, _ => by simp [isLam, decorated] at hd
  | .dict is, _, hd, _ => by simp [isLam, decorated] at hd
  | .walrus _ e, _, hd, _ => by simp [isLam, decorated] at hd
  | .envassign _ e, _, hd, _ => by simp [isLam, decorated] at hd
  | .letx _ _, _, hd, _ => by simp [isLam, decorated] at hd
  | .assign _ e, _, hd, _ => by simp [isLam, decorated] at hd
  | .op _ es, _, hd, _ => by simp [isLam, decorated] at hd
theorem chain_plainArgs : (es : List E) → FineAll (es.length == 1) es → decoratedArgs es = true → hasNamedArgs es = false →
    visitLast .chain es = visits es
  | [], _, hd, _ => by simp [decoratedArgs] at hd
  | [e], h, hd, hn => by
    simp only [FineAll, List.length_singleton, beq_self_eq_true, and_true] at h
    simp only [decoratedArgs, Bool.or_eq_true] at hd
    simp only [hasNamedArgs] at hn
    simp only [visitLast, visits, chain_plain e h hd hn]
  | _ :: _ :: _, _, hd, _ => by simp [decoratedArgs] at hd
end

/-- The tree gets a name. -/
def gets (e : E) : Bool := isLam e || (decorated e && !hasNamed e) || curryFinal e

theorem visit_bind (c : Const) (e : E) (h : Fine true e) :
    visit (.bind c) e = if gets e then .named c (visit .plain e) else visit .plain e := by
  cases e with
  | lam l ds b =>
    simp only [Fine, says_eq, saysNamelambda_eq, isLambda_eq, inDecorators_eq, inDecoratorsArgs_eq, namedByHandArgs_eq, curriedLast_eq] at h
    simp only [visit, gets, isLam, Bool.true_or, if_true, visits_noLams ds h.1]
  | call f args kws =>
    have hfine := h
    simp only [Fine, says_eq, saysNamelambda_eq, isLambda_eq, inDecorators_eq, inDecoratorsArgs_eq, namedByHandArgs_eq, curriedLast_eq, Bool.true_and] at h
    have hauto : autocurryFinal (.call f args kws) = false := by simp only [autocurryFinal, h.2.1, Bool.false_and]
    simp only [gets, isLam, Bool.false_or, decorated]
    by_cases hg : (decoratedArgs args && !hasNamed (.call f args kws) || curryFinal (.call f args kws)) = true
    · rw [if_pos hg]
      simp only [visit, hauto, Bool.false_eq_true, if_false]
      rw [if_pos hg]
      have key : visit .plain (.call f args kws) = .call f (visitLast .chain args) kws := by
        simp only [Bool.or_eq_true, Bool.and_eq_true, Bool.not_eq_true'] at hg
        rcases hg with hg | hg
        · have := chain_plain (.call f args kws) hfine (.inr (by simpa [decorated] using hg.1)) hg.2
          rw [← this]; simp only [visit]
        · obtain ⟨h1, h2, h3⟩ := h.2.2.2.2.2.2.2 trivial hg
          rw [visit_call_noLams f args kws h1 h3, visitLast_plain .chain args h2]
          intro e he
          simp only [curryFinal, Bool.and_eq_true, lastLam, he] at hg
          have hfe := fineAll_last h.2.2.2.1 e (List.mem_of_getLast? he)
          cases e with
          | lam l ds b => simp only [Fine, says_eq, saysNamelambda_eq, isLambda_eq, inDecorators_eq, inDecoratorsArgs_eq, namedByHandArgs_eq, curriedLast_eq] at hfe; exact chain_lam hfe.1
          | _ => simp [isLam] at hg
      simp only [visit] at key
      rw [key]
    · rw [if_neg hg]
      simp only [visit, hauto, Bool.false_eq_true, if_false]
      rw [if_neg hg]
  | named c' e =>
    simp only [visit, gets, isLam, hasNamed, curryFinal, Bool.not_true, Bool.and_false, Bool.or_self, Bool.false_eq_true, if_false]
  | _ => simp only [visit, gets, isLam, decorated, curryFinal, Bool.false_and, Bool.or_self, Bool.false_eq_true, if_false]

theorem visits_getLast? (es : List E) : (visits es).getLast? = es.getLast?.map (visit .plain) := by
  induction es with
  | nil => simp [visits]
  | cons e es ih =>
    cases es with
    | nil => simp [visits]
    | cons e' es => simpa [visits] using ih

theorem curryFinal_visit (e : E) : curryFinal (visit .plain e) = curryFinal e := by
  have key : ∀ args, lastLam (visits args) = lastLam args := by
    intro args
    simp only [lastLam, visits_getLast?]
    cases args.getLast? <;> simp [isLam_visit]
  cases e with
  | call f args kws => simp only [visit]; split <;> simp only [curryFinal, isx_visit, key]
  | _ => simp only [visit, curryFinal]

theorem gets_visit (e : E) : gets (visit .plain e) = gets e := by
  simp only [gets, isLam_visit, decorated_visit, hasNamed_visit, curryFinal_visit]

/-- No call of `currycall`. -/
def noAuto : E → Bool
  | .call f _ _ => !isx (· == "currycall") f
  | _ => true

theorem noAuto_visit (e : E) : noAuto (visit .plain e) = noAuto e := by
  cases e with
  | call f args kws => simp only [visit]; split <;> simp only [noAuto, isx_visit]
  | _ => simp only [visit, noAuto]

theorem noAuto_fine {b : Bool} {e : E} (h : Fine b e) : noAuto e = true := by
  cases e with
  | call f args kws => simp only [Fine, says_eq, saysNamelambda_eq, isLambda_eq, inDecorators_eq, inDecoratorsArgs_eq, namedByHandArgs_eq, curriedLast_eq] at h; simp [noAuto, h.2.1]
  | _ => simp only [noAuto]

theorem visit_bind_not (c : Const) (e : E) (h : noAuto e = true) (hg : gets e = false) : visit (.bind c) e = visit .plain e := by
  cases e with
  | lam l ds b => simp [gets, isLam] at hg
  | call f args kws =>
    have hauto : autocurryFinal (.call f args kws) = false := by simp_all [autocurryFinal, noAuto]
    simp only [gets, isLam, Bool.false_or, decorated] at hg
    simp only [visit, hauto, hg, Bool.false_eq_true, if_false]
  | _ => simp only [visit]

theorem visit_visit_bind (c : Const) (e : E) (h : Fine true e) (hv : visit .plain (visit .plain e) = visit .plain e) :
    visit (.bind c) (visit (.bind c) e) = visit (.bind c) e := by
  rw [visit_bind c e h]
  cases hg : gets e with
  | true => simp only [if_true, visit, hv]
  | false =>
    simp only [Bool.false_eq_true, if_false]
    rw [visit_bind_not c _ (by rw [noAuto_visit, noAuto_fine h]) (by rw [gets_visit, hg]), hv]

mutual
/-- The second visit changes nothing. -/
theorem visit_visit : (e : E) → Fine false e → visit .plain (visit .plain e) = visit .plain e
  | .call f args kws, h => by
    simp only [Fine, says_eq, saysNamelambda_eq, isLambda_eq, inDecorators_eq, inDecoratorsArgs_eq, namedByHandArgs_eq, curriedLast_eq] at h
    simp only [visit]
    split
    · simp only [visit, List.isEmpty_nil, if_true]
      rw [visit_visit f h.2.2.1, visits_visits args (fineAll_mono _ args h.2.2.2.1)]
    · next hk =>
      simp only [visit]
      rw [if_neg (by cases kws with | nil => simp at hk | cons k ks => simp [visitItems]),
        visits_visits args (fineAll_mono _ args h.2.2.2.1), visitItems_visitItems kws h.2.2.2.2.1]
  | .named c e, h => by
    simp only [Fine, says_eq, saysNamelambda_eq, isLambda_eq, inDecorators_eq, inDecoratorsArgs_eq, namedByHandArgs_eq, curriedLast_eq] at h
    simp only [visit, visit_visit e (fine_mono _ e h.2)]
  | .const _, _ => by simp only [visit]
  | .name _, _ => by simp only [visit]
  | .attr e a, h => by simp only [Fine, says_eq, saysNamelambda_eq, isLambda_eq, inDecorators_eq, inDecoratorsArgs_eq, namedByHandArgs_eq, curriedLast_eq] at h; simp only [visit, visit_visit e h]
  | .lam l ds b, h => by
    simp only [Fine, says_eq, saysNamelambda_eq, isLambda_eq, inDecorators_eq, inDecoratorsArgs_eq, namedByHandArgs_eq, curriedLast_eq] at h
    simp only [visit, visits_noLams ds h.1, visit_visit b h.2]
  | .dict is, h => by simp only [Fine, says_eq, saysNamelambda_eq, isLambda_eq, inDecorators_eq, inDecoratorsArgs_eq, namedByHandArgs_eq, curriedLast_eq] at h; simp only [visit, visitItems_visitItems is h]
  | .walrus x e, h => by simp only [Fine, says_eq, saysNamelambda_eq, isLambda_eq, inDecorators_eq, inDecoratorsArgs_eq, namedByHandArgs_eq, curriedLast_eq] at h; simp only [visit, visit_visit_bind (.str x) e h (visit_visit e (fine_mono _ e h))]
  | .envassign x e, h => by simp only [Fine, says_eq, saysNamelambda_eq, isLambda_eq, inDecorators_eq, inDecoratorsArgs_eq, namedByHandArgs_eq, curriedLast_eq] at h; simp only [visit, visit_visit_bind (.str x) e h (visit_visit e (fine_mono _ e h))]
  | .letx is e, h => by simp only [Fine, says_eq, saysNamelambda_eq, isLambda_eq, inDecorators_eq, inDecoratorsArgs_eq, namedByHandArgs_eq, curriedLast_eq] at h; simp only [visit, visitItems_visitItems is h.1, visit_visit e h.2]
  | .assign x e, h => by simp only [Fine, says_eq, saysNamelambda_eq, isLambda_eq, inDecorators_eq, inDecoratorsArgs_eq, namedByHandArgs_eq, curriedLast_eq] at h; simp only [visit, visit_visit_bind (.str x) e h (visit_visit e (fine_mono _ e h))]
  | .op _ es, h => by simp only [Fine, says_eq, saysNamelambda_eq, isLambda_eq, inDecorators_eq, inDecoratorsArgs_eq, namedByHandArgs_eq, curriedLast_eq] at h; simp only [visit, visits_visits es h]
theorem visits_visits : (es : List E) → FineAll false es → visits (visits es) = visits es
  | [], _ => by simp only [visits]
  | e :: es, h => by
    simp only [FineAll] at h
    simp only [visits, visit_visit e h.1, visits_visits es h.2]
theorem visitItems_visitItems : (is : List Item) → FineItems is → visitItems (visitItems is) = visitItems is
  | [], _ => by simp only [visitItems]
  | i :: is, h => by
    simp only [FineItems] at h
    simp only [visitItems, visitItem_visitItem i h.1, visitItems_visitItems is h.2]
theorem visitItem_visitItem : (i : Item) → FineItem i → visitItem (visitItem i) = visitItem i
  | .star e, h => by simp only [FineItem, says_eq, saysNamelambda_eq, isLambda_eq, inDecorators_eq, inDecoratorsArgs_eq, namedByHandArgs_eq, curriedLast_eq] at h; simp only [visitItem, visit_visit e h]
  | .lit (.str t) e, h => by simp only [FineItem, says_eq, saysNamelambda_eq, isLambda_eq, inDecorators_eq, inDecoratorsArgs_eq, namedByHandArgs_eq, curriedLast_eq] at h; simp only [visitItem, visit_visit_bind _ e h (visit_visit e (fine_mono _ e h))]
  | .lit (.num n) e, h => by
    simp only [FineItem, says_eq, saysNamelambda_eq, isLambda_eq, inDecorators_eq, inDecoratorsArgs_eq, namedByHandArgs_eq, curriedLast_eq] at h
    have hg : gets e = false := by simp [gets, h.2]
    simp only [visitItem, visit_bind_not _ e (noAuto_fine h.1) hg]
    rw [visit_bind_not _ _ (by rw [noAuto_visit, noAuto_fine h.1]) (by rw [gets_visit, hg]), visit_visit e h.1]
  | .pair k e, h => by simp only [FineItem, says_eq, saysNamelambda_eq, isLambda_eq, inDecorators_eq, inDecoratorsArgs_eq, namedByHandArgs_eq, curriedLast_eq] at h; simp only [visitItem, visit_visit k h.1, visit_visit e h.2]
end

/-! ## The names -/

/-- Each lambda has one name. -/
def sing (ls : List (Nat × Const)) : List (Nat × List Const) := ls.map fun (l, n) => (l, [n])

theorem sing_append (a b : List (Nat × Const)) : sing (a ++ b) = sing a ++ sing b := List.map_append
theorem sing_cons (l : Nat) (c : Const) (a : List (Nat × Const)) : sing ((l, c) :: a) = (l, [c]) :: sing a := rfl
theorem sing_nil : sing [] = [] := rfl

theorem not_named {b : Bool} {f : E} {args : List E} {kws : List Item} (h : Fine b (.call f args kws)) :
    hasNamed (.call f args kws) = hasNamedArgs args := by
  simp only [Fine, says_eq, saysNamelambda_eq, isLambda_eq, inDecorators_eq, inDecoratorsArgs_eq, namedByHandArgs_eq, curriedLast_eq] at h
  simp only [hasNamed, h.1, Bool.false_or]

mutual
/-- The name makes no difference where there is no lambda, or a named one. -/
theorem expected_ctx (bs : Bool) (b : Bool) (c : Const) : (e : E) → Fine b e → isLam e = false → (decorated e = false ∨ hasNamed e = true) →
    expected bs (some c) e = expected bs none e
  | .call f args kws, h, _, hd => by
    rw [not_named h] at hd
    simp only [Fine, says_eq, saysNamelambda_eq, isLambda_eq, inDecorators_eq, inDecoratorsArgs_eq, namedByHandArgs_eq, curriedLast_eq] at h
    simp only [expected]
    split
    · rw [expectedAll_ctx bs _ c args h.2.2.2.1 (by assumption) (by simpa [decorated] using hd)]
    · rfl
  | .named c e, _, _, _ => by simp only [expected]
  | .const _, _, _, _ => by simp only [expected]
  | .name _, _, _, _ => by simp only [expected]
  | .attr e a, _, _, _ => by simp only [expected]
  | .lam l ds b, _, hl, _ => by simp [isLam] at hl
  | .dict is, _, _, _ => by simp only [expected]
  | .walrus _ e, _, _, _ => by simp only [expected]
  | .envassign _ e, _, _, _ => by simp only [expected]
  | .letx _ _, _, _, _ => by simp only [expected]
  | .assign _ e, _, _, _ => by simp only [expected]
  | .op _ es, _, _, _ => by simp only [expected]
theorem expectedAll_ctx (bs : Bool) (b : Bool) (c : Const) : (es : List E) → FineAll b es → es.length = 1 →
    (decoratedArgs es = false ∨ hasNamedArgs es = true) → expectedAll bs (some c) es = expectedAll bs none es
  | [], _, hl, _ => by simp at hl
  | [e], h, _, hd => by
    simp only [FineAll, and_true] at h
    simp only [decoratedArgs, hasNamedArgs, Bool.or_eq_false_iff] at hd
    have hl : isLam e = false := by
      rcases hd with hd | hd
      · exact hd.1
      · cases e <;> simp_all [hasNamed, isLam]
    simp only [expectedAll, expected_ctx bs b c e h hl (hd.imp And.right id)]
  | _ :: _ :: _, _, hl, _ => by simp at hl
end

mutual
/-- Trees that the first step leaves alone. -/
theorem fin_unvisited (b : Bool) : (e : E) → Fine b e → labels [] (fin false e) = sing (expected false none e)
  | .call f args kws, h => by
    have hn := not_named h
    simp only [Fine, says_eq, saysNamelambda_eq, isLambda_eq, inDecorators_eq, inDecoratorsArgs_eq, namedByHandArgs_eq, curriedLast_eq] at h
    simp only [fin, hn]
    by_cases hd : (decoratedArgs args && hasNamedArgs args) = true
    · rw [if_pos hd]
      simp only [Bool.and_eq_true] at hd
      obtain ⟨h1, h2⟩ := h.2.2.2.2.2.1 hd.1 (.inr hd.2)
      simp only [labels, expected, sing_append, expected_noLams _ _ f h1, expectedItems_noLams _ kws h2, sing_nil, ite_self]
      rw [show labels [] f = [] from h1, show labelsItems kws = [] from h2,
        fin_unvisitedArgs _ args h.2.2.2.1 hd.1 hd.2]
    · rw [if_neg hd]
      simp only [labels, expected, sing_append, ite_self]
      rw [fin_unvisited _ f h.2.2.1, fins_unvisited _ args h.2.2.2.1, finItems_unvisited kws h.2.2.2.2.1]
  | .named c (.lam l ds b), h => by
    simp only [Fine, says_eq, saysNamelambda_eq, isLambda_eq, inDecorators_eq, inDecoratorsArgs_eq, namedByHandArgs_eq, curriedLast_eq] at h
    simp only [fin, isLam, Bool.true_or, if_true, labels, expected, expectedAll_noLams _ _ ds h.2.1, List.nil_append, Option.getD,
      sing_cons, fin_unvisited _ b h.2.2]
    rw [show labelsAll [] ds = [] from h.2.1]; rfl
  | .named c (.call f args kws), h => by simp [Fine, says_eq, saysNamelambda_eq, isLambda_eq, inDecorators_eq, inDecoratorsArgs_eq, namedByHandArgs_eq, curriedLast_eq, isLam] at h
  | .named c (.named _ e), h => by simp [Fine, says_eq, saysNamelambda_eq, isLambda_eq, inDecorators_eq, inDecoratorsArgs_eq, namedByHandArgs_eq, curriedLast_eq, isLam] at h
  | .named c (.const _), h => by simp [Fine, says_eq, saysNamelambda_eq, isLambda_eq, inDecorators_eq, inDecoratorsArgs_eq, namedByHandArgs_eq, curriedLast_eq, isLam] at h
  | .named c (.name _), h => by simp [Fine, says_eq, saysNamelambda_eq, isLambda_eq, inDecorators_eq, inDecoratorsArgs_eq, namedByHandArgs_eq, curriedLast_eq, isLam] at h
  | .named c (.attr e a), h => by simp [Fine, says_eq, saysNamelambda_eq, isLambda_eq, inDecorators_eq, inDecoratorsArgs_eq, namedByHandArgs_eq, curriedLast_eq, isLam] at h
  | .named c (.dict is), h => by simp [Fine, says_eq, saysNamelambda_eq, isLambda_eq, inDecorators_eq, inDecoratorsArgs_eq, namedByHandArgs_eq, curriedLast_eq, isLam] at h
  | .named c (.walrus _ e), h => by simp [Fine, says_eq, saysNamelambda_eq, isLambda_eq, inDecorators_eq, inDecoratorsArgs_eq, namedByHandArgs_eq, curriedLast_eq, isLam] at h
  | .named c (.envassign _ e), h => by simp [Fine, says_eq, saysNamelambda_eq, isLambda_eq, inDecorators_eq, inDecoratorsArgs_eq, namedByHandArgs_eq, curriedLast_eq, isLam] at h
  | .named c (.letx _ _), h => by simp [Fine, says_eq, saysNamelambda_eq, isLambda_eq, inDecorators_eq, inDecoratorsArgs_eq, namedByHandArgs_eq, curriedLast_eq, isLam] at h
  | .named c (.assign _ e), h => by simp [Fine, says_eq, saysNamelambda_eq, isLambda_eq, inDecorators_eq, inDecoratorsArgs_eq, namedByHandArgs_eq, curriedLast_eq, isLam] at h
  | .named c (.op _ es), h => by simp [Fine, says_eq, saysNamelambda_eq, isLambda_eq, inDecorators_eq, inDecoratorsArgs_eq, namedByHandArgs_eq, curriedLast_eq, isLam] at h
  | .const _, _ => by simp only [fin, labels, expected, sing_nil]
  | .name _, _ => by simp only [fin, labels, expected, sing_nil]
  | .attr e a, h => by simp only [Fine, says_eq, saysNamelambda_eq, isLambda_eq, inDecorators_eq, inDecoratorsArgs_eq, namedByHandArgs_eq, curriedLast_eq] at h; simp only [fin, labels, expected, fin_unvisited _ e h]
  | .lam l ds b, h => by
    simp only [Fine, says_eq, saysNamelambda_eq, isLambda_eq, inDecorators_eq, inDecoratorsArgs_eq, namedByHandArgs_eq, curriedLast_eq] at h
    simp only [fin, labels, expected, expectedAll_noLams _ _ ds h.1, List.nil_append, Option.getD, sing_cons, fin_unvisited _ b h.2]
    rw [show labelsAll [] ds = [] from h.1]; rfl
  | .dict is, h => by simp only [Fine, says_eq, saysNamelambda_eq, isLambda_eq, inDecorators_eq, inDecoratorsArgs_eq, namedByHandArgs_eq, curriedLast_eq] at h; simp only [fin, labels, expected, finItems_unvisited is h]
  | .walrus x e, h => by simp only [Fine, says_eq, saysNamelambda_eq, isLambda_eq, inDecorators_eq, inDecoratorsArgs_eq, namedByHandArgs_eq, curriedLast_eq] at h; simp [fin, labels, expected, fin_unvisited _ e h]
  | .envassign x e, h => by simp only [Fine, says_eq, saysNamelambda_eq, isLambda_eq, inDecorators_eq, inDecoratorsArgs_eq, namedByHandArgs_eq, curriedLast_eq] at h; simp [fin, labels, expected, fin_unvisited _ e h]
  | .letx is e, h => by
    simp only [Fine, says_eq, saysNamelambda_eq, isLambda_eq, inDecorators_eq, inDecoratorsArgs_eq, namedByHandArgs_eq, curriedLast_eq] at h
    simp only [fin, labels, expected, finItems_unvisited is h.1, fin_unvisited _ e h.2, sing_append]
  | .assign x e, h => by simp only [Fine, says_eq, saysNamelambda_eq, isLambda_eq, inDecorators_eq, inDecoratorsArgs_eq, namedByHandArgs_eq, curriedLast_eq] at h; simp [fin, labels, expected, fin_unvisited _ e h]
  | .op _ es, h => by simp only [Fine, says_eq, saysNamelambda_eq, isLambda_eq, inDecorators_eq, inDecoratorsArgs_eq, namedByHandArgs_eq, curriedLast_eq] at h; simp only [fin, labels, expected, fins_unvisited _ es h]
/-- A lambda with a name in decorators. -/
theorem fin_unvisitedChain (b : Bool) : (e : E) → Fine b e → decorated e = true → hasNamed e = true →
    labels [] (fin true e) = sing (expected false none e)
  | .call f args kws, h, hd, hn => by
    rw [not_named h] at hn
    simp only [decorated] at hd
    simp only [Fine, says_eq, saysNamelambda_eq, isLambda_eq, inDecorators_eq, inDecoratorsArgs_eq, namedByHandArgs_eq, curriedLast_eq] at h
    obtain ⟨h1, h2⟩ := h.2.2.2.2.2.1 hd (.inr hn)
    simp only [fin, labels, expected, sing_append, expected_noLams _ _ f h1, expectedItems_noLams _ kws h2, sing_nil, ite_self]
    rw [show labels [] f = [] from h1, show labelsItems kws = [] from h2, fin_unvisitedArgs _ args h.2.2.2.1 hd hn]
  | .named c (.lam l ds b), h, _, _ => by
    simp only [Fine, says_eq, saysNamelambda_eq, isLambda_eq, inDecorators_eq, inDecoratorsArgs_eq, namedByHandArgs_eq, curriedLast_eq] at h
    simp only [fin, labels, expected, expectedAll_noLams _ _ ds h.2.1, List.nil_append, Option.getD,
      sing_cons, fin_unvisited _ b h.2.2]
    rw [show labelsAll [] ds = [] from h.2.1]; rfl
  | .named c (.call f args kws), h, _, _ => by simp [Fine, says_eq, saysNamelambda_eq, isLambda_eq, inDecorators_eq, inDecoratorsArgs_eq, namedByHandArgs_eq, curriedLast_eq, isLam] at h
  | .named c (.named _ e), h, _, _ => by simp [Fine, says_eq, saysNamelambda_eq, isLambda_eq, inDecorators_eq, inDecoratorsArgs_eq, namedByHandArgs_eq, curriedLast_eq, isLam] at h
  | .named c (.const _), h, _, _ => by simp [Fine, says_eq, saysNamelambda_eq, isLambda_eq, inDecorators_eq, inDecoratorsArgs_eq, namedByHandArgs_eq, curriedLast_eq, isLam] at h
  | .named c (.name _), h, _, _ => by simp [Fine, says_eq, saysNamelambda_eq, isLambda_eq, inDecorators_eq, inDecoratorsArgs_eq, namedByHandArgs_eq, curriedLast_eq, isLam] at h
  | .named c (.attr e a), h, _, _ => by simp [Fine, says_eq, saysNamelambda_eq, isLambda_eq, inDecorators_eq, inDecoratorsArgs_eq, namedByHandArgs_eq, curriedLast_eq, isLam] at h
  | .named c (.dict is), h, _, _ => by simp [Fine, says_eq, saysNamelambda_eq, isLambda_eq, inDecorators_eq, inDecoratorsArgs_eq, namedByHandArgs_eq, curriedLast_eq, isLam] at h
  | .named c (.walrus _ e), h, _, _ => by simp [Fine, says_eq, saysNamelambda_eq, isLambda_eq, inDecorators_eq, inDecoratorsArgs_eq, namedByHandArgs_eq, curriedLast_eq, isLam] at h
  | .named c (.envassign _ e), h, _, _ => by simp [Fine, says_eq, saysNamelambda_eq, isLambda_eq, inDecorators_eq, inDecoratorsArgs_eq, namedByHandArgs_eq, curriedLast_eq, isLam] at h
  | .named c (.letx _ _), h, _, _ => by simp [Fine, says_eq, saysNamelambda_eq, isLambda_eq, inDecorators_eq, inDecoratorsArgs_eq, namedByHandArgs_eq, curriedLast_eq, isLam] at h
  | .named c (.assign _ e), h, _, _ => by simp [Fine, says_eq, saysNamelambda_eq, isLambda_eq, inDecorators_eq, inDecoratorsArgs_eq, namedByHandArgs_eq, curriedLast_eq, isLam] at h
  | .named c (.op _ es), h, _, _ => by simp [Fine, says_eq, saysNamelambda_eq, isLambda_eq, inDecorators_eq, inDecoratorsArgs_eq, namedByHandArgs_eq, curriedLast_eq, isLam] at h
  | .const _, _, hd, _ => by simp [decorated] at hd
  | .name _, _, hd, _ => by simp [decorated] at hd
  | .attr e a, _, hd, _ => by simp [decorated] at hd
  | .lam l ds b, _, hd, _ => by simp [decorated] at hd
  | .dict is, _, hd, _ => by simp [decorated] at hd
  | .walrus x e, _, hd, _ => by simp [decorated] at hd
  | .envassign x e, _, hd, _ => by simp [decorated] at hd
  | .letx is e, _, hd, _ => by simp [decorated] at hd
  | .assign x e, _, hd, _ => by simp [decorated] at hd
  | .op _ es, _, hd, _ => by simp [decorated] at hd
theorem fin_unvisitedArgs (b : Bool) : (es : List E) → FineAll b es → decoratedArgs es = true → hasNamedArgs es = true →
    labelsAll [] (finLast es) = sing (expectedAll false none es)
  | [], _, hd, _ => by simp [decoratedArgs] at hd
  | [e], h, hd, hn => by
    simp only [FineAll, and_true] at h
    simp only [decoratedArgs, Bool.or_eq_true] at hd
    simp only [hasNamedArgs] at hn
    have hd : decorated e = true := by
      rcases hd with hd | hd
      · cases e <;> simp_all [isLam, hasNamed]
      · exact hd
    simp only [finLast, labelsAll, expectedAll, List.append_nil, fin_unvisitedChain b e h hd hn]
  | _ :: _ :: _, _, hd, _ => by simp [decoratedArgs] at hd
theorem fins_unvisited (b : Bool) : (es : List E) → FineAll b es → labelsAll [] (fins es) = sing (expectedAll false none es)
  | [], _ => by simp only [fins, labelsAll, expectedAll, sing_nil]
  | e :: es, h => by
    simp only [FineAll] at h
    simp only [fins, labelsAll, expectedAll, sing_append, fin_unvisited _ e h.1, fins_unvisited _ es h.2]
theorem finItems_unvisited : (is : List Item) → FineItems is → labelsItems (finItems is) = sing (expectedItems false is)
  | [], _ => by simp only [finItems, labelsItems, expectedItems, sing_nil]
  | i :: is, h => by
    simp only [FineItems] at h
    simp only [finItems, labelsItems, expectedItems, sing_append, finItem_unvisited i h.1, finItems_unvisited is h.2]
theorem finItem_unvisited : (i : Item) → FineItem i → labelsItem (finItem i) = sing (expectedItem false i)
  | .star e, h => by simp only [FineItem, says_eq, saysNamelambda_eq, isLambda_eq, inDecorators_eq, inDecoratorsArgs_eq, namedByHandArgs_eq, curriedLast_eq] at h; simp only [finItem, labelsItem, expectedItem, fin_unvisited _ e h]
  | .lit (.str t) e, h => by simp only [FineItem, says_eq, saysNamelambda_eq, isLambda_eq, inDecorators_eq, inDecoratorsArgs_eq, namedByHandArgs_eq, curriedLast_eq] at h; simp [finItem, labelsItem, expectedItem, fin_unvisited _ e h]
  | .lit (.num n) e, h => by simp only [FineItem, says_eq, saysNamelambda_eq, isLambda_eq, inDecorators_eq, inDecoratorsArgs_eq, namedByHandArgs_eq, curriedLast_eq] at h; simp [finItem, labelsItem, expectedItem, fin_unvisited _ e h.1]
  | .pair k e, h => by
    simp only [FineItem, says_eq, saysNamelambda_eq, isLambda_eq, inDecorators_eq, inDecoratorsArgs_eq, namedByHandArgs_eq, curriedLast_eq] at h
    simp only [finItem, labelsItem, expectedItem, sing_append, fin_unvisited _ k h.1, fin_unvisited _ e h.2]
end

/-- A tree that is bound. -/
theorem labels_bound (c : Const) (e : E) (h : Fine true e)
    (hA : labels [] (fin false (visit .plain e)) = sing (expected true none e))
    (hC : (isLam e = true ∨ decorated e = true) → hasNamed e = false →
      labels [c] (fin true (visit .plain e)) = sing (expected true (some c) e)) :
    labels [] (fin false (visit (.bind c) e)) = sing (expected true (some c) e) := by
  rw [visit_bind c e h]
  by_cases hd : (isLam e = true ∨ decorated e = true) ∧ hasNamed e = false
  · have hg : gets e = true := by
      rcases hd with ⟨h1 | h1, h2⟩ <;> simp [gets, h1, h2]
    have h1 : (isLam (visit .plain e) || decorated (visit .plain e)) = true := by
      rw [isLam_visit, decorated_visit]; simpa using hd.1
    simp only [hg, if_true, fin, h1, labels, List.nil_append, hC hd.1 hd.2]
  · have hl : isLam e = false := by
      cases e <;> simp_all [isLam, hasNamed]
    have hd' : decorated e = false ∨ hasNamed e = true := by
      cases h1 : decorated e <;> cases h2 : hasNamed e <;> simp_all
    have hx := expected_ctx true true c e h hl hd'
    cases hg : gets e with
    | false => simp only [Bool.false_eq_true, if_false, hx, hA]
    | true =>
      have hcf : curryFinal e = true := by
        rcases hd' with hd' | hd' <;> simpa [gets, hl, hd'] using hg
      cases e with
      | call f args kws =>
        simp only [Bool.false_eq_true, if_true, hx, ← hA]
        have hn := not_named h
        by_cases hlen : args.length = 1
        · obtain ⟨a, rfl⟩ : ∃ a, args = [a] := by
            match args, hlen with
            | [a], _ => exact ⟨a, rfl⟩
          simp only [curryFinal, lastLam, List.getLast?_singleton, Bool.and_eq_true] at hcf
          simp only [decorated, decoratedArgs, hcf.2, Bool.true_or] at hd'
          rw [hn] at hd'
          exfalso
          cases a <;> simp_all [isLam, hasNamedArgs, hasNamed]
        · have hda : decoratedArgs args = false := by
            match args, hlen with
            | [], _ => simp only [decoratedArgs]
            | [_], hlen => simp at hlen
            | _ :: _ :: _, _ => simp only [decoratedArgs]
          have hdv : decorated (visit .plain (.call f args kws)) = false := by
            rw [decorated_visit]; simpa only [decorated] using hda
          rw [fin, isLam_visit, hdv, if_neg (by simp [isLam])]
          simp only [labels, List.nil_append]
          have hfl : ∀ es, (fins es).length = es.length := by
            intro es; induction es <;> simp_all [fins]
          simp only [visit]
          split
          · simp only [fin, decoratedArgs_visits, hda, Bool.false_and, Bool.false_eq_true, if_false, labels, hfl, visits_length, if_neg hlen]
          · simp only [fin, decoratedArgs_visits, hda, Bool.false_and, Bool.false_eq_true, if_false, labels, hfl, visits_length, if_neg hlen]
      | _ => simp [curryFinal] at hcf

mutual
theorem labels_names (b : Bool) : (e : E) → Fine b e → labels [] (fin false (visit .plain e)) = sing (expected true none e)
  | .call f args kws, h => by
    have hn := not_named h
    simp only [Fine, says_eq, saysNamelambda_eq, isLambda_eq, inDecorators_eq, inDecoratorsArgs_eq, namedByHandArgs_eq, curriedLast_eq] at h
    by_cases hd : (decoratedArgs args && hasNamedArgs args) = true
    · have hd' := hd
      simp only [Bool.and_eq_true] at hd
      obtain ⟨h1, h2⟩ := h.2.2.2.2.2.1 hd.1 (.inr hd.2)
      rw [visit_call_noLams f args kws h1 h2]
      simp only [fin, hasNamed, hasNamedArgs_visits, decoratedArgs_visits, hd.1, hd.2, Bool.or_true, Bool.and_self, if_true]
      simp only [labels, expected, sing_append, expected_noLams _ _ f h1, expectedItems_noLams _ kws h2, sing_nil, ite_self]
      rw [show labels [] f = [] from h1, show labelsItems kws = [] from h2,
        labels_namedArgs _ args h.2.2.2.1 hd.1 hd.2]
    · simp only [visit]
      split
      · next hk =>
        have hk : kws = [] := by simpa using hk
        subst hk
        simp only [fin, hasNamed, isDecorator_visit, h.1, hasNamedArgs_visits, decoratedArgs_visits, Bool.false_or]
        rw [if_neg hd]
        simp only [labels, expected, sing_append, ite_self, finItems, labelsItems, expectedItems, sing_nil]
        rw [labels_names _ f h.2.2.1, labels_namesAll _ args h.2.2.2.1]
      · next hk =>
        have hk : kws ≠ [] := by simpa using hk
        simp only [fin, hasNamed, h.1, hasNamedArgs_visits, decoratedArgs_visits, Bool.false_or]
        rw [if_neg hd]
        simp only [labels, expected, sing_append, ite_self]
        rw [fin_unvisited _ f h.2.2.1, labels_namesAll _ args h.2.2.2.1, labels_namesItems kws h.2.2.2.2.1, h.2.2.2.2.2.2.1 hk]
  | .named c (.lam l ds b), h => by
    simp only [Fine, says_eq, saysNamelambda_eq, isLambda_eq, inDecorators_eq, inDecoratorsArgs_eq, namedByHandArgs_eq, curriedLast_eq] at h
    simp only [visit, visits_noLams ds h.2.1, fin, isLam, Bool.true_or, if_true, labels, expected, expectedAll_noLams _ _ ds h.2.1, List.nil_append, Option.getD,
      sing_cons, labels_names _ b h.2.2]
    rw [show labelsAll [] ds = [] from h.2.1]; rfl
  | .named c (.call f args kws), h => by simp [Fine, says_eq, saysNamelambda_eq, isLambda_eq, inDecorators_eq, inDecoratorsArgs_eq, namedByHandArgs_eq, curriedLast_eq, isLam] at h
  | .named c (.named _ e), h => by simp [Fine, says_eq, saysNamelambda_eq, isLambda_eq, inDecorators_eq, inDecoratorsArgs_eq, namedByHandArgs_eq, curriedLast_eq, isLam] at h
  | .named c (.const _), h => by simp [Fine, says_eq, saysNamelambda_eq, isLambda_eq, inDecorators_eq, inDecoratorsArgs_eq, namedByHandArgs_eq, curriedLast_eq, isLam] at h
  | .named c (.name _), h => by simp [Fine, says_eq, saysNamelambda_eq, isLambda_eq, inDecorators_eq, inDecoratorsArgs_eq, namedByHandArgs_eq, curriedLast_eq, isLam] at h
  | .named c (.attr e a), h => by simp [Fine, says_eq, saysNamelambda_eq, isLambda_eq, inDecorators_eq, inDecoratorsArgs_eq, namedByHandArgs_eq, curriedLast_eq, isLam] at h
  | .named c (.dict is), h => by simp [Fine, says_eq, saysNamelambda_eq, isLambda_eq, inDecorators_eq, inDecoratorsArgs_eq, namedByHandArgs_eq, curriedLast_eq, isLam] at h
  | .named c (.walrus _ e), h => by simp [Fine, says_eq, saysNamelambda_eq, isLambda_eq, inDecorators_eq, inDecoratorsArgs_eq, namedByHandArgs_eq, curriedLast_eq, isLam] at h
  | .named c (.envassign _ e), h => by simp [Fine, says_eq, saysNamelambda_eq, isLambda_eq, inDecorators_eq, inDecoratorsArgs_eq, namedByHandArgs_eq, curriedLast_eq, isLam] at h
  | .named c (.letx _ _), h => by simp [Fine, says_eq, saysNamelambda_eq, isLambda_eq, inDecorators_eq, inDecoratorsArgs_eq, namedByHandArgs_eq, curriedLast_eq, isLam] at h
  | .named c (.assign _ e), h => by simp [Fine, says_eq, saysNamelambda_eq, isLambda_eq, inDecorators_eq, inDecoratorsArgs_eq, namedByHandArgs_eq, curriedLast_eq, isLam] at h
  | .named c (.op _ es), h => by simp [Fine, says_eq, saysNamelambda_eq, isLambda_eq, inDecorators_eq, inDecoratorsArgs_eq, namedByHandArgs_eq, curriedLast_eq, isLam] at h
  | .const _, _ => by simp only [visit, fin, labels, expected, sing_nil]
  | .name _, _ => by simp only [visit, fin, labels, expected, sing_nil]
  | .attr e a, h => by simp only [Fine, says_eq, saysNamelambda_eq, isLambda_eq, inDecorators_eq, inDecoratorsArgs_eq, namedByHandArgs_eq, curriedLast_eq] at h; simp only [visit, fin, labels, expected, labels_names _ e h]
  | .lam l ds b, h => by
    simp only [Fine, says_eq, saysNamelambda_eq, isLambda_eq, inDecorators_eq, inDecoratorsArgs_eq, namedByHandArgs_eq, curriedLast_eq] at h
    simp only [visit, visits_noLams ds h.1, fin, labels, expected, expectedAll_noLams _ _ ds h.1, List.nil_append, Option.getD, sing_cons, labels_names _ b h.2]
    rw [show labelsAll [] ds = [] from h.1]; rfl
  | .dict is, h => by simp only [Fine, says_eq, saysNamelambda_eq, isLambda_eq, inDecorators_eq, inDecoratorsArgs_eq, namedByHandArgs_eq, curriedLast_eq] at h; simp only [visit, fin, labels, expected, labels_namesItems is h]
  | .walrus x e, h => by
    simp only [Fine, says_eq, saysNamelambda_eq, isLambda_eq, inDecorators_eq, inDecoratorsArgs_eq, namedByHandArgs_eq, curriedLast_eq] at h
    simp only [visit, fin, labels, expected, if_true]
    exact labels_bound _ e h (labels_names _ e h) (labels_chain _ e h)
  | .envassign x e, h => by
    simp only [Fine, says_eq, saysNamelambda_eq, isLambda_eq, inDecorators_eq, inDecoratorsArgs_eq, namedByHandArgs_eq, curriedLast_eq] at h
    simp only [visit, fin, labels, expected, if_true]
    exact labels_bound _ e h (labels_names _ e h) (labels_chain _ e h)
  | .letx is e, h => by
    simp only [Fine, says_eq, saysNamelambda_eq, isLambda_eq, inDecorators_eq, inDecoratorsArgs_eq, namedByHandArgs_eq, curriedLast_eq] at h
    simp only [visit, fin, labels, expected, labels_namesItems is h.1, labels_names _ e h.2, sing_append]
  | .assign x e, h => by
    simp only [Fine, says_eq, saysNamelambda_eq, isLambda_eq, inDecorators_eq, inDecoratorsArgs_eq, namedByHandArgs_eq, curriedLast_eq] at h
    simp only [visit, fin, labels, expected, if_true]
    exact labels_bound _ e h (labels_names _ e h) (labels_chain _ e h)
  | .op _ es, h => by simp only [Fine, says_eq, saysNamelambda_eq, isLambda_eq, inDecorators_eq, inDecoratorsArgs_eq, namedByHandArgs_eq, curriedLast_eq] at h; simp only [visit, fin, labels, expected, labels_namesAll _ es h]
/-- A lambda that gets a name, in decorators or not. -/
theorem labels_chain (c : Const) : (e : E) → Fine true e → (isLam e = true ∨ decorated e = true) → hasNamed e = false →
    labels [c] (fin true (visit .plain e)) = sing (expected true (some c) e)
  | .lam l ds b, h, _, _ => by
    simp only [Fine, says_eq, saysNamelambda_eq, isLambda_eq, inDecorators_eq, inDecoratorsArgs_eq, namedByHandArgs_eq, curriedLast_eq] at h
    simp only [visit, visits_noLams ds h.1, fin, labels, expected, expectedAll_noLams _ _ ds h.1, List.nil_append, Option.getD, sing_cons, labels_names _ b h.2]
    rw [show labelsAll [] ds = [] from h.1]; rfl
  | .call f args kws, h, hd, hn => by
    rw [not_named h] at hn
    have hd : decoratedArgs args = true := by simpa [isLam, decorated] using hd
    simp only [Fine, says_eq, saysNamelambda_eq, isLambda_eq, inDecorators_eq, inDecoratorsArgs_eq, namedByHandArgs_eq, curriedLast_eq, Bool.true_and] at h
    obtain ⟨h1, h2⟩ := h.2.2.2.2.2.1 hd (.inl trivial)
    rw [visit_call_noLams f args kws h1 h2]
    simp only [fin, labels, expected, sing_append, expected_noLams _ _ f h1, expectedItems_noLams _ kws h2, sing_nil]
    rw [show labels [] f = [] from h1, show labelsItems kws = [] from h2, labels_chainArgs c args h.2.2.2.1 hd hn]
  | .named _ e, _, _, hn => by simp [hasNamed] at hn
  | .const _, _, hd, _ => by simp [isLam, decorated] at hd
  | .name _, _, hd, _ => by simp [isLam, decorated] at hd
  | .attr e a, _, hd, _ => by simp [isLam, decorated] at hd
  | .dict is, _, hd, _ => by simp [isLam, decorated] at hd
  | .walrus x e, _, hd, _ => by simp [isLam, decorated] at hd
  | .envassign x e, _, hd, _ => by simp [isLam, decorated] at hd
  | .letx is e, _, hd, _ => by simp [isLam, decorated] at hd
  | .assign x e, _, hd, _ => by simp [isLam, decorated] at hd
  | .op _ es, _, hd, _ => by simp [isLam, decorated] at hd
theorem labels_chainArgs (c : Const) : (es : List E) → FineAll (es.length == 1) es → decoratedArgs es = true → hasNamedArgs es = false →
    labelsAll (if (finLast (visits es)).length = 1 then [c] else []) (finLast (visits es)) =
      sing (expectedAll true (if es.length = 1 then some c else none) es)
  | [], _, hd, _ => by simp [decoratedArgs] at hd
  | [e], h, hd, hn => by
    simp only [FineAll, List.length_singleton, beq_self_eq_true, and_true] at h
    simp only [decoratedArgs, Bool.or_eq_true] at hd
    simp only [hasNamedArgs] at hn
    simp only [visits, finLast, List.length_singleton, if_true, labelsAll, expectedAll, List.append_nil, labels_chain c e h hd hn]
  | _ :: _ :: _, _, hd, _ => by simp [decoratedArgs] at hd
/-- A lambda with a name in decorators. -/
theorem labels_named (b : Bool) : (e : E) → Fine b e → decorated e = true → hasNamed e = true →
    labels [] (fin true (visit .plain e)) = sing (expected true none e)
  | .call f args kws, h, hd, hn => by
    rw [not_named h] at hn
    simp only [decorated] at hd
    simp only [Fine, says_eq, saysNamelambda_eq, isLambda_eq, inDecorators_eq, inDecoratorsArgs_eq, namedByHandArgs_eq, curriedLast_eq] at h
    obtain ⟨h1, h2⟩ := h.2.2.2.2.2.1 hd (.inr hn)
    rw [visit_call_noLams f args kws h1 h2]
    simp only [fin, labels, expected, sing_append, expected_noLams _ _ f h1, expectedItems_noLams _ kws h2, sing_nil, ite_self]
    rw [show labels [] f = [] from h1, show labelsItems kws = [] from h2, labels_namedArgs _ args h.2.2.2.1 hd hn]
  | .named c (.lam l ds b), h, _, _ => by
    simp only [Fine, says_eq, saysNamelambda_eq, isLambda_eq, inDecorators_eq, inDecoratorsArgs_eq, namedByHandArgs_eq, curriedLast_eq] at h
    simp only [visit, visits_noLams ds h.2.1, fin, labels, expected, expectedAll_noLams _ _ ds h.2.1, List.nil_append, Option.getD,
      sing_cons, labels_names _ b h.2.2]
    rw [show labelsAll [] ds = [] from h.2.1]; rfl
  | .named c (.call f args kws), h, _, _ => by simp [Fine, says_eq, saysNamelambda_eq, isLambda_eq, inDecorators_eq, inDecoratorsArgs_eq, namedByHandArgs_eq, curriedLast_eq, isLam] at h
  | .named c (.named _ e), h, _, _ => by simp [Fine, says_eq, saysNamelambda_eq, isLambda_eq, inDecorators_eq, inDecoratorsArgs_eq, namedByHandArgs_eq, curriedLast_eq, isLam] at h
  | .named c (.const _), h, _, _ => by simp [Fine, says_eq, saysNamelambda_eq, isLambda_eq, inDecorators_eq, inDecoratorsArgs_eq, namedByHandArgs_eq, curriedLast_eq, isLam] at h
  | .named c (.name _), h, _, _ => by simp [Fine, says_eq, saysNamelambda_eq, isLambda_eq, inDecorators_eq, inDecoratorsArgs_eq, namedByHandArgs_eq, curriedLast_eq, isLam] at h
  | .named c (.attr e a), h, _, _ => by simp [Fine, says_eq, saysNamelambda_eq, isLambda_eq, inDecorators_eq, inDecoratorsArgs_eq, namedByHandArgs_eq, curriedLast_eq, isLam] at h
  | .named c (.dict is), h, _, _ => by simp [Fine, says_eq, saysNamelambda_eq, isLambda_eq, inDecorators_eq, inDecoratorsArgs_eq, namedByHandArgs_eq, curriedLast_eq, isLam] at h
  | .named c (.walrus _ e), h, _, _ => by simp [Fine, says_eq, saysNamelambda_eq, isLambda_eq, inDecorators_eq, inDecoratorsArgs_eq, namedByHandArgs_eq, curriedLast_eq, isLam] at h
  | .named c (.envassign _ e), h, _, _ => by simp [Fine, says_eq, saysNamelambda_eq, isLambda_eq, inDecorators_eq, inDecoratorsArgs_eq, namedByHandArgs_eq, curriedLast_eq, isLam] at h
  | .named c (.letx _ _), h, _, _ => by simp [Fine, says_eq, saysNamelambda_eq, isLambda_eq, inDecorators_eq, inDecoratorsArgs_eq, namedByHandArgs_eq, curriedLast_eq, isLam] at h
  | .named c (.assign _ e), h, _, _ => by simp [Fine, says_eq, saysNamelambda_eq, isLambda_eq, inDecorators_eq, inDecoratorsArgs_eq, namedByHandArgs_eq, curriedLast_eq, isLam] at h
  | .named c (.op _ es), h, _, _ => by simp [Fine, says_eq, saysNamelambda_eq, isLambda_eq, inDecorators_eq, inDecoratorsArgs_eq, namedByHandArgs_eq, curriedLast_eq, isLam] at h
  | .const _, _, hd, _ => by simp [decorated] at hd
  | .name _, _, hd, _ => by simp [decorated] at hd
  | .attr e a, _, hd, _ => by simp [decorated] at hd
  | .lam l ds b, _, hd, _ => by simp [decorated] at hd
  | .dict is, _, hd, _ => by simp [decorated] at hd
  | .walrus x e, _, hd, _ => by simp [decorated] at hd
  | .envassign x e, _, hd, _ => by simp [decorated] at hd
  | .letx is e, _, hd, _ => by simp [decorated] at hd
  | .assign x e, _, hd, _ => by simp [decorated] at hd
  | .op _ es, _, hd, _ => by simp [decorated] at hd
theorem labels_namedArgs (b : Bool) : (es : List E) → FineAll b es → decoratedArgs es = true → hasNamedArgs es = true →
    labelsAll [] (finLast (visits es)) = sing (expectedAll true none es)
  | [], _, hd, _ => by simp [decoratedArgs] at hd
  | [e], h, hd, hn => by
    simp only [FineAll, and_true] at h
    simp only [decoratedArgs, Bool.or_eq_true] at hd
    simp only [hasNamedArgs] at hn
    have hd : decorated e = true := by
      rcases hd with hd | hd
      · cases e <;> simp_all [isLam, hasNamed]
      · exact hd
    simp only [visits, finLast, labelsAll, expectedAll, List.append_nil, labels_named b e h hd hn]
  | _ :: _ :: _, _, hd, _ => by simp [decoratedArgs] at hd
theorem labels_namesAll (b : Bool) : (es : List E) → FineAll b es → labelsAll [] (fins (visits es)) = sing (expectedAll true none es)
  | [], _ => by simp only [visits, fins, labelsAll, expectedAll, sing_nil]
  | e :: es, h => by
    simp only [FineAll] at h
    simp only [visits, fins, labelsAll, expectedAll, sing_append, labels_names _ e h.1, labels_namesAll _ es h.2]
theorem labels_namesItems : (is : List Item) → FineItems is → labelsItems (finItems (visitItems is)) = sing (expectedItems true is)
  | [], _ => by simp only [visitItems, finItems, labelsItems, expectedItems, sing_nil]
  | i :: is, h => by
    simp only [FineItems] at h
    simp only [visitItems, finItems, labelsItems, expectedItems, sing_append, labels_namesItem i h.1, labels_namesItems is h.2]
theorem labels_namesItem : (i : Item) → FineItem i → labelsItem (finItem (visitItem i)) = sing (expectedItem true i)
  | .star e, h => by simp only [FineItem, says_eq, saysNamelambda_eq, isLambda_eq, inDecorators_eq, inDecoratorsArgs_eq, namedByHandArgs_eq, curriedLast_eq] at h; simp only [visitItem, finItem, labelsItem, expectedItem, labels_names _ e h]
  | .lit (.str t) e, h => by
    simp only [FineItem, says_eq, saysNamelambda_eq, isLambda_eq, inDecorators_eq, inDecoratorsArgs_eq, namedByHandArgs_eq, curriedLast_eq] at h
    simp only [visitItem, finItem, labelsItem, expectedItem, if_true, key, Option.map]
    exact labels_bound _ e h (labels_names _ e h) (labels_chain _ e h)
  | .lit (.num n) e, h => by
    simp only [FineItem, says_eq, saysNamelambda_eq, isLambda_eq, inDecorators_eq, inDecoratorsArgs_eq, namedByHandArgs_eq, curriedLast_eq] at h
    have hg : gets e = false := by simp [gets, h.2]
    simp only [visitItem, visit_bind_not _ e (noAuto_fine h.1) hg, finItem, labelsItem, expectedItem, if_true, key, Option.map, labels_names _ e h.1]
  | .pair k e, h => by
    simp only [FineItem, says_eq, saysNamelambda_eq, isLambda_eq, inDecorators_eq, inDecoratorsArgs_eq, namedByHandArgs_eq, curriedLast_eq] at h
    simp only [visitItem, finItem, labelsItem, expectedItem, sing_append, labels_names _ k h.1, labels_names _ e h.2]
end

end Unpy.NamedLambda.Lemmas
