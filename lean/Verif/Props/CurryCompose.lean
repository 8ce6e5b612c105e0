import Verif.Model.CurryCompose
import Verif.Spec.CurryCompose
import Verif.Props.Curry
/-! # C128: compositions of curried functions -/
namespace Unpy.Props
open Unpy Unpy.Arity Unpy.Curry Unpy.Eff Unpy.Spec.Arity Unpy.Spec.Curry
open Unpy.Fold (Err Vals)
variable {σ ε A : Type}

private theorem curry_curry1 (fs : Funcs σ ε A) (depth : Nat) (ctx : Bool) (f : Obj A) : curry fs depth ctx f [] [] = ret (.one (curry1 fs f)) := by
  cases f with
  | atom a =>
    simp only [curry, curry1, show PyDict.has ([] : PyDict String (Obj A)) "f" = false from rfl, Bool.false_eq_true, if_false]
    split <;> rfl
  | curried f args kwargs => rfl

private theorem isCurried_curry1 {fs : Funcs σ ε A} {f : Obj A} (h : callable fs f = true) : isCurried (.obj (curry1 fs f)) = true := by
  cases f with
  | atom a => simp only [callable] at h; simp [curry1, h, isCurried]
  | curried f args kwargs => rfl

private theorem through_cons (fs : Funcs σ ε A) (depth : Nat) (g : Obj A) (gs : List (Obj A)) (v : Vals (Obj A)) :
    through fs depth (g :: gs) v = bind (pass v (callObj fs depth true (.one (curry1 fs g)) v.rets v.kwrets)) fun r => through fs depth gs (values r) := by
  simp only [through, curry_curry1, eff_ret_bind]

private theorem inOrder_eq (fs : Funcs σ ε A) (depth : Nat) (ctx : Bool) (init : List (Obj A)) (last : Obj A) (v : Vals (Obj A)) :
    inOrder fs depth ctx init last v = bind (through fs depth init v) fun v => pass v (callObj fs depth ctx (.one (curry1 fs last)) v.rets v.kwrets) := by
  simp only [inOrder, curry_curry1, eff_ret_bind]

private theorem through_append (fs : Funcs σ ε A) (depth : Nat) (a b : List (Obj A)) (v : Vals (Obj A)) :
    through fs depth (a ++ b) v = bind (through fs depth a v) fun v => through fs depth b v := by
  induction a generalizing v with
  | nil => rfl
  | cons g a ih => simp only [List.cons_append, through_cons, eff_assoc, ih]

private theorem pass_none {R : Type} (l : List (Obj A)) (m : Eff σ (Err ε) R) : pass (⟨l, []⟩ : Vals (Obj A)) m = m := rfl

private theorem callC_composed (fs : Funcs σ ε A) (depth : Nat) (ctx : Bool) (f g : CFn A) (v : Vals (Obj A)) :
    callC fs depth ctx (.composed f g) v.rets v.kwrets = bind (pass v (callC fs depth (ctx || isCurried f) g v.rets v.kwrets)) fun r => pass (values r) (callC fs depth ctx f (values r).rets (values r).kwrets) := by
  simp only [callC]
  refine bind_congr' _ fun a => ?_
  cases a <;> rfl

private theorem pass_idem {R : Type} (v : Vals (Obj A)) (m : Eff σ (Err ε) R) : pass v (pass v m) = pass v m := by
  unfold pass; split <;> rfl

private theorem pass_bind {R S : Type} (v : Vals (Obj A)) (m : Eff σ (Err ε) R) (k : R → Eff σ (Err ε) S) : bind (pass v m) k = pass v (bind m k) := by
  unfold pass; split <;> rfl

private theorem left_fold (fs : Funcs σ ε A) (depth : Nat) (rest : List (Obj A)) (hc : ∀ g ∈ rest, callable fs g = true) (acc : CFn A) (v : Vals (Obj A)) :
    pass v (bind (callC fs depth true ((rest.map (curry1 fs)).foldl (fun acc elt => .composed (.obj elt) acc) acc) v.rets v.kwrets) fun r => ret (values r)) =
      bind (pass v (callC fs depth true acc v.rets v.kwrets)) fun r => through fs depth rest (values r) := by
  induction rest generalizing acc with
  | nil => exact (pass_bind _ _ _).symm
  | cons e rest ih =>
    simp only [List.map_cons, List.foldl_cons]
    rw [ih (fun g hg => hc g (by simp [hg])), callC_composed]
    simp only [Bool.true_or, pass_bind, pass_idem, eff_assoc, through_cons]
    rfl

/-- C128: `composelc(f1, ..., fn)` applies the functions in order, curried, all but the last in a curry context.
(Missing: a named argument `f`; and a named value `f` on the way is a TypeError.  See `C128_named_f_refuted`.) -/
theorem C128_composelc_partial (fs : Funcs σ ε A) (depth : Nat) (ctx : Bool) (init : List (Obj A)) (last : Obj A) (hc : ∀ g ∈ init ++ [last], callable fs g = true) (args : List (Obj A)) (kwargs : PyDict String (Obj A))
    (hk : PyDict.has kwargs "f" = false) :
    ∃ c, composelc fs (init ++ [last]) = .ok c ∧ callC fs depth ctx c args kwargs = inOrder fs depth ctx init last ⟨args, kwargs⟩ := by
  have hp : ∀ {R : Type} (m : Eff σ (Err ε) R), pass (⟨args, kwargs⟩ : Vals (Obj A)) m = m := fun m => by simp [pass, hk]
  cases init with
  | nil => exact ⟨_, rfl, by simp [inOrder_eq, through, eff_ret_bind, callC, hp]⟩
  | cons f rest =>
    refine ⟨_, rfl, ?_⟩
    simp only [List.append_eq, List.map_append, List.map_cons, List.map_nil, List.foldl_append, List.foldl_cons, List.foldl_nil, Bool.false_eq_true, if_false]
    have h0 := callC_composed fs depth ctx (.obj (curry1 fs last)) ((rest.map (curry1 fs)).foldl (fun acc elt => .composed (.obj elt) acc) (.obj (curry1 fs f))) ⟨args, kwargs⟩
    simp only at h0
    rw [h0, isCurried_curry1 (hc last (by simp)), Bool.or_true, inOrder_eq]
    have h := left_fold fs depth rest (fun g hg => hc g (by simp [hg])) (.obj (curry1 fs f)) ⟨args, kwargs⟩
    rw [through_cons]
    simp only [callC, hp] at h ⊢
    rw [← h, eff_assoc]
    rfl

private theorem right_fold (fs : Funcs σ ε A) (depth : Nat) (l : List (Obj A)) (acc : CFn A) (v : Vals (Obj A)) :
    pass v (callC fs depth true ((l.map (curry1 fs)).foldl (fun acc elt => .composed acc (.obj elt)) acc) v.rets v.kwrets) =
      bind (through fs depth l.reverse v) fun v => pass v (callC fs depth true acc v.rets v.kwrets) := by
  induction l generalizing acc with
  | nil => rfl
  | cons e l ih =>
    simp only [List.map_cons, List.foldl_cons, List.reverse_cons]
    rw [ih, through_append, eff_assoc]
    refine bind_congr' _ fun v => ?_
    rw [callC_composed, through_cons, eff_assoc, ← pass_bind, pass_idem]
    rfl

/-- C128: `composerc(fn, ..., f1)` does the same; inside of a curry context, or for at most two functions.
(Missing: three or more functions outside of any curry context, see `C128_composerc_refuted` and `C128_composerc_toplevel_refuted`;
values named `f`, see `C128_named_f_refuted`.) -/
theorem C128_composerc_partial (fs : Funcs σ ε A) (depth : Nat) (ctx : Bool) (init : List (Obj A)) (last : Obj A) (hc : ∀ g ∈ init ++ [last], callable fs g = true)
    (h : ctx = true ∨ init.length ≤ 1) (args : List (Obj A)) (kwargs : PyDict String (Obj A)) (hk : PyDict.has kwargs "f" = false) :
    ∃ c, composerc fs (init ++ [last]).reverse = .ok c ∧ callC fs depth ctx c args kwargs = inOrder fs depth ctx init last ⟨args, kwargs⟩ := by
  have hp : ∀ {R : Type} (m : Eff σ (Err ε) R), pass (⟨args, kwargs⟩ : Vals (Obj A)) m = m := fun m => by simp [pass, hk]
  rw [List.reverse_append, List.reverse_singleton]
  refine ⟨_, rfl, ?_⟩
  simp only [if_true, inOrder_eq]
  rcases h with rfl | h
  · have h := right_fold fs depth init.reverse (.obj (curry1 fs last)) ⟨args, kwargs⟩
    rw [List.reverse_reverse, hp] at h
    exact h
  · match init, h with
    | [], _ => simp only [through, eff_ret_bind, hp]; rfl
    | [g], _ =>
      have h0 := callC_composed fs depth ctx (.obj (curry1 fs last)) (.obj (curry1 fs g)) ⟨args, kwargs⟩
      simp only [isCurried_curry1 (hc last (by simp)), Bool.or_true] at h0
      simp only [List.reverse_singleton, List.append_eq, List.nil_append, List.map_cons, List.map_nil, List.foldl_cons, List.foldl_nil, through_cons, eff_assoc]
      rw [h0]
      rfl

/-- C128 is violated for values named `f`: a composition of two or more functions cannot be called with a named argument `f`,
and a named value `f` cannot be passed from one function to the next: it is a TypeError. -/
theorem C128_named_f_refuted (fs : Funcs σ ε A) (depth : Nat) (ctx : Bool) (f g : Obj A) (args : List (Obj A)) (kwargs : PyDict String (Obj A)) (s : σ)
    (hk : PyDict.has kwargs "f" = true) :
    (∃ c, composelc fs [g, f] = .ok c ∧ callC fs depth ctx c args kwargs s = (.error (.py .TypeError), s)) ∧
    (∃ c, composerc fs [f, g] = .ok c ∧ callC fs depth ctx c args kwargs s = (.error (.py .TypeError), s)) ∧
    pipec fs depth ctx (.many ⟨args, kwargs⟩) [g, f] s = (.error (.py .TypeError), s) := by
  refine ⟨⟨_, rfl, ?_⟩, ⟨_, rfl, ?_⟩, ?_⟩
  · simp [callC, calling, hk, raise, Eff.bind]
  · simp [callC, calling, hk, raise, Eff.bind]
  · simp [pipec, pipeLoop, calling, hk, raise, Eff.bind]

private theorem unwrap_eq : (unwrap : Ret (Obj A) → Eff σ (Err ε) (Ret (Obj A))) = finish := by
  funext r
  match r with
  | .one v => rfl
  | .many ⟨[], []⟩ => rfl
  | .many ⟨[], _ :: _⟩ => rfl
  | .many ⟨[v], []⟩ => rfl
  | .many ⟨[v], _ :: _⟩ => rfl
  | .many ⟨v :: w :: vs, []⟩ => simp [unwrap, finish]
  | .many ⟨v :: w :: vs, _ :: _⟩ => rfl

/-- C128: `pipec(values, f1, ..., fn)` does the same with the values; a single value is unpacked in the end (and none at all is an IndexError).
(Missing: a named value `f` is a TypeError, see `C128_named_f_refuted`.) -/
theorem C128_pipec_partial (fs : Funcs σ ε A) (depth : Nat) (ctx : Bool) (init : List (Obj A)) (last : Obj A) (hc : ∀ g ∈ init ++ [last], callable fs g = true) (x : Ret (Obj A)) :
    pipec fs depth ctx x (init ++ [last]) = bind (inOrder fs depth ctx init last (values x)) finish := by
  rw [pipec, unwrap_eq]
  congr 1
  rw [inOrder_eq]
  induction init generalizing x with
  | nil =>
    simp only [List.nil_append, List.map_cons, List.map_nil, pipeLoop, through, eff_ret_bind, List.isEmpty_nil, Bool.not_true, Bool.and_false, Bool.or_false]
    cases x <;> exact eff_bind_ret _
  | cons f init ih =>
    have hne : (List.map (curry1 fs) (init ++ [last])).isEmpty = false := by simp
    simp only [List.cons_append, List.map_cons, pipeLoop, hne, Bool.not_false, isCurried_curry1 (hc f (by simp)), Bool.and_true, Bool.or_true, through_cons, eff_assoc]
    have step : ∀ m : Eff σ (Err ε) (Ret (Obj A)), (bind m fun xs => pipeLoop fs depth ctx xs ((init ++ [last]).map (curry1 fs))) =
        bind m fun r => bind (through fs depth init (values r)) fun v => pass v (callObj fs depth ctx (.one (curry1 fs last)) v.rets v.kwrets) :=
      fun m => bind_congr' _ fun r => ih (fun g hg => hc g (by
        rcases List.mem_append.1 hg with h | h
        · simp [h]
        · simp_all)) r
    cases x <;> exact step _

/-- C128: without functions, a pipe returns what it is given. -/
theorem C128_pipec_nothing (fs : Funcs σ ε A) (depth : Nat) (ctx : Bool) (v : Obj A) : pipec fs depth ctx (.one v) [] = ret (.one v) := rfl

/-! ### Functions of a fixed number of arguments -/

private structure Plain (sig : Sig (Obj A)) : Prop where
  ps : ∀ p ∈ sig, p.kind = .posOrKw ∧ p.default = none
  names : (sig.map (·.name)).Nodup

private theorem Plain.wf {sig : Sig (Obj A)} (h : Plain sig) : WF sig where
  shape := ⟨[], sig, [], [], [], by simp, by simp, fun p hp => (h.ps p hp).1, by simp, by simp, by simp, by simp, by simp⟩
  names := h.names
  stars := fun p hp hk => by rw [(h.ps p hp).1] at hk; simp at hk

private theorem Plain.positional {sig : Sig (Obj A)} (h : Plain sig) : positional sig = sig := by
  unfold Spec.Arity.positional
  rw [List.filter_eq_self]
  intro p hp
  simp [(h.ps p hp).1]

private theorem Plain.no {sig : Sig (Obj A)} (h : Plain sig) (k : Kind) (hk : k ≠ .posOrKw) : ¬ hasKind k sig := by
  rintro ⟨p, hp, rfl⟩
  exact hk (h.ps p hp).1

private theorem Plain.extraArgs {sig : Sig (Obj A)} (h : Plain sig) (args : List (Obj A)) : extraArgs sig args = args.drop sig.length := by
  rw [Spec.Arity.extraArgs, if_neg (h.no _ (by decide)), overflow, h.positional]

private theorem Plain.extraKwargs {sig : Sig (Obj A)} (h : Plain sig) : extraKwargs sig ([] : PyDict String (Obj A)) = [] := by
  rw [Spec.Arity.extraKwargs, if_neg (h.no _ (by decide))]; rfl

private theorem no_conflict (sig : Sig (Obj A)) (args : List (Obj A)) : ¬ Conflict sig args ([] : PyDict String (Obj A)) := by
  rintro ⟨p, _, _, _, h⟩
  simp [PyDict.has, PyDict.get?] at h

private theorem no_clash (sig : Sig (Obj A)) (args : List (Obj A)) : ¬ PosOnlyClash sig args ([] : PyDict String (Obj A)) := by
  rintro ⟨p, _, _, _, h⟩
  simp [PyDict.has, PyDict.get?] at h

private theorem Plain.missing {sig : Sig (Obj A)} (h : Plain sig) (args : List (Obj A)) (hl : sig.length ≤ args.length) : missing sig args ([] : PyDict String (Obj A)) = [] := by
  unfold Spec.Arity.missing
  rw [List.filter_eq_nil_iff]
  intro p hp
  have := (posArg_isSome h.wf args hp).2 (by rw [h.positional, List.take_of_length_le hl]; exact hp)
  obtain ⟨v, hv⟩ := Option.isSome_iff_exists.1 this
  simp [given, hv]

private theorem call_exact (fs : Funcs σ ε A) (depth : Nat) (ctx : Bool) {f : A} {o : StackOp σ ε A} (h : Implements fs f o) (stack : List (Obj A)) (hl : stack.length = o.takes) :
    callCurried fs (depth + 1) ctx f [] [] stack [] = bind (o.op stack) fun vs => ret (pack vs) := by
  obtain ⟨F, hf, hn, hp, hnd, hb⟩ := h.isFunc
  have hpl : Plain F.sig := ⟨hp, hnd⟩
  have hacc : Accepts F.sig stack [] := ⟨no_conflict _ _, hpl.missing stack (by omega), by rw [hpl.extraArgs]; simp; omega, hpl.extraKwargs⟩
  simp only [callCurried, hf, List.nil_append, PyDict.update, List.foldl_nil, decide_call hpl.wf (no_clash _ _) hacc, pyCall, if_pos hacc, hb,
    show PyDict.has ([] : PyDict String (Obj A)) "f" = false from rfl, Bool.false_eq_true, if_false]

private theorem pack_values (vs : List (Obj A)) : values (pack vs) = ⟨vs, []⟩ := by
  unfold pack
  split <;> rfl

private theorem bind_cong {α β : Type} {m : Eff σ (Err ε) α} {k l : α → Eff σ (Err ε) β} (h : ∀ s a s', m s = (.ok a, s') → k a s' = l a s') : bind m k = bind m l := by
  funext s
  unfold Eff.bind
  rcases hm : m s with ⟨e | a, s'⟩
  · rfl
  · exact h s a s' hm

private theorem bind_ok {α β : Type} {m : Eff σ (Err ε) α} {k : α → Eff σ (Err ε) β} {s s' : σ} {a : α} (h : m s = (.ok a, s')) : bind m k s = k a s' := by
  unfold Eff.bind; rw [h]

private theorem bind_error {α β : Type} {m : Eff σ (Err ε) α} {k : α → Eff σ (Err ε) β} {s s' : σ} {e : Err ε} (h : m s = (.error e, s')) : bind m k s = (.error e, s') := by
  unfold Eff.bind; rw [h]

private theorem call_more (fs : Funcs σ ε A) (depth : Nat) (ctx : Bool) {f : A} {o : StackOp σ ε A} (h : Implements fs f o) (stack : List (Obj A)) (hl : o.takes < stack.length) :
    callCurried fs (depth + 1) ctx f [] [] stack [] = bind (o.op (stack.take o.takes)) fun vs => if ctx then ret (.many ⟨vs ++ stack.drop o.takes, []⟩) else raise (.py .TypeError) := by
  obtain ⟨F, hf, hn, hp, hnd, hb⟩ := h.isFunc
  have hpl : Plain F.sig := ⟨hp, hnd⟩
  have hx := hpl.extraArgs stack
  have hxl : (Spec.Arity.extraArgs F.sig stack).length = stack.length - o.takes := by rw [hx, List.length_drop, hn]
  rw [C33_passthrough_partial fs depth ctx f F hf hpl.wf [] [] stack [] stack [] rfl rfl (.inr ⟨hpl.no _ (by decide), hpl.no _ (by decide)⟩) (no_conflict _ _) (no_clash _ _)
    (hpl.missing stack (by omega)) (.inl (by intro h; rw [h] at hxl; simp at hxl; omega)) (by omega) (by rw [hpl.extraKwargs]; simp [PyDict.has, PyDict.get?])
    rfl (by rw [hpl.extraKwargs]; rfl) (by
      intro s r s' hs
      rw [List.filter_nil, hb] at hs
      unfold Eff.bind at hs
      split at hs
      · cases hs; rw [pack_values]; exact ⟨rfl, rfl⟩
      · cases hs)]
  rw [hxl, show stack.length - (stack.length - o.takes) = o.takes by omega]
  simp only [List.filter_nil, hb, eff_assoc, eff_ret_bind, hx, hpl.extraKwargs, hn]
  refine bind_cong fun s vs s' hm => ?_
  have hg := (h.gives _ _ _ _ hm).2
  simp only [passOn, pack_values, PyDict.update, List.foldl_nil]
  cases vs with
  | nil => rfl
  | cons v vs => simp [hg v (by simp)]

private theorem call_through (fs : Funcs σ ε A) (depth : Nat) {f : A} {o : StackOp σ ε A} (h : Implements fs f o) (stack : List (Obj A)) (hl : o.takes ≤ stack.length) :
    (bind (callCurried fs (depth + 1) true f [] [] stack []) fun r => ret (values r)) = bind (o.op (stack.take o.takes)) fun vs => ret ⟨vs ++ stack.drop o.takes, []⟩ := by
  rcases Nat.lt_or_ge o.takes stack.length with hlt | hge
  · rw [call_more fs depth true h stack hlt, eff_assoc]; rfl
  · rw [call_exact fs depth true h stack (by omega), eff_assoc, List.take_of_length_le hge, List.drop_of_length_le hge]
    refine bind_congr' _ fun vs => ?_
    rw [eff_ret_bind, pack_values, List.append_nil]

private theorem machine_fits (ops : List (A × StackOp σ ε A)) (fs : Funcs σ ε A) (h : ∀ p ∈ ops, Implements fs p.1 p.2) (n : Nat) (stack : List (Obj A)) (hf : Fits (ops.map (·.2)) stack.length n)
    (s s' : σ) (st : List (Obj A)) (hm : machine (ops.map (·.2)) stack s = (.ok st, s')) : st.length = n := by
  induction ops generalizing stack s with
  | nil => simp only [List.map_nil, machine, ret] at hm; cases hm; exact hf
  | cons p ops ih =>
    simp only [List.map_cons, machine, Fits] at hm hf
    unfold Eff.bind at hm
    split at hm
    · rename_i vs s1 h1
      have := ((h p (by simp)).gives _ _ _ _ h1).1
      refine ih (fun q hq => h q (by simp [hq])) _ ?_ _ hm
      rw [List.length_append, List.length_drop, this, Nat.add_comm]
      exact hf.2
    · cases hm

private theorem through_machine (fs : Funcs σ ε A) (depth : Nat) (ops : List (A × StackOp σ ε A)) (h : ∀ p ∈ ops, Implements fs p.1 p.2) (n : Nat) (stack : List (Obj A))
    (hf : Fits (ops.map (·.2)) stack.length n) :
    through fs (depth + 1) (ops.map (fun p => .atom p.1)) ⟨stack, []⟩ = bind (machine (ops.map (·.2)) stack) fun st => ret ⟨st, []⟩ := by
  induction ops generalizing stack with
  | nil => rfl
  | cons p ops ih =>
    simp only [List.map_cons, Fits] at hf ⊢
    have hp := h p (by simp)
    obtain ⟨F, hF, _⟩ := hp.isFunc
    rw [through_cons]
    have e : curry1 fs (.atom p.1) = .curried p.1 [] [] := by simp [curry1, hF]
    rw [e]
    simp only [callObj, pass_none]
    have := call_through fs depth hp stack hf.1
    rw [show (bind (callCurried fs (depth + 1) true p.1 [] [] stack []) fun r => through fs (depth + 1) (ops.map fun p => .atom p.1) (values r)) =
      bind (bind (callCurried fs (depth + 1) true p.1 [] [] stack []) fun r => ret (values r)) fun v => through fs (depth + 1) (ops.map fun p => .atom p.1) v by rw [eff_assoc]; rfl]
    rw [this, eff_assoc, machine, eff_assoc]
    refine bind_cong fun s vs s' hm => ?_
    rw [eff_ret_bind, ih (fun q hq => h q (by simp [hq])) _ (by
      rw [List.length_append, List.length_drop, ((hp.gives _ _ _ _ hm)).1, Nat.add_comm]; exact hf.2)]

/-- C128: functions of fixed numbers of parameters, composed with `composelc` (and so by `C128_pipec_partial` and `C128_composerc_partial` with the others), work as a stack machine: each function takes its arguments from the left, its values are put there instead, and the rest is passed on; the last function must take all there is. -/
theorem C128_stack (fs : Funcs σ ε A) (depth : Nat) (ctx : Bool) (ops : List (A × StackOp σ ε A)) (f : A) (o : StackOp σ ε A) (h : ∀ p ∈ ops, Implements fs p.1 p.2) (hlast : Implements fs f o)
    (stack : List (Obj A)) (hf : Fits (ops.map (·.2)) stack.length o.takes) :
    ∃ c, composelc fs (ops.map (fun p => .atom p.1) ++ [.atom f]) = .ok c ∧
      callC fs (depth + 1) ctx c stack [] = bind (machine (ops.map (·.2) ++ [o]) stack) fun vs => ret (pack vs) := by
  have hcall : ∀ g ∈ ops.map (fun p => Obj.atom p.1) ++ [.atom f], callable fs g = true := by
    intro g hg
    rcases List.mem_append.1 hg with hg | hg
    · obtain ⟨p, hp, rfl⟩ := List.mem_map.1 hg
      obtain ⟨F, hF, _⟩ := (h p hp).isFunc
      simp [callable, hF]
    · obtain ⟨F, hF, _⟩ := hlast.isFunc
      simp only [List.mem_singleton] at hg
      simp [hg, callable, hF]
  obtain ⟨c, h1, h2⟩ := C128_composelc_partial fs (depth + 1) ctx _ _ hcall stack [] rfl
  refine ⟨c, h1, ?_⟩
  rw [h2, inOrder_eq, through_machine fs depth ops h o.takes stack hf, eff_assoc]
  obtain ⟨F, hF, _⟩ := hlast.isFunc
  have e : curry1 fs (.atom f) = .curried f [] [] := by simp [curry1, hF]
  simp only [eff_ret_bind, e, callObj, pass_none]
  have ha : ∀ (os : List (StackOp σ ε A)) (st : List (Obj A)), machine (os ++ [o]) st = bind (machine os st) fun st => machine [o] st := by
    intro os
    induction os with
    | nil => intro st; rfl
    | cons p os ih => intro st; simp only [List.cons_append, machine, eff_assoc, ih]
  rw [ha, eff_assoc]
  refine bind_cong fun s st s' hm => ?_
  have hst := machine_fits ops fs h o.takes stack hf s s' st hm
  rw [call_exact fs depth ctx hlast st hst]
  simp only [machine, eff_assoc, eff_ret_bind]
  rw [List.take_of_length_le (by omega), List.drop_of_length_le (by omega)]
  simp

/-- C128: if the last function leaves something, then at the top level, outside of any curry context, there is a TypeError. -/
theorem C128_left_over (fs : Funcs σ ε A) (depth : Nat) (ops : List (A × StackOp σ ε A)) (f : A) (o : StackOp σ ε A) (h : ∀ p ∈ ops, Implements fs p.1 p.2) (hlast : Implements fs f o)
    (stack : List (Obj A)) (n : Nat) (hf : Fits (ops.map (·.2)) stack.length n) (hn : o.takes < n) (s : σ) :
    ∃ c, composelc fs (ops.map (fun p => .atom p.1) ++ [.atom f]) = .ok c ∧ ∃ e s', callC fs (depth + 1) false c stack [] s = (.error e, s') ∧
      ((∃ vs, machine (ops.map (·.2) ++ [o]) stack s = (.ok vs, s')) → e = .py .TypeError) := by
  have hcall : ∀ g ∈ ops.map (fun p => Obj.atom p.1) ++ [.atom f], callable fs g = true := by
    intro g hg
    rcases List.mem_append.1 hg with hg | hg
    · obtain ⟨p, hp, rfl⟩ := List.mem_map.1 hg
      obtain ⟨F, hF, _⟩ := (h p hp).isFunc
      simp [callable, hF]
    · obtain ⟨F, hF, _⟩ := hlast.isFunc
      simp only [List.mem_singleton] at hg
      simp [hg, callable, hF]
  obtain ⟨c, h1, h2⟩ := C128_composelc_partial fs (depth + 1) false _ _ hcall stack [] rfl
  refine ⟨c, h1, ?_⟩
  rw [h2, inOrder_eq, through_machine fs depth ops h n stack hf, eff_assoc]
  obtain ⟨F, hF, _⟩ := hlast.isFunc
  have e : curry1 fs (.atom f) = .curried f [] [] := by simp [curry1, hF]
  simp only [eff_ret_bind, e, callObj, pass_none]
  have ha : ∀ (os : List (StackOp σ ε A)) (st : List (Obj A)), machine (os ++ [o]) st = bind (machine os st) fun st => machine [o] st := by
    intro os
    induction os with
    | nil => intro st; rfl
    | cons p os ih => intro st; simp only [List.cons_append, machine, eff_assoc, ih]
  rw [ha]
  rcases hm : machine (ops.map (·.2)) stack s with ⟨er | st, s'⟩
  · exact ⟨er, s', bind_error hm, fun ⟨vs, h⟩ => by rw [bind_error hm] at h; simp at h⟩
  · have hst := machine_fits ops fs h n stack hf s s' st hm
    rw [bind_ok hm, bind_ok hm, call_more fs depth false hlast st (by omega)]
    simp only [machine]
    rcases hv : o.op (st.take o.takes) s' with ⟨er | vs, s''⟩
    · exact ⟨er, s'', bind_error hv, fun ⟨vs, h⟩ => by rw [bind_error hv] at h; simp at h⟩
    · exact ⟨_, s'', by rw [bind_ok hv]; rfl, fun _ => rfl⟩

/-! ### Three functions: 1 is `lambda x: x + 1`, 2 is `lambda x, y: Values(x * 2, y + 1)`, 3 is `lambda x, y: x + y`; the others are numbers. -/

private def fsC : Funcs Unit Unit (Nat ⊕ Nat)
  | .inl 1 => some ⟨[⟨"x", .posOrKw, none⟩], fun _ args _ => match args with
      | [.atom (.inr a)] => ret (.one (.atom (.inr (a + 1))))
      | _ => raise (.py .TypeError)⟩
  | .inl 2 => some ⟨[⟨"x", .posOrKw, none⟩, ⟨"y", .posOrKw, none⟩], fun _ args _ => match args with
      | [.atom (.inr a), .atom (.inr b)] => ret (.many ⟨[.atom (.inr (a * 2)), .atom (.inr (b + 1))], []⟩)
      | _ => raise (.py .TypeError)⟩
  | .inl 3 => some ⟨[⟨"x", .posOrKw, none⟩, ⟨"y", .posOrKw, none⟩], fun _ args _ => match args with
      | [.atom (.inr a), .atom (.inr b)] => ret (.one (.atom (.inr (a + b))))
      | _ => raise (.py .TypeError)⟩
  | _ => none

private def op1 : StackOp Unit Unit (Nat ⊕ Nat) := ⟨1, 1, fun args => match args with
  | [.atom (.inr a)] => ret [.atom (.inr (a + 1))]
  | _ => raise (.py .TypeError)⟩

example : Implements fsC (.inl 1) op1 where
  isFunc := by
    refine ⟨_, rfl, rfl, by simp, by simp, ?_⟩
    intro args
    simp only [op1]
    split <;> rfl
  gives := by
    intro args s vs s' h
    simp only [op1] at h
    split at h
    · simp only [ret, Prod.mk.injEq, Except.ok.injEq] at h
      obtain ⟨rfl, _⟩ := h
      simp [callable, op1, fsC]
    · simp [raise] at h

private def num (n : Nat) : Obj (Nat ⊕ Nat) := .atom (.inr n)
private def fn (n : Nat) : Obj (Nat ⊕ Nat) := .atom (.inl n)

-- `composelc(f1, f2, f3)(1, 2)` is ((1 + 1) * 2) + (2 + 1)
example : ∃ c, composelc fsC [fn 1, fn 2, fn 3] = .ok c ∧ callC fsC 5 false c [num 1, num 2] [] () = (.ok (.one (num 7)), ()) := ⟨_, rfl, rfl⟩
example : pipec fsC 5 false (.many ⟨[num 1, num 2], []⟩) [fn 1, fn 2] () = (.ok (.many ⟨[num 4, num 3], []⟩), ()) := rfl
example : Fits [op1, op1] 2 2 ∧ Fits [op1] 1 1 := by simp [Fits, op1]

/-- C128 is violated for `composerc` of three functions: `composerc(f3, f2, f1)(1, 2)` raises TypeError, where `composelc(f1, f2, f3)(1, 2)` is 7.  (The composition of `f3` and `f2` is not a curried function, so `f1` is not called in a curry context, and cannot pass on the argument 2.) -/
theorem C128_composerc_refuted :
    (∃ c, composelc fsC [fn 1, fn 2, fn 3] = .ok c ∧ callC fsC 5 false c [num 1, num 2] [] () = (.ok (.one (num 7)), ())) ∧
    ∃ c, composerc fsC [fn 3, fn 2, fn 1] = .ok c ∧ callC fsC 5 false c [num 1, num 2] [] () = (.error (.py .TypeError), ()) :=
  ⟨⟨_, rfl, rfl⟩, _, rfl, rfl⟩

/-- C128 is violated by any number of functions from three on: in `composerc(..., f3, f2, f1)`, called at the top level, a function `f1` of a fixed number of parameters that is given more arguments raises TypeError, whatever functions come after it. -/
theorem C128_composerc_toplevel_refuted (fs : Funcs σ ε A) (depth : Nat) (f3 f2 : Obj A) (more : List (Obj A)) (f : A) (o : StackOp σ ε A) (h : Implements fs f o) (stack : List (Obj A)) (hl : o.takes < stack.length)
    (s s' : σ) (vs : List (Obj A)) (hop : o.op (stack.take o.takes) s = (.ok vs, s')) :
    ∃ c, composerc fs (more ++ [f3, f2, .atom f]) = .ok c ∧ callC fs (depth + 1) false c stack [] s = (.error (.py .TypeError), s') := by
  have key : ∀ acc : CFn A, isCurried acc = false → callC fs (depth + 1) false (.composed acc (.obj (curry1 fs (.atom f)))) stack [] s = (.error (.py .TypeError), s') := by
    intro acc hacc
    obtain ⟨F, hF, _⟩ := h.isFunc
    have e : curry1 fs (.atom f) = .curried f [] [] := by simp [curry1, hF]
    have h0 := callC_composed fs (depth + 1) false acc (.obj (curry1 fs (.atom f))) ⟨stack, []⟩
    simp only [hacc, e, Bool.or_false, callObj, pass_none] at h0
    rw [e, h0]
    simp only [callC, callObj]
    rw [call_more fs depth false h stack hl]
    simp [Eff.bind, hop, raise]
  cases more with
  | nil => exact ⟨_, rfl, key _ rfl⟩
  | cons g more =>
    refine ⟨_, rfl, ?_⟩
    simp only [List.append_eq, List.map_append, List.map_cons, List.map_nil, List.foldl_append, List.foldl_cons, List.foldl_nil, if_true]
    exact key _ rfl

end Unpy.Props
