import Verif.Proof.Amb
/-!
# Nondeterministic evaluation and the list monad (C47, C48)
-/
namespace Unpy.Props
open Unpy Unpy.Amb Unpy.Spec.Amb Unpy.Eff
open Unpy.Fold (Err)
variable {σ ε α : Type}

/-! ## C47 -/

/-- C47: `forall(*lines)`: if it returns, then the nested loops return the same items in the same order; what it
raises was raised by one of the lines.  Partial: for lines without effects other than returning or raising, none of
which raises TypeError (`C47_typeerror_refuted`) or produces the single item `nil` (`C47_nil_refuted`); the names
are distinct (`C47_shadowing_refuted`).  That the nested loops return does not imply that `forall` does
(`C47_insist_refuted`), unless no line raises (`C47_forall_pure_partial`). -/
theorem C47_forall_partial (lines : List (Line ε α)) (hne : lines ≠ [])
    (hnames : (lines.filterMap Line.name).Nodup)
    (hte : ∀ l ∈ lines, ∀ env, l.body env ≠ .error (.py .TypeError))
    (hnil : ∀ l ∈ lines, ∀ env v, l.body env = .ok v → Holds (items v) ∧ Holds (results v)) :
    (∀ ys, forall_ lines = .ok ys → loops (fun _ => none) lines = .ok ys) ∧
    (∀ err, forall_ lines = .error err → ∃ l ∈ lines, ∃ env, l.body env = .error err) := by
  have h := code_good lines true [] (fun _ => none) ⟨[], fun _ => none⟩ hne (fun _ => rfl) (by simp [Exact]) rfl
    (by simp [Good]) (by simp) hnames (by rintro ⟨l, h1, env, h2⟩; exact hte l h1 env h2) hnil
  unfold forall_
  cases hc : code true [] lines ⟨[], fun _ => none⟩ with
  | mk r e =>
    exact ⟨fun ys hy => (h.1 ys e (by rw [hc]; simp at hy; rw [hy])).1,
      fun err he => h.2 err e (by rw [hc]; simp at he; rw [he])⟩

/-- C47: if the lines do not raise, `forall` returns exactly what the nested loops return.
(Missing: names bound twice, see `C47_shadowing_refuted`, items `nil`, see `C47_nil_refuted`, and lines that raise, see `C47_typeerror_refuted` and `C47_insist_refuted`.) -/
theorem C47_forall_pure_partial (lines : List (Line ε α)) (hne : lines ≠ [])
    (hnames : (lines.filterMap Line.name).Nodup)
    (hok : ∀ l ∈ lines, ∀ env, ∃ v, l.body env = .ok v ∧ Holds (items v) ∧ Holds (results v)) :
    forall_ lines = loops (fun _ => none) lines := by
  have h := C47_forall_partial lines hne hnames
    (fun l hl env he => by obtain ⟨v, hv, _⟩ := hok l hl env; rw [hv] at he; cases he)
    (fun l hl env v hv => by
      obtain ⟨v', hv', h⟩ := hok l hl env
      rw [hv] at hv'; cases hv'; exact h)
  cases hf : forall_ lines with
  | ok ys => exact (h.1 ys hf).symm
  | error err =>
    obtain ⟨l, hl, env, he⟩ := h.2 err hf
    obtain ⟨v, hv, _⟩ := hok l hl env
    rw [hv] at he; cases he

/-- `choice(x=[1,2,3]), choice(y=lambda e: [e.x, 10]), lambda e: insist(e.x != 2), lambda e: (e.x, e.y)` -/
private def lines0 : List (Line Empty Nat) :=
  [⟨some "x", fun _ => .ok (.iter [.atom 1, .atom 2, .atom 3])⟩,
   ⟨some "y", fun e => .ok (.iter [(e "x").getD (.atom 0), .atom 10])⟩,
   ⟨none, fun e => .ok (.ml (guard 1 (match e "x" with | some (.atom 2) => false | _ => true)))⟩,
   ⟨none, fun e => .ok (.iter [(e "x").getD (.atom 0), (e "y").getD (.atom 0)])⟩]

example : lines0 ≠ [] ∧ (lines0.filterMap Line.name).Nodup ∧
    (∀ l ∈ lines0, ∀ env, ∃ v, l.body env = .ok v ∧ Holds (items v) ∧ Holds (results v)) := by
  refine ⟨by simp [lines0], by simp [lines0], ?_⟩
  intro l hl env
  simp only [lines0, List.mem_cons, List.mem_nil_iff, or_false] at hl
  rcases hl with rfl | rfl | rfl | rfl
  · exact ⟨_, rfl, by simp [items, Holds], by simp [results, Holds]⟩
  · exact ⟨_, rfl, by simp [items, Holds], by simp [results, Holds]⟩
  · refine ⟨_, rfl, ?_⟩
    simp only [items, results, Amb.guard]
    split <;> simp [mk, Holds, Obj.isNil]
  · exact ⟨_, rfl, by simp [items, Holds], by simp [results, Holds]⟩

example : forall_ lines0 = .ok [.iter [.atom 1, .atom 1], .iter [.atom 1, .atom 10], .iter [.atom 3, .atom 3],
    .iter [.atom 3, .atom 10]] := by rfl

/-- `choice(x=[0, 1]), lambda e: insist(e.x != 0), lambda e: 1 / e.x` -/
private def lines1 : List (Line Empty Nat) :=
  [⟨some "x", fun _ => .ok (.iter [.atom 0, .atom 1])⟩,
   ⟨none, fun e => .ok (.ml (guard 1 (match e "x" with | some (.atom 0) => false | _ => true)))⟩,
   ⟨none, fun e => match e "x" with | some (.atom 0) => .error (.py .ZeroDivisionError) | _ => .ok (.atom 1)⟩]

/-- The lines after an `insist` that fails are evaluated all the same (once): here the nested loops return, but
`forall` raises. -/
theorem C47_insist_refuted : ∃ lines : List (Line Empty Nat), (lines.filterMap Line.name).Nodup ∧
    loops (fun _ => none) lines = .ok [.atom 1] ∧ forall_ lines = .error (.py .ZeroDivisionError) :=
  ⟨lines1, by simp [lines1], rfl, rfl⟩

/-- A TypeError raised by a line after the first choice is swallowed, and results are lost. -/
theorem C47_typeerror_refuted : ∃ lines : List (Line Empty Nat), (lines.filterMap Line.name).Nodup ∧
    loops (fun _ => none) lines = .error (.py .TypeError) ∧ forall_ lines = .ok [] :=
  ⟨[⟨some "x", fun _ => .ok (.iter [.atom 0, .atom 1])⟩,
    ⟨none, fun e => match e "x" with | some (.atom 1) => .error (.py .TypeError) | v => .ok (v.getD .nil)⟩],
   by simp, rfl, rfl⟩

/-- A name bound again by an inner line is not restored for the outer one. -/
theorem C47_shadowing_refuted : ∃ lines : List (Line Empty Nat),
    loops (fun _ => none) lines = .ok [.atom 1, .atom 1] ∧ forall_ lines = .ok [.atom 1, .atom 2] :=
  ⟨[⟨some "x", fun _ => .ok (.iter [.atom 0])⟩, ⟨some "y", fun _ => .ok (.iter [.atom 0, .atom 0])⟩,
    ⟨some "x", fun e => match e "x" with | some (.atom n) => .ok (.iter [.atom (n + 1)]) | _ => .ok .nil⟩,
    ⟨none, fun e => .ok ((e "x").getD .nil)⟩], rfl, rfl⟩

/-- A choice from the one item `nil`, and a result that is `nil`, vanish. -/
theorem C47_nil_refuted : ∃ lines : List (Line Empty Nat),
    loops (fun _ => none) lines = .ok [.atom 7] ∧ forall_ lines = .ok [] :=
  ⟨[⟨some "x", fun _ => .ok (.iter [.nil])⟩, ⟨none, fun _ => .ok (.atom 7)⟩], rfl, rfl⟩

/-! ## C48 -/

/-- C48: left identity: `MonadicList(x) >> f` is `f(x)`; for `x` other than `nil`, and a call `f(x)` that returns a
`MonadicList`.
(Missing: `nil`, see `C48_nil_refuted`, and calls that raise TypeError, see `C48_typeerror_refuted`.) -/
theorem C48_left_identity_partial (x : Obj α) (hx : x.isNil = false) (f : Obj α → Eff σ (Err ε) (Obj α)) {s ys s'}
    (hf : f x s = (.ok (.ml ys), s')) (hy : Holds ys) : mbind (mk [x]) f s = (.ok ys, s') := by
  have : mk [x] = [x] := by simp [mk, hx]
  unfold mbind Eff.bind fmap fromGen
  simp only [this, mapE, bind_eq_ok hf, eff_ret_bind, ret]
  simp [mk, Obj.isNil, join, asMLs, ret]
  exact mk_of_holds hy

example : mbind (mk [.atom 3]) (fun x => ret (.ml [x, .atom 4])) = (ret [.atom 3, .atom 4] : Eff Unit (Err Empty) (List (Obj Nat))) := by
  rfl

/-- C48: right identity: `m >> MonadicList` is `m`, if `nil` is not an item of `m`.
(Missing: `nil` as an item, see `C48_nil_refuted`.) -/
theorem C48_right_identity_partial (m : List (Obj α)) (h : ∀ x ∈ m, x.isNil = false) :
    mbind m (fun x => ret (.ml (mk [x]))) = (ret m : Eff σ (Err ε) (List (Obj α))) := by
  rw [mbind_ret _ _ (fun x => holds_mk _)]
  congr 1
  induction m with
  | nil => rfl
  | cons x m ih =>
    rw [List.flatMap_cons, ih fun y hy => h y (by simp [hy])]
    have := h x (by simp)
    simp [mk, this]

example : ∀ x ∈ [Obj.atom 1, .iter [.nil], .ml []], x.isNil = false := by simp [Obj.isNil]

/-- For `nil` both fail. -/
theorem C48_nil_refuted :
    (∃ (f : Obj Nat → Eff Unit (Err Empty) (Obj Nat)), f .nil () = (.ok (.ml [.atom 1]), ()) ∧
      mbind (mk [.nil]) f () = (.ok [], ())) ∧
    mbind [.atom 1, .nil] (fun x => ret (.ml (mk [x]))) = (ret [.atom 1] : Eff Unit (Err Empty) (List (Obj Nat))) :=
  ⟨⟨fun _ => ret (.ml [.atom 1]), rfl, rfl⟩, rfl⟩

/-- C48: associativity, for functions that return `MonadicList`s. -/
theorem C48_associativity (m : List (Obj α)) (f g : Obj α → List (Obj α)) (hf : ∀ x, Holds (f x))
    (hg : ∀ x, Holds (g x)) :
    bind (mbind m fun x => ret (.ml (f x))) (fun m' => mbind m' fun y => ret (.ml (g y))) =
    (mbind m fun x => bind (mbind (f x) fun y => ret (.ml (g y))) fun zs => ret (.ml zs) :
      Eff σ (Err ε) (List (Obj α))) := by
  rw [mbind_ret f m hf, eff_ret_bind, mbind_ret g _ hg]
  have : (fun x => bind (mbind (f x) fun y => ret (.ml (g y))) fun zs => ret (.ml zs) :
      Obj α → Eff σ (Err ε) (Obj α)) = fun x => ret (.ml ((f x).flatMap g)) := by
    funext x; rw [mbind_ret g _ hg, eff_ret_bind]
  rw [this, mbind_ret (fun x => (f x).flatMap g), List.flatMap_assoc]
  intro x
  rw [List.flatMap_def]
  refine holds_flatten ?_
  intro z hz
  obtain ⟨y, _, rfl⟩ := List.mem_map.mp hz
  exact hg y

example : (∀ x : Obj Nat, Holds [x, .atom 1]) ∧ ∀ x : Obj Nat, Holds [x, x] := by simp [Holds]

/-- A function that raises TypeError: bind swallows the exception and returns an empty list. -/
theorem C48_typeerror_refuted : ∃ (f : Obj Nat → Eff Unit (Err Empty) (Obj Nat)),
    f (.atom 1) () = (.error (.py .TypeError), ()) ∧ mbind (mk [.atom 1]) f () = (.ok [], ()) :=
  ⟨fun _ => raise (.py .TypeError), rfl, rfl⟩

/-- C48: any other exception of the function passes through, at the first item for which it is raised. -/
theorem C48_bind_raises (pre : List (Obj α)) (x : Obj α) (post : List (Obj α)) (f : Obj α → Eff σ (Err ε) (Obj α))
    {s ys s' e s''} (hpre : mapE f pre s = (.ok ys, s')) (hx : f x s' = (.error e, s''))
    (he : e ≠ .py .TypeError) : mbind (pre ++ x :: post) f s = (.error e, s'') := by
  have : mapE f (pre ++ x :: post) s = (.error e, s'') := by
    induction pre generalizing s ys with
    | nil =>
      simp [mapE, ret] at hpre
      obtain ⟨_, rfl⟩ := hpre
      exact bind_eq_err hx
    | cons y pre ih =>
      simp only [List.cons_append, mapE] at hpre ⊢
      cases hy : f y s with
      | mk r s1 =>
        cases r with
        | error e' => rw [bind_eq_err hy] at hpre; simp at hpre
        | ok v =>
          rw [bind_eq_ok hy] at hpre ⊢
          cases hm : mapE f pre s1 with
          | mk r s2 =>
            cases r with
            | error e' => rw [bind_eq_err hm] at hpre; simp at hpre
            | ok vs =>
              rw [bind_eq_ok hm] at hpre
              simp [ret] at hpre
              rw [bind_eq_err (ih (s := s1) (ys := vs) (by rw [hm, hpre.2]))]
  unfold mbind fmap fromGen
  refine bind_eq_err ?_
  rw [this]
  cases e with
  | user e => rfl
  | py e => cases e <;> first | rfl | exact absurd rfl he

example : mbind [.atom 1, .atom 2] (fun x => match x with
      | .atom 2 => raise (.py .ValueError)
      | x => ret (.ml [x])) () =
    ((.error (.py .ValueError), ()) : Except (Err Empty) (List (Obj Nat)) × Unit) := by rfl

/-- C48: `fmap` with the identity. -/
theorem C48_fmap_id (m : List (Obj α)) (h : Holds m) : fmap m (fun x => ret x) = (ret m : Eff σ (Err ε) _) := by
  rw [fmap_ret (fun x => x)]; simp [mk_of_holds h]

/-- C48: `fmap` with a composition; for a function that does not return `nil`.
(Missing: functions that return `nil`, see `C48_nil_refuted`.) -/
theorem C48_fmap_comp_partial (m : List (Obj α)) (f g : Obj α → Obj α) (hf : ∀ x, (f x).isNil = false) :
    bind (fmap m fun x => ret (f x)) (fun m' => fmap m' fun x => ret (g x)) =
      (fmap m fun x => ret (g (f x)) : Eff σ (Err ε) _) := by
  have : Holds (m.map f) := by
    intro h
    cases m with
    | nil => simp at h
    | cons x m => simp at h; have := hf x; rw [h.1] at this; cases this
  rw [fmap_ret, eff_ret_bind, mk_of_holds this, fmap_ret, fmap_ret]
  simp [Function.comp_def]

example : Holds [Obj.atom 1, .nil] ∧ ∀ x : Obj Nat, (Obj.iter [x]).isNil = false := by simp [Holds, Obj.isNil]

/-- C48: binding to a lifted function is mapping the function: `m >> MonadicList.lift(f)` is `m.fmap(f)`, also as to
effects and exceptions; for a function that does not return `nil`.
(Missing: functions that return `nil`, see `C48_nil_refuted`.) -/
theorem C48_lift_partial (m : List (Obj α)) (f : Obj α → Eff σ (Err ε) (Obj α))
    (hf : ∀ x s y s', f x s = (.ok y, s') → y.isNil = false) : mbind m (lift f) = fmap m f := by
  have key : ∀ m s, (∃ ys s', mapE f m s = (.ok ys, s') ∧ (∀ y ∈ ys, y.isNil = false) ∧
        mapE (lift f) m s = (.ok (ys.map fun y => .ml [y]), s')) ∨
      ∃ e s', mapE f m s = (.error e, s') ∧ mapE (lift f) m s = (.error e, s') := by
    intro m
    induction m with
    | nil => exact fun s => .inl ⟨[], s, rfl, by simp, rfl⟩
    | cons x m ih =>
      intro s
      simp only [mapE]
      cases hx : f x s with
      | mk r s1 =>
        cases r with
        | error e =>
          exact .inr ⟨e, s1, bind_eq_err hx, bind_eq_err (show lift f x s = _ from bind_eq_err hx)⟩
        | ok y =>
          have hy := hf x s y s1 hx
          have hl : lift f x s = (.ok (.ml [y]), s1) := by
            unfold lift; rw [bind_eq_ok hx]; simp [mk, hy, ret]
          rw [bind_eq_ok hx, bind_eq_ok hl]
          rcases ih s1 with ⟨ys, s2, h1, h2, h3⟩ | ⟨e, s2, h1, h2⟩
          · rw [bind_eq_ok h1, bind_eq_ok h3]
            exact .inl ⟨y :: ys, s2, rfl, by simpa [hy] using h2, rfl⟩
          · exact .inr ⟨e, s2, bind_eq_err h1, bind_eq_err h2⟩
  have hj : ∀ ys : List (Obj α), asMLs (ys.map fun y => .ml [y]) = some (ys.map fun y => [y]) := by
    intro ys; induction ys with
    | nil => rfl
    | cons y ys ih => simp [asMLs, ih]
  have hm : ∀ ys : List (Obj α), mk (ys.map fun y => .ml [y]) = ys.map fun y => .ml [y] := by
    intro ys; rcases ys with _ | ⟨y, _ | ⟨z, ys⟩⟩ <;> simp [mk, Obj.isNil]
  funext s
  rcases key m s with ⟨ys, s', h1, h2, h3⟩ | ⟨e, s', h1, h2⟩
  · have ha : fmap m (lift f) s = (.ok (ys.map fun y => .ml [y]), s') := by
      simp only [fmap, fromGen, h3, hm]
    unfold mbind
    rw [bind_eq_ok ha]
    have hf2 : (ys.map fun y => [y]).flatten = ys := by
      clear h1 h2 h3 ha
      induction ys with
      | nil => rfl
      | cons y ys ih => simpa using ih
    simp only [join, hj, ret, fmap, fromGen, h1, hf2]
  · unfold mbind fmap fromGen
    simp only [Eff.bind, h1, h2]
    cases e with
    | user e => rfl
    | py e => cases e <;> rfl

example : mbind [.atom 1, .atom 2] (lift fun x => match x with
      | .atom n => fun s => (.ok (.atom (n + 1)), s + n)
      | x => ret x) 0 = ((.ok [.atom 2, .atom 3], 3) : Except (Err Empty) (List (Obj Nat)) × Nat) := by rfl

/-- C48: `join` concatenates, and raises TypeError if an item is not a `MonadicList`. -/
theorem C48_join (m : List (Obj α)) :
    (∀ mss : List (List (Obj α)), m = mss.map .ml → (∀ ys ∈ mss, Holds ys) →
      join m = (ret mss.flatten : Eff σ (Err ε) _)) ∧
    ((∃ x ∈ m, ∀ ys, x ≠ .ml ys) → join m = (raise (.py .TypeError) : Eff σ (Err ε) _)) := by
  constructor
  · rintro mss rfl h
    rw [join_ml, mk_of_holds (holds_flatten h)]
  · intro h
    have : asMLs m = none := by
      obtain ⟨x, hx, hn⟩ := h
      induction m with
      | nil => simp at hx
      | cons y m ih =>
        rcases List.mem_cons.mp hx with rfl | hx'
        · cases x <;> simp [asMLs] at hn ⊢
        · cases y <;> simp [asMLs, ih hx']
    unfold join; rw [this]

example : join [.ml [.atom 1], .ml [], .ml [.nil, .nil]] =
    (ret [.atom 1, .nil, .nil] : Eff Unit (Err Empty) (List (Obj Nat))) := by rfl

/-- C48: `join` of `join`s: flattening the outer or the inner lists first. -/
theorem C48_join_join (mmm : List (List (List (Obj α)))) (h : ∀ mm ∈ mmm, ∀ ys ∈ mm, Holds ys) :
    bind (join (mmm.map fun mm => .ml (mm.map .ml))) join =
    (bind (fmap (mmm.map fun mm => .ml (mm.map .ml)) fun x => match x with
        | .ml ys => bind (join ys) fun zs => ret (.ml zs)
        | _ => raise (.py .TypeError)) join : Eff σ (Err ε) (List (Obj α))) := by
  have h1 : (mmm.map fun mm => Obj.ml (mm.map Obj.ml)) = (mmm.map fun mm => mm.map Obj.ml).map Obj.ml := by simp
  have hj : ∀ mm ∈ mmm, Holds mm.flatten := fun mm hm => holds_flatten (h mm hm)
  have h2 : mapE (σ := σ) (ε := ε) (fun x => match x with
        | .ml ys => bind (join ys) fun zs => ret (.ml zs)
        | _ => raise (.py .TypeError)) (mmm.map fun mm => .ml (mm.map .ml)) =
      ret ((mmm.map List.flatten).map Obj.ml) := by
    induction mmm with
    | nil => rfl
    | cons mm mmm ih =>
      rw [List.map_cons, mapE, ih (fun m hm => h m (by simp [hm])) (by simp) (fun m hm => hj m (by simp [hm]))]
      simp only [join_ml, eff_ret_bind, mk_of_holds (hj mm (by simp)), List.map_cons]
  have h3 : fmap (σ := σ) (ε := ε) (mmm.map fun mm => .ml (mm.map .ml)) (fun x => match x with
        | .ml ys => bind (join ys) fun zs => ret (.ml zs)
        | _ => raise (.py .TypeError)) = ret ((mmm.map List.flatten).map Obj.ml) := by
    unfold fmap fromGen
    rw [h2]
    simp only [ret]
    rw [mk_of_holds (holds_ml _)]
    rfl
  rw [h3, h1, join_ml, eff_ret_bind, eff_ret_bind, join_ml]
  have h4 : (mmm.map fun mm => mm.map (Obj.ml (α := α))).flatten = mmm.flatten.map .ml := by simp [List.map_flatten]
  rw [h4, mk_of_holds (holds_ml _), join_ml]
  congr 2
  clear h h1 h2 h3 h4 hj
  induction mmm with
  | nil => rfl
  | cons mm mmm ih => simp [List.flatten_append, ih]

example : ∀ mm ∈ [[[Obj.atom 1], []], [[.atom 2, .nil]]], ∀ ys ∈ mm, Holds ys := by simp [Holds]

/-- C48: `MonadicList.guard(b).then(m)` is `m` if `b` holds, else empty; `then` wants a `MonadicList`. -/
theorem C48_guard_then (tt : α) (b : Bool) (m : List (Obj α)) (hm : Holds m) :
    andThen (guard tt b) (.ml m) = (ret (if b then m else []) : Eff σ (Err ε) _) := by
  rw [andThen_good _ _ hm]
  cases b <;> simp [Amb.guard, mk, Obj.isNil]

theorem C48_then (m : List (Obj α)) (f : Obj α) :
    (∀ ys, f = .ml ys → Holds ys → andThen m f = (ret (m.flatMap fun _ => ys) : Eff σ (Err ε) _)) ∧
    ((∀ ys, f ≠ .ml ys) → andThen m f = (raise (.py .TypeError) : Eff σ (Err ε) _)) := by
  constructor
  · rintro ys rfl h; exact andThen_good m ys h
  · intro h
    cases f <;> simp [andThen] at h ⊢

example : andThen [.atom 1, .atom 2] (.ml [.atom 5]) = (ret [.atom 5, .atom 5] : Eff Unit (Err Empty) (List (Obj Nat))) := by
  rfl

/-- C48: `+` is concatenation, `copy` keeps the items; and whatever a constructor makes, it `Holds`. -/
theorem C48_add_copy (m ys : List (Obj α)) (hm : Holds m) (hy : Holds ys) :
    add m (.ml ys) = (ret (m ++ ys) : Eff σ (Err ε) _) ∧ copy m = m ∧ ∀ xs : List (Obj α), Holds (mk xs) :=
  ⟨by unfold add; simp only; rw [mk_of_holds (holds_append hm hy)], mk_of_holds hm, holds_mk⟩

example : Holds [Obj.atom 1, .atom 2] := by simp [Holds]

end Unpy.Props
