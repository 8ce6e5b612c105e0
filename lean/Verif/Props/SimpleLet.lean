import Verif.Spec.SimpleLet
/-!
# C164: simple let expressions
-/
namespace Unpy.Props
open Unpy.SimpleLet Unpy.SimpleLet.Spec Unpy.Eff
variable {σ ε V : Type}

private theorem pairs_written (bs : List (String × Expr σ ε V)) : pairs (written bs) = .ok (bs.map (·.1), bs.map (·.2)) := by
  induction bs with
  | nil => rfl
  | cons b bs ih => simp only [written, List.map_cons, pairs] at ih ⊢; rw [ih]

private theorem distinct_le : ∀ xs : List String, distinct xs ≤ xs.length
  | [] => Nat.le_refl _
  | x :: xs => by
    have := distinct_le xs
    simp only [distinct, List.length_cons]
    split <;> omega

private theorem distinct_iff : ∀ xs : List String, ¬ distinct xs < xs.length ↔ xs.Nodup
  | [] => by simp [distinct]
  | x :: xs => by
    have h1 := distinct_le xs
    have h2 := distinct_iff xs
    simp only [distinct, List.length_cons, List.nodup_cons]
    split <;> rename_i h
    · simp [h]; omega
    · simp only [h, not_false_eq_true, true_and, ← h2]; omega

private theorem evalArgs_eq (env : Env V) : ∀ es : List (Expr σ ε V), evalArgs env es = inOrder (es.map (· env))
  | [] => rfl
  | e :: es => by simp only [evalArgs, List.map_cons, inOrder, evalArgs_eq env es]

private theorem assign_eq : ∀ (xs : List String) (vs : List V) (f : String → Option V), xs.Nodup → assign f xs vs = plus f (xs.zip vs)
  | [], vs, f, _ => by funext y; simp [assign, plus]
  | x :: xs, [], f, _ => by funext y; simp [assign, plus]
  | x :: xs, v :: vs, f, h => by
    have hx := List.nodup_cons.mp h
    rw [assign, assign_eq xs vs _ hx.2]
    funext y
    simp only [plus, List.zip_cons_cons, List.lookup_cons]
    by_cases hy : y = x
    · subst hy
      have hn : (xs.zip vs).lookup y = none := by
        rw [List.lookup_eq_none_iff]
        intro p hp
        have := (List.of_mem_zip hp).1
        simp only [bne_iff_ne, ne_eq, beq_eq_false_iff_ne, beq_iff_eq]
        rintro rfl
        exact hx.1 this
      simp [hn]
    · have : (y == x) = false := by simpa using hy
      simp [this, hy]

/-- C164: `let[[x0, e0], ...][body]` with different names evaluates the values from left to right, each once, in the scope where the expression is, and then the body, where besides the names of
that scope those bound are seen, and hide others of the same name; if a value raises, nothing after it is evaluated.
(Missing: class bodies, see `C164_class_refuted`.) -/
theorem C164_let_partial (bs : List (String × Expr σ ε V)) (h0 : bs ≠ []) (hu : (bs.map (·.1)).Nodup) :
    ∃ f, let_ true (written bs) = .ok f ∧ ∀ body names,
      f body (scope names) = bind (inOrder (bs.map fun b => b.2 (scope names))) fun vs => body (scope (plus names ((bs.map (·.1)).zip vs))) := by
  refine ⟨fun tree => callLambda (bs.map (·.1)) tree (bs.map (·.2)), ?_, ?_⟩
  · have : (written bs).isEmpty = false := by cases bs with | nil => exact absurd rfl h0 | cons => rfl
    rw [let_, this, pairs_written]
    simp only [Bool.not_true, Bool.false_eq_true, if_false]
    rw [if_neg ((distinct_iff _).mpr hu)]
  · intro body names
    show bind (evalArgs (scope names) (bs.map (·.2))) _ = _
    rw [evalArgs_eq, List.map_map]
    refine bind_congr' _ fun vs => ?_
    rw [assign_eq _ _ _ hu]
    rfl

/-- A value for the examples: it is logged when it is evaluated. -/
private def logged (n : Nat) : Expr (List Nat) String Nat := fun _ s => (.ok n, s ++ [n])
private def name (x : String) : Expr (List Nat) String Nat := var id x
private def plusE (a b : Expr (List Nat) String Nat) : Expr (List Nat) String Nat := fun env => bind (a env) fun x => bind (b env) fun y => ret (x + y)

-- `let[[x, 1], [y, 2]][x + y + z]` where `x` is 5 and `z` is 7: the outer `x` is not seen
example : ((let_ true (written [("x", logged 1), ("y", logged 2)])).toOption.map fun f =>
    f (plusE (name "x") (plusE (name "y") (name "z"))) (scope fun v => if v = "x" then some 5 else if v = "z" then some 7 else none) []) = some (.ok 10, [1, 2]) := rfl
-- `let[[x, 1], [y, x]][y]`: here, the outer `x` is seen
example : ((let_ true (written [("x", logged 1), ("y", name "x")])).toOption.map fun f =>
    f (name "y") (scope fun v => if v = "x" then some 5 else none) []) = some (.ok 5, [1]) := rfl

/-- C164: the expansion of `let` fails exactly if there is no binding, a name is bound twice, or it is not used as an expression; the error is then a SyntaxError. -/
theorem C164_let_error (bs : List (String × Expr σ ε V)) (isExpr : Bool) :
    (let_ isExpr (written bs) = .error .SyntaxError ↔ isExpr = false ∨ bs = [] ∨ ¬ (bs.map (·.1)).Nodup) ∧
    (∀ err, let_ isExpr (written bs) = .error err → err = .SyntaxError) := by
  cases isExpr with
  | false => exact ⟨by simp [let_], by intro err h; simpa [let_] using h.symm⟩
  | true =>
    cases bs with
    | nil => exact ⟨by simp [let_, written], by intro err h; simpa [let_, written] using h.symm⟩
    | cons b bs =>
      have : (written (b :: bs)).isEmpty = false := rfl
      rw [let_, this, pairs_written]
      simp only [Bool.not_true, Bool.false_eq_true, if_false, reduceCtorEq, false_or]
      by_cases hd : distinct ((b :: bs).map (·.1)) < ((b :: bs).map (·.1)).length
      · rw [if_pos hd]
        exact ⟨⟨fun _ hn => (distinct_iff _).mpr hn hd, fun _ => rfl⟩, by intro err h; simpa using h.symm⟩
      · rw [if_neg hd]
        exact ⟨⟨nofun, fun hn => absurd ((distinct_iff _).mp hd) hn⟩, nofun⟩

example : let_ true (written [("x", logged 1), ("x", logged 2)]) = .error .SyntaxError := rfl

private theorem letseq_cons (b : String × Expr σ ε V) (bs : List (String × Expr σ ε V)) (body e : Expr σ ε V) (h : letseq true (written bs) body = .ok e) :
    letseq true (written (b :: bs)) body = .ok (callLambda [b.1] e [b.2]) := by
  have h' : letseq true (List.map (fun b => Arg.binding b.1 b.2) bs) body = .ok e := h
  rw [written, List.map_cons, letseq]
  simp only [Bool.not_true, Bool.false_eq_true, if_false]
  rw [show let_ true [Arg.binding b.1 b.2] = .ok (fun tree : Expr σ ε V => callLambda [b.1] tree [b.2]) from rfl]
  simp only [h']

/-- C164: `letseq` accepts any bindings; each value is evaluated once, in the order written, where the names bound before are seen, and a name may be bound again; then the body is evaluated.
(Missing: class bodies, see `C164_class_refuted`.) -/
theorem C164_letseq_partial (bs : List (String × Expr σ ε V)) (body : Expr σ ε V) :
    ∃ e, letseq true (written bs) body = .ok e ∧ ∀ names, e (scope names) = bind (oneByOne names bs) fun names' => body (scope names') := by
  induction bs with
  | nil => exact ⟨body, rfl, fun names => rfl⟩
  | cons b bs ih =>
    obtain ⟨e, he, hs⟩ := ih
    refine ⟨_, letseq_cons b bs body e he, fun names => ?_⟩
    rw [callLambda, evalArgs, evalArgs, eff_assoc, oneByOne, eff_assoc]
    refine bind_congr' _ fun v => ?_
    rw [← hs]
    rw [eff_assoc, eff_ret_bind, eff_ret_bind, assign_eq _ _ _ (by simp)]
    rfl

-- `letseq[[x, 21], [x, x + x]][x]`
example : ((letseq true (written [("x", logged 21), ("x", plusE (name "x") (name "x"))]) (name "x")).toOption.map fun e =>
    e (scope fun _ => none) []) = some (.ok 42, [21]) := rfl

/-- C164: a `letseq` can be split into nested ones anywhere. -/
theorem C164_letseq_split (bs cs : List (String × Expr σ ε V)) (body inner : Expr σ ε V) (h : letseq true (written cs) body = .ok inner) :
    letseq true (written (bs ++ cs)) body = letseq true (written bs) inner := by
  induction bs with
  | nil => exact h
  | cons b bs ih =>
    obtain ⟨e, he, _⟩ := C164_letseq_partial bs inner
    rw [he] at ih
    rw [List.cons_append, letseq_cons b _ body e ih, letseq_cons b bs inner e he]

example : letseq true (written [("x", logged 1), ("y", name "x")]) (name "y") = letseq true (written [("x", logged 1)]) (callLambda ["y"] (name "y") [name "x"]) :=
  C164_letseq_split [("x", logged 1)] [("y", name "x")] (name "y") _ rfl

private theorem plus_plus (names : String → Option V) (x : String) (v : V) (l : List (String × V)) (h : ∀ q ∈ l, q.1 ≠ x) :
    plus (plus names [(x, v)]) l = plus names ((x, v) :: l) := by
  funext y
  simp only [plus, List.lookup_cons, List.lookup_nil]
  by_cases hy : y = x
  · have : l.lookup y = none := by
      rw [List.lookup_eq_none_iff]
      intro q hq
      have := h q hq
      simp only [bne_iff_ne, ne_eq, beq_eq_false_iff_ne, beq_iff_eq]
      rintro rfl
      exact this hy
    rw [this]
    simp [hy]
  · have : (y == x) = false := by simpa using hy
    simp [this]

private theorem indep_oneByOne : ∀ (bs : List (String × Expr σ ε V)) (xs : List String) (names₀ names : String → Option V), (∀ y, y ∉ xs → names y = names₀ y) → (bs.map (·.1)).Nodup →
    (∀ b ∈ bs, Independent (xs ++ bs.map (·.1)) b.2) → (∀ y ∈ xs, y ∉ bs.map (·.1)) →
    oneByOne names bs = bind (inOrder (bs.map fun b => b.2 (scope names₀))) fun vs => ret (plus names ((bs.map (·.1)).zip vs))
  | [], xs, names₀, names, _, _, _, _ => by
    simp only [oneByOne, List.map_nil, inOrder, eff_ret_bind]
    congr 1
  | b :: bs, xs, names₀, names, hn, hu, hi, hx => by
    have hu' := List.nodup_cons.mp (by simpa only [List.map_cons] using hu)
    have e1 : b.2 (scope names) = b.2 (scope names₀) := hi b (by simp) _ _ fun y hy => hn y fun h => hy (List.mem_append_left _ h)
    rw [oneByOne, List.map_cons, inOrder, e1, eff_assoc]
    refine bind_congr' _ fun v => ?_
    rw [indep_oneByOne bs (xs ++ [b.1]) names₀ (plus names [(b.1, v)]) ?_ hu'.2 ?_ ?_, eff_assoc]
    · refine bind_congr' _ fun vs => ?_
      rw [eff_ret_bind, List.map_cons, List.zip_cons_cons, plus_plus]
      intro q hq he
      exact hu'.1 (he ▸ (List.of_mem_zip hq).1)
    · intro y hy
      simp only [List.mem_append, List.mem_singleton, not_or] at hy
      have : (y == b.1) = false := by simpa using hy.2
      rw [← hn y hy.1]
      simp [plus, List.lookup_cons, this]
    · intro c hc
      have := hi c (List.mem_cons_of_mem _ hc)
      simpa [List.append_assoc] using this
    · intro y hy hy'
      rcases List.mem_append.mp hy with h | h
      · exact hx y h (by simpa using Or.inr (by simpa using hy'))
      · rw [List.mem_singleton] at h; subst h; exact hu'.1 hy'

/-- C164: if no value depends on a name bound, `let` and `letseq` do the same, for different names. -/
theorem C164_let_letseq (bs : List (String × Expr σ ε V)) (h0 : bs ≠ []) (hu : (bs.map (·.1)).Nodup) (hi : ∀ b ∈ bs, Independent (bs.map (·.1)) b.2) (body : Expr σ ε V) :
    ∃ f e, let_ true (written bs) = .ok f ∧ letseq true (written bs) body = .ok e ∧ ∀ names, f body (scope names) = e (scope names) := by
  obtain ⟨f, hf, h1⟩ := C164_let_partial bs h0 hu
  obtain ⟨e, he, h2⟩ := C164_letseq_partial bs body
  refine ⟨f, e, hf, he, fun names => ?_⟩
  rw [h1, h2, indep_oneByOne bs [] names names (fun _ _ => rfl) hu (by simpa using hi) (by simp), eff_assoc]
  rfl

example : Independent ["x", "y"] (plusE (logged 1) (name "z")) := by
  intro names names' h
  have := h "z" (by decide)
  simp only [plusE, name, var, scope, this]
  rfl

/-- C164: what is not a pair of a name and a value is refused, wherever it is among the bindings. -/
theorem C164_malformed (bs : List (String × Expr σ ε V)) (a : Arg σ ε V) (ha : ∀ x e, a ≠ .binding x e) (rest : List (Arg σ ε V)) (body : Expr σ ε V) :
    (∃ err, let_ true (written bs ++ a :: rest) = .error err) ∧ ∃ err, letseq true (written bs ++ a :: rest) body = .error err := by
  have h1 : ∀ rest, ∃ err, pairs (a :: rest) = .error err := by
    intro rest
    cases a with
    | binding x e => exact absurd rfl (ha x e)
    | _ => exact ⟨_, rfl⟩
  have h2 : ∃ err, pairs (written bs ++ a :: rest) = .error err := by
    induction bs with
    | nil => exact h1 rest
    | cons b bs ih =>
      obtain ⟨err, h⟩ := ih
      exact ⟨err, by simp only [written, List.map_cons, List.cons_append, pairs] at h ⊢; rw [h]⟩
  constructor
  · obtain ⟨err, h⟩ := h2
    refine ⟨err, ?_⟩
    rw [let_, h]
    simp
  · induction bs with
    | nil =>
      obtain ⟨err, h⟩ := h1 []
      refine ⟨err, ?_⟩
      have : let_ true [a] = .error err := by rw [let_, h]; simp
      rw [written, List.map_nil, List.nil_append, letseq]
      simp [this]
    | cons b bs ih =>
      obtain ⟨err, h⟩ := ih (by
        induction bs with
        | nil => exact h1 rest
        | cons b bs ih =>
          obtain ⟨err, h⟩ := h2
          simp only [written, List.map_cons, List.cons_append, pairs] at h ⊢
          split at h
          · rename_i he; exact ⟨_, he⟩
          · cases h)
      refine ⟨err, ?_⟩
      rw [written, List.map_cons, List.cons_append, letseq]
      simp only [Bool.not_true, Bool.false_eq_true, if_false]
      rw [show let_ true [Arg.binding b.1 b.2] = .ok (fun tree : Expr σ ε V => callLambda [b.1] tree [b.2]) from rfl]
      rw [written] at h
      simp only [h]

example : let_ true (written [("x", logged 1)] ++ [.noPair]) = .error .ValueError := rfl

/-- C164, refuted in class bodies: the names of the class body are seen in the values of a `let`, but not in its body; and in `letseq`, only in the first value.
Instead, the name is not found, or found in an outer scope. -/
theorem C164_class_refuted : ∃ env : Env Nat, env.own "z" = some 7 ∧
    ((let_ true (written [("x", name "z")])).toOption.map fun f => f (name "x") env []) = some (.ok 7, []) ∧
    ((let_ true (written [("x", logged 1)])).toOption.map fun f => f (name "z") env []) = some (.error "z", [1]) ∧
    ((letseq true (written [("x", name "z"), ("y", name "z")]) (name "y")).toOption.map fun e => e env []) = some (.error "z", []) ∧
    -- with another `z` in an outer scope
    ((let_ true (written [("x", name "z")])).toOption.map fun f => f (plusE (name "x") (name "z")) ⟨env.own, fun _ => some 3⟩ []) = some (.ok 10, []) ∧
    ((letseq true (written [("x", name "z"), ("y", name "z")]) (name "y")).toOption.map fun e => e ⟨env.own, fun _ => some 3⟩ []) = some (.ok 3, []) :=
  ⟨⟨fun x => if x = "z" then some 7 else none, fun _ => none⟩, rfl, rfl, rfl, rfl, rfl, rfl⟩

end Unpy.Props
