import Verif.Proof.LetSyntax
/-!
# C99: `let_syntax` and `abbrev` substitute
-/
namespace Unpy.Props
open Unpy.LetSyntax Unpy.LetSyntax.Lemmas

/-- What the specification says, as the outcome of the macro. -/
def c99Outcome {α : Type} : Spec.X α → R α
  | .ok a => .ok a
  | .error _ => .error .syntax

/-- C99, partial.  `let_syntax[definitions][body]`: with room enough on the stack, the result is the body in which first the uses of the
templates, then the bare names are replaced, each use of a template by its right hand side with the arguments in the places of the
parameters, all at the same time, whatever is in the arguments being expanded as well.  It is a SyntaxError exactly if a name is
defined twice or a template is used with the wrong number of arguments.

What is missing: uses where the careful specification stops, namely when a parameter occurs in an argument, when a right hand side
contains what it defines, and when the right hand side is one of the parameters alone; see the refutations. -/
theorem C99_expression_partial (ds : List Def) (body : T) (h : Spec.letSyntaxExpr true ds body ≠ .error .stopped) :
    ∃ n, ∀ m, n ≤ m → letSyntaxExpr m ds body = c99Outcome (Spec.letSyntaxExpr false ds body) := by
  unfold Spec.letSyntaxExpr at h ⊢
  by_cases hd : (ds.map (·.name)).Nodup
  · rw [if_pos hd] at h ⊢
    have hle := applyE_le ds body
    have heq : Spec.applyE true ds body = Spec.applyE false ds body := hle.resolve_left h
    rw [← heq]
    have hs := substE_sim (DefsRel.refl ds) body
    have key : Conv (fun n => substE n ds body) (c99Outcome (Spec.applyE true ds body)) := by
      revert hs h
      match Spec.applyE true ds body with
      | .ok e => intro _ hs; exact simE_ok.1 hs
      | .error .syntax => intro _ hs; exact hs
      | .error .stopped => intro h; exact (h rfl).elim
    obtain ⟨n, hn⟩ := key
    refine ⟨n, fun m hm => ?_⟩
    rw [← hn m hm]
    unfold letSyntaxExpr
    cases ds with
    | nil => rfl
    | cons d ds =>
      have := (duplicates_iff _).2 hd
      simp only [List.isEmpty_cons, Bool.false_eq_true, if_false, this]
  · rw [if_neg hd]
    refine ⟨0, fun m _ => ?_⟩
    have hdup : duplicates (ds.map (·.name)) = true := by
      cases hx : duplicates (ds.map (·.name)) with
      | true => rfl
      | false => exact (hd ((duplicates_iff _).1 hx)).elim
    unfold letSyntaxExpr
    cases ds with
    | nil => exact (hd (by simp)).elim
    | cons d ds => simp only [List.isEmpty_cons, Bool.false_eq_true, if_false, hdup, if_true]; rfl

/-- C99, partial.  `with let_syntax:`: with room enough on the stack, the result is the statements of the block other than definitions, in
which what the definitions before them define is replaced, as in the expression; where a block is used as a statement, its statements
are put there.  Then `if 1:` and the like are replaced by their branch (see `C99_ifones_meaning`).  It is a SyntaxError exactly if a
template is used with the wrong number of arguments, a block is used in an expression, the body of a `with expr` is not an expression,
a name is defined twice, or nothing is left.

What is missing: besides the uses named in `C99_expression_partial`, definitions of which the name or a parameter is a bare name defined
before, and uses of a block template in its own arguments; see the refutations. -/
theorem C99_block_partial (is : List Item) (h : Spec.loop true [] is ≠ .error .stopped) :
    ∃ n, ∀ m, n ≤ m → letSyntaxBlock m is = match Spec.loop false [] is with
      | .ok ss => if (elimSs ss).isEmpty then .error .syntax else .ok (elimSs ss)
      | .error _ => .error .syntax := by
  rw [← (loop_le is []).resolve_left h]
  have hs := loop_sim is DefsRel.nil
  revert hs h
  match Spec.loop true [] is with
  | .ok ss =>
    rintro _ ⟨ss', hspl, n, hn⟩
    refine ⟨n, fun m hm => ?_⟩
    have hn' : loop m [] is = .ok ss' := hn m hm
    simp only [letSyntaxBlock, hn', Except.bind, spl_elim hspl]
  | .error .syntax =>
    rintro _ ⟨n, hn⟩
    refine ⟨n, fun m hm => ?_⟩
    have hn' : loop m [] is = .error .syntax := hn m hm
    simp only [letSyntaxBlock, hn', Except.bind]
  | .error .stopped => intro h; exact (h rfl).elim

/-- C99.  Whatever statements mean, as long as the meaning of a compound statement is made of those of its bodies, and `if 1:`, `if 0:`
and `if None:` mean their branches: eliminating these does not change the meaning of a body. -/
theorem C99_ifones_meaning {M : Type} (m : Spec.Meaning M) (ss : List Stmt) : Spec.meanSs m (elimSs ss) = Spec.meanSs m ss :=
  elimSs_mean m ss

/-- C99.  No `if 1:`, `if 0:` or `if None:` remains, at any depth; and statements without these are left as they are. -/
theorem C99_ifones (ss : List Stmt) :
    Spec.noConstIfSs (elimSs ss) = true ∧ (Spec.noConstIfSs ss = true → elimSs ss = ss) :=
  ⟨elimSs_clean ss, elimSs_id ss⟩

/-! ## Examples -/

private def nm (x : String) : T := .name x
private def one' : T := .const (some 1)
private def two' : T := .const (some 2)

/-- `f[a, b] << g(b, a)`, `x << h(1)`, in `[f[x, f[1, 2]], x]` -/
private def exDefs : List Def := [⟨"f", ["a", "b"], .expr (.call (nm "g") [nm "b", nm "a"])⟩, ⟨"x", [], .expr (.call (nm "h") [one'])⟩]
private def exBody : T := .op "list" [.call (nm "f") [nm "x", .call (nm "f") [one', two']], nm "x"]

example : Spec.letSyntaxExpr true exDefs exBody = .ok (.op "list" [.call (nm "g") [.call (nm "g") [two', one'], .call (nm "h") [one']],
    .call (nm "h") [one']]) := rfl

example : ∃ n, ∀ m, n ≤ m → letSyntaxExpr m exDefs exBody =
    .ok (.op "list" [.call (nm "g") [.call (nm "g") [two', one'], .call (nm "h") [one']], .call (nm "h") [one']]) :=
  C99_expression_partial exDefs exBody (by intro h; cases h)

/-- A block with a parameter, used in the body of another one and in an `if`; the wrong number of arguments. -/
private def exItems : List Item :=
  [.define true ["a"] "say" [.expr (.call (nm "print") [nm "a"]), .op "assign" [nm "y", nm "a"] []],
   .define true [] "both" [.expr (.call (nm "say") [one']), .expr (.call (nm "say") [two'])],
   .stmt (.op "if" [nm "c"] [[.expr (nm "both")], [.expr (.call (nm "say") [nm "z"])]])]

example : Spec.loop true [] exItems = .ok [.op "if" [nm "c"]
    [[.expr (.call (nm "print") [one']), .op "assign" [nm "y", one'] [], .expr (.call (nm "print") [two']), .op "assign" [nm "y", two'] []],
     [.expr (.call (nm "print") [nm "z"]), .op "assign" [nm "y", nm "z"] []]]] := rfl

example : Spec.loop true [] [.define true ["a"] "say" [.expr (nm "a")], .stmt (.expr (.call (nm "say") [one', two']))] = .error .syntax := rfl

/-- Meanings as lists of what is executed, constant conditions being decided. -/
private def trace : Spec.Meaning (List Nat) where
  skip := []
  next := (· ++ ·)
  expr _ := [1]
  op t es ms := match t, es, ms with
    | "if", [.const c], [a, b] => if c = some 0 ∨ c = none then b else a
    | _, _, ms => 2 :: ms.flatten
  skip_next _ := rfl
  next_skip := List.append_nil
  next_assoc := List.append_assoc
  if_one _ _ := rfl
  if_zero _ _ := rfl
  if_none _ _ := rfl

example : Spec.meanSs trace (elimSs [.op "while" [nm "c"] [[ifOne [.expr (nm "x"), .expr (nm "y")]]]]) = [2, 1, 1] := rfl

/-! ## Refutations -/

/-- The arguments of a template are put in one after the other, so that a parameter that occurs in an argument is replaced as well: with
`f[a, b] << g(a, b)`, `f[b, 1]` becomes `g(1, 1)` and not `g(b, 1)`. -/
theorem C99_capture_refuted :
    ¬ ∀ ds body, ∃ n, ∀ m, n ≤ m → letSyntaxExpr m ds body = c99Outcome (Spec.letSyntaxExpr false ds body) := by
  intro h
  obtain ⟨n, hn⟩ := h [⟨"f", ["a", "b"], .expr (.call (.name "g") [.name "a", .name "b"])⟩] (.call (.name "f") [.name "b", one'])
  have h1 := hn (n + 10) (by omega)
  have h2 : letSyntaxExpr (n + 10) [⟨"f", ["a", "b"], .expr (.call (.name "g") [.name "a", .name "b"])⟩]
      (.call (.name "f") [.name "b", one']) = .ok (.call (.name "g") [one', one']) := by
    simp [letSyntaxExpr, duplicates, substE, foldR, templates, barenames, tempE, plugE, bareE, genE, mapR, Except.bind, one']
  rw [h2] at h1
  simp [Spec.letSyntaxExpr, Spec.applyE, Spec.foldX, Spec.isTemplate, Spec.temE, Spec.isThe, Spec.subE, Spec.subEs, Spec.lookup,
    Spec.temEl, c99Outcome, Except.bind, one'] at h1

private theorem bare_forever : ∀ n, bareE "x" (.expr (.call (.name "f") [.name "x"])) n (.name "x") = .error .recursion
  | 0 => by simp [bareE]
  | 1 => by simp [bareE, genE, Except.bind]
  | n + 2 => by
    have ih := bare_forever (n + 1)
    have hf : bareE "x" (.expr (.call (.name "f") [.name "x"])) (n + 1) (.name "f") = .ok (.name "f") := by simp [bareE]
    have h0 : bareE "x" (.expr (.call (.name "f") [.name "x"])) (n + 2) (.name "x") =
        genE (bareE "x" (.expr (.call (.name "f") [.name "x"])) (n + 1)) (.call (.name "f") [.name "x"]) := by
      rw [bareE]; exact if_pos rfl
    rw [h0]
    simp only [genE, mapR, hf, ih, Except.bind]

/-- A bare name the right hand side of which contains the name itself, as in `x << f(x)`, is replaced over and over: RecursionError. -/
theorem C99_self_refuted :
    (∀ n, letSyntaxExpr n [⟨"x", [], .expr (.call (.name "f") [.name "x"])⟩] (.name "x") = .error .recursion) ∧
    Spec.letSyntaxExpr false [⟨"x", [], .expr (.call (.name "f") [.name "x"])⟩] (.name "x") = .ok (.call (.name "f") [.name "x"]) := by
  refine ⟨fun n => ?_, rfl⟩
  simp [letSyntaxExpr, duplicates, substE, foldR, templates, barenames, Except.bind, bare_forever n]

private theorem arg_forever : ∀ n, bareE "a" (.expr (.op "+" [.name "a", one'])) n (.name "a") = .error .recursion
  | 0 => by simp [bareE]
  | n + 1 => by
    have := arg_forever n
    simp [bareE, genE, mapR, this, Except.bind]

/-- A use of a template with an argument that contains the parameter, as `f[a + 1]` for `f[a] << a * 2`, is a RecursionError. -/
theorem C99_argument_refuted :
    (∀ n, letSyntaxExpr n [⟨"f", ["a"], .expr (.op "*" [.name "a", two'])⟩] (.call (.name "f") [.op "+" [.name "a", one']])
      = .error .recursion) ∧
    Spec.letSyntaxExpr false [⟨"f", ["a"], .expr (.op "*" [.name "a", two'])⟩] (.call (.name "f") [.op "+" [.name "a", one']])
      = .ok (.op "*" [.op "+" [.name "a", one'], two']) := by
  refine ⟨fun n => ?_, rfl⟩
  cases n with
  | zero => simp [letSyntaxExpr, duplicates, substE, foldR, templates, tempE, Except.bind]
  | succ n => cases n with
    | zero => simp [letSyntaxExpr, duplicates, substE, foldR, templates, tempE, plugE, bareE, Except.bind]
    | succ n => simp [letSyntaxExpr, duplicates, substE, foldR, templates, tempE, plugE, bareE, genE, mapR, Except.bind, arg_forever n]

/-- The result of a substitution is not looked at itself, only what is in it: with `f[a] << a`, `f[f[1]]` becomes `f[1]`, not 1. -/
theorem C99_nested_refuted :
    (∀ n, letSyntaxExpr (n + 3) [⟨"f", ["a"], .expr (.name "a")⟩] (.call (.name "f") [.call (.name "f") [one']])
      = .ok (.call (.name "f") [one'])) ∧
    Spec.letSyntaxExpr false [⟨"f", ["a"], .expr (.name "a")⟩] (.call (.name "f") [.call (.name "f") [one']]) = .ok one' := by
  refine ⟨fun n => ?_, rfl⟩
  simp [letSyntaxExpr, duplicates, substE, foldR, templates, barenames, tempE, plugE, bareE, genE, mapR, Except.bind, one']

/-- What a block template is replaced by is not looked at: with `with block[a] as twice: a; a`, in `twice[twice[x]]` the inner use is
left as it is. -/
theorem C99_nested_block_refuted :
    (∀ n, letSyntaxBlock (n + 5) [.define true ["a"] "twice" [.expr (.name "a"), .expr (.name "a")],
        .stmt (.expr (.call (.name "twice") [.call (.name "twice") [.name "x"]]))]
      = .ok [.expr (.call (.name "twice") [.name "x"]), .expr (.call (.name "twice") [.name "x"])]) ∧
    Spec.loop false [] [.define true ["a"] "twice" [.expr (.name "a"), .expr (.name "a")],
        .stmt (.expr (.call (.name "twice") [.call (.name "twice") [.name "x"]]))]
      = .ok [.expr (.name "x"), .expr (.name "x"), .expr (.name "x"), .expr (.name "x")] := by
  refine ⟨fun n => ?_, rfl⟩
  simp [letSyntaxBlock, loop, substS, foldR, templates, barenames, asWith, destructure, ids, tempS, plugS, bareS, bareE, genS, genE,
    mapR, Except.bind, ifOne, elimSs, elimS, elimBs, optimize]

/-- A second definition of a bare name in a block is no duplicate: the name is replaced first.  `with expr as x: y`, then
`with expr as x: z` defines `y` to be `z`. -/
theorem C99_duplicate_refuted :
    (∀ n, letSyntaxBlock (n + 5) [.define false [] "x" [.expr (.name "y")], .define false [] "x" [.expr (.name "z")],
        .stmt (.expr (.call (.name "f") [.name "x", .name "y"]))]
      = .ok [.expr (.call (.name "f") [.name "z", .name "z"])]) ∧
    Spec.loop false [] [.define false [] "x" [.expr (.name "y")], .define false [] "x" [.expr (.name "z")],
        .stmt (.expr (.call (.name "f") [.name "x", .name "y"]))] = .error .syntax := by
  refine ⟨fun n => ?_, rfl⟩
  simp [letSyntaxBlock, loop, substS, foldR, templates, barenames, asWith, destructure, ids, bareS, bareE, genS, genE,
    mapR, Except.bind, elimSs, elimS]

/-- A parameter of a block template that is also a bare name defined before is replaced in the list of parameters: AttributeError. -/
theorem C99_parameter_refuted :
    (∀ n, letSyntaxBlock (n + 5) [.define false [] "a" [.expr one'], .define false ["a"] "f" [.expr (.op "+" [.name "b", two'])],
        .stmt (.expr (.call (.name "f") [.name "y"]))] = .error .attribute) ∧
    Spec.loop false [] [.define false [] "a" [.expr one'], .define false ["a"] "f" [.expr (.op "+" [.name "b", two'])],
        .stmt (.expr (.call (.name "f") [.name "y"]))] = .ok [.expr (.op "+" [.name "b", two'])] := by
  refine ⟨fun n => ?_, rfl⟩
  simp [letSyntaxBlock, loop, substS, foldR, templates, barenames, asWith, destructure, ids, bareS, bareE, genS, genE,
    mapR, Except.bind, one', two']

/-- Eliminating `if 0:` may leave an `if` without statements, which is no Python. -/
theorem C99_empty_refuted :
    ¬ ∀ n is ss, (∀ s ∈ is, ∃ s', s = Item.stmt s' ∧ Spec.validS s' = true) → letSyntaxBlock n is = .ok ss → Spec.validSs ss = true := by
  intro h
  have := h 5 [.stmt (.op "if" [.name "c"] [[.op "if" [.const (some 0)] [[.expr (.name "x")], []]], []])]
    [.op "if" [.name "c"] [[], []]] (by
      intro s hs
      simp only [List.mem_singleton] at hs
      exact ⟨_, hs, rfl⟩)
    (by simp [letSyntaxBlock, loop, substS, foldR, templates, barenames, Except.bind, elimSs, elimS, elimBs, optimize])
  simp [Spec.validSs, Spec.validS] at this

end Unpy.Props
