import Verif.Proof.Scope
/-! # C114: what the scope analyzer says about the names in a block is what Python does -/
namespace Unpy.Props
open Unpy.Scope Unpy.Spec.Scope

/-- `x = 1`, and the use of a name -/
private def assign (x : String) : Tree := .other [.name x .store, .other []]
private def use (x : String) : Tree := .name x .load

/-- **The names that a block binds** are collected: those that it assigns to (with `=`, `:=`, `for`, `with`, …), those of the functions and classes that it defines, of what it
imports, of its handlers of exceptions, and those that its patterns capture.  Nothing else is, besides what `Mistaken` says.
The full property is that the names collected are those that Python binds; missing are those bound by `del`, by `import x.y`, and in the parts of inner scopes that belong to the outer one; also, there is
no result if a class pattern or a mapping pattern occurs. -/
theorem C114_store_partial (ts : List Tree) (hp : ∀ t ∈ ts, ¬ HasPattern t) :
    ∃ names, storeNamesL ts = .ok names ∧
      (∀ x, some x ∈ names ↔ (∃ t ∈ ts, Binds x .plain t) ∨ ∃ t ∈ ts, Mistaken (some x) t) ∧
      (none ∈ names ↔ ∃ t ∈ ts, Mistaken none t) := by
  obtain ⟨l, hl, h⟩ := (storeL_good ts).2 (by simpa using hp)
  refine ⟨l, hl, fun x => ?_, ?_⟩
  · rw [h]
    constructor
    · rintro ⟨t, ht, ⟨y, hy, hb⟩ | hm⟩
      · cases hy; exact .inl ⟨t, ht, hb⟩
      · exact .inr ⟨t, ht, hm⟩
    · rintro (⟨t, ht, hb⟩ | ⟨t, ht, hm⟩)
      · exact ⟨t, ht, .inl ⟨x, rfl, hb⟩⟩
      · exact ⟨t, ht, .inr hm⟩
  · rw [h]
    constructor
    · rintro ⟨t, ht, ⟨y, hy, hb⟩ | hm⟩
      · cases hy
      · exact ⟨t, ht, hm⟩
    · rintro ⟨t, ht, hm⟩
      exact ⟨t, ht, .inr hm⟩

private def ifBody : List Tree := [.other [use "c", assign "x", .func false "g" {} [] [assign "y"]]]
example : ∃ names, storeNamesL ifBody = .ok names ∧ some "x" ∈ names ∧ some "g" ∈ names := by
  obtain ⟨names, h, hx, _⟩ := C114_store_partial ifBody (by
    intro t ht h
    simp only [ifBody, List.mem_singleton] at ht; subst ht
    cases h with | part hp h =>
    have := (part_other _ _).1 hp
    simp only [List.mem_cons, List.not_mem_nil, or_false] at this
    rcases this with rfl | rfl | rfl
    · cases h with | part hp h => cases hp
    · cases h with | part hp h =>
      have := (part_other _ _).1 hp
      simp only [List.mem_cons, List.not_mem_nil, or_false] at this
      rcases this with rfl | rfl
      · cases h with | part hp h => cases hp
      · cases h with | part hp h =>
        have := (part_other _ _).1 hp
        simp at this
    · cases h with | part hp h => cases hp)
  refine ⟨names, h, (hx _).2 (.inl ⟨_, List.mem_singleton.2 rfl, .part (.other (List.mem_cons_of_mem _ (List.mem_cons_self ..))) (.part (.other (List.mem_cons_self ..)) .assigned)⟩),
    (hx _).2 (.inl ⟨_, List.mem_singleton.2 rfl, .part (.other (List.mem_cons_of_mem _ (List.mem_cons_of_mem _ (List.mem_singleton.2 rfl)))) .function⟩)⟩

/-- In Python, `del x`, `import x.y` and `:=` in a comprehension, in a decorator, or in a default value of a function or a lambda bind `x` in the block: these are not seen.  What is seen
instead is, in a block with `import x.y`, a name `x.y`; with `from m import *`, a name `*`; with an `except` without a name, None. -/
theorem C114_bound_refuted :
    (∀ x, (∃ w, Binds x w (.other [.name x .del])) ∧ storeNamesL [.other [.name x .del]] = .ok []) ∧
    (∀ x y, (∃ w, Binds x w (.imp [⟨x, [y], none⟩])) ∧ storeNamesL [.imp [⟨x, [y], none⟩]] = .ok [some (x ++ "." ++ y)]) ∧
    (∀ x c ts i, (∃ w, Binds x w (.comp c ts i [.other [.name x .store, .other []]])) ∧ storeNamesL [.comp c ts i [.other [.name x .store, .other []]]] = .ok []) ∧
    (∀ x a f p b, (∃ w, Binds x w (.func a f p [.other [.name x .store, .other []]] b)) ∧ storeNamesL [.func a f p [.other [.name x .store, .other []]] b] = .ok [some f]) ∧
    (∀ x p b, (∃ w, Binds x w (.lam p [.other [.name x .store, .other []]] b)) ∧ storeNamesL [.lam p [.other [.name x .store, .other []]] b] = .ok []) ∧
    storeNamesL [.importFrom [("*", none)]] = .ok [some "*"] ∧
    storeNamesL [.try_ [none] []] = .ok [none] := by
  refine ⟨fun x => ⟨⟨_, .part (.other (by simp)) .deleted⟩, rfl⟩, fun x y => ⟨⟨_, .importPackage _ (List.mem_singleton.2 rfl) rfl (by simp) rfl⟩, ?_⟩,
    fun x c ts i => ⟨⟨_, .outer (.rest (List.mem_singleton.2 rfl)) (.part (.other (List.mem_cons_self ..)) .assigned)⟩, rfl⟩,
    fun x a f p b => ⟨⟨_, .outer (.func (List.mem_singleton.2 rfl)) (.part (.other (List.mem_cons_self ..)) .assigned)⟩, rfl⟩,
    fun x p b => ⟨⟨_, .outer (.lam (List.mem_singleton.2 rfl)) (.part (.other (List.mem_cons_self ..)) .assigned)⟩, rfl⟩, rfl, rfl⟩
  rfl

/-- A class pattern `C(…)` or a mapping pattern `{…}` anywhere in the block makes the analyzer fail with a `TypeError`. -/
theorem C114_pattern_refuted (ts : List Tree) (t : Tree) (ht : t ∈ ts) (h : HasPattern t) :
    storeNamesL ts = .error .type ∧ ∀ a f p o, lexicalVariables (.func a f p o ts) = .error .type := by
  have := (storeL_good ts).1 ⟨t, ht, h⟩
  exact ⟨this, fun a f p o => by simp [lexicalVariables, this, Except.map]⟩

example : storeNamesL [assign "x", .other [use "y", .matchClass [use "C", .matchAs (some "x") []]]] = .error .type :=
  (C114_pattern_refuted _ _ (List.mem_cons_of_mem _ (List.mem_singleton.2 rfl)) (.part (.other (List.mem_cons_of_mem _ (List.mem_singleton.2 rfl))) .class_)).1

/-- `del x` is seen wherever it is in the block, but not in inner scopes. -/
theorem C114_del (x : String) (ts : List Tree) : x ∈ delNames ts ↔ ∃ t ∈ ts, Binds x .deleted t := mem_delNames x ts

example : "x" ∈ delNames [assign "x", .other [use "c", .other [.name "x" .del]]] :=
  (C114_del _ _).2 ⟨_, List.mem_cons_of_mem _ (List.mem_singleton.2 rfl), .part (.other (List.mem_cons_of_mem _ (List.mem_singleton.2 rfl))) (.part (.other (List.mem_singleton.2 rfl)) .deleted)⟩

/-- The names declared as `global`, and those declared as `nonlocal`, are found wherever the declaration is in the block, but not in inner scopes. -/
theorem C114_declarations (x : String) (ts : List Tree) :
    (x ∈ collectGlobals ts ↔ ∃ t ∈ ts, Global x t) ∧ (x ∈ collectNonlocals ts ↔ ∃ t ∈ ts, Nonlocal x t) := ⟨mem_collectGlobals x ts, mem_collectNonlocals x ts⟩

example : "x" ∈ collectGlobals [.other [use "c", .globals ["y", "x"]], assign "x"] :=
  (C114_declarations _ _).1.2 ⟨_, List.mem_cons_self .., .part (.other (List.mem_cons_of_mem _ (List.mem_singleton.2 rfl))) (.here (by simp))⟩

/-- `extract_args` gives the names of all parameters of a function or lambda, and refuses anything else. -/
theorem C114_parameters (t : Tree) :
    (∀ a f p o b, t = .func a f p o b → ∃ names, extractArgs t = .ok names ∧ ∀ x, x ∈ names ↔ Parameter x p) ∧
    (∀ p o b, t = .lam p o b → ∃ names, extractArgs t = .ok names ∧ ∀ x, x ∈ names ↔ Parameter x p) ∧
    ((∀ a f p o b, t ≠ .func a f p o b) → (∀ p o b, t ≠ .lam p o b) → extractArgs t = .error .value) := by
  refine ⟨fun a f p o b e => ⟨p.extract, by simp [e, extractArgs], fun x => mem_extract x p⟩, fun p o b e => ⟨p.extract, by simp [e, extractArgs], fun x => mem_extract x p⟩, fun h1 h2 => ?_⟩
  cases t with
  | func a f p o b => exact absurd rfl (h1 a f p o b)
  | lam p o b => exact absurd rfl (h2 p o b)
  | _ => rfl

example : ∃ names, extractArgs (.lam ⟨["a"], ["b"], some "c", ["d"], some "e"⟩ [] (use "a")) = .ok names ∧ "a" ∈ names ∧ "e" ∈ names := by
  obtain ⟨names, h, hx⟩ := (C114_parameters _).2.1 ⟨["a"], ["b"], some "c", ["d"], some "e"⟩ [] (use "a") rfl
  exact ⟨names, h, (hx _).2 (by simp [Parameter]), (hx _).2 (by simp [Parameter])⟩

/-- **The names in a function**: `get_lexical_variables` gives, each once, its own name, its parameters and the names that its body binds, and, in a second list, those that it declares `global` or
`nonlocal`.  Without `collect_locals` what the body binds is left out, and then there is always a result.
What is missing is as in `C114_store_partial`. -/
theorem C114_function_partial (a : Bool) (f : String) (p : Params) (outer body : List Tree) :
    ((∀ t ∈ body, ¬ HasPattern t) → ∃ args nonlocals, lexicalVariables (.func a f p outer body) = .ok (args, nonlocals) ∧ args.Nodup ∧ nonlocals.Nodup ∧
      (∀ x, some x ∈ args ↔ x = f ∨ Parameter x p ∨ (∃ t ∈ body, Binds x .plain t) ∨ ∃ t ∈ body, Mistaken (some x) t) ∧
      ∀ x, x ∈ nonlocals ↔ ∃ t ∈ body, Global x t ∨ Nonlocal x t) ∧
    ∃ args nonlocals, lexicalVariables (.func a f p outer body) false = .ok (args, nonlocals) ∧ args.Nodup ∧ nonlocals.Nodup ∧
      (∀ n, n ∈ args ↔ ∃ x, n = some x ∧ (x = f ∨ Parameter x p)) ∧
      ∀ x, x ∈ nonlocals ↔ ∃ t ∈ body, Global x t ∨ Nonlocal x t := by
  have hd : ∀ x, x ∈ uniqify (collectNonlocals body ++ collectGlobals body) ↔ ∃ t ∈ body, Global x t ∨ Nonlocal x t := by
    intro x
    rw [mem_uniqify, List.mem_append, mem_collectGlobals, mem_collectNonlocals]
    constructor
    · rintro (⟨t, ht, h⟩ | ⟨t, ht, h⟩)
      · exact ⟨t, ht, .inr h⟩
      · exact ⟨t, ht, .inl h⟩
    · rintro ⟨t, ht, h | h⟩
      · exact .inr ⟨t, ht, h⟩
      · exact .inl ⟨t, ht, h⟩
  refine ⟨fun hp => ?_, ?_⟩
  · obtain ⟨names, h, hx, _⟩ := C114_store_partial body hp
    refine ⟨uniqify ([some f] ++ p.extract.map some ++ uniqify names), _, by simp only [lexicalVariables, h, Except.map]; rfl, nodup_uniqify _, nodup_uniqify _, fun x => ?_, hd⟩
    rw [mem_uniqify, List.mem_append, mem_uniqify, hx]
    simp [mem_extract, or_assoc]
  · refine ⟨uniqify ([some f] ++ p.extract.map some ++ []), _, rfl, nodup_uniqify _, nodup_uniqify _, fun n => ?_, hd⟩
    rw [mem_uniqify]
    cases n with
    | none => simp
    | some x => simp [mem_extract]

example : ∃ args nonlocals, lexicalVariables (.func false "f" { args := ["x"] } [] [.matchMapping (some "y") [], .globals ["g"]]) false = .ok (args, nonlocals) ∧
    some "x" ∈ args ∧ some "y" ∉ args ∧ "g" ∈ nonlocals := by
  obtain ⟨args, nl, h, _, _, h1, h2⟩ := (C114_function_partial false "f" { args := ["x"] } [] [.matchMapping (some "y") [], .globals ["g"]]).2
  exact ⟨args, nl, h, (h1 _).2 ⟨"x", rfl, by simp [Parameter]⟩, fun hy => by simpa [Parameter] using (h1 _).1 hy,
    (h2 _).2 ⟨_, List.mem_cons_of_mem _ (List.mem_singleton.2 rfl), .inl (.here (by simp))⟩⟩

/-- The names given are those that mean in the body of the function something else than in the scope around it, if the body binds names only in plain ways: the name of the function, the variables of the
function, and the names declared `global` or `nonlocal`.
(Missing: names bound in other ways, and patterns, see `C114_bound_refuted` and `C114_pattern_refuted`.) -/
theorem C114_shadows_partial (a : Bool) (f : String) (p : Params) (outer body : List Tree) (hp : ∀ t ∈ body, ¬ HasPattern t) (hm : ∀ t ∈ body, ∀ n, ¬ Mistaken n t)
    (hw : ∀ t ∈ body, ∀ x w, Binds x w t → w = .plain) :
    ∃ args nonlocals, lexicalVariables (.func a f p outer body) = .ok (args, nonlocals) ∧
      ∀ x, (some x ∈ args ∨ x ∈ nonlocals) ↔ x = f ∨ Local x p body ∨ ∃ t ∈ body, Global x t ∨ Nonlocal x t := by
  obtain ⟨args, nl, h, _, _, h1, h2⟩ := (C114_function_partial a f p outer body).1 hp
  refine ⟨args, nl, h, fun x => ?_⟩
  rw [h1, h2]
  constructor
  · intro h
    by_cases hd : ∃ t ∈ body, Global x t ∨ Nonlocal x t
    · exact .inr (.inr hd)
    · have hd' : ∀ t ∈ body, ¬ Global x t ∧ ¬ Nonlocal x t := fun t ht => ⟨fun h => hd ⟨t, ht, .inl h⟩, fun h => hd ⟨t, ht, .inr h⟩⟩
      rcases h with (h | h | ⟨t, ht, h⟩ | ⟨t, ht, h⟩) | h
      · exact .inl h
      · exact .inr (.inl ⟨.inl h, hd'⟩)
      · exact .inr (.inl ⟨.inr ⟨t, ht, _, h⟩, hd'⟩)
      · exact absurd h (hm t ht _)
      · exact absurd h hd
  · rintro (h | ⟨h | ⟨t, ht, w, h⟩, _⟩ | h)
    · exact .inl (.inl h)
    · exact .inl (.inr (.inl h))
    · have := hw t ht x w h
      subst this
      exact .inl (.inr (.inr (.inl ⟨t, ht, h⟩)))
    · exact .inr h

private theorem assign_binds {x y w} (h : Binds y w (assign x)) : w = .plain ∧ y = x := by
  cases h with
  | part hp h =>
    have := (part_other _ _).1 hp
    simp only [List.mem_cons, List.not_mem_nil, or_false] at this
    rcases this with rfl | rfl
    · cases h with
      | assigned => exact ⟨rfl, rfl⟩
      | part hp _ => cases hp
      | outer ho _ => cases ho
    · cases h with
      | part hp _ => exact absurd ((part_other _ _).1 hp) (by simp)
      | outer ho _ => cases ho
  | outer ho _ => cases ho

example : ∃ args nonlocals, lexicalVariables (.func false "f" { args := ["x"] } [] [assign "y"]) = .ok (args, nonlocals) ∧ (some "y" ∈ args ∨ "y" ∈ nonlocals) := by
  have noparts : ∀ {t u : Tree}, Part t u → u = use "z" ∨ u = .other [] ∨ u = .name "y" .store → False := by
    rintro t u hp (rfl | rfl | rfl)
    · cases hp
    · exact absurd ((part_other _ _).1 hp) (by simp)
    · cases hp
  have sub : ∀ {t : Tree}, Part t (assign "y") → t = .other [] ∨ t = .name "y" .store := fun hp => by
    have := (part_other _ _).1 hp
    simp only [List.mem_cons, List.not_mem_nil, or_false] at this
    exact this.symm
  obtain ⟨args, nl, h, hx⟩ := C114_shadows_partial false "f" { args := ["x"] } [] [assign "y"]
    (by intro t ht h; simp at ht; subst ht
        cases h with | part hp h =>
        rcases sub hp with rfl | rfl <;> (cases h with | part hp _ => exact noparts hp (by simp)))
    (by intro t ht n h; simp at ht; subst ht
        cases h with | part hp h =>
        rcases sub hp with rfl | rfl <;> (cases h with | part hp _ => exact noparts hp (by simp)))
    (by intro t ht x w h; simp at ht; subst ht; exact (assign_binds h).1)
  refine ⟨args, nl, h, (hx _).2 (.inr (.inl ⟨.inr ⟨_, List.mem_singleton.2 rfl, _, .part (.other (List.mem_cons_self ..)) .assigned⟩, ?_⟩))⟩
  intro t ht; simp at ht; subst ht
  refine ⟨fun h => ?_, fun h => ?_⟩ <;>
  · cases h with | part hp h =>
    rcases sub hp with rfl | rfl <;> (cases h with | part hp _ => exact noparts hp (by simp))

/-- A name that the function declares as global and assigns to is in both results, although "the list `args` contains everything else". -/
theorem C114_everything_else_refuted (f x : String) :
    ∃ args nonlocals, lexicalVariables (.func false f {} [] [.globals [x], .other [.name x .store, .other []]]) = .ok (args, nonlocals) ∧ some x ∈ args ∧ x ∈ nonlocals := by
  refine ⟨_, _, rfl, ?_, ?_⟩
  · rw [mem_uniqify]; simp [mem_uniqify]
  · rw [mem_uniqify]; simp [collectNonlocals, collectGlobals, walkL, walk]

/-- Of a lambda, the parameters are given.  What is missing: `lambda: (x := 1)` has a variable `x`, which is not seen. -/
theorem C114_lambda_partial (p : Params) (outer : List Tree) (body : Tree) (c : Bool) :
    ∃ args, lexicalVariables (.lam p outer body) c = .ok (args, []) ∧ args.Nodup ∧ ∀ n, n ∈ args ↔ ∃ x, n = some x ∧ Parameter x p := by
  refine ⟨uniqify (p.extract.map some), rfl, nodup_uniqify _, fun n => ?_⟩
  rw [mem_uniqify]
  cases n with
  | none => simp
  | some x => simp [mem_extract]

example : ∃ args, lexicalVariables (.lam { args := ["x", "y"], vararg := some "z" } [] (use "x")) = .ok (args, []) ∧ some "z" ∈ args := by
  obtain ⟨args, h, _, hx⟩ := C114_lambda_partial { args := ["x", "y"], vararg := some "z" } [] (use "x") true
  exact ⟨args, h, (hx _).2 ⟨"z", rfl, by simp [Parameter]⟩⟩

/-- `lambda: (x := 1)` has a variable `x`, which is not given. -/
theorem C114_lambda_refuted (x : String) : (Local x {} [.other [.name x .store, .other []]]) ∧ lexicalVariables (.lam {} [] (.other [.name x .store, .other []])) = .ok ([], []) := by
  refine ⟨⟨.inr ⟨_, List.mem_singleton.2 rfl, _, .part (.other (List.mem_cons_self ..)) .assigned⟩, ?_⟩, rfl⟩
  intro t ht
  simp only [List.mem_singleton] at ht
  subst ht
  refine ⟨fun h => ?_, fun h => ?_⟩ <;>
  · cases h with | part hp h =>
    have := (part_other _ _).1 hp
    simp only [List.mem_cons, List.not_mem_nil, or_false] at this
    rcases this with rfl | rfl
    · cases h with | part hp _ => cases hp
    · cases h with | part hp _ => exact absurd ((part_other _ _).1 hp) (by simp)

/-- Of a comprehension, the names that its targets assign to are given, if they are names or tuples, and there are no attributes, subscripts or the like in them.
(Missing: other targets, see `C114_comprehension_refuted`.) -/
theorem C114_comprehension_partial (c : Comp) (targets : List Tree) (iter : Tree) (rest : List Tree) (b : Bool)
    (ht : ∀ t ∈ targets, Assignee t ∧ ((∃ x, t = .name x .store) ∨ (∃ x, t = .done (.name x .store)) ∨ ∃ ts, t = .tuple ts)) :
    ∃ args, lexicalVariables (.comp c targets iter rest) b = .ok (args, []) ∧ args.Nodup ∧ ∀ n, n ∈ args ↔ ∃ x, n = some x ∧ ∃ t ∈ targets, Binds x .plain t := by
  have key : ∃ l, targetsNames targets = .ok l ∧ ∀ x, x ∈ l ↔ ∃ t ∈ targets, Binds x .plain t := by
    induction targets with
    | nil => exact ⟨[], rfl, by simp⟩
    | cons t ts ih =>
      obtain ⟨l, hl, hx⟩ := ih (fun u hu => ht u (by simp [hu]))
      obtain ⟨ha, hs⟩ := ht t (by simp)
      have h1 : targetNames t = .ok (allNames t) := by
        rcases hs with ⟨x, rfl⟩ | ⟨x, rfl⟩ | ⟨ts, rfl⟩ <;> rfl
      exact ⟨allNames t ++ l, by simp [targetsNames, h1, hl, cat], fun x => by simp [mem_allNames ha, hx]⟩
  obtain ⟨l, hl, hx⟩ := key
  refine ⟨uniqify (l.map some), by simp [lexicalVariables, hl, Except.map], nodup_uniqify _, fun n => ?_⟩
  rw [mem_uniqify]
  cases n with
  | none => simp
  | some x => simp [hx]

example : ∃ args, lexicalVariables (.comp .gen [.tuple [.name "k" .store, .other [.name "v" .store]]] (use "d") [use "k"]) = .ok (args, []) ∧ some "v" ∈ args := by
  obtain ⟨args, h, _, hx⟩ := C114_comprehension_partial .gen [.tuple [.name "k" .store, .other [.name "v" .store]]] (use "d") [use "k"] true (by
    intro t ht; simp only [List.mem_singleton] at ht; subst ht
    refine ⟨.tuple fun u hu => ?_, .inr (.inr ⟨_, rfl⟩)⟩
    simp only [List.mem_cons, List.not_mem_nil, or_false] at hu
    rcases hu with rfl | rfl
    · exact .name _
    · exact .other fun u hu => by simp only [List.mem_singleton] at hu; subst hu; exact .name _)
  exact ⟨args, h, (hx _).2 ⟨"v", rfl, _, List.mem_singleton.2 rfl, .part (.tuple (List.mem_cons_of_mem _ (List.mem_singleton.2 rfl))) (.part (.other (List.mem_singleton.2 rfl)) .assigned)⟩⟩

/-- A comprehension in which a target is a list (`for [x, y] in …`), an attribute or a subscript makes the analyzer fail with a `SyntaxError`, although it is correct Python; and in
a tuple, the names of the objects whose attributes or items are assigned to are taken for variables of the comprehension (`for (x.a, y) in …`). -/
theorem C114_comprehension_refuted :
    (∀ c parts iter rest b, lexicalVariables (.comp c [.other parts] iter rest) b = .error .syntax_) ∧
    (∀ c x y iter rest b, x ≠ y → ∃ args, lexicalVariables (.comp c [.tuple [.other [.name x .load], .name y .store]] iter rest) b = .ok (args, []) ∧ some x ∈ args ∧
      ¬ ∃ w, Binds x w (.tuple [.other [.name x .load], .name y .store])) := by
  refine ⟨fun _ _ _ _ _ => rfl, fun c x y iter rest b hxy => ⟨_, rfl, ?_, ?_⟩⟩
  · rw [mem_uniqify]; simp [allNamesL, allNames]
  · rintro ⟨w, h⟩
    cases h with
    | outer ho _ => cases ho
    | part hp h =>
      have := (part_tuple _ _).1 hp
      simp only [List.mem_cons, List.not_mem_nil, or_false] at this
      rcases this with rfl | rfl
      · cases h with
        | outer ho _ => cases ho
        | part hp h =>
          have := (part_other _ _).1 hp
          simp only [List.mem_singleton] at this; subst this
          cases h with
          | outer ho _ => cases ho
          | part hp _ => cases hp
      · cases h with
        | assigned => exact hxy rfl
        | outer ho _ => cases ho
        | part hp _ => cases hp

/-- Of a class, its name and the names of those of its bases that are given by a name are given. -/
theorem C114_class (f : String) (bases outer body : List Tree) (c : Bool) :
    ∃ args, lexicalVariables (.cls f bases outer body) c = .ok (args, []) ∧ args.Nodup ∧ ∀ n, n ∈ args ↔ ∃ x, n = some x ∧ (x = f ∨ ∃ ctx, .name x ctx ∈ bases) := by
  refine ⟨_, rfl, nodup_uniqify _, fun n => ?_⟩
  rw [mem_uniqify]
  have : ∀ x, x ∈ baseNames bases ↔ ∃ ctx, Tree.name x ctx ∈ bases := by
    intro x
    simp only [baseNames, List.mem_filterMap]
    constructor
    · rintro ⟨t, ht, h⟩
      split at h
      · cases h; exact ⟨_, ht⟩
      · cases h
    · rintro ⟨ctx, h⟩; exact ⟨_, h, rfl⟩
  cases n with
  | none => simp
  | some x => simp [this]

example : ∃ args, lexicalVariables (.cls "C" [use "A", .other [use "m"]] [] [assign "x"]) = .ok (args, []) ∧ some "A" ∈ args ∧ some "x" ∉ args := by
  obtain ⟨args, h, _, hx⟩ := C114_class "C" [use "A", .other [use "m"]] [] [assign "x"] true
  exact ⟨args, h, (hx _).2 ⟨"A", rfl, .inr ⟨_, List.mem_cons_self ..⟩⟩, fun h => by simpa [use] using (hx _).1 h⟩

/-- These are not "exactly those that shadow" names around the class: a base class `A` is not a variable of the class, and still is given; a variable `x` of the class is not given. -/
theorem C114_class_refuted (f A x : String) (hx : x ≠ f) (hA : x ≠ A) :
    ∃ args, lexicalVariables (.cls f [.name A .load] [] [.other [.name x .store, .other []]]) = .ok (args, []) ∧
      some A ∈ args ∧ some x ∉ args ∧ Binds x .plain (.other [.name x .store, .other []]) := by
  obtain ⟨args, h, _, hn⟩ := C114_class f [.name A .load] [] [.other [.name x .store, .other []]] true
  refine ⟨args, h, (hn _).2 ⟨A, rfl, .inr ⟨_, List.mem_singleton.2 rfl⟩⟩, fun h => ?_, .part (.other (List.mem_cons_self ..)) .assigned⟩
  simpa [hx, hA] using (hn _).1 h

example : ∃ args, lexicalVariables (.cls "C" [.name "A" .load] [] [.other [.name "x" .store, .other []]]) = .ok (args, []) ∧ some "A" ∈ args ∧ some "x" ∉ args := by
  obtain ⟨args, h, h1, h2, _⟩ := C114_class_refuted "C" "A" "x" (by decide) (by decide)
  exact ⟨args, h, h1, h2⟩

/-- What makes a new scope are the functions, lambdas, classes and comprehensions; the analyzer refuses all else with a `TypeError`. -/
theorem C114_scope (t : Tree) (c : Bool) :
    (isnewscope t = true ↔ (∃ a f p o b, t = .func a f p o b) ∨ (∃ p o b, t = .lam p o b) ∨ (∃ f bs o b, t = .cls f bs o b) ∨ ∃ k ts i r, t = .comp k ts i r) ∧
    (isnewscope t = false → lexicalVariables t c = .error .type) := by
  cases t <;> simp [isnewscope, lexicalVariables]

example : lexicalVariables (assign "x") = .error .type := (C114_scope _ true).2 rfl

end Unpy.Props
