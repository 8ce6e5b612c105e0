import Verif.Spec.Nb
/-! # C126: the notebook -/
namespace Unpy.Props
open Unpy.Nb Unpy.Spec.Nb
variable {V W E : Type} [DecidableEq V]

private theorem exec_append (py : Python V W E) (a b : List (XStmt V W E)) (s : St V W) :
    exec py (a ++ b) s = match exec py a s with
      | (.ok (), s) => exec py b s
      | (.error e, s) => (.error e, s) := by
  induction a generalizing s with
  | nil => rfl
  | cons x a ih =>
    simp only [List.cons_append, exec]
    obtain ⟨⟨r, s'⟩, h⟩ : ∃ p, exec1 py x s = p := ⟨_, rfl⟩
    rw [h]
    cases r with
    | error e => rfl
    | ok u => exact ih s'

private theorem body_eq (py : Python V W E) (theprint : V) (prt : V → Comp V W E Unit)
    (hcall : ∀ v s, (match py.call theprint v s with | (.ok _, s) => (.ok (), s) | (.error e, s) => (.error e, s)) = prt v s)
    (hprt : ∀ v, Leaves "theprint" (prt v))
    (body : List (Stmt V W E)) (hb : ∀ x ∈ body, LeavesStmt "theprint" x) (s : St V W) (hs : s.vars "theprint" = some theprint) :
    exec py (body.flatMap (fun | .expr e => [.assign "_" e, .printIt] | s => [.user s])) s = notebook py.none prt body s := by
  induction body generalizing s with
  | nil => rfl
  | cons x body ih =>
    have hb' : ∀ y ∈ body, LeavesStmt "theprint" y := fun y hy => hb y (by simp [hy])
    have hx := hb x (by simp)
    cases x with
    | expr c =>
      simp only [List.flatMap_cons, List.cons_append, List.nil_append, exec, exec1, notebook]
      have hc := hx s
      obtain ⟨⟨r, s'⟩, h⟩ : ∃ p, c s = p := ⟨_, rfl⟩
      rw [h] at hc ⊢
      cases r with
      | error e => rfl
      | ok v =>
        simp only at hc ⊢
        have h1 : readVar py "_" (setVar s' "_" v) = (.ok v, setVar s' "_" v) := by simp [readVar, setVar]
        have h2 : readVar py "theprint" (setVar s' "_" v) = (.ok theprint, setVar s' "_" v) := by
          simp [readVar, setVar, hc, hs]
        simp only [h1, h2]
        have h3 : (setVar s' "_" v).vars "theprint" = some theprint := by simp [setVar, hc, hs]
        by_cases hv : v = py.none
        · simp only [hv, ne_eq, not_true, if_false, if_true]
          rw [hv] at h3
          exact ih hb' _ h3
        · simp only [hv, ne_eq, not_false_eq_true, if_true, if_false]
          have hh := hcall v (setVar s' "_" v)
          have hq := hprt v (setVar s' "_" v)
          rw [← hh] at hq
          change _ = (match prt v (setVar s' "_" v) with
            | (.ok (), s) => notebook py.none prt body s
            | (.error err, s) => (.error err, s))
          rw [← hh]
          obtain ⟨⟨r, s''⟩, h'⟩ : ∃ p, py.call theprint v (setVar s' "_" v) = p := ⟨_, rfl⟩
          rw [h'] at hq ⊢
          cases r with
          | error e => rfl
          | ok u => exact ih hb' _ (hq.trans h3)
    | test c =>
      simp only [List.flatMap_cons, List.cons_append, List.nil_append, exec, exec1, notebook]
      have hc := hx s
      obtain ⟨⟨r, s'⟩, h⟩ : ∃ p, c s = p := ⟨_, rfl⟩
      rw [h] at hc ⊢
      cases r with
      | error e => rfl
      | ok v => exact ih hb' _ (hc.trans hs)
    | other c =>
      simp only [List.flatMap_cons, List.cons_append, List.nil_append, exec, exec1, notebook]
      have hc := hx s
      obtain ⟨⟨r, s'⟩, h⟩ : ∃ p, c s = p := ⟨_, rfl⟩
      rw [h] at hc ⊢
      cases r with
      | error e => rfl
      | ok v => exact ih hb' _ (hc.trans hs)

/-- C126: a `with nb` block runs its statements in order, prints the value of each expression statement that is not None, after storing it in `_`, and starts with None in `_`; if neither the program nor the printer assigns to a variable `theprint`.  Calling the value `theprint` is `_print_and_passthrough`.
(Missing: programs with such a variable, see `C126_theprint_refuted`.) -/
theorem C126_notebook_partial (py : Python V W E) (theprint : V) (p : Comp V W E V) (hcall : py.call theprint = printAndPassthrough py p)
    (prt : V → Comp V W E Unit) (hp : ∀ v s, prt v s = match printAndPassthrough py p v s with | (.ok _, s) => (.ok (), s) | (.error e, s) => (.error e, s))
    (hprt : ∀ v, Leaves "theprint" (prt v)) (body : List (Stmt V W E)) (hb : ∀ x ∈ body, LeavesStmt "theprint" x) (s : St V W) :
    exec py (nb py theprint body) s =
      notebook py.none prt body { s with vars := fun y => if y = "theprint" then some theprint else if y = "_" then some py.none else s.vars y } := by
  simp only [nb, List.cons_append, List.nil_append, exec, exec1]
  refine body_eq py theprint prt (fun v s => ?_) hprt body hb _ (by simp [setVar])
  rw [hp, hcall]

omit [DecidableEq V] in
/-- C126: printing returns the value, so that a notebook whose last expression is returned (by `autoreturn`) returns what is printed. -/
theorem C126_passthrough (py : Python V W E) (p : Comp V W E V) (v u : V) (s s' : St V W) (h : printAndPassthrough py p v s = (.ok u, s')) : u = v := by
  unfold printAndPassthrough at h
  split at h
  · simp at h
  · split at h
    · simp at h
    · simp at h; exact h.1.symm

/-- Values: 0 is None, 1 the lambda `theprint`, 2 the print function; printing writes down.  Calling anything else is a TypeError (1); NameError is 0. -/
private def demoPy : Python Nat (List Nat) Nat where
  none := 0
  nameError := 0
  call f v s := if f = 1 ∨ f = 2 then (.ok (if f = 1 then v else 0), { s with world := s.world ++ [v] }) else (.error 1, s)

private def lit (n : Nat) : Comp Nat (List Nat) Nat Nat := fun s => (.ok n, s)
private def lastPlus (n : Nat) : Comp Nat (List Nat) Nat Nat := fun s => match s.vars "_" with
  | some v => (.ok (v + n), s)
  | none => (.error 0, s)
private def assign (x : String) (n : Nat) : Comp Nat (List Nat) Nat Unit := fun s => (.ok (), setVar s x n)

/-- C126 is violated for programs with a variable `theprint`: the macro's own function of this name is in the namespace of the program.  Here: `theprint = 5`, and then the expression `7`: TypeError, as 5 is called. -/
theorem C126_theprint_refuted :
    (exec demoPy (nb demoPy 1 [.other (assign "theprint" 5), .expr (lit 7)]) ⟨fun _ => none, []⟩).1 = .error 1 ∧
    (notebook 0 (fun v s => (.ok (), { s with world := s.world ++ [v] })) [.other (assign "theprint" 5), .expr (lit 7)] ⟨fun _ => none, ([] : List Nat)⟩).1 = (.ok () : Except Nat Unit) := ⟨rfl, rfl⟩

-- calling `theprint` (1) is printing with the function 2
example : demoPy.call 1 = printAndPassthrough demoPy (lit 2) := by
  funext v s
  simp [demoPy, printAndPassthrough, lit]
-- 3; None; _ + 10 after a None; x = 5
example : (exec demoPy (nb demoPy 1 [.expr (lit 3), .expr (lastPlus 10), .other (assign "x" 5), .expr (lit 0), .test (lit 9), .expr (lastPlus 1)]) ⟨fun _ => none, []⟩).2.world = [3, 13, 1] := rfl
example : Leaves "theprint" (lit 3) ∧ LeavesStmt "theprint" (.other (assign "x" 5)) := by
  constructor
  · intro s; rfl
  · intro s; simp [assign, setVar]

end Unpy.Props
