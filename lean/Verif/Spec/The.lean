import Verif.Model.The
/-!
# What tests with `the[...]` should do

The evaluation of programs as they are written.  A mark `the[e]` has the value of `e`, and notes it for the innermost test around.  If a test has no marks of its own, and is a
comparison, then the leftmost term is noted.
-/
namespace Unpy.Spec.The
open Unpy Unpy.The Unpy.Eff

variable {V σ X τ : Type}

mutual
/-- There are marks that are not in a test of their own. -/
def hasMark : E V → Bool
  | .the _ => true
  | .test _ | .raises .. => false
  | .lit _ | .none | .true | .name _ => false
  | .call _ args => hasMarks args
  | .cmp l cs => hasMark l || hasMarkCs cs
  | .and a b | .or a b => hasMark a || hasMark b
  | .ite c a b => hasMark c || hasMark a || hasMark b
  | .all e _ it => hasMark e || hasMark it
  | .tuple es => hasMarks es
  | .record _ _ e => hasMark e
  | .assert _ _ e msg => hasMark e || hasMark msg
  | .assertRaises t _ e msg => hasMark t || hasMark e || hasMark msg
def hasMarks : Es V → Bool
  | .nil => false
  | .cons e es => hasMark e || hasMarks es
def hasMarkCs : Cs V → Bool
  | .nil => false
  | .cons _ e cs => hasMark e || hasMarkCs cs
end

mutual
def hasMarkS : S V → Bool
  | .expr e | .assign _ e | .ret e => hasMark e
  | .ite c t e => hasMark c || hasMarkSs t || hasMarkSs e
  | .test .. | .raises .. => false
  | .assert .. | .assertRaises .. => false
def hasMarkSs : Ss V → Bool
  | .nil => false
  | .cons s ss => hasMarkS s || hasMarkSs ss
end

/-- Note a value for the test number `k`. -/
def note (k : Nat) (source : τ) (v : V) : M V σ X τ V := fun s =>
  (.ok v, { s with captured := fun i => if i = k then s.captured i ++ [(source, v)] else s.captured i })

/-- The test number `k` runs some code.  It passes if the result is true.  Otherwise, also if an exception is raised, it is on the log, with all values noted for it, in
order.  The test has no value.  What is not an `Exception` (but, for instance, a KeyboardInterrupt) goes on. -/
def judge (W : World V σ X τ) (k : Nat) (source : τ) (message : V) (code : M V σ X τ V) : M V σ X τ V := fun s =>
  match code { s with captured := fun i => if i = k then [] else s.captured i } with
  | (r, t) =>
    let noted := t.captured k
    let t := { t with captured := fun i => if i = k then s.captured i else t.captured i }
    let failed := fun o => (.ok W.none, { t with run := t.run + 1, log := t.log ++ [⟨source, noted, o, message⟩] })
    match r with
    | .ok v => if W.truthy v then (.ok W.none, { t with run := t.run + 1 }) else failed (.completed v)
    | .error x => if W.isException x then failed (.raised x) else (.error x, t)

/-- A `test_raises` runs some code.  It passes if an exception of the type `t` is raised; otherwise it is on the log.  What is not an `Exception` goes on.  If `t` is
not a type, then the question whether the exception is of this type may raise an exception itself; the test has been run then. -/
def judgeRaises (W : World V σ X τ) (t : V) (source : τ) (message : V) (code : M V σ X τ V) : M V σ X τ V := fun s =>
  match code s with
  | (.ok v, s) => (.ok W.none, { s with run := s.run + 1, log := s.log ++ [⟨source, [], .completed v, message⟩] })
  | (.error x, s) =>
    if W.isException x then match W.isInstance x t s.user with
      | (.ok true, u) => (.ok W.none, { s with user := u, run := s.run + 1 })
      | (.ok false, u) => (.ok W.none, { s with user := u, run := s.run + 1, log := s.log ++ [⟨source, [], .raised x, message⟩] })
      | (.error y, u) => (.error y, { s with user := u, run := s.run + 1 })
    else (.error x, s)

mutual
/-- Evaluate an expression inside of `d` tests.  With `imp`, it is a whole test without marks. -/
def evalE (W : World V σ X τ) (d : Nat) (imp : Bool) (vars : Vars V) : E V → M V σ X τ V
  | .lit v => ret v
  | .none => ret W.none
  | .true => ret W.true
  | .name x => read W vars x
  | .call f args => bind (evalEs W d vars args) fun args => lift (W.call f args)
  | .cmp l cs => bind (evalE W d false vars l) fun v =>
    if imp then bind (note (d - 1) (W.unparse l) v) fun v => evalCs W d vars v cs else evalCs W d vars v cs
  | .and a b => bind (evalE W d false vars a) fun v => if W.truthy v then evalE W d false vars b else ret v
  | .or a b => bind (evalE W d false vars a) fun v => if W.truthy v then ret v else evalE W d false vars b
  | .ite c a b => bind (evalE W d false vars c) fun v => if W.truthy v then evalE W d false vars a else evalE W d false vars b
  | .all e x it => bind (evalE W d false vars it) fun v => bind (lift (W.items v)) fun vs => allLoop W (fun v => evalE W d false (vars.set x v) e) vs
  | .tuple es => bind (evalEs W d vars es) fun vs => ret (W.tuple vs)
  | .the e => if d = 0 then raise W.unexpanded else bind (evalE W d false vars e) fun v => note (d - 1) (W.unparse e) v
  | .test (.tuple (.cons e (.cons m .nil))) => bind (evalE W d false vars m) fun m =>
    judge W d (W.unparse e) m (evalE W (d + 1) (!hasMark e) vars e)
  | .test e => judge W d (W.unparse e) W.none (evalE W (d + 1) (!hasMark e) vars e)
  | .raises t e m => bind (evalE W d false vars t) fun t => bind (evalE W d false vars m) fun m => judgeRaises W t (W.unparse e) m (evalE W d false vars e)
  | .record k src e => bind (evalE W d false vars e) fun v => note k (W.unparse src) v
  | .assert .. | .assertRaises .. => raise W.unexpanded
def evalEs (W : World V σ X τ) (d : Nat) (vars : Vars V) : Es V → M V σ X τ (List V)
  | .nil => ret []
  | .cons e es => bind (evalE W d false vars e) fun v => bind (evalEs W d vars es) fun vs => ret (v :: vs)
def evalCs (W : World V σ X τ) (d : Nat) (vars : Vars V) (v : V) : Cs V → M V σ X τ V
  | .nil => ret v
  | .cons op e .nil => bind (evalE W d false vars e) fun w => lift (W.cmp op v w)
  | .cons op e cs => bind (evalE W d false vars e) fun w => bind (lift (W.cmp op v w)) fun r => if W.truthy r then evalCs W d vars w cs else ret r
end

mutual
/-- Execute a statement inside of `d` tests.  With `imp`, it is at the top level of a test without marks. -/
def execS (W : World V σ X τ) (d : Nat) (imp : Bool) (vars : Vars V) : S V → M V σ X τ (Vars V × Option V)
  | .expr e => bind (evalE W d false vars e) fun _ => ret (vars, .none)
  | .assign x e => bind (evalE W d false vars e) fun v => ret (vars.set x v, .none)
  | .ret e => bind (evalE W d imp vars e) fun v => ret (vars, some v)
  | .ite c t e => bind (evalE W d false vars c) fun v => if W.truthy v then exec W d false vars t else exec W d false vars e
  | .test m body => bind (evalE W d false vars m) fun m =>
    bind (judge W d (W.unparseBlock body) m
      (bind (exec W (d + 1) (!hasMarkSs body) (enter vars body) body) fun r => ret (r.2.getD W.true))) fun _ => ret (vars, .none)
  | .raises t m body => bind (evalE W d false vars t) fun t => bind (evalE W d false vars m) fun m =>
    bind (judgeRaises W t (W.unparseBlock body) m
      (bind (exec W d false (enter vars body) body) fun r => ret (r.2.getD W.none))) fun _ => ret (vars, .none)
  | .assert .. | .assertRaises .. => raise W.unexpanded
def exec (W : World V σ X τ) (d : Nat) (imp : Bool) (vars : Vars V) : Ss V → M V σ X τ (Vars V × Option V)
  | .nil => ret (vars, .none)
  | .cons s ss => bind (execS W d imp vars s) fun r => match r.2 with
    | some v => ret (r.1, some v)
    | .none => exec W d imp r.1 ss
end

/-! ## Sizes, for the macro expander -/

mutual
def sizeE : E V → Nat
  | .lit _ | .none | .true | .name _ => 1
  | .call _ args => sizeEs args + 1
  | .cmp l cs => sizeE l + sizeCs cs + 1
  | .and a b | .or a b => sizeE a + sizeE b + 1
  | .ite c a b => sizeE c + sizeE a + sizeE b + 1
  | .all e _ it => sizeE e + sizeE it + 1
  | .tuple es => sizeEs es + 1
  | .the e | .record _ _ e => sizeE e + 1
  | .test e => sizeE e + 2
  | .assert _ _ e m => sizeE e + sizeE m + 1
  | .raises t e m | .assertRaises t _ e m => sizeE t + sizeE e + sizeE m + 1
def sizeEs : Es V → Nat
  | .nil => 1
  | .cons e es => sizeE e + sizeEs es + 1
def sizeCs : Cs V → Nat
  | .nil => 1
  | .cons _ e cs => sizeE e + sizeCs cs + 1
end

mutual
def sizeS : S V → Nat
  | .expr e | .assign _ e | .ret e => sizeE e + 1
  | .ite c t e => sizeE c + sizeSs t + sizeSs e + 1
  | .test m body => sizeE m + sizeSs body + 5
  | .assert _ _ body m => sizeE m + sizeSs body + 1
  | .raises t m body | .assertRaises t _ body m => sizeE t + sizeE m + sizeSs body + 1
def sizeSs : Ss V → Nat
  | .nil => 1
  | .cons s ss => sizeS s + sizeSs ss + 1
end

/-! ## Programs -/

mutual
/-- An expression of a program.  Messages of tests have no marks, and there are none in a `test_raises` (but in a test in it).  With `strict`, no mark is inside of another one of the same test. -/
def Fine (strict : Bool) : E V → Prop
  | .lit _ | .none | .true | .name _ => True
  | .call _ args => FineEs strict args
  | .cmp l cs => Fine strict l ∧ FineCs strict cs
  | .and a b | .or a b => Fine strict a ∧ Fine strict b
  | .ite c a b => Fine strict c ∧ Fine strict a ∧ Fine strict b
  | .all e _ it => Fine strict e ∧ Fine strict it
  | .tuple es => FineEs strict es
  | .the e => Fine strict e ∧ (strict = true → hasMark e = false)
  | .test (.tuple (.cons e (.cons m .nil))) => Fine strict e ∧ Fine strict m ∧ hasMark m = false
  | .test e => Fine strict e
  | .raises t e m => (Fine strict t ∧ hasMark t = false) ∧ (Fine strict e ∧ hasMark e = false) ∧ Fine strict m ∧ hasMark m = false
  | .record .. | .assert .. | .assertRaises .. => False
def FineEs (strict : Bool) : Es V → Prop
  | .nil => True
  | .cons e es => Fine strict e ∧ FineEs strict es
def FineCs (strict : Bool) : Cs V → Prop
  | .nil => True
  | .cons _ e cs => Fine strict e ∧ FineCs strict cs
end

mutual
/-- Statements of a program; `nested` if they are in a `with test` block.  A `with test` block in another one has no marks. -/
def FineS (strict nested : Bool) : S V → Prop
  | .expr e | .assign _ e | .ret e => Fine strict e
  | .ite c t e => Fine strict c ∧ FineSs strict nested t ∧ FineSs strict nested e
  | .test m body => Fine strict m ∧ hasMark m = false ∧ FineSs strict true body ∧ (nested = true → hasMarkSs body = false)
  | .raises t m body => (Fine strict t ∧ hasMark t = false) ∧ (Fine strict m ∧ hasMark m = false) ∧ FineSs strict nested body ∧ hasMarkSs body = false
  | .assert .. | .assertRaises .. => False
def FineSs (strict nested : Bool) : Ss V → Prop
  | .nil => True
  | .cons s ss => FineS strict nested s ∧ FineSs strict nested ss
end

/-- A module: marks are in tests only. -/
def FineModule (strict : Bool) (ss : Ss V) : Prop := FineSs strict false ss ∧ hasMarkSs ss = false

/-- What should be shown of the values noted: not those where the source is a literal. -/
def shown (repr : V → String) (noted : List (E V × V)) : List (E V × String) :=
  (noted.filter fun p => match p.1 with
    | .lit _ => false
    | _ => true).map fun p => (p.1, repr p.2)

end Unpy.Spec.The
