import Verif.Model.LazyFun
/-!
# What functions, `let` and `letrec` should mean in lazy code

A name stands for the expression it is bound to, or for the argument of the call, which is evaluated where the name is used, in the
scope it was written in (call by name).  Of the model, only expressions and the operators (`World`) are used.
-/
namespace Unpy.LazyFun.Spec
open Unpy.LazyFun
variable {β ω ε : Type}

/-- A scope: the bindings of one `let` or `letrec`, or the parameters of a function with the arguments of a call of it, which are in
the scopes `Γ` -/
inductive Frame (β ω : Type) where
  | lets (isrec : Bool) (bs : Bs β ω)
  | params (xs : List String) (Γ : List (Frame β ω)) (as : As β ω)

/-- Values: constants; functions, with the scopes around them -/
inductive Val (β ω : Type) where
  | con (b : β)
  | fn (Γ : List (Frame β ω)) (xs : List String) (body : Ex β ω)

/-- The expression a name is bound to -/
def find (x : String) : Bs β ω → Option (Ex β ω)
  | .nil => none
  | .cons y e bs => if x = y then some e else find x bs

/-- The names bound -/
def names : Bs β ω → List String
  | .nil => []
  | .cons x _ bs => x :: names bs

/-- The number of arguments -/
def count : As β ω → Nat
  | .nil => 0
  | .cons _ as => count as + 1

/-- The argument for the parameter `x` -/
def argOf (x : String) : List String → As β ω → Option (Ex β ω)
  | y :: ys, .cons e as => if x = y then some e else argOf x ys as
  | _, _ => none

/-- What a name of a scope stands for: an expression, and the scopes it is in.  `Γ` are the scopes around it.  The right-hand sides of
a `letrec` are in the scope of the `letrec` itself, those of a `let` are not. -/
def bound (x : String) (fr : Frame β ω) (Γ : List (Frame β ω)) : Option (List (Frame β ω) × Ex β ω) :=
  match fr with
  | .lets r bs => (find x bs).map fun e => (if r then fr :: Γ else Γ, e)
  | .params xs Γ' as => (argOf x xs as).map fun e => (Γ', e)

/-- Operators are for constants. -/
def binop (W : World β ω ε) (o : ω) : Val β ω → Val β ω → Except ε (Val β ω)
  | .con x, .con y => match W.op o x y with
    | .ok z => .ok (.con z)
    | .error e => .error e
  | _, _ => .error W.typeError

/-- Functions are true. -/
def truthy (W : World β ω ε) : Val β ω → Bool
  | .con b => W.truth b
  | .fn _ _ _ => true

/-- The value of an expression in the scopes `Γ`, the innermost first; `call` is for the expressions that names stand for, and for the
bodies of functions. -/
def evalS (W : World β ω ε) (call : List (Frame β ω) → Ex β ω → Option (Except ε (Val β ω))) : Ex β ω → List (Frame β ω) → Option (Except ε (Val β ω))
  | .cst b, _ => some (.ok (.con b))
  | .ref i x, Γ => match Γ[i]? with
    | none => some (.error W.attributeError)
    | some fr => match bound x fr (Γ.drop (i + 1)) with
      | none => some (.error W.attributeError)
      | some (Γ', e) => call Γ' e
  | .op o a b, Γ => match evalS W call a Γ with
    | none => none
    | some (.error e) => some (.error e)
    | some (.ok x) => match evalS W call b Γ with
      | none => none
      | some (.error e) => some (.error e)
      | some (.ok y) => some (binop W o x y)
  | .ife c a b, Γ => match evalS W call c Γ with
    | none => none
    | some (.error e) => some (.error e)
    | some (.ok x) => if truthy W x then evalS W call a Γ else evalS W call b Γ
  | .letter r bs body, Γ => evalS W call body (.lets r bs :: Γ)
  | .lam xs body, Γ => some (.ok (.fn Γ xs body))
  | .app f as, Γ => match evalS W call f Γ with
    | none => none
    | some (.error e) => some (.error e)
    | some (.ok (.con _)) => some (.error W.typeError)
    | some (.ok (.fn Γ' xs body)) => if xs.length = count as then call (.params xs Γ as :: Γ') body else some (.error W.typeError)

/-- the same, with names and calls inside of names and calls less than `n` deep -/
def evalN (W : World β ω ε) : Nat → List (Frame β ω) → Ex β ω → Option (Except ε (Val β ω))
  | 0 => fun _ _ => none
  | n + 1 => fun Γ e => evalS W (evalN W n) e Γ

/-- What an expression comes to: a value, or an exception -/
def Comes (W : World β ω ε) (e : Ex β ω) (r : Except ε (Val β ω)) : Prop := ∃ n, evalN W n [] e = some r

/-- The same constant, the same exception, or functions of the same parameters -/
def Same : Except ε (Val β ω) → Except ε (Obj β ω) → Prop
  | .ok (.con b), .ok (.con b') => b = b'
  | .ok (.fn _ xs _), .ok (.clo _ xs' _) => xs = xs'
  | .error e, .error e' => e = e'
  | _, _ => False

mutual
/-- Programs where each name is bound, no name is bound twice in the same `let`, and the right-hand sides in a `letrec` that are just
a name of the same `letrec` come after the binding of that name.  `scopes` are the names bound around. -/
def Fine : Ex β ω → List (List String) → Prop
  | .cst _, _ => True
  | .ref i x, scopes => ∃ xs, scopes[i]? = some xs ∧ x ∈ xs
  | .op _ a b, scopes => Fine a scopes ∧ Fine b scopes
  | .ife c a b, scopes => Fine c scopes ∧ Fine a scopes ∧ Fine b scopes
  | .letter r bs body, scopes => (names bs).Nodup ∧ FineBs bs r [] (if r then names bs :: scopes else scopes) ∧ Fine body (names bs :: scopes)
  | .lam xs body, scopes => Fine body (xs :: scopes)
  | .app f as, scopes => Fine f scopes ∧ FineAs as scopes
/-- the right-hand sides, given the names bound before -/
def FineBs : Bs β ω → Bool → List String → List (List String) → Prop
  | .nil, _, _, _ => True
  | .cons x e bs, r, before, scopes => Fine e scopes ∧ (r = true → ∀ y, e = .ref 0 y → y ∈ before) ∧ FineBs bs r (before ++ [x]) scopes
/-- the arguments -/
def FineAs : As β ω → List (List String) → Prop
  | .nil, _ => True
  | .cons e as, scopes => Fine e scopes ∧ FineAs as scopes
end

/-! ## the same code outside of a lazy block

Python evaluates arguments and right-hand sides at once; a function refers to the environments around it, which may get more names
later (`letrec`). -/

/-- Values: constants; functions, with the environments around them -/
inductive SVal (β ω : Type) where
  | con (b : β)
  | fn (ρ : List Nat) (xs : List String) (body : Ex β ω)

/-- All environments there are -/
abbrev Heap (β ω : Type) := List (List (String × SVal β ω))

/-- Operators are for constants. -/
def sbinop (W : World β ω ε) (o : ω) : SVal β ω → SVal β ω → Except ε (SVal β ω)
  | .con x, .con y => match W.op o x y with
    | .ok z => .ok (.con z)
    | .error e => .error e
  | _, _ => .error W.typeError

/-- Functions are true. -/
def struthy (W : World β ω ε) : SVal β ω → Bool
  | .con b => W.truth b
  | .fn _ _ _ => true

mutual
/-- The value of an expression, and the environments after that; `call` is for the bodies of functions. -/
def strictE (W : World β ω ε) (call : List Nat → Ex β ω → Heap β ω → Option (Except ε (SVal β ω × Heap β ω))) : Ex β ω → List Nat → Heap β ω → Option (Except ε (SVal β ω × Heap β ω))
  | .cst b, _, h => some (.ok (.con b, h))
  | .ref i x, ρ, h => match ρ[i]? with
    | none => some (.error W.attributeError)
    | some k => match h[k]? with
      | none => some (.error W.attributeError)
      | some env => match env.lookup x with
        | none => some (.error W.attributeError)
        | some v => some (.ok (v, h))
  | .op o a b, ρ, h => match strictE W call a ρ h with
    | none => none
    | some (.error e) => some (.error e)
    | some (.ok (x, h)) => match strictE W call b ρ h with
      | none => none
      | some (.error e) => some (.error e)
      | some (.ok (y, h)) => match sbinop W o x y with
        | .error e => some (.error e)
        | .ok z => some (.ok (z, h))
  | .ife c a b, ρ, h => match strictE W call c ρ h with
    | none => none
    | some (.error e) => some (.error e)
    | some (.ok (x, h)) => if struthy W x then strictE W call a ρ h else strictE W call b ρ h
  | .letter r bs body, ρ, h => match strictBs W call r h.length bs ρ (h ++ [[]]) with
    | none => none
    | some (.error e) => some (.error e)
    | some (.ok h') => strictE W call body (h.length :: ρ) h'
  | .lam xs body, ρ, h => some (.ok (.fn ρ xs body, h))
  | .app f as, ρ, h => match strictE W call f ρ h with
    | none => none
    | some (.error e) => some (.error e)
    | some (.ok (f, h)) => match strictAs W call as ρ h with
      | none => none
      | some (.error e) => some (.error e)
      | some (.ok (vs, h)) => match f with
        | .con _ => some (.error W.typeError)
        | .fn ρf xs body => if xs.length = vs.length then call (h.length :: ρf) body (h ++ [xs.zip vs]) else some (.error W.typeError)
/-- The bindings go to the environment `k`, one after the other. -/
def strictBs (W : World β ω ε) (call : List Nat → Ex β ω → Heap β ω → Option (Except ε (SVal β ω × Heap β ω))) (r : Bool) (k : Nat) : Bs β ω → List Nat → Heap β ω → Option (Except ε (Heap β ω))
  | .nil, _, h => some (.ok h)
  | .cons x e bs, ρ, h =>
    if (((h[k]?).getD []).lookup x).isSome then some (.error W.attributeError)
    else match strictE W call e (if r then k :: ρ else ρ) h with
      | none => none
      | some (.error e) => some (.error e)
      | some (.ok (v, h)) => strictBs W call r k bs ρ (h.modify k (· ++ [(x, v)]))
/-- The arguments, from left to right -/
def strictAs (W : World β ω ε) (call : List Nat → Ex β ω → Heap β ω → Option (Except ε (SVal β ω × Heap β ω))) : As β ω → List Nat → Heap β ω → Option (Except ε (List (SVal β ω) × Heap β ω))
  | .nil, _, h => some (.ok ([], h))
  | .cons e as, ρ, h => match strictE W call e ρ h with
    | none => none
    | some (.error e) => some (.error e)
    | some (.ok (v, h)) => match strictAs W call as ρ h with
      | none => none
      | some (.error e) => some (.error e)
      | some (.ok (vs, h)) => some (.ok (v :: vs, h))
end

/-- the same, with calls inside of calls less than `n` deep -/
def strictN (W : World β ω ε) : Nat → List Nat → Ex β ω → Heap β ω → Option (Except ε (SVal β ω × Heap β ω))
  | 0 => fun _ _ _ => none
  | n + 1 => fun ρ e h => strictE W (strictN W n) e ρ h

/-- The same constant, or functions of the same parameters -/
def SameS : SVal β ω → Obj β ω → Prop
  | .con b, .con b' => b = b'
  | .fn _ xs _, .clo _ xs' _ => xs = xs'
  | _, _ => False

end Unpy.LazyFun.Spec
