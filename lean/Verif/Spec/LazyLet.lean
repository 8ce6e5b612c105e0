import Verif.Model.LazyLet
/-!
# What `let` and `letrec` should mean in lazy code

A name stands for the expression it is bound to, which is evaluated where the name is used, in the scope of its `let` (call by name).
Of the model, only expressions and the operators (`World`) are used.
-/
namespace Unpy.LazyLet.Spec
open Unpy.LazyLet
variable {β ω ε : Type}

/-- A scope: the bindings of one `let` or `letrec` -/
structure Frame (β ω : Type) where
  isrec : Bool
  bs : Bs β ω

/-- The expression a name is bound to -/
def find (x : String) : Bs β ω → Option (Ex β ω)
  | .nil => none
  | .cons y e bs => if x = y then some e else find x bs

/-- The names bound -/
def names : Bs β ω → List String
  | .nil => []
  | .cons x _ bs => x :: names bs

/-- The value of an expression in the scopes `Γ`, the innermost first; `call` is for the expressions that names are bound to.
The right-hand sides of a `letrec` are in the scope of the `letrec` itself, those of a `let` are not. -/
def evalS (W : World β ω ε) (call : List (Frame β ω) → Ex β ω → Option (Except ε β)) : Ex β ω → List (Frame β ω) → Option (Except ε β)
  | .cst b, _ => some (.ok b)
  | .ref i x, Γ => match Γ[i]? with
    | none => some (.error W.attributeError)
    | some fr => match find x fr.bs with
      | none => some (.error W.attributeError)
      | some e => call (if fr.isrec then Γ.drop i else Γ.drop (i + 1)) e
  | .op o a b, Γ => match evalS W call a Γ with
    | none => none
    | some (.error e) => some (.error e)
    | some (.ok x) => match evalS W call b Γ with
      | none => none
      | some (.error e) => some (.error e)
      | some (.ok y) => some (W.op o x y)
  | .ife c a b, Γ => match evalS W call c Γ with
    | none => none
    | some (.error e) => some (.error e)
    | some (.ok x) => if W.truth x then evalS W call a Γ else evalS W call b Γ
  | .letter r bs body, Γ => evalS W call body (⟨r, bs⟩ :: Γ)

/-- the same, with names looked up less than `n` deep -/
def evalN (W : World β ω ε) : Nat → List (Frame β ω) → Ex β ω → Option (Except ε β)
  | 0 => fun _ _ => none
  | n + 1 => fun Γ e => evalS W (evalN W n) e Γ

/-- What an expression comes to: a value, or an exception -/
def Comes (W : World β ω ε) (e : Ex β ω) (r : Except ε β) : Prop := ∃ n, evalN W n [] e = some r

/-- a value or an exception, as the code gives it -/
def asObj : Except ε β → Except ε (Obj β)
  | .ok b => .ok (.con b)
  | .error e => .error e

mutual
/-- The same expression outside of a lazy block: the right-hand sides are evaluated at once, in order; in a `letrec`, with the names
bound before. -/
def strict (W : World β ω ε) : Ex β ω → List (List (String × β)) → Except ε β
  | .cst b, _ => .ok b
  | .ref i x, vals => match vals[i]? with
    | none => .error W.attributeError
    | some env => match env.lookup x with
      | none => .error W.attributeError
      | some v => .ok v
  | .op o a b, vals => match strict W a vals with
    | .error e => .error e
    | .ok x => match strict W b vals with
      | .error e => .error e
      | .ok y => W.op o x y
  | .ife c a b, vals => match strict W c vals with
    | .error e => .error e
    | .ok x => if W.truth x then strict W a vals else strict W b vals
  | .letter r bs body, vals => match strictBs W bs r [] vals with
    | .error e => .error e
    | .ok env => strict W body (env :: vals)
/-- the right-hand sides, given those evaluated before -/
def strictBs (W : World β ω ε) : Bs β ω → Bool → List (String × β) → List (List (String × β)) → Except ε (List (String × β))
  | .nil, _, env, _ => .ok env
  | .cons x e bs, r, env, vals =>
    if (env.lookup x).isSome then .error W.attributeError
    else match strict W e (if r then env :: vals else vals) with
      | .error e => .error e
      | .ok v => strictBs W bs r (env ++ [(x, v)]) vals
end

mutual
/-- Programs where each name is bound, no name is bound twice in the same `let`, and the right-hand sides in a `letrec` that are just
a name of the same `letrec` come after the binding of that name. -/
def Fine : Ex β ω → List (Frame β ω) → Prop
  | .cst _, _ => True
  | .ref i x, Γ => ∃ fr, Γ[i]? = some fr ∧ x ∈ names fr.bs
  | .op _ a b, Γ => Fine a Γ ∧ Fine b Γ
  | .ife c a b, Γ => Fine c Γ ∧ Fine a Γ ∧ Fine b Γ
  | .letter r bs body, Γ => (names bs).Nodup ∧ FineBs bs r [] (if r then ⟨r, bs⟩ :: Γ else Γ) ∧ Fine body (⟨r, bs⟩ :: Γ)
/-- the right-hand sides, given the names bound before -/
def FineBs : Bs β ω → Bool → List String → List (Frame β ω) → Prop
  | .nil, _, _, _ => True
  | .cons x e bs, r, before, Γ => Fine e Γ ∧ (r = true → ∀ y, e = .ref 0 y → y ∈ before) ∧ FineBs bs r (before ++ [x]) Γ
end

/-- No right-hand side is just a name -/
def NoRefs : Bs β ω → Prop
  | .nil => True
  | .cons _ e bs => (∀ i y, e ≠ .ref i y) ∧ NoRefs bs

end Unpy.LazyLet.Spec
