import Verif.Model.ControlClient
/-! # Specification of the control channel: remote procedure calls -/
namespace Unpy.Spec.Control
open Unpy.Control
variable {σ : Type}

/-- The reply says that the request was successful. -/
def Success (j : Json) (kvs : List (String × Json)) : Prop := j = .obj kvs ∧ lookup "status" kvs = some (.str "ok")

/-- The answers of the server, each to the request it was asked; none for those after it has hung up -/
def answers (serve : σ → Json → σ × Option Json) : Option σ → List (COp σ) → List (Option Json)
  | _, [] => []
  | s, .change f :: ops => answers serve (s.map f) ops
  | s, .call (some .beforeSend) _ :: ops => none :: answers serve s ops
  | none, .call _ _ :: ops => none :: answers serve none ops
  | some s, .call _ req :: ops => match serve s req with
    | (s', some j) => some j :: answers serve (some s') ops
    | (_, none) => none :: answers serve none ops

/-- The result of a call, by the answer of the server: the answer if successful, else None -/
def Result (a : Option Json) (r : Option (List (String × Json))) : Prop := ∀ kvs, r = some kvs ↔ ∃ j, a = some j ∧ Success j kvs

/-- Two lists have the same length, and corresponding items are related. -/
inductive Each {A B : Type} (R : A → B → Prop) : List A → List B → Prop
  | nil : Each R [] []
  | cons {a b l m} : R a b → Each R l m → Each R (a :: l) (b :: m)

/-- The server has a session with this id that is active. -/
def Active (w : S) (id : Nat) : Prop := ∃ s, 0 < id ∧ w.sess[id - 1]? = some s ∧ s.active = true

end Unpy.Spec.Control
