import Verif.Model.Pty
/-! # Specification of the proxy: what comes in at one end goes out at the other -/
namespace Unpy.Spec.Pty
open Unpy.Pty (Side Event Round)

/-- The events up to the round where `stop` takes effect -/
def seen : List Round → List Event
  | [] => []
  | r :: rs => if r.stop then [] else r.events ++ seen rs

/-- `stop` takes effect in some round -/
def Stopped (rs : List Round) : Prop := ∃ r ∈ rs, r.stop = true

/-- Bytes have been read and written: the connection goes on. -/
def goesOn (e : Event) : Bool := match e.got, e.put with
  | .data .., .takes _ => true
  | _, _ => false

/-- The bytes that one event has read from this end -/
def bytes (x : Side) (e : Event) : List Nat := match e.got with
  | .data b bs => if e.from = x then b :: bs else []
  | _ => []

/-- All bytes read from this end, as long as the connection goes on -/
def input (x : Side) (rs : List Round) : List Nat := ((seen rs).takeWhile goesOn).flatMap (bytes x)

/-- The event that ends the connection -/
def ending (rs : List Round) : Option Event := ((seen rs).dropWhile goesOn).head?

/-- Each write takes all the bytes it is given. -/
def Whole (rs : List Round) : Prop := ∀ e ∈ seen rs, ∀ b bs n, e.got = .data b bs → e.put = .takes n → (b :: bs).length ≤ n

end Unpy.Spec.Pty
