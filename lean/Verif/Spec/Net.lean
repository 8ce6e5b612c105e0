import Verif.Model.Net
/-!
# What the wire format promises
-/
namespace Unpy.Net.Spec
open Unpy Unpy.Net

/-- The bytes yet to be decoded: those in the buffer, then those to come. -/
def stream (st : St) : Bytes := st.buf ++ st.src.flatten

/-- Successive calls of `decodemsg` return these bodies, and then `None`. -/
inductive Receives (parse : Bytes → Except PyErr Int) : St → List Bytes → Prop
  | done {st st'} : decodemsg parse st = some (.ok none, st') → Receives parse st []
  | next {st st' b bs} : decodemsg parse st = some (.ok (some b), st') → Receives parse st' bs →
      Receives parse st (b :: bs)

/-- Successive calls of `decodemsg` return these bodies, and leave the decoder in the second state. -/
inductive After (parse : Bytes → Except PyErr Int) : St → List Bytes → St → Prop
  | none {st} : After parse st [] st
  | next {st st' st'' b bs} : decodemsg parse st = some (.ok (some b), st') → After parse st' bs st'' → After parse st (b :: bs) st''

/-- `int(...)` reads back what `str` writes. -/
def ReadsDecimal (parse : Bytes → Except PyErr Int) : Prop := ∀ n : Nat, parse (digits n) = .ok (n : Int)

/-- A stream of messages, each after some junk. -/
def messages : List (Bytes × Bytes) → Bytes
  | [] => []
  | (junk, body) :: ms => junk ++ encodemsg body ++ messages ms

/-- The five bytes that start a message. -/
def prefix5 : Bytes := [0xff, 0x76, 0x30, 0x31, 0x6c]

/-- Wherever the stream holds the start of a message, a length that can be read and a `;` follow within `d` bytes, or
the stream ends within `d` bytes. -/
def GoodHeaders (parse : Bytes → Except PyErr Int) (d : Nat) (s : Bytes) : Prop :=
  ∀ pre post, s = pre ++ prefix5 ++ post →
    (∃ field rest n, post = field ++ 0x3b :: rest ∧ 0x3b ∉ field ∧ field.length ≤ d ∧ parse field = .ok n) ∨
    (0x3b ∉ post ∧ post.length ≤ d)

/-- Reading decimal digits, and nothing else. -/
def decimal (bs : Bytes) : Except PyErr Int :=
  if bs.isEmpty ∨ bs.any (fun b => b < 48 || 57 < b) then .error .ValueError
  else .ok (bs.foldl (fun acc b => acc * 10 + (b.toNat - 48 : Nat)) 0 : Nat)

end Unpy.Net.Spec
