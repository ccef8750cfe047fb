import Verif.Model.State
/-
The FastCGI protocol (FastCGI Specification 1.0, sections 3.3 and 3.4), as far as needed to state what the client must do:
records, their framing on the wire, and name-value pairs.  Written without reference to the model of the client.
-/
set_option autoImplicit false
namespace Nts.Spec.FastCgi

/-- A record: its type, the request it belongs to and its content. -/
structure Record where
  type : UInt8
  id : Nat
  content : List UInt8

/-- `Framed r b`: the bytes `b` are a frame of the record `r`: version 1, type, request id, content length, padding length
(all big endian), a reserved byte, the content, the padding. -/
def Framed (r : Record) (b : List UInt8) : Prop :=
  ∃ (reserved : UInt8) (i1 i0 l1 l0 p : UInt8) (padding : List UInt8),
    b = [1, r.type, i1, i0, l1, l0, p, reserved] ++ r.content ++ padding ∧
    r.id = 256 * i1.toNat + i0.toNat ∧
    r.content.length = 256 * l1.toNat + l0.toNat ∧
    padding.length = p.toNat

/-- The bytes are the frames of these records, one after the other. -/
def Frames : List Record → List UInt8 → Prop
  | [], b => b = []
  | r :: rs, b => ∃ b1 b2, b = b1 ++ b2 ∧ Framed r b1 ∧ Frames rs b2

/-- The encoding of a length: one byte below 128, else four bytes, big endian, with the highest bit set. -/
def Length (n : Nat) (b : List UInt8) : Prop :=
  (∃ x : UInt8, b = [x] ∧ x.toNat < 128 ∧ n = x.toNat) ∨
  (∃ x3 x2 x1 x0 : UInt8, b = [x3, x2, x1, x0] ∧ 128 ≤ x3.toNat ∧
    n = ((x3.toNat - 128) * 256 + x2.toNat) * 65536 + x1.toNat * 256 + x0.toNat)

/-- Name-value pairs: both lengths, then name and value. -/
def Pairs : List (List UInt8 × List UInt8) → List UInt8 → Prop
  | [], b => b = []
  | (n, v) :: r, b => ∃ ln lv rest, b = ln ++ lv ++ n ++ v ++ rest ∧ Length n.length ln ∧ Length v.length lv ∧ Pairs r rest

/-- What the records of request `id` with type `t` carry together. -/
def carried (t : UInt8) (id : Nat) (rs : List Record) : List UInt8 :=
  (rs.filter (fun r => r.type == t && r.id == id)).flatMap (·.content)

end Nts.Spec.FastCgi
