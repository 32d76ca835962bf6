import Verif.Model.Packet

/-!
# Programs that copy ciphers

`OutboundCipher`, `InboundCipher` and `CipherSession` are `Clone` (protocol/src/lib.rs:416-420, 590-594,
692-700), field by field down to the key and the counters (protocol/src/fschacha20poly1305.rs:55-59,
143-148).  A program holds a list of ciphers, all copies of copies of the first.
-/

namespace Bip324

/-- One step of a program with several outbound ciphers: `let d = c.clone();` (protocol/src/lib.rs:590) or
`c.encrypt(plaintext, buffer, packet_type, aad)` (protocol/src/lib.rs:617-659). -/
inductive CloneOp where
  | clone (i : Nat)
  | encrypt (i : Nat) (plaintext buffer : Bytes) (ty : PacketType) (aad : Option Bytes)

/-- The step: the ciphers afterwards and, for a call of `encrypt`, the buffer and the result
(protocol/src/lib.rs:590, 617-659).  A step that names no cipher of the program does nothing. -/
def CloneOp.step (P : Prims) (prof : Profile) (cs : List OutboundCipher) :
    CloneOp → List OutboundCipher × Option (Bytes × Outcome Error Unit)
  | .clone i =>
    match cs[i]? with
    | none => (cs, none)
    | some c => (cs ++ [c], none)
  | .encrypt i plaintext buffer ty aad =>
    match cs[i]? with
    | none => (cs, none)
    | some c =>
      let r := c.encrypt P prof plaintext buffer ty aad
      (cs.set i r.1, some r.2)

/-- The successful calls of `encrypt` of a program, in order, each with its arguments and what it leaves in its
buffer (protocol/src/lib.rs:590, 617-659). -/
def CloneOp.sent (P : Prims) (prof : Profile) :
    List OutboundCipher → List CloneOp → List ((Bytes × Bytes × PacketType × Option Bytes) × Bytes)
  | _, [] => []
  | cs, op :: ops =>
    let r := op.step P prof cs
    (match op, r.2 with
      | .encrypt _ plaintext buffer ty aad, some (out, .ok ()) => [((plaintext, buffer, ty, aad), out)]
      | _, _ => []) ++ CloneOp.sent P prof r.1 ops

end Bip324
