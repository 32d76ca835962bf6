import Verif.Spec.Transcript

/-!
# The reference implementation in the text of BIP-324

BIP-324 contains Python code for every part of the protocol.  Here it is in Lean, class by class and function by
function, with its mutable state; the Python names are given.  It shares nothing with the model of the code but
the primitives (`Prims`) and the constants and key derivation of `Verif/Spec`.  `receive` blocks until enough
bytes have arrived: functions of all the bytes that have arrived, which may say that they still wait.
-/

namespace Bip324

/-! ## What has arrived of a packet -/

/-- Packet number `n` has not arrived completely. -/
def Spec.Short (P : Prims) (kL : Bytes) (n : Nat) (bs : Bytes) : Prop :=
  bs.length < 3 ∨ ∃ len < 2 ^ 24, bs.take 3 = Spec.xor (Spec.le 3 len) (Spec.lengthMask P kL n) ∧
    bs.length < len + 20

/-- As many bytes have arrived as packet number `n` has according to its length, and no one with the key has
sealed them with this AAD. -/
def Spec.Forged (P : Prims) (kL kP : Bytes) (n : Nat) (aad bs : Bytes) : Prop :=
  ∃ len < 2 ^ 24, bs.take 3 = Spec.xor (Spec.le 3 len) (Spec.lengthMask P kL n) ∧ len + 20 ≤ bs.length ∧
    ∀ header contents, (bs.drop 3).take (len + 17) ≠ Spec.sealedPart P kP n header aad contents

namespace Ref

/-! ## The reference implementation -/

/-- `class FSChaCha20`. -/
structure FSChaCha20 where
  key : Bytes
  keystream : Bytes := []
  chunkCounter : Nat := 0
  blockCounter : Nat := 0

/-- `chacha20_block(key, nonce, counter)`. -/
def chacha20Block (P : Prims) (key nonce : Bytes) (counter : Nat) : Bytes :=
  (List.range 64).map fun i => P.ks key nonce (64 * counter + i)

/-- The loop of `FSChaCha20.get_keystream_bytes`: `while len(self.keystream) < nbytes`; every round adds 64
bytes, so that `fuel = nbytes` rounds are enough. -/
def FSChaCha20.fill (P : Prims) (nbytes : Nat) : Nat → FSChaCha20 → FSChaCha20
  | 0, c => c
  | fuel + 1, c =>
    if c.keystream.length < nbytes then
      let nonce := Spec.le 4 0 ++ Spec.le 8 (c.chunkCounter / 224)
      fill P nbytes fuel { c with
        keystream := c.keystream ++ chacha20Block P c.key nonce c.blockCounter
        blockCounter := c.blockCounter + 1 }
    else c

/-- `FSChaCha20.get_keystream_bytes`. -/
def FSChaCha20.getKeystreamBytes (P : Prims) (c : FSChaCha20) (nbytes : Nat) : Bytes × FSChaCha20 :=
  let c := c.fill P nbytes nbytes
  (c.keystream.take nbytes, { c with keystream := c.keystream.drop nbytes })

/-- `FSChaCha20.crypt`. -/
def FSChaCha20.crypt (P : Prims) (c : FSChaCha20) (chunk : Bytes) : Bytes × FSChaCha20 :=
  let (ks, c) := c.getKeystreamBytes P chunk.length
  let ret := Spec.xor chunk ks
  let c :=
    if (c.chunkCounter + 1) % 224 = 0 then
      let (key, c) := c.getKeystreamBytes P 32
      { c with key, blockCounter := 0, keystream := [] }
    else c
  (ret, { c with chunkCounter := c.chunkCounter + 1 })

/-- `class FSChaCha20Poly1305`. -/
structure FSChaCha20Poly1305 where
  key : Bytes
  packetCounter : Nat := 0

/-- The nonce in `FSChaCha20Poly1305.crypt`. -/
def FSChaCha20Poly1305.nonce (c : FSChaCha20Poly1305) : Bytes :=
  Spec.le 4 (c.packetCounter % 224) ++ Spec.le 8 (c.packetCounter / 224)

/-- The second half of `FSChaCha20Poly1305.crypt`: re-keying and counting. -/
def FSChaCha20Poly1305.advance (P : Prims) (c : FSChaCha20Poly1305) : FSChaCha20Poly1305 :=
  let key :=
    if (c.packetCounter + 1) % 224 = 0 then
      let rekeyNonce := [0xff, 0xff, 0xff, 0xff] ++ c.nonce.drop 4
      let (ct, tag) := P.sealC c.key rekeyNonce [] (List.replicate 32 0)
      (ct ++ tag).take 32
    else c.key
  ⟨key, c.packetCounter + 1⟩

/-- `FSChaCha20Poly1305.encrypt`. -/
def FSChaCha20Poly1305.encrypt (P : Prims) (c : FSChaCha20Poly1305) (aad text : Bytes) :
    Bytes × FSChaCha20Poly1305 :=
  let (ct, tag) := P.sealC c.key c.nonce aad text
  (ct ++ tag, c.advance P)

/-- `FSChaCha20Poly1305.decrypt`; the tag is the last 16 bytes. -/
def FSChaCha20Poly1305.decrypt (P : Prims) (c : FSChaCha20Poly1305) (aad text : Bytes) :
    Option Bytes × FSChaCha20Poly1305 :=
  (P.openC c.key c.nonce aad (text.take (text.length - 16)) (text.drop (text.length - 16)), c.advance P)

/-- What `initialize_v2_transport` sets up. -/
structure Transport where
  sendL : FSChaCha20
  sendP : FSChaCha20Poly1305
  recvL : FSChaCha20
  recvP : FSChaCha20Poly1305
  sendGarbageTerminator : Bytes
  recvGarbageTerminator : Bytes
  sessionId : Bytes

/-- `initialize_v2_transport(peer, ecdh_secret, initiating)`. -/
def initializeV2Transport (P : Prims) (magic secret : Bytes) (initiating : Bool) : Transport :=
  let sessionId := Spec.expand P magic secret Spec.lblSessionId
  let initiatorL := Spec.expand P magic secret Spec.lblInitiatorL
  let initiatorP := Spec.expand P magic secret Spec.lblInitiatorP
  let responderL := Spec.expand P magic secret Spec.lblResponderL
  let responderP := Spec.expand P magic secret Spec.lblResponderP
  let terminators := Spec.expand P magic secret Spec.lblTerminators
  if initiating then
    { sendL := { key := initiatorL }, sendP := { key := initiatorP }
      recvL := { key := responderL }, recvP := { key := responderP }
      sendGarbageTerminator := terminators.take 16, recvGarbageTerminator := terminators.drop 16, sessionId }
  else
    { sendL := { key := responderL }, sendP := { key := responderP }
      recvL := { key := initiatorL }, recvP := { key := initiatorP }
      sendGarbageTerminator := terminators.drop 16, recvGarbageTerminator := terminators.take 16, sessionId }

/-- `v2_enc_packet(peer, contents, aad, ignore)`. -/
def v2EncPacket (P : Prims) (t : Transport) (contents aad : Bytes) (ignore : Bool) : Bytes × Transport :=
  let header : UInt8 := if ignore then 0x80 else 0
  let (ciphertext, sendP) := t.sendP.encrypt P aad (header :: contents)
  let (encLen, sendL) := t.sendL.crypt P (Spec.le 3 contents.length)
  (encLen ++ ciphertext, { t with sendL, sendP })

/-- What a function that receives has come to. -/
inductive Res (α : Type) where
  /-- It waits for more bytes. -/
  | wait
  | disconnect
  | ok (a : α)
deriving Repr, DecidableEq

/-- `receive(peer, n)`. -/
def receive (n : Nat) (bs : Bytes) : Res (Bytes × Bytes) :=
  if bs.length < n then .wait else .ok (bs.take n, bs.drop n)

/-- Little-endian value. -/
def fromLe : Bytes → Nat
  | [] => 0
  | b :: bs => b.toNat + 256 * fromLe bs

/-- One round of the loop of `v2_receive_packet`: header, contents, and what is left. -/
def v2ReceiveOne (P : Prims) (t : Transport) (aad bs : Bytes) : Res (UInt8 × Bytes × Transport × Bytes) :=
  match receive 3 bs with
  | .wait => .wait
  | .disconnect => .disconnect
  | .ok (encLen, bs) =>
    let (len, recvL) := t.recvL.crypt P encLen
    match receive (1 + fromLe len + 16) bs with
    | .wait => .wait
    | .disconnect => .disconnect
    | .ok (ciphertext, bs) =>
      match t.recvP.decrypt P aad ciphertext with
      | (none, _) => .disconnect
      | (some [], _) => .disconnect -- cannot happen: the plaintext has the length of the ciphertext
      | (some (header :: contents), recvP) => .ok (header, contents, { t with recvL, recvP }, bs)

/-- `v2_receive_packet(peer, aad)`: decoys are skipped.  Every round takes at least 20 bytes, so that `fuel`
rounds are enough when `fuel` bytes have arrived. -/
def v2ReceivePacket (P : Prims) : Nat → Transport → Bytes → Bytes → Res (Bytes × Transport × Bytes)
  | 0, _, _, _ => .wait
  | fuel + 1, t, aad, bs =>
    match v2ReceiveOne P t aad bs with
    | .wait => .wait
    | .disconnect => .disconnect
    | .ok (header, contents, t, bs) =>
      if header &&& 0x80 ≠ 0 then v2ReceivePacket P fuel t [] bs else .ok (contents, t, bs)

/-- The loop of `complete_handshake` that skips the garbage, in the round with `fuel` more to come; `got` is
`received_garbage`. -/
def skipGarbage (terminator : Bytes) : Nat → Bytes → Bytes → Res (Bytes × Bytes)
  | 0, _, _ => .disconnect
  | fuel + 1, got, bs =>
    if got.drop (got.length - 16) = terminator then .ok (got.take (got.length - 16), bs)
    else
      match bs with
      | [] => .wait
      | b :: bs => skipGarbage terminator fuel (got ++ [b]) bs

/-- The decoys and the version packet of `complete_handshake`. -/
def sendVersion (P : Prims) : Transport → List Bytes → Bytes → Bytes × Transport
  | t, [], aad => v2EncPacket P t [] aad false
  | t, d :: ds, aad =>
    let (b, t) := v2EncPacket P t d aad true
    let (bs, t) := sendVersion P t ds []
    (b ++ bs, t)

/-- `V1_PREFIX`: the magic and the ASCII bytes of "version", padded to 12 bytes. -/
def v1Prefix (magic : Bytes) : Bytes :=
  magic ++ [0x76, 0x65, 0x72, 0x73, 0x69, 0x6f, 0x6e, 0, 0, 0, 0, 0]

/-- A peer: its secret key, what it sends as garbage and as decoys (arbitrary contents), and its role. -/
structure Peer where
  sk : Bytes
  garbage : Bytes
  decoys : List Bytes
  initiating : Bool

/-- How far the handshake is. -/
inductive Status where
  | waiting
  | disconnected
  /-- `use_v1_protocol()` -/
  | v1
  /-- It is finished; these bytes are left. -/
  | ready (t : Transport) (rest : Bytes)

/-- The loop of `respond_v2_handshake`: `none` while it waits, `some true` when it is not V1. -/
def notV1 : Bytes → Bytes → Option Bool
  | [], _ => some false
  | _ :: _, [] => none
  | p :: ps, b :: bs => if b = p then notV1 ps bs else some true

/-- `complete_handshake(peer, initiating, decoys)`, with what is sent. -/
def completeHandshake (P : Prims) (magic : Bytes) (p : Peer) (bs : Bytes) : Bytes × Status :=
  let ours := P.ellswift p.sk
  match receive 64 bs with
  | .wait => ([], .waiting)
  | .disconnect => ([], .disconnected)
  | .ok (theirs, bs) =>
    if !p.initiating && (theirs.drop 4).take 12 = (v1Prefix magic).drop 4 then ([], .disconnected)
    else
      let secret :=
        if p.initiating then Spec.ecdhSecret P ours theirs p.sk true
        else Spec.ecdhSecret P theirs ours p.sk false
      let t := initializeV2Transport P magic secret p.initiating
      let (version, t) := sendVersion P t p.decoys p.garbage
      let sent := t.sendGarbageTerminator ++ version
      match receive 16 bs with
      | .wait => (sent, .waiting)
      | .disconnect => (sent, .disconnected)
      | .ok (got, bs) =>
        match skipGarbage t.recvGarbageTerminator 4096 got bs with
        | .wait => (sent, .waiting)
        | .disconnect => (sent, .disconnected)
        | .ok (garbage, bs) =>
          match v2ReceivePacket P bs.length t garbage bs with
          | .wait => (sent, .waiting)
          | .disconnect => (sent, .disconnected)
          | .ok (_, t, bs) => (sent, .ready t bs)

/-- A connection: `initiate_v2_handshake` or `respond_v2_handshake`, and `complete_handshake`; everything that
is sent, and how far it is, when these bytes have arrived. -/
def run (P : Prims) (magic : Bytes) (p : Peer) (bs : Bytes) : Bytes × Status :=
  let hello := P.ellswift p.sk ++ p.garbage
  if p.initiating then
    let (sent, s) := completeHandshake P magic p bs
    (hello ++ sent, s)
  else
    match notV1 (v1Prefix magic) bs with
    | none => ([], .waiting)
    | some false => ([], .v1)
    | some true =>
      let (sent, s) := completeHandshake P magic p bs
      (hello ++ sent, s)

/-- `v2_receive_packet` again and again: the contents, and whether the peer was disconnected. -/
def receiveAll (P : Prims) : Nat → Transport → Bytes → List Bytes × Bool
  | 0, _, _ => ([], false)
  | fuel + 1, t, bs =>
    match v2ReceivePacket P bs.length t [] bs with
    | .wait => ([], false)
    | .disconnect => ([], true)
    | .ok (contents, t, bs) =>
      let (ms, d) := receiveAll P fuel t bs
      (contents :: ms, d)

/-- `v2_enc_packet` for one message after the other. -/
def sendAll (P : Prims) : Transport → List (Bool × Bytes) → Bytes × Transport
  | t, [] => ([], t)
  | t, m :: ms =>
    let (b, t) := v2EncPacket P t m.2 [] m.1
    let (bs, t) := sendAll P t ms
    (b ++ bs, t)

/-! ## What it accepts, in closed form -/

/-- The limits on what a peer may send in a handshake: the responder's peer has no key that looks like the
version message of a V1 peer, at most 4095 bytes of garbage that do not contain or straddle the terminator,
decoys with the ignore bit, a version packet without. -/
structure Admissible (initiating : Bool) (terminator peerKey garbage : Bytes) (decoys : List (UInt8 × Bytes))
    (version : UInt8 × Bytes) : Prop where
  keyLength : peerKey.length = 64
  notV1 : initiating = false →
    (peerKey.drop 4).take 12 ≠ [0x76, 0x65, 0x72, 0x73, 0x69, 0x6f, 0x6e, 0, 0, 0, 0, 0]
  garbageLength : garbage.length ≤ 4095
  firstTerminator : ∀ j < garbage.length, ¬ Spec.OccursAt terminator (garbage ++ terminator) j
  decoyHeader : ∀ d ∈ decoys, d.1 &&& 0x80 ≠ 0
  decoyLength : ∀ d ∈ decoys, d.2.length < 2 ^ 24
  versionHeader : version.1 &&& 0x80 = 0
  versionLength : version.2.length < 2 ^ 24

/-- What a peer has sent when it has completed its part of a handshake, with arbitrary headers. -/
def transcript (P : Prims) (keys : Bytes × Bytes × Bytes) (peerKey garbage : Bytes)
    (messages : List (UInt8 × Bytes)) : Bytes :=
  peerKey ++ garbage ++ keys.2.2 ++ Spec.packetStream P keys.1 keys.2.1 0 garbage messages

end Ref
end Bip324
