import Verif.Spec.Handshake

/-!
# Streams of packets and handshake transcripts

What a stream of bytes has to look like for a BIP-324 receiver to take it, with arbitrary header bytes
(a receiver does not know who produced them).  Independent of the model of the code.
-/

namespace Bip324.Spec

/-- Packet number `n` with an arbitrary header byte. -/
def rawPacket (P : Prims) (kL kP : Bytes) (n : Nat) (header : UInt8) (aad contents : Bytes) : Bytes :=
  let sealed := P.sealC (packetKey P kP (n / interval)) (packetNonce n) aad (header :: contents)
  xor (le 3 contents.length) (lengthMask P kL n) ++ sealed.1 ++ sealed.2

/-- What follows the length in packet number `n`. -/
def sealedPart (P : Prims) (kP : Bytes) (n : Nat) (header : UInt8) (aad contents : Bytes) : Bytes :=
  let sealed := P.sealC (packetKey P kP (n / interval)) (packetNonce n) aad (header :: contents)
  sealed.1 ++ sealed.2

/-- The bytes contain, in this order and without overlap, the sealed packets number `n`, `n + 1`, ... of
these headers and contents. -/
def Carries (P : Prims) (kP : Bytes) : Nat → List (UInt8 × Bytes) → Bytes → Prop
  | _, [], _ => True
  | n, m :: ms, bs => ∃ before after, bs = before ++ sealedPart P kP n m.1 [] m.2 ++ after ∧
      Carries P kP (n + 1) ms after

theorem packet_raw (P : Prims) (kL kP : Bytes) (n : Nat) (ignore : Bool) (aad contents : Bytes) :
    packet P kL kP n ignore aad contents
      = rawPacket P kL kP n (if ignore then 0x80 else 0) aad contents := rfl

/-- The packets number `n`, `n + 1`, ... with these headers and contents; the first one has this AAD, the
others have none. -/
def packetStream (P : Prims) (kL kP : Bytes) : Nat → Bytes → List (UInt8 × Bytes) → Bytes
  | _, _, [] => []
  | n, aad, m :: ms => rawPacket P kL kP n m.1 aad m.2 ++ packetStream P kL kP (n + 1) [] ms

/-- The messages of a handshake after the terminator: decoys, and then one that is not a decoy. -/
def handshakeMessages (decoys : List Bytes) (version : UInt8 × Bytes) : List (UInt8 × Bytes) :=
  decoys.map (fun d => (0x80, d)) ++ [version]

/-- The key of the initiator's lengths, the key of its packets, and its terminator. -/
def initiatorKeys (P : Prims) (magic secret : Bytes) : Bytes × Bytes × Bytes :=
  (expand P magic secret lblInitiatorL, expand P magic secret lblInitiatorP,
    (expand P magic secret lblTerminators).take 16)

/-- The same for the responder. -/
def responderKeys (P : Prims) (magic secret : Bytes) : Bytes × Bytes × Bytes :=
  (expand P magic secret lblResponderL, expand P magic secret lblResponderP,
    (expand P magic secret lblTerminators).drop 16)

/-- What a party with this secret key and public key derives from the public key of its peer: the keys of
its own direction and those of the peer's. -/
def directions (P : Prims) (magic ourKey theirKey sk : Bytes) (initiating : Bool) :
    (Bytes × Bytes × Bytes) × (Bytes × Bytes × Bytes) :=
  if initiating then
    let secret := ecdhSecret P ourKey theirKey sk true
    (initiatorKeys P magic secret, responderKeys P magic secret)
  else
    let secret := ecdhSecret P theirKey ourKey sk false
    (responderKeys P magic secret, initiatorKeys P magic secret)

/-- What a peer has sent when it has completed its part of a handshake: public key, garbage, terminator,
decoys, version packet. -/
def peerTranscript (P : Prims) (keys : Bytes × Bytes × Bytes) (peerKey garbage : Bytes) (decoys : List Bytes)
    (version : UInt8 × Bytes) : Bytes :=
  peerKey ++ garbage ++ keys.2.2 ++
    packetStream P keys.1 keys.2.1 0 garbage (handshakeMessages decoys version)

/-- Everything a party sends during its handshake. -/
def ownTranscript (P : Prims) (keys : Bytes × Bytes × Bytes) (ourKey garbage : Bytes) (decoys : List Bytes) :
    Bytes :=
  ourKey ++ garbage ++ versionBytes P keys.2.2 keys.1 keys.2.1 garbage decoys

/-- The limits on what a peer may send: the public key does not look like a V1 version message, at most
4095 bytes of garbage that do not contain or straddle the terminator, packets of at most 4000014 bytes of
ciphertext and tag, a version packet that is not a decoy. -/
structure Admissible (magic : Bytes) (terminator peerKey garbage : Bytes) (decoys : List Bytes)
    (version : UInt8 × Bytes) : Prop where
  keyLength : peerKey.length = 64
  notV1 : peerKey.take 4 ≠ magic
  garbageLength : garbage.length ≤ 4095
  firstTerminator : ∀ j < garbage.length, ¬ OccursAt terminator (garbage ++ terminator) j
  decoyLength : ∀ d ∈ decoys, d.length ≤ 3999997
  versionLength : version.2.length ≤ 3999997
  versionGenuine : version.1 ≠ 0x80

end Bip324.Spec
