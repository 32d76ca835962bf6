import Verif.Spec.Bip324

/-!
# BIP-324 session initialisation, read from the BIP text

Key derivation (`initialize_v2_transport`) and the meaning of "the terminator occurs in the
stream", independent of the model of the code.  The labels are spelled out as bytes.
-/

namespace Bip324.Spec

/-- ASCII "bip324_ellswift_xonly_ecdh". -/
def ecdhTag : Bytes :=
  [0x62, 0x69, 0x70, 0x33, 0x32, 0x34, 0x5f, 0x65, 0x6c, 0x6c, 0x73, 0x77, 0x69, 0x66, 0x74,
   0x5f, 0x78, 0x6f, 0x6e, 0x6c, 0x79, 0x5f, 0x65, 0x63, 0x64, 0x68]

/-- ASCII "bitcoin_v2_shared_secret". -/
def saltPrefix : Bytes :=
  [0x62, 0x69, 0x74, 0x63, 0x6f, 0x69, 0x6e, 0x5f, 0x76, 0x32, 0x5f, 0x73, 0x68, 0x61, 0x72,
   0x65, 0x64, 0x5f, 0x73, 0x65, 0x63, 0x72, 0x65, 0x74]

/-- ASCII "session_id". -/
def lblSessionId : Bytes :=
  [0x73, 0x65, 0x73, 0x73, 0x69, 0x6f, 0x6e, 0x5f, 0x69, 0x64]

/-- ASCII "initiator_L". -/
def lblInitiatorL : Bytes :=
  [0x69, 0x6e, 0x69, 0x74, 0x69, 0x61, 0x74, 0x6f, 0x72, 0x5f, 0x4c]

/-- ASCII "initiator_P". -/
def lblInitiatorP : Bytes :=
  [0x69, 0x6e, 0x69, 0x74, 0x69, 0x61, 0x74, 0x6f, 0x72, 0x5f, 0x50]

/-- ASCII "responder_L". -/
def lblResponderL : Bytes :=
  [0x72, 0x65, 0x73, 0x70, 0x6f, 0x6e, 0x64, 0x65, 0x72, 0x5f, 0x4c]

/-- ASCII "responder_P". -/
def lblResponderP : Bytes :=
  [0x72, 0x65, 0x73, 0x70, 0x6f, 0x6e, 0x64, 0x65, 0x72, 0x5f, 0x50]

/-- ASCII "garbage_terminators". -/
def lblTerminators : Bytes :=
  [0x67, 0x61, 0x72, 0x62, 0x61, 0x67, 0x65, 0x5f, 0x74, 0x65, 0x72, 0x6d, 0x69, 0x6e, 0x61,
   0x74, 0x6f, 0x72, 0x73]

/-- `hkdf_sha256(salt = "bitcoin_v2_shared_secret" + magic, ikm = secret, info = label, 32)`. -/
def expand (P : Prims) (magic secret label : Bytes) : Bytes :=
  (P.hkdf (saltPrefix ++ magic) secret label 32).getD []

/-- `v2_ecdh(priv, ellswift_theirs, ellswift_ours, initiating)`: the tagged x-only ECDH over
(initiator key, responder key). -/
def ecdhSecret (P : Prims) (initiatorKey responderKey sk : Bytes) (initiating : Bool) : Bytes :=
  P.ecdh initiatorKey responderKey sk (if initiating then .A else .B) ecdhTag

/-- The 32 bytes drawn for a secret key are one; in a debug build the code also asserts that they are not all
zero (handshake.rs:130). -/
abbrev UsableKey (P : Prims) (prof : Profile) (sk : Bytes) : Prop :=
  P.validSecret sk = true ∧ (prof.debugAssertions = true → sk ≠ List.replicate 32 0)

/-- Offset `i` of `buf` starts an occurrence of `t`. -/
def OccursAt (t buf : Bytes) (i : Nat) : Prop := ∃ pre post, buf = pre ++ t ++ post ∧ pre.length = i

/-- The packets a party sends after its terminator, as (ignore flag, contents, AAD): one decoy
packet per decoy, then the version packet; the garbage is the AAD of the first packet only. -/
def handshakePackets (garbage : Bytes) : List Bytes → List (Bool × Bytes × Bytes)
  | [] => [(false, [], garbage)]
  | d :: ds => (true, d, garbage) :: (ds.map fun x => (true, x, [])) ++ [(false, [], [])]

/-- Everything a party sends after its public key and garbage. -/
def versionBytes (P : Prims) (terminator kL kP garbage : Bytes) (decoys : List Bytes) : Bytes :=
  terminator ++
    ((handshakePackets garbage decoys).mapIdx fun n m => packet P kL kP n m.1 m.2.2 m.2.1).flatten

/-- Everything a party sends during the handshake: its public key, its garbage, and
`versionBytes` under the keys derived from the shared secret. -/
def handshakeWire (P : Prims) (magic key secret : Bytes) (initiating : Bool) (garbage : Bytes)
    (decoys : List Bytes) : Bytes :=
  key ++ garbage ++
    if initiating then
      versionBytes P ((expand P magic secret lblTerminators).take 16)
        (expand P magic secret lblInitiatorL) (expand P magic secret lblInitiatorP) garbage decoys
    else
      versionBytes P ((expand P magic secret lblTerminators).drop 16)
        (expand P magic secret lblResponderL) (expand P magic secret lblResponderP) garbage decoys

end Bip324.Spec
