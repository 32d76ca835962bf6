import Verif.Model.FsCipher

/-! # Model of `protocol/src/lib.rs` -/

namespace Bip324

/-- lib.rs:152 `DECOY_BYTE`. -/
def DECOY_BYTE : UInt8 := 128
/-- lib.rs:154 `NUM_HEADER_BYTES`. -/
abbrev NUM_HEADER_BYTES : Nat := 1
/-- lib.rs:156 `NUM_LENGTH_BYTES`. -/
abbrev NUM_LENGTH_BYTES : Nat := 3
/-- lib.rs:159 `NUM_ELLIGATOR_SWIFT_BYTES`. -/
abbrev NUM_ELLIGATOR_SWIFT_BYTES : Nat := 64
/-- lib.rs:161 `NUM_GARBAGE_TERMINTOR_BYTES`. -/
abbrev NUM_GARBAGE_TERMINATOR_BYTES : Nat := 16
/-- lib.rs:163 `NUM_TAG_BYTES`. -/
abbrev NUM_TAG_BYTES : Nat := 16
/-- lib.rs:165 `NUM_PACKET_OVERHEAD_BYTES`. -/
abbrev NUM_PACKET_OVERHEAD_BYTES : Nat := NUM_LENGTH_BYTES + NUM_HEADER_BYTES + NUM_TAG_BYTES
/-- lib.rs:170 `MAX_PACKET_SIZE_FOR_ALLOCATION`. -/
abbrev MAX_PACKET_SIZE_FOR_ALLOCATION : Nat := 4000014
/-- lib.rs:172 `VERSION_CONTENT`. -/
def VERSION_CONTENT : Bytes := []

/-- lib.rs:253-258 `SecretGenerationError` (payloads of the dependencies' errors dropped). -/
inductive SecretGenerationError where
  | materialsGeneration
  | expansion
deriving Repr, DecidableEq

/-- lib.rs:176-196 `Error` (payload of the AEAD error dropped: it has a single value). -/
inductive Error where
  | ciphertextTooSmall
  | bufferTooSmall (requiredBytes : Nat)
  | packetTooBig
  | tooMuchGarbage
  | noGarbageTerminator
  | v1Protocol
  | secretGeneration (e : SecretGenerationError)
  | decryption
deriving Repr, DecidableEq

/-- lib.rs:295-304 `SessionKeyMaterial`. -/
structure SessionKeyMaterial where
  sessionId : Bytes
  initiatorLengthKey : Bytes
  initiatorPacketKey : Bytes
  responderLengthKey : Bytes
  responderPacketKey : Bytes
  initiatorGarbageTerminator : Bytes
  responderGarbageTerminator : Bytes
deriving Repr, DecidableEq

/-- ASCII bytes of a string literal (`"...".as_bytes()`, `b"..."`). E.g. lib.rs:331. -/
def ascii (s : String) : Bytes := s.toList.map fun c => UInt8.ofNat c.toNat

/-- lib.rs:324-373 `SessionKeyMaterial::from_ecdh`.  The `?` on each `expand` is the
`MaxLengthError` conversion of lib.rs:287-291. -/
def SessionKeyMaterial.fromEcdh (P : Prims) (a b secret : Bytes) (party : Party) (magic : Bytes) :
    Outcome Error SessionKeyMaterial :=
  let ecdhSk := P.ecdh a b secret party (ascii "bip324_ellswift_xonly_ecdh")
  let salt := ascii "bitcoin_v2_shared_secret" ++ magic
  let expansionError : Outcome Error SessionKeyMaterial := .err (.secretGeneration .expansion)
  match P.hkdf salt ecdhSk (ascii "session_id") 32 with
  | none => expansionError
  | some sessionId =>
  match P.hkdf salt ecdhSk (ascii "initiator_L") 32 with
  | none => expansionError
  | some initiatorLengthKey =>
  match P.hkdf salt ecdhSk (ascii "initiator_P") 32 with
  | none => expansionError
  | some initiatorPacketKey =>
  match P.hkdf salt ecdhSk (ascii "responder_L") 32 with
  | none => expansionError
  | some responderLengthKey =>
  match P.hkdf salt ecdhSk (ascii "responder_P") 32 with
  | none => expansionError
  | some responderPacketKey =>
  match P.hkdf salt ecdhSk (ascii "garbage_terminators") 32 with
  | none => expansionError
  | some garbage =>
    .ok {
      sessionId, initiatorLengthKey, initiatorPacketKey, responderLengthKey, responderPacketKey
      initiatorGarbageTerminator := garbage.take 16
      responderGarbageTerminator := garbage.drop 16 }

/-- lib.rs:378-383 `Role`. -/
inductive Role where
  | initiator
  | responder
deriving Repr, DecidableEq

/-- lib.rs:389-394 `PacketType`. -/
inductive PacketType where
  | genuine
  | decoy
deriving Repr, DecidableEq

/-- lib.rs:398-404 `PacketType::from_byte`. -/
def PacketType.fromByte (header : UInt8) : PacketType :=
  if header = DECOY_BYTE then .decoy else .genuine

/-- lib.rs:407-412 `PacketType::to_byte`. -/
def PacketType.toByte : PacketType → UInt8
  | .genuine => 0
  | .decoy => DECOY_BYTE

/-- lib.rs:417-420 `InboundCipher`. -/
structure InboundCipher where
  lengthCipher : FSStream
  packetCipher : FSAead
deriving Repr, DecidableEq

/-- lib.rs:435-441 `InboundCipher::decrypt_packet_len`; new state and result. -/
def InboundCipher.decryptPacketLen (P : Prims) (prof : Profile) (c : InboundCipher)
    (lenBytes : Bytes) : InboundCipher × Outcome Error Nat :=
  match c.lengthCipher.crypt P prof lenBytes with
  | none => (c, .panic)
  | some (lc, len) =>
    ({ c with lengthCipher := lc }, .ok (leNat len + NUM_HEADER_BYTES + NUM_TAG_BYTES))

/-- lib.rs:444-446 `InboundCipher::decryption_buffer_len`; `none` is the subtraction overflow
panic. -/
def InboundCipher.decryptionBufferLen (prof : Profile) (packetLen : Nat) : Option Nat :=
  usub prof u64Mod packetLen NUM_TAG_BYTES

/-- lib.rs:485-500 `InboundCipher::decrypt_in_place`: new state, the buffer after the call, and
the packet type with the returned slice. -/
def InboundCipher.decryptInPlace (P : Prims) (prof : Profile) (c : InboundCipher)
    (ciphertext : Bytes) (aad : Option Bytes) :
    InboundCipher × Bytes × Outcome Error (PacketType × Bytes) :=
  -- lib.rs:457-462 validate_ciphertext_size
  if ciphertext.length < NUM_TAG_BYTES + NUM_HEADER_BYTES then
    (c, ciphertext, .err .ciphertextTooSmall)
  else
    let msg := ciphertext.take (ciphertext.length - NUM_TAG_BYTES)
    let tag := ciphertext.drop (ciphertext.length - NUM_TAG_BYTES)
    match c.packetCipher.decrypt P prof (aad.getD []) msg tag with
    | .panic => (c, ciphertext, .panic)
    | .authError => (c, ciphertext, .err .decryption)
    | .ok pc plain =>
      match plain with
      | [] => ({ c with packetCipher := pc }, ciphertext, .panic) -- `msg[0]` out of bounds
      | header :: _ =>
        ({ c with packetCipher := pc }, plain ++ tag, .ok (PacketType.fromByte header, plain))

/-- lib.rs:523-545 `InboundCipher::decrypt`: new state, the plaintext buffer after the call, and
the packet type. -/
def InboundCipher.decrypt (P : Prims) (prof : Profile) (c : InboundCipher)
    (ciphertext plaintextBuffer : Bytes) (aad : Option Bytes) :
    InboundCipher × Bytes × Outcome Error PacketType :=
  -- lib.rs:457-462 validate_ciphertext_size
  if ciphertext.length < NUM_TAG_BYTES + NUM_HEADER_BYTES then
    (c, plaintextBuffer, .err .ciphertextTooSmall)
  else
    let msg := ciphertext.take (ciphertext.length - NUM_TAG_BYTES)
    let tag := ciphertext.drop (ciphertext.length - NUM_TAG_BYTES)
    if plaintextBuffer.length < msg.length then
      (c, plaintextBuffer, .err (.bufferTooSmall msg.length))
    else
      let buf := writeAt plaintextBuffer 0 msg
      match c.packetCipher.decrypt P prof (aad.getD []) (slice buf 0 msg.length) tag with
      | .panic => (c, buf, .panic)
      | .authError => (c, buf, .err .decryption)
      | .ok pc plain =>
        let buf := writeAt buf 0 plain
        match buf with
        | [] => ({ c with packetCipher := pc }, buf, .panic) -- `plaintext_buffer[0]`
        | header :: _ => ({ c with packetCipher := pc }, buf, .ok (PacketType.fromByte header))

/-- lib.rs:570-586 `InboundCipher::decrypt_to_vec`. -/
def InboundCipher.decryptToVec (P : Prims) (prof : Profile) (c : InboundCipher)
    (ciphertext : Bytes) (aad : Option Bytes) :
    InboundCipher × Outcome Error (PacketType × Bytes) :=
  match InboundCipher.decryptionBufferLen prof ciphertext.length with
  | none => (c, .panic)
  | some plaintextLen =>
    if plaintextLen > MAX_PACKET_SIZE_FOR_ALLOCATION then (c, .err .packetTooBig)
    else
      match c.decrypt P prof ciphertext (zeros plaintextLen) aad with
      | (c', buf, .ok ty) => (c', .ok (ty, buf))
      | (c', _, .err e) => (c', .err e)
      | (c', _, .panic) => (c', .panic)

/-- lib.rs:591-594 `OutboundCipher`. -/
structure OutboundCipher where
  lengthCipher : FSStream
  packetCipher : FSAead
deriving Repr, DecidableEq

/-- lib.rs:598-600 `OutboundCipher::encryption_buffer_len`. -/
def OutboundCipher.encryptionBufferLen (plaintextLen : Nat) : Nat :=
  plaintextLen + NUM_PACKET_OVERHEAD_BYTES

/-- lib.rs:616-657 `OutboundCipher::encrypt`: new state, the buffer after the call, outcome.
`(plaintext_length as u32).to_le_bytes()[0..3]` keeps the low 24 bits of the length. -/
def OutboundCipher.encrypt (P : Prims) (prof : Profile) (c : OutboundCipher)
    (plaintext ciphertextBuffer : Bytes) (packetType : PacketType) (aad : Option Bytes) :
    OutboundCipher × Bytes × Outcome Error Unit :=
  if ciphertextBuffer.length < OutboundCipher.encryptionBufferLen plaintext.length then
    (c, ciphertextBuffer, .err (.bufferTooSmall (OutboundCipher.encryptionBufferLen plaintext.length)))
  else
    let headerIndex := NUM_LENGTH_BYTES + NUM_HEADER_BYTES - 1
    let startIndex := headerIndex + 1
    let endIndex := startIndex + plaintext.length
    let buf := writeAt ciphertextBuffer headerIndex [packetType.toByte]
    let buf := writeAt buf startIndex plaintext
    match c.packetCipher.encrypt P prof (aad.getD []) (slice buf headerIndex (endIndex - headerIndex)) with
    | none => (c, buf, .panic)
    | some (pc, ct, tag) =>
      let buf := writeAt buf headerIndex ct
      let contentLen := leBytes NUM_LENGTH_BYTES (plaintext.length % u32Mod)
      match c.lengthCipher.crypt P prof contentLen with
      | none => ({ c with packetCipher := pc }, buf, .panic)
      | some (lc, encLen) =>
        let buf := writeAt buf 0 encLen
        let buf := writeAt buf endIndex tag
        (⟨lc, pc⟩, buf, .ok ())

/-- lib.rs:674-688 `OutboundCipher::encrypt_to_vec` (`expect` turns an error into a panic). -/
def OutboundCipher.encryptToVec (P : Prims) (prof : Profile) (c : OutboundCipher)
    (plaintext : Bytes) (packetType : PacketType) (aad : Option Bytes) :
    OutboundCipher × Outcome Error Bytes :=
  match c.encrypt P prof plaintext (zeros (OutboundCipher.encryptionBufferLen plaintext.length))
      packetType aad with
  | (c', buf, .ok ()) => (c', .ok buf)
  | (c', _, .err _) => (c', .panic)
  | (c', _, .panic) => (c', .panic)

/-- lib.rs:693-700 `CipherSession`. -/
structure CipherSession where
  id : Bytes
  inbound : InboundCipher
  outbound : OutboundCipher
deriving Repr, DecidableEq

/-- lib.rs:703-744 `CipherSession::new`. -/
def CipherSession.new (m : SessionKeyMaterial) : Role → CipherSession
  | .initiator =>
    { id := m.sessionId
      inbound := ⟨FSStream.new m.responderLengthKey, FSAead.new m.responderPacketKey⟩
      outbound := ⟨FSStream.new m.initiatorLengthKey, FSAead.new m.initiatorPacketKey⟩ }
  | .responder =>
    { id := m.sessionId
      inbound := ⟨FSStream.new m.initiatorLengthKey, FSAead.new m.initiatorPacketKey⟩
      outbound := ⟨FSStream.new m.responderLengthKey, FSAead.new m.responderPacketKey⟩ }

/-- lib.rs:762-764 `CipherSession::into_split`. -/
def CipherSession.intoSplit (s : CipherSession) : InboundCipher × OutboundCipher :=
  (s.inbound, s.outbound)

end Bip324
