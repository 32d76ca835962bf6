import Verif.Model.Packet

/-! # Model of `protocol/src/handshake.rs`

The typestate `Handshake<State>` becomes one structure per state.  A method that consumes `self`
becomes a function from one structure to the next; the caller's output buffer is an extra result. -/

namespace Bip324

/-- handshake.rs:23 `MAX_NUM_GARBAGE_BYTES`. -/
abbrev MAX_NUM_GARBAGE_BYTES : Nat := 4095

/-- handshake.rs:26-35, 90-97 `Handshake<Initialized>` with its `EcdhPoint`. -/
structure HsInitialized where
  magic : Bytes
  role : Role
  secretKey : Bytes
  ellswift : Bytes
deriving Repr, DecidableEq

/-- handshake.rs:38-41 `Handshake<SentKey>`. -/
structure HsSentKey where
  magic : Bytes
  role : Role
  secretKey : Bytes
  ellswift : Bytes
  localGarbage : Option Bytes
deriving Repr, DecidableEq

/-- handshake.rs:45-48 `Handshake<ReceivedKey>`. -/
structure HsReceivedKey where
  magic : Bytes
  role : Role
  sessionKeys : SessionKeyMaterial
  localGarbage : Option Bytes
deriving Repr, DecidableEq

/-- handshake.rs:51-54 `Handshake<SentVersion>`. -/
structure HsSentVersion where
  magic : Bytes
  role : Role
  cipher : CipherSession
  remoteTerminator : Bytes
deriving Repr, DecidableEq

/-- handshake.rs:57-60 `Handshake<ReceivedGarbage>`. -/
structure HsReceivedGarbage where
  magic : Bytes
  role : Role
  cipher : CipherSession
  remoteGarbage : Option Bytes
deriving Repr, DecidableEq

/-- handshake.rs:63-71 `GarbageResult`. -/
inductive GarbageResult where
  | foundGarbage (handshake : HsReceivedGarbage) (consumedBytes : Nat)
  | needMoreData (handshake : HsSentVersion)
deriving Repr, DecidableEq

/-- handshake.rs:74-79 `VersionResult`. -/
inductive VersionResult where
  | complete (cipher : CipherSession)
  | decoy (handshake : HsReceivedGarbage)
deriving Repr, DecidableEq

/-- handshake.rs:122-145 `Handshake::new_with_rng`; `rngBytes` are the 32 bytes drawn from the RNG
(`Handshake::new`, 115-119, is this with the thread RNG). -/
def HsInitialized.newWithRng (P : Prims) (prof : Profile) (magic : Bytes) (role : Role)
    (rngBytes : Bytes) : Outcome Error HsInitialized :=
  if prof.debugAssertions && rngBytes == zeros 32 then .panic
  else if P.validSecret rngBytes then
    .ok { magic, role, secretKey := rngBytes, ellswift := P.ellswift rngBytes }
  else .err (.secretGeneration .materialsGeneration)

/-- handshake.rs:148-150 `send_key_len`. -/
def HsInitialized.sendKeyLen (garbage : Option Bytes) : Nat :=
  NUM_ELLIGATOR_SWIFT_BYTES + (garbage.map List.length).getD 0

/-- handshake.rs:168-205 `send_key`: output buffer and result. -/
def HsInitialized.sendKey (h : HsInitialized) (garbage : Option Bytes) (outputBuffer : Bytes) :
    Bytes × Outcome Error HsSentKey :=
  if garbage.any (fun g => decide (g.length > MAX_NUM_GARBAGE_BYTES)) then
    (outputBuffer, .err .tooMuchGarbage)
  else
    let requiredLen := HsInitialized.sendKeyLen garbage
    if outputBuffer.length < requiredLen then
      (outputBuffer, .err (.bufferTooSmall requiredLen))
    else
      let buf := writeAt outputBuffer 0 h.ellswift
      let buf :=
        match garbage with
        | some g => writeAt buf NUM_ELLIGATOR_SWIFT_BYTES g
        | none => buf
      (buf, .ok { magic := h.magic, role := h.role, secretKey := h.secretKey,
                  ellswift := h.ellswift, localGarbage := garbage })

/-- handshake.rs:228-275 `receive_key` (`their_key : [u8; 64]`). -/
def HsSentKey.receiveKey (P : Prims) (h : HsSentKey) (theirKey : Bytes) :
    Outcome Error HsReceivedKey :=
  let theirMagic := theirKey.take 4
  if h.magic = theirMagic then .err .v1Protocol
  else
    let sessionKeys :=
      match h.role with
      | .initiator => SessionKeyMaterial.fromEcdh P h.ellswift theirKey h.secretKey .A h.magic
      | .responder => SessionKeyMaterial.fromEcdh P theirKey h.ellswift h.secretKey .B h.magic
    match sessionKeys with
    | .ok keys => .ok { magic := h.magic, role := h.role, sessionKeys := keys,
                        localGarbage := h.localGarbage }
    | .err e => .err e
    | .panic => .panic

/-- handshake.rs:280-292 `send_version_len`. -/
def HsReceivedKey.sendVersionLen (decoys : Option (List Bytes)) : Nat :=
  let len := NUM_GARBAGE_TERMINATOR_BYTES + OutboundCipher.encryptionBufferLen VERSION_CONTENT.length
  match decoys with
  | none => len
  | some ds => ds.foldl (fun l d => l + OutboundCipher.encryptionBufferLen d.length) len

/-- One `cipher.outbound().encrypt(contents, &mut output_buffer[off..off + packet_len], ty, aad)`
(handshake.rs:350-356, 362-368): new outbound cipher, whole output buffer, outcome. -/
def encryptInto (P : Prims) (prof : Profile) (o : OutboundCipher) (buf : Bytes) (off : Nat)
    (contents : Bytes) (ty : PacketType) (aad : Option Bytes) :
    OutboundCipher × Bytes × Outcome Error Unit :=
  let packetLen := OutboundCipher.encryptionBufferLen contents.length
  match o.encrypt P prof contents (slice buf off packetLen) ty aad with
  | (o', part, r) => (o', writeAt buf off part, r)

/-- handshake.rs:349-359: the loop over the decoys.  State: outbound cipher, buffer,
`bytes_written`, `aad`. -/
def writeDecoys (P : Prims) (prof : Profile) (o : OutboundCipher) (buf : Bytes) (bytesWritten : Nat)
    (aad : Option Bytes) :
    List Bytes → OutboundCipher × Bytes × Nat × Option Bytes × Outcome Error Unit
  | [] => (o, buf, bytesWritten, aad, .ok ())
  | decoy :: decoys =>
    match encryptInto P prof o buf bytesWritten decoy .decoy aad with
    | (o', buf', .ok ()) =>
      writeDecoys P prof o' buf'
        (bytesWritten + OutboundCipher.encryptionBufferLen decoy.length) none decoys
    | (o', buf', r) => (o', buf', bytesWritten, aad, r)

/-- handshake.rs:315-378 `send_version`: output buffer and result. -/
def HsReceivedKey.sendVersion (P : Prims) (prof : Profile) (h : HsReceivedKey)
    (outputBuffer : Bytes) (decoys : Option (List Bytes)) : Bytes × Outcome Error HsSentVersion :=
  let requiredLen := HsReceivedKey.sendVersionLen decoys
  if outputBuffer.length < requiredLen then
    (outputBuffer, .err (.bufferTooSmall requiredLen))
  else
    let cipher := CipherSession.new h.sessionKeys h.role
    let (localTerminator, remoteTerminator) :=
      match h.role with
      | .initiator =>
        (h.sessionKeys.initiatorGarbageTerminator, h.sessionKeys.responderGarbageTerminator)
      | .responder =>
        (h.sessionKeys.responderGarbageTerminator, h.sessionKeys.initiatorGarbageTerminator)
    let buf := writeAt outputBuffer 0 localTerminator
    match writeDecoys P prof cipher.outbound buf NUM_GARBAGE_TERMINATOR_BYTES h.localGarbage
        (decoys.getD []) with
    | (_, buf, _, _, .err e) => (buf, .err e)
    | (_, buf, _, _, .panic) => (buf, .panic)
    | (o, buf, off, aad, .ok ()) =>
      match encryptInto P prof o buf off VERSION_CONTENT .genuine aad with
      | (_, buf, .err e) => (buf, .err e)
      | (_, buf, .panic) => (buf, .panic)
      | (o, buf, .ok ()) =>
        (buf, .ok { magic := h.magic, role := h.role, cipher := { cipher with outbound := o },
                    remoteTerminator })

/-- `buffer.windows(t.len()).position(|window| window == t)`. handshake.rs:471-476. -/
def windowPosition (buffer t : Bytes) : Option Nat :=
  (List.range (buffer.length + 1 - t.length)).find? fun i => slice buffer i t.length == t

/-- handshake.rs:466-486 `split_garbage`: garbage and the bytes after the terminator. -/
def HsSentVersion.splitGarbage (h : HsSentVersion) (buffer : Bytes) :
    Outcome Error (Bytes × Bytes) :=
  match windowPosition
      (buffer.take (min buffer.length (MAX_NUM_GARBAGE_BYTES + NUM_GARBAGE_TERMINATOR_BYTES)))
      h.remoteTerminator with
  | some index => .ok (buffer.take index, (buffer.drop index).drop h.remoteTerminator.length)
  | none =>
    if buffer.length ≥ MAX_NUM_GARBAGE_BYTES + NUM_GARBAGE_TERMINATOR_BYTES then
      .err .noGarbageTerminator
    else .err .ciphertextTooSmall

/-- handshake.rs:438-463 `receive_garbage`. -/
def HsSentVersion.receiveGarbage (h : HsSentVersion) (inputBuffer : Bytes) :
    Outcome Error GarbageResult :=
  match h.splitGarbage inputBuffer with
  | .ok (garbage, _) =>
    .ok (.foundGarbage
      { magic := h.magic, role := h.role, cipher := h.cipher,
        remoteGarbage := if garbage.isEmpty then none else some garbage }
      (garbage.length + NUM_GARBAGE_TERMINATOR_BYTES))
  | .err .ciphertextTooSmall => .ok (.needMoreData h)
  | .err e => .err e
  | .panic => .panic

/-- handshake.rs:491-493 `Handshake<ReceivedGarbage>::decrypt_packet_len`. -/
def HsReceivedGarbage.decryptPacketLen (P : Prims) (prof : Profile) (h : HsReceivedGarbage)
    (lengthBytes : Bytes) : HsReceivedGarbage × Outcome Error Nat :=
  match h.cipher.inbound.decryptPacketLen P prof lengthBytes with
  | (i, r) => ({ h with cipher := { h.cipher with inbound := i } }, r)

/-- handshake.rs:565-581 `receive_version`: the buffer after in-place decryption and the result. -/
def HsReceivedGarbage.receiveVersion (P : Prims) (prof : Profile) (h : HsReceivedGarbage)
    (inputBuffer : Bytes) : Bytes × Outcome Error VersionResult :=
  let aad := h.remoteGarbage
  match h.cipher.inbound.decryptInPlace P prof inputBuffer aad with
  | (_, buf, .err e) => (buf, .err e)
  | (_, buf, .panic) => (buf, .panic)
  | (i, buf, .ok (packetType, _)) =>
    let cipher := { h.cipher with inbound := i }
    match packetType with
    | .genuine => (buf, .ok (.complete cipher))
    | .decoy => (buf, .ok (.decoy { h with cipher, remoteGarbage := none }))

end Bip324
