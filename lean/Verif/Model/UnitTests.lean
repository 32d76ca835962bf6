import Verif.Model.Tests
import Verif.Model.TrafficIo

/-!
# Model of the unit tests of the protocol crate

The `tests` modules of `protocol/src/handshake.rs`, `protocol/src/lib.rs` and `protocol/src/io.rs`.  The random keys are
parameters, and so are the literals that a test writes down (garbage, decoys, messages): the values of the test are named
in the comment.  `none` is a panic: the test has failed.
-/

namespace Bip324

/-! ## handshake.rs -/

/-- The next packet, taken by index: what `receive_version` makes of it, and what is left.
handshake.rs:665-675, 678-681, 704-713, 718-721, 833-837. -/
def takePacket (P : Prims) (prof : Profile) (h : HsReceivedGarbage) (remaining : Bytes) :
    Option (VersionResult × Bytes) := do
  orElsePanic (NUM_LENGTH_BYTES ≤ remaining.length)
  let h := h.decryptPacketLen P prof (remaining.take NUM_LENGTH_BYTES)
  let packetLen ← h.2.orPanic
  orElsePanic (NUM_LENGTH_BYTES + packetLen ≤ remaining.length)
  let result ← (h.1.receiveVersion P prof (slice remaining NUM_LENGTH_BYTES packetLen)).2.orPanic
  some (result, remaining.drop (NUM_LENGTH_BYTES + packetLen))

/-- `n` packets that have to be decoys, and one that has to be the version.
handshake.rs:664-687 (`n = 1`), 702-727 (`n = 2`), 832-842 (`n = 0`). -/
def takePackets (P : Prims) (prof : Profile) (h : HsReceivedGarbage) (remaining : Bytes) :
    Nat → Option CipherSession
  | 0 => do
    match (← takePacket P prof h remaining).1 with
    | .complete cipher => some cipher
    | .decoy _ => none
  | n + 1 => do
    let next ← takePacket P prof h remaining
    match next.1 with
    | .complete _ => none
    | .decoy h => takePackets P prof h next.2 n

/-- The side of one party: the garbage is found in the first call, then the packets. handshake.rs:650-687, 689-727. -/
def takeFlight (P : Prims) (prof : Profile) (h : HsSentVersion) (message : Bytes) (decoys : Nat) :
    Option CipherSession := do
  let (h, consumed) ← (← (h.receiveGarbage message).orPanic).orPanic
  orElsePanic (consumed ≤ message.length)
  takePackets P prof h (message.drop consumed) decoys

/-- handshake.rs:597-731 `test_handshake`.  There the garbage is `[1, 2, 3]` and `[4, 5]`, and there are two decoys (of 4
and 6 bytes) and one (of 3). -/
def testHandshake (P : Prims) (prof : Profile) (magic rngI rngR gI gR : Bytes) (dI dR : List Bytes) : Option Unit := do
  let i ← (HsInitialized.newWithRng P prof magic .initiator rngI).orPanic
  let keyI := i.sendKey (some gI) (zeros (HsInitialized.sendKeyLen (some gI)))
  let i ← keyI.2.orPanic
  let r ← (HsInitialized.newWithRng P prof magic .responder rngR).orPanic
  let keyR := r.sendKey (some gR) (zeros (HsInitialized.sendKeyLen (some gR)))
  let r ← keyR.2.orPanic
  let i ← (i.receiveKey P (keyR.1.take 64)).orPanic
  let r ← (r.receiveKey P (keyI.1.take 64)).orPanic
  let versionI := i.sendVersion P prof (zeros (HsReceivedKey.sendVersionLen (some dI))) (some dI)
  let i ← versionI.2.orPanic
  let versionR := r.sendVersion P prof (zeros (HsReceivedKey.sendVersionLen (some dR))) (some dR)
  let r ← versionR.2.orPanic
  let _ ← takeFlight P prof i (gR ++ versionR.1) dR.length
  let _ ← takeFlight P prof r (gI ++ versionI.1) dI.length
  some ()

/-- `matches!(result, Err(Error::TooMuchGarbage))` and the like: the result is this error. handshake.rs:750, 758-760,
865, 870, 879, 895, 905. -/
def expectErr {α : Type} (e : Error) : Outcome Error α → Option Unit
  | .err e' => orElsePanic (e' = e)
  | _ => none

/-- `assert!(result.is_ok())`. handshake.rs:743, 763. -/
def expectOk {α : Type} : Outcome Error α → Option Unit
  | .ok _ => some ()
  | _ => none

/-- handshake.rs:735-764 `test_handshake_send_key`.  There `valid` is 4095 zeros and `tooMuch` 4096; the buffer has 64
bytes more than `valid` in the first, second and fourth call.  The keys are four. -/
def testSendKey (P : Prims) (prof : Profile) (magic rng1 rng2 rng3 rng4 valid tooMuch : Bytes) : Option Unit := do
  let h ← (HsInitialized.newWithRng P prof magic .initiator rng1).orPanic
  let buffer := zeros (64 + valid.length)
  let result := h.sendKey (some valid) buffer
  expectOk result.2
  let h ← (HsInitialized.newWithRng P prof magic .initiator rng2).orPanic
  let result := h.sendKey (some tooMuch) result.1
  expectErr .tooMuchGarbage result.2
  let buffer := result.1
  let h ← (HsInitialized.newWithRng P prof magic .initiator rng3).orPanic
  let result := h.sendKey (some valid) (zeros (64 + valid.length - 1))
  expectErr (.bufferTooSmall (64 + valid.length)) result.2
  let h ← (HsInitialized.newWithRng P prof magic .initiator rng4).orPanic
  expectOk (h.sendKey none buffer).2

/-- `match … { NeedMoreData(handshake) => handshake, FoundGarbage { .. } => panic!(..) }`. handshake.rs:801-806, 810-815. -/
def GarbageResult.orFound : GarbageResult → Option HsSentVersion
  | .needMoreData h => some h
  | .foundGarbage _ _ => none

/-- handshake.rs:769-843 `test_handshake_receive_garbage_buffer`; there `n1 = 1` and `n2 = 5`. -/
def testGarbageBuffer (P : Prims) (prof : Profile) (magic rngI rngR : Bytes) (n1 n2 : Nat) : Option Unit := do
  let i ← (HsInitialized.newWithRng P prof magic .initiator rngI).orPanic
  let r ← (HsInitialized.newWithRng P prof magic .responder rngR).orPanic
  let keyI := i.sendKey none (zeros 64)
  let i ← keyI.2.orPanic
  let keyR := r.sendKey none (zeros 64)
  let r ← keyR.2.orPanic
  let i ← (i.receiveKey P (keyR.1.take 64)).orPanic
  let r ← (r.receiveKey P (keyI.1.take 64)).orPanic
  let versionI := i.sendVersion P prof (zeros (HsReceivedKey.sendVersionLen none)) none
  let _ ← versionI.2.orPanic
  let versionR := r.sendVersion P prof (zeros (HsReceivedKey.sendVersionLen none)) none
  let r ← versionR.2.orPanic
  orElsePanic (n1 ≤ versionI.1.length)
  let r ← (← (r.receiveGarbage (versionI.1.take n1)).orPanic).orFound
  orElsePanic (n2 ≤ versionI.1.length)
  let r ← (← (r.receiveGarbage (versionI.1.take n2)).orPanic).orFound
  let _ ← takeFlight P prof r versionI.1 0
  some ()

/-- handshake.rs:849-880 `test_handshake_split_garbage`.  There the fake key is 64 zeros, and `junk` (5000 bytes) and
`after` (32) are `0xEE` and `0xFF` repeated. -/
def testSplitGarbage (P : Prims) (prof : Profile) (magic rng fakeKey junk after : Bytes) : Option Unit := do
  let h ← (HsInitialized.newWithRng P prof magic .initiator rng).orPanic
  let h ← (h.sendKey none (zeros 64)).2.orPanic
  let h ← (h.receiveKey P fakeKey).orPanic
  let h ← (h.sendVersion P prof (zeros 1024) none).2.orPanic
  expectErr .noGarbageTerminator (h.splitGarbage (zeros (MAX_NUM_GARBAGE_BYTES + NUM_GARBAGE_TERMINATOR_BYTES)))
  expectErr .ciphertextTooSmall
    (h.splitGarbage (zeros (MAX_NUM_GARBAGE_BYTES + NUM_GARBAGE_TERMINATOR_BYTES - 1)))
  expectErr .noGarbageTerminator (h.splitGarbage (junk ++ h.remoteTerminator ++ after))

/-- handshake.rs:884-906 `test_v1_protocol_detection`: one network and role, then another.  `rest` is what follows the
magic in the key, 60 zeros. -/
def testV1 (P : Prims) (prof : Profile) (magic magic2 rng1 rng2 rest : Bytes) : Option Unit := do
  let h ← (HsInitialized.newWithRng P prof magic .initiator rng1).orPanic
  let key := h.sendKey none (zeros 64)
  let h ← key.2.orPanic
  expectErr .v1Protocol (h.receiveKey P (magic ++ rest))
  let h ← (HsInitialized.newWithRng P prof magic2 .responder rng2).orPanic
  let h ← (h.sendKey none key.1).2.orPanic
  expectErr .v1Protocol (h.receiveKey P (magic2 ++ rest))

/-! ## lib.rs -/

/-- One packet between the two sessions of a test, with the three steps that the tests of lib.rs take: `encrypt` into a
buffer of the right length, `decrypt_packet_len`, `decrypt` into a buffer of the right length.  Result: the ciphers, the
type and the plaintext without its header.  lib.rs:829-846, 848-865, 1002-1023, 1025-1045, 1068-1093.  (The first two take the
rest of the packet and the others as many bytes as announced.) -/
def packetStep (P : Prims) (prof : Profile) (o : OutboundCipher) (i : InboundCipher) (message : Bytes) (ty : PacketType)
    (aad : Option Bytes) : Option (OutboundCipher × InboundCipher × PacketType × Bytes) := do
  let packet := o.encrypt P prof message (zeros (OutboundCipher.encryptionBufferLen message.length)) ty aad
  packet.2.2.orPanic
  let len := i.decryptPacketLen P prof (slice packet.2.1 0 NUM_LENGTH_BYTES)
  let messageLen ← len.2.orPanic
  let bufferLen ← InboundCipher.decryptionBufferLen prof messageLen
  orElsePanic (NUM_LENGTH_BYTES + messageLen ≤ packet.2.1.length)
  let decrypted := len.1.decrypt P prof (slice packet.2.1 NUM_LENGTH_BYTES messageLen) (zeros bufferLen) aad
  let ty' ← decrypted.2.2.orPanic
  some (packet.1, decrypted.1, ty', decrypted.2.1.drop 1)

/-- The session keys of a test, and the two sessions. lib.rs:814-828, 870-884, 926-938, 960-972, 985-999, 1052-1066. -/
def testKeys (P : Prims) (magic ellA ellB secret : Bytes) : Option SessionKeyMaterial :=
  (SessionKeyMaterial.fromEcdh P ellA ellB secret .A magic).orPanic

/-- lib.rs:812-866 `test_cipher_session`; there the messages are `Bitcoin rox!`, a decoy, and `Windows sox!`, genuine. -/
def testCipherSession (P : Prims) (prof : Profile) (magic ellA ellB secret message1 message2 : Bytes)
    (ty1 ty2 : PacketType) : Option Unit := do
  let keys ← testKeys P magic ellA ellB secret
  let alice := CipherSession.new keys .initiator
  let bob := CipherSession.new keys .responder
  let (_, _, ty, plain) ← packetStep P prof alice.outbound bob.inbound message1 ty1 none
  orElsePanic (ty = ty1)
  orElsePanic (message1 = plain)
  let (_, _, ty, plain) ← packetStep P prof bob.outbound alice.inbound message2 ty2 none
  orElsePanic (ty = ty2)
  orElsePanic (message2 = plain)

/-- One packet, and `decrypt_in_place` without `decrypt_packet_len`. lib.rs:886-902, 904-921. -/
def inPlaceStep (P : Prims) (prof : Profile) (o : OutboundCipher) (i : InboundCipher) (message : Bytes) (ty : PacketType)
    (aad : Option Bytes) : Option Unit := do
  let packet := o.encrypt P prof message (zeros (OutboundCipher.encryptionBufferLen message.length)) ty aad
  packet.2.2.orPanic
  let (ty', plain) ← (i.decryptInPlace P prof (packet.2.1.drop NUM_LENGTH_BYTES) aad).2.2.orPanic
  orElsePanic (ty' = ty)
  orElsePanic (message = plain.drop 1)

/-- lib.rs:868-922 `test_decrypt_in_place`. -/
def testDecryptInPlace (P : Prims) (prof : Profile) (magic ellA ellB secret message1 message2 aad : Bytes) :
    Option Unit := do
  let keys ← testKeys P magic ellA ellB secret
  let alice := CipherSession.new keys .initiator
  let bob := CipherSession.new keys .responder
  inPlaceStep P prof alice.outbound bob.inbound message1 .genuine none
  inPlaceStep P prof bob.outbound alice.inbound message2 .decoy (some aad)

/-- lib.rs:924-956 `test_decrypt_min_length`; there the ciphertext is 16 zeros and the buffer has 100 bytes. -/
def testMinLength (P : Prims) (prof : Profile) (magic ellA ellB secret ciphertext buffer : Bytes) : Option Unit := do
  let keys ← testKeys P magic ellA ellB secret
  let alice := CipherSession.new keys .initiator
  let result := alice.inbound.decrypt P prof ciphertext buffer none
  expectErr .ciphertextTooSmall result.2.2
  expectErr .ciphertextTooSmall (result.1.decryptInPlace P prof ciphertext none).2.2

/-- lib.rs:958-980 `test_decrypt_to_vec_packet_too_big`; there the ciphertext is 4000031 zeros. -/
def testToVecTooBig (P : Prims) (prof : Profile) (magic ellA ellB secret ciphertext : Bytes) : Option Unit := do
  let keys ← testKeys P magic ellA ellB secret
  let alice := CipherSession.new keys .initiator
  expectErr .packetTooBig (alice.inbound.decryptToVec P prof ciphertext none).2

/-- lib.rs:1000-1046 the loop of `test_fuzz_packets`: the random messages of the rounds. -/
def fuzzRounds (P : Prims) (prof : Profile) (alice bob : CipherSession) : List (Bytes × Bytes) → Option Unit
  | [] => some ()
  | (message1, message2) :: rounds => do
    let (o1, i1, _, plain) ← packetStep P prof alice.outbound bob.inbound message1 .genuine none
    orElsePanic (message1 = plain)
    let (o2, i2, _, plain) ← packetStep P prof bob.outbound alice.inbound message2 .genuine none
    orElsePanic (message2 = plain)
    fuzzRounds P prof { alice with outbound := o1, inbound := i2 } { bob with outbound := o2, inbound := i1 } rounds

/-- lib.rs:982-1047 `test_fuzz_packets`: there 324 rounds of 4095 and 420 bytes. -/
def testFuzzPackets (P : Prims) (prof : Profile) (magic ellA ellB secret : Bytes) (rounds : List (Bytes × Bytes)) :
    Option Unit := do
  let keys ← testKeys P magic ellA ellB secret
  fuzzRounds P prof (CipherSession.new keys .initiator) (CipherSession.new keys .responder) rounds

/-- lib.rs:1049-1094 `test_additional_authenticated_data`: the receiver passes `aad2`; in the test it is the `aad1` of the
sender.  (Written out, since the two differ here.) -/
def testAad (P : Prims) (prof : Profile) (magic ellA ellB secret content aad1 aad2 : Bytes) : Option Unit := do
  let keys ← testKeys P magic ellA ellB secret
  let alice := CipherSession.new keys .initiator
  let bob := CipherSession.new keys .responder
  let packet := alice.outbound.encrypt P prof content (zeros (OutboundCipher.encryptionBufferLen content.length)) .genuine
    (some aad1)
  packet.2.2.orPanic
  let len := bob.inbound.decryptPacketLen P prof (packet.2.1.take NUM_LENGTH_BYTES)
  let messageLen ← len.2.orPanic
  let bufferLen ← InboundCipher.decryptionBufferLen prof messageLen
  orElsePanic (NUM_LENGTH_BYTES + messageLen ≤ packet.2.1.length)
  let decrypted := len.1.decrypt P prof (slice packet.2.1 NUM_LENGTH_BYTES messageLen) (zeros bufferLen) (some aad2)
  let _ ← decrypted.2.2.orPanic
  some ()

/-! ## io.rs -/

/-- io.rs:591-657 `generate_handshake_messages`. -/
def generateMessages (P : Prims) (prof : Profile) (magic rngLocal rngRemote : Bytes) (localRole : Role)
    (garbage : Option Bytes) (decoys : Option (List Bytes)) : Option Bytes := do
  let l ← (HsInitialized.newWithRng P prof magic localRole rngLocal).orPanic
  let remoteRole := match localRole with
    | .initiator => Role.responder
    | .responder => Role.initiator
  let r ← (HsInitialized.newWithRng P prof magic remoteRole rngRemote).orPanic
  let keyL := l.sendKey garbage (zeros (HsInitialized.sendKeyLen garbage))
  let l ← keyL.2.orPanic
  let keyR := r.sendKey none (zeros 64)
  let _ ← keyR.2.orPanic
  let l ← (l.receiveKey P (keyR.1.take 64)).orPanic
  let version := l.sendVersion P prof (zeros (HsReceivedKey.sendVersionLen decoys)) decoys
  let _ ← version.2.orPanic
  some (keyL.1.take 64 ++ garbage.getD [] ++ version.1)

/-- io.rs:659-704 `test_handshake_session_reader`.  A `Cursor` is a source that has all its bytes at once, and a `Vec` a
sink that takes everything.  In the test the garbage is `responder garbage`, there are two decoys, and the byte is `0x42`.
-/
def testSessionReader (P : Prims) (prof : Profile) (magic rngI rngR : Bytes) (garbage : Option Bytes)
    (decoys : Option (List Bytes)) (sessionByte : UInt8) : Option Unit := do
  let h ← (HsInitialized.newWithRng P prof magic .initiator rngI).orPanic
  let messages ← generateMessages P prof magic rngR rngI .responder garbage decoys
  match (handshakeWithInitialized syncApi P prof h none none [.data (messages ++ [sessionByte])] ⟨[], [], []⟩).2.2 with
  | .ok (_, _, reader) =>
    match (SyncSession.read reader 1).2 with
    | .ok [b] => orElsePanic (b = sessionByte)
    | _ => none
  | _ => none

/-- io.rs:706-734 `test_handshake_packet_too_big_protection`; there the decoy is 4000015 zeros. -/
def testTooBig (P : Prims) (prof : Profile) (magic rngI rngR decoy : Bytes) : Option Unit := do
  let h ← (HsInitialized.newWithRng P prof magic .initiator rngI).orPanic
  let messages ← generateMessages P prof magic rngR rngI .responder none (some [decoy])
  match (handshakeWithInitialized syncApi P prof h none none [.data messages] ⟨[], [], []⟩).2.2 with
  | .err (.internal .packetTooBig) => some ()
  | _ => none

/-! ## round_trips.rs, the test that is to panic -/

/-- round_trips.rs:601-625 `regtest_handshake_v1_only`, marked `#[should_panic]`: what it has read, or `none` if it panics,
and then it has passed.  The stream is a source and a sink. -/
def testV1Only (P : Prims) (prof : Profile) (magic rng : Bytes) (src : Source) (w : Sink) : Option Bytes := do
  let h ← (HsInitialized.newWithRng P prof magic .initiator rng).orPanic
  let key := h.sendKey none (zeros (HsInitialized.sendKeyLen none))
  let _ ← key.2.orPanic
  match (w.send true key.1).2, (Source.reader.readExact true src 64).2 with
  | .ok (), .ok bs => some bs
  | _, _ => none

/-! ## The traffic crate -/

/-- traffic/lib.rs:475-485 `test_traffic_stats_recording`; the clock is asked four times. -/
def testStats (clock0 clock1 clock2 clock3 : Int) (read written : Nat) : Option Unit := do
  let s ← Stats.new clock0
  let now ← nowMs clock1
  let s := ((RecordCall.read read).ops now).foldl Stats.apply s
  let now ← nowMs clock2
  let s := ((RecordCall.write written).ops now).foldl Stats.apply s
  let since ← s.timeSinceLastActivity clock3
  orElsePanic (since < 100)

/-- traffic/lib.rs:487-521 `test_traffic_shaper_handshake_disabled`, `.._with_padding` and `.._with_decoys`, as one test of a
configuration: garbage exactly if there is padding, decoys exactly if there are decoys, and never too much garbage. -/
def testShaperHandshake {R : Rng} (config : TrafficConfig) (rng : R.State) : Option Unit := do
  let (_, garbage, decoys, _) := (Shaper.mk (R := R) config rng).handshake
  orElsePanic (garbage.isSome == (config.padding == .random))
  orElsePanic (decoys.isSome == (config.decoy == .random))
  orElsePanic ((garbage.getD []).length ≤ 4095)

/-- traffic/lib.rs:523-533 `test_traffic_shaper_padding_disabled`. -/
def testPaddingDisabled {R : Rng} (decoy : DecoyStrategy) (rng : R.State) (contents : Bytes) : Option Unit := do
  let (_, padding, _) ← (Shaper.mk (R := R) ⟨.disabled, decoy⟩ rng).pad (.genuine contents)
  orElsePanic padding.isNone

/-- traffic/io.rs:242-250 `test_protocol_drop`: what `ShapedProtocol::new` returns there, and the test drops.  The reader is
an empty cursor. -/
def testProtocolDrop {R : Rng} (P : Prims) (prof : Profile) (magic rngBytes : Bytes) (config : TrafficConfig)
    (rng : R.State) (w : Sink) : Outcome ProtocolError (ShapedSys R) :=
  ShapedSys.new P prof magic .initiator rngBytes config rng [] w

end Bip324
