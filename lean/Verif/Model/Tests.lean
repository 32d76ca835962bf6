import Verif.Model.SansIo
import Verif.Model.Transport

/-!
# Model of the tests and benchmarks that drive the library by hand

`protocol/tests/round_trips.rs` and `protocol/benches/cipher_session.rs`.  The bytes of the random generators are
parameters, and so are the messages and the network.  `none` is a panic: the test has failed.
-/

namespace Bip324

/-- `.unwrap()` in a test. round_trips.rs:15-151, 341-455; cipher_session.rs:14-178. -/
def Outcome.orPanic {α : Type} : Outcome Error α → Option α
  | .ok a => some a
  | _ => none

/-- `match … { FoundGarbage { .. } => .., NeedMoreData(_) => panic!(..) }`.
round_trips.rs:50-59, 72-81, 381-390; cipher_session.rs:51-60, 76-85. -/
def GarbageResult.orPanic : GarbageResult → Option (HsReceivedGarbage × Nat)
  | .foundGarbage h n => some (h, n)
  | .needMoreData _ => none

/-- An assertion, or the check of the bounds of a slice. round_trips.rs:62-70, 122, 150; cipher_session.rs:63-67, 130. -/
def orElsePanic (ok : Bool) : Option Unit := if ok then some () else none

/-- One version packet, taken by index from the buffer; a decoy is a failure.
round_trips.rs:62-70, 84-92; cipher_session.rs:63-72, 88-97. -/
def takeVersion (P : Prims) (prof : Profile) (h : HsReceivedGarbage) (buffer : Bytes) (consumed : Nat) :
    Option CipherSession := do
  orElsePanic (consumed ≤ buffer.length)
  let remaining := buffer.drop consumed
  orElsePanic (NUM_LENGTH_BYTES ≤ remaining.length)
  let h := h.decryptPacketLen P prof (remaining.take NUM_LENGTH_BYTES)
  let packetLen ← h.2.orPanic
  orElsePanic (NUM_LENGTH_BYTES + packetLen ≤ remaining.length)
  match ← (h.1.receiveVersion P prof (slice remaining NUM_LENGTH_BYTES packetLen)).2.orPanic with
  | .complete cipher => some cipher
  | .decoy _ => none

/-- round_trips.rs:15-92 and cipher_session.rs:14-100 `create_cipher_session_pair`: a handshake of two parties in one
program.  (The benchmark passes the whole key buffer to `receive_key` and the test its first 64 bytes; the buffer has
64.) -/
def sessionPair (P : Prims) (prof : Profile) (magic rngA rngB : Bytes) : Option (CipherSession × CipherSession) := do
  let alice ← (HsInitialized.newWithRng P prof magic .initiator rngA).orPanic
  let aliceKey := alice.sendKey none (zeros (HsInitialized.sendKeyLen none))
  let alice ← aliceKey.2.orPanic
  let bob ← (HsInitialized.newWithRng P prof magic .responder rngB).orPanic
  let bobKey := bob.sendKey none (zeros (HsInitialized.sendKeyLen none))
  let bob ← bobKey.2.orPanic
  let alice ← (alice.receiveKey P (bobKey.1.take 64)).orPanic
  let bob ← (bob.receiveKey P (aliceKey.1.take 64)).orPanic
  let aliceVersion := alice.sendVersion P prof (zeros (HsReceivedKey.sendVersionLen none)) none
  let alice ← aliceVersion.2.orPanic
  let bobVersion := bob.sendVersion P prof (zeros (HsReceivedKey.sendVersionLen none)) none
  let bob ← bobVersion.2.orPanic
  let (alice, consumed) ← (← (alice.receiveGarbage bobVersion.1).orPanic).orPanic
  let alice ← takeVersion P prof alice bobVersion.1 consumed
  let (bob, consumed) ← (← (bob.receiveGarbage aliceVersion.1).orPanic).orPanic
  let bob ← takeVersion P prof bob aliceVersion.1 consumed
  some (alice, bob)

/-- round_trips.rs:95-122 (and 124-150, with the parties exchanged): one message, and the assertion that it has
arrived. -/
def helloMessage (P : Prims) (prof : Profile) (sender receiver : CipherSession) (message : Bytes) :
    Option (CipherSession × CipherSession) := do
  let packet := sender.outbound.encrypt P prof message
    (zeros (OutboundCipher.encryptionBufferLen message.length)) .genuine none
  packet.2.2.orPanic
  let len := receiver.inbound.decryptPacketLen P prof (packet.2.1.take NUM_LENGTH_BYTES)
  let messageLen ← len.2.orPanic
  let bufferLen ← InboundCipher.decryptionBufferLen prof messageLen
  let decrypted := len.1.decrypt P prof (packet.2.1.drop NUM_LENGTH_BYTES) (zeros bufferLen) none
  let _ ← decrypted.2.2.orPanic
  orElsePanic (message = decrypted.2.1.drop 1)
  some ({ sender with outbound := packet.1 }, { receiver with inbound := decrypted.1 })

/-- round_trips.rs:9-151 `hello_world_happy_path`; there the messages are `Hello world` and `Goodbye!`. -/
def helloWorld (P : Prims) (prof : Profile) (magic rngA rngB hello goodbye : Bytes) : Option Unit := do
  let (alice, bob) ← sessionPair P prof magic rngA rngB
  let (bob, alice) ← helloMessage P prof bob alice hello
  let _ ← helloMessage P prof alice bob goodbye
  some ()

/-- cipher_session.rs:107-138 and 146-177: what is measured.  The value that `black_box` keeps is the second result. -/
def benchRound (P : Prims) (prof : Profile) (plaintext : Bytes) (alice bob : CipherSession) :
    Option ((CipherSession × CipherSession) × Bytes) := do
  let packet := alice.outbound.encrypt P prof plaintext
    (zeros (OutboundCipher.encryptionBufferLen plaintext.length)) .genuine none
  packet.2.2.orPanic
  let len := bob.inbound.decryptPacketLen P prof (slice packet.2.1 0 NUM_LENGTH_BYTES)
  let packetLength ← len.2.orPanic
  let bufferLen ← InboundCipher.decryptionBufferLen prof packetLength
  orElsePanic (NUM_LENGTH_BYTES + packetLength ≤ packet.2.1.length)
  let decrypted := len.1.decrypt P prof (slice packet.2.1 NUM_LENGTH_BYTES packetLength) (zeros bufferLen) none
  let _ ← decrypted.2.2.orPanic
  some (({ alice with outbound := packet.1 }, { bob with inbound := decrypted.1 }), decrypted.2.1)

/-- `b.iter(..)` with `n` iterations: the values kept. cipher_session.rs:107, 146. -/
def benchRounds (P : Prims) (prof : Profile) (plaintext : Bytes) :
    Nat → CipherSession → CipherSession → Option (List Bytes)
  | 0, _, _ => some []
  | n + 1, alice, bob => do
    let ((alice, bob), kept) ← benchRound P prof plaintext alice bob
    let more ← benchRounds P prof plaintext n alice bob
    some (kept :: more)

/-- cipher_session.rs:102-178 `bench_round_trip_small_packet` and `bench_round_trip_large_packet`: the plaintexts are
`Hello, World!` and 4096 zeros. -/
def benchmark (P : Prims) (prof : Profile) (magic rngA rngB plaintext : Bytes) (n : Nat) : Option (List Bytes) := do
  let (alice, bob) ← sessionPair P prof magic rngA rngB
  benchRounds P prof plaintext n alice bob

/-- `stream.read_exact(..).unwrap()`. round_trips.rs:353, 448, 451. -/
def readOrPanic (reader : Source) (n : Nat) : Option (Source × Bytes) :=
  match Source.reader.readExact true reader n with
  | (reader, .ok bytes) => some (reader, bytes)
  | _ => none

/-- `stream.write_all(..).unwrap()`. round_trips.rs:347, 365, 445. -/
def writeOrPanic (writer : Sink) (bytes : Bytes) : Option Sink :=
  match writer.writeAll true bytes with
  | (writer, .ok ()) => some writer
  | _ => none

/-- `stream.flush().unwrap()`. round_trips.rs:348, 366. -/
def flushOrPanic (writer : Sink) : Option Sink :=
  match writer.flush with
  | (writer, .ok ()) => some writer
  | _ => none

/-- `stream.read(&mut max_response).unwrap()`. round_trips.rs:369-372. -/
def readOnce (reader : Source) (n : Nat) : Option (Source × Bytes) :=
  match Source.read reader n with
  | (reader, .ok bytes) => some (reader, bytes)
  | _ => none

/-- round_trips.rs:314-422 the handshake of `regtest_handshake`, against any stream: the session, the rest of the stream
and the writer.  The loop at 391-418 is that of the documentation. -/
def regtestSession (P : Prims) (prof : Profile) (magic rng : Bytes) (reader : Source) (writer : Sink) :
    Option (CipherSession × Source × Sink) := do
  let h ← (HsInitialized.newWithRng P prof magic .initiator rng).orPanic
  let key := h.sendKey none (zeros (HsInitialized.sendKeyLen none))
  let h ← key.2.orPanic
  let writer ← writeOrPanic writer key.1
  let writer ← flushOrPanic writer
  let (reader, remoteKey) ← readOrPanic reader 64
  let h ← (h.receiveKey P remoteKey).orPanic
  let version := h.sendVersion P prof (zeros (HsReceivedKey.sendVersionLen none)) none
  let h ← version.2.orPanic
  let writer ← writeOrPanic writer version.1
  let writer ← flushOrPanic writer
  let (reader, response) ← readOnce reader 4096
  let (h, consumed) ← (← (h.receiveGarbage response).orPanic).orPanic
  orElsePanic (consumed ≤ response.length)
  let (cipher, _) ← (docVersion P prof h (response.drop consumed)).orPanic
  some (cipher, reader, writer)

/-- round_trips.rs:314-456 `regtest_handshake`.  `message` is the serialised version message.  Result: the contents that
the test then deserialises (455), and the writer. -/
def regtestHandshake (P : Prims) (prof : Profile) (magic rng message : Bytes) (reader : Source) (writer : Sink) :
    Option (Bytes × Sink) := do
  let (cipher, reader, writer) ← regtestSession P prof magic rng reader writer
  let packet := cipher.outbound.encrypt P prof message
    (zeros (OutboundCipher.encryptionBufferLen message.length)) .genuine none
  packet.2.2.orPanic
  let writer ← writeOrPanic writer packet.2.1
  let (reader, responseLen) ← readOrPanic reader NUM_LENGTH_BYTES
  let len := cipher.inbound.decryptPacketLen P prof responseLen
  let messageLen ← len.2.orPanic
  let (_, responseMessage) ← readOrPanic reader messageLen
  let bufferLen ← InboundCipher.decryptionBufferLen prof responseMessage.length
  let decrypted := len.1.decrypt P prof responseMessage (zeros bufferLen) none
  let _ ← decrypted.2.2.orPanic
  some (decrypted.2.1.drop 1, writer)

end Bip324
