import Verif.Model.Futures

/-!
# What reading costs

Ghost functions beside the model: the windows that the search for the garbage terminator compares and the sizes of
the vectors that one call of `read` allocates.  They follow the definitions of the model line by line.
-/

namespace Bip324

/-- The windows that `.windows(t.len()).position(..)` compares, the matching one included
(protocol/src/handshake.rs:471-476). -/
def windowsCompared (buffer t : Bytes) : Nat :=
  match windowPosition buffer t with
  | some i => i + 1
  | none => buffer.length + 1 - t.length

/-- The windows that one call of `receive_garbage` compares (protocol/src/handshake.rs:438, 471-476). -/
def HsSentVersion.searchCost (h : HsSentVersion) (buffer : Bytes) : Nat :=
  windowsCompared
    (buffer.take (min buffer.length (MAX_NUM_GARBAGE_BYTES + NUM_GARBAGE_TERMINATOR_BYTES))) h.remoteTerminator

/-- The vectors that one call of the synchronous `read` allocates: the packet (protocol/src/io.rs:532) and, in
`decrypt_to_vec`, the plaintext (protocol/src/lib.rs:575-581). -/
def SyncReader.readAllocs (P : Prims) (prof : Profile) (r : SyncReader) : List Nat :=
  match SyncSession.reader.readExact true r.reader NUM_LENGTH_BYTES with
  | (_, .error _) => []
  | (s, .ok lengthBytes) =>
  match r.cipher.decryptPacketLen P prof lengthBytes with
  | (_, .ok packetBytesLen) =>
    packetBytesLen ::
      match SyncSession.reader.readExact true s packetBytesLen with
      | (_, .error _) => []
      | (_, .ok packetBytes) =>
        match InboundCipher.decryptionBufferLen prof packetBytes.length with
        | none => []
        | some plaintextLen => if plaintextLen > MAX_PACKET_SIZE_FOR_ALLOCATION then [] else [plaintextLen]
  | _ => []

/-- The vector that the payload arm of the asynchronous `read` allocates in one poll
(protocol/src/futures.rs:439-440). -/
def AsyncReader.payloadAllocs (prof : Profile) (s : AsyncSession) (packetBytes : Bytes) (bytesRead : Nat) :
    List Nat :=
  match pollFill s packetBytes bytesRead with
  | .full _ buf _ => (InboundCipher.decryptionBufferLen prof buf.length).toList
  | _ => []

/-- The vectors that one poll of the asynchronous `read` allocates: the packet, which stays in the state of the
reader (protocol/src/futures.rs:372-377, 420-421), and the plaintext (protocol/src/futures.rs:439-440). -/
def AsyncReader.pollAllocs (P : Prims) (prof : Profile) (r : AsyncReader) : List Nat :=
  match r.state with
  | .readingLength lengthBytes bytesRead =>
    match pollFill r.reader lengthBytes bytesRead with
    | .full s buf _ =>
      match r.cipher.decryptPacketLen P prof buf with
      | (_, .ok packetBytesLen) => packetBytesLen :: AsyncReader.payloadAllocs prof s (zeros packetBytesLen) 0
      | _ => []
    | _ => []
  | .readingPayload packetBytes bytesRead => AsyncReader.payloadAllocs prof r.reader packetBytes bytesRead

/-- What an asynchronous reader keeps between polls: the packet it has announced room for
(protocol/src/futures.rs:351-360). -/
def AsyncReader.room (r : AsyncReader) : Nat :=
  match r.state with
  | .readingLength _ _ => 0
  | .readingPayload packetBytes _ => packetBytes.length

end Bip324
