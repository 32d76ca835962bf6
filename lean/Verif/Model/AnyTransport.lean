import Verif.Model.Futures

/-!
# The I/O code over any transport

`Verif/Model/Io.lean` and `Verif/Model/Futures.lean` run the code against scripts of answers.  Here the same code runs
against a transport that is any state machine: its answers may depend on everything that was written and read before,
and it may block forever.  Each loop is given `fuel` many rounds; `none` is an execution in which the transport did not
answer or some loop did not end within them.  Every execution that ends is one for some fuel, so a theorem for all `fuel`
is one about all of them.
Props/AnyTransport.lean proves that the scripts lose nothing.
-/

namespace Bip324

/-- A connected transport: `Read::read`, `Write::write` and `Write::flush`, or the awaited tokio calls.
Environment: the `R: Read`, `W: Write` that io.rs:280-293 and io.rs:418-421 take, and their tokio versions in futures.rs:151-160. -/
structure Conn (σ : Type) where
  read : σ → Nat → Option (σ × ReadRes)
  write : σ → Bytes → Option (σ × Except ErrorKind Nat)
  flush : σ → Option (σ × Except ErrorKind Unit)

/-- The transport, and as a ghost all answers to reads that it gave and all bytes that it took.
Environment and ghost; the calls recorded are those of io.rs:344-403, 528-533, 570-571 and futures.rs:178-237, 409-428, 488-489. -/
structure ConnRun (σ : Type) where
  net : σ
  answers : Source
  sent : Bytes
deriving Repr, DecidableEq

variable {σ S : Type}

/-- One `read`. The calls `reader.read(..)` at io.rs:377, io.rs:83 and inside `read_exact`; futures.rs:211, 120. -/
def Conn.readRun (N : Conn σ) (r : ConnRun σ) (n : Nat) : Option (ConnRun σ × ReadRes) :=
  match N.read r.net n with
  | none => none
  | some (s, .ok bs) => some ({ r with net := s, answers := r.answers ++ [.data bs] }, .ok bs)
  | some (s, .err k) => some ({ r with net := s, answers := r.answers ++ [.fail k] }, .err k)

/-- One `write`. Inside `write_all` at io.rs:344, 356, 570; futures.rs:178, 190, 488. -/
def Conn.writeRun (N : Conn σ) (r : ConnRun σ) (buf : Bytes) : Option (ConnRun σ × Except ErrorKind Nat) :=
  match N.write r.net buf with
  | none => none
  | some (s, .ok n) => some ({ r with net := s, sent := r.sent ++ buf.take n }, .ok n)
  | some (s, .error k) => some ({ r with net := s }, .error k)

/-- One `flush`. io.rs:345, 357, 571; futures.rs:179, 191, 489. -/
def Conn.flushRun (N : Conn σ) (r : ConnRun σ) : Option (ConnRun σ × Except ErrorKind Unit) :=
  match N.flush r.net with
  | none => none
  | some (s, x) => some ({ r with net := s }, x)

/-- `read_exact` over any reader, as `Reader.readExact`.
std and tokio code, called at io.rs:349, 361, 395, 403, 528, 533; futures.rs:183, 195, 229, 237. -/
def readExactN (fuel : Nat) (rd : S → Nat → Option (S × ReadRes)) (retry : Bool) (s : S) (need : Nat) (acc : Bytes) :
    Option (S × Except ErrorKind Bytes) :=
  match fuel with
  | 0 => none
  | fuel + 1 =>
  if need = 0 then some (s, .ok acc)
  else
    match rd s need with
    | none => none
    | some (s', .ok []) => some (s', .error .unexpectedEof)
    | some (s', .ok (b :: bs)) => readExactN fuel rd retry s' (need - (b :: bs).length) (acc ++ (b :: bs))
    | some (s', .err k) =>
      if retry && k == .interrupted then readExactN fuel rd retry s' need acc else some (s', .error k)

/-- `write_all`, as `Sink.writeAll`. std and tokio code, called at io.rs:344, 356, 570; futures.rs:178, 190, 488. -/
def Conn.writeAll (N : Conn σ) (fuel : Nat) (retry : Bool) (r : ConnRun σ) (buf : Bytes) : Option (ConnRun σ × Except ErrorKind Unit) :=
  match fuel with
  | 0 => none
  | fuel + 1 =>
  match buf with
  | [] => some (r, .ok ())
  | b :: bs =>
    match N.writeRun r (b :: bs) with
    | none => none
    | some (r', .ok 0) => some (r', .error .writeZero)
    | some (r', .ok (n + 1)) => N.writeAll fuel retry r' ((b :: bs).drop (n + 1))
    | some (r', .error k) => if retry && k == .interrupted then N.writeAll fuel retry r' (b :: bs) else some (r', .error k)

/-- `writer.write_all(buf)?; writer.flush()?`. io.rs:344-345, 356-357, 570-571; futures.rs:178-179, 190-191, 488-489. -/
def Conn.send (N : Conn σ) (fuel : Nat) (retry : Bool) (r : ConnRun σ) (buf : Bytes) : Option (ConnRun σ × Except ErrorKind Unit) :=
  match N.writeAll fuel retry r buf with
  | none => none
  | some (r', .error k) => some (r', .error k)
  | some (r', .ok ()) => N.flushRun r'

/-- The session reader of either API, apart from the transport inside it. io.rs:65-85 and futures.rs:76-122. -/
structure ApiN where
  retry : Bool
  Sess : Type
  mkSess : Bytes → Sess
  read : {S : Type} → (S → Nat → Option (S × ReadRes)) → Sess × S → Nat → Option ((Sess × S) × ReadRes)

/-- io.rs:71-85 and `std::io::Chain::read`, as `SyncSession.read`; the pair is the unread part of the cursor and the flag
of the `Chain`. -/
def syncN : ApiN where
  retry := true
  Sess := Bytes × Bool
  mkSess l := (l, false)
  read rd s n :=
    if s.1.2 then
      match rd s.2 n with
      | none => none
      | some (x, r) => some ((s.1, x), r)
    else
      match s.1.1.take n with
      | [] =>
        if n = 0 then some (s, .ok [])
        else
          match rd s.2 n with
          | none => none
          | some (x, r) => some (((s.1.1, true), x), r)
      | b :: bs => some (((s.1.1.drop n, s.1.2), s.2), .ok (b :: bs))

/-- futures.rs:87-122, as `AsyncSession.read`; the pair is the leftover and the position in it. -/
def asyncN : ApiN where
  retry := false
  Sess := Bytes × Nat
  mkSess l := (l, 0)
  read rd s n :=
    if s.1.2 < s.1.1.length then
      let remaining := s.1.1.drop s.1.2
      let toCopy := min remaining.length n
      some (((s.1.1, s.1.2 + toCopy), s.2), .ok (remaining.take toCopy))
    else
      match rd s.2 n with
      | none => none
      | some (x, r) => some ((s.1, x), r)

/-- io.rs:363-387, futures.rs:197-221: the garbage loop, as `garbageLoop`. -/
def garbageLoopN (fuel : Nat) (N : Conn σ) (h : HsSentVersion) (buf : Bytes) (r : ConnRun σ) :
    Option (ConnRun σ × Outcome ProtocolError (HsReceivedGarbage × Nat × Bytes)) :=
  match fuel with
  | 0 => none
  | fuel + 1 =>
  match h.receiveGarbage buf with
  | .ok (.foundGarbage h' consumed) => some (r, .ok (h', consumed, buf))
  | .ok (.needMoreData h') =>
    match N.readRun r 256 with
    | none => none
    | some (r', .ok []) => some (r', .err .eof)
    | some (r', .ok (b :: bs)) => garbageLoopN fuel N h' (buf ++ b :: bs) r'
    | some (r', .err k) => some (r', .err (.fromIo k))
  | .err e => some (r, .err (.internal e))
  | .panic => some (r, .panic)

/-- io.rs:392-414, futures.rs:226-248: the decoy/version loop, as `versionLoop`. -/
def versionLoopN (fuel : Nat) (A : ApiN) (N : Conn σ) (P : Prims) (prof : Profile) (h : HsReceivedGarbage) (s : A.Sess × ConnRun σ) :
    Option (ConnRun σ × Outcome ProtocolError (InboundCipher × OutboundCipher × A.Sess)) :=
  match fuel with
  | 0 => none
  | fuel + 1 =>
  match readExactN fuel (A.read N.readRun) A.retry s NUM_LENGTH_BYTES [] with
  | none => none
  | some (s1, .error k) => some (s1.2, .err (.fromIo k))
  | some (s1, .ok lengthBytes) =>
    match h.decryptPacketLen P prof lengthBytes with
    | (_, .panic) => some (s1.2, .panic)
    | (_, .err e) => some (s1.2, .err (.internal e))
    | (h1, .ok packetLen) =>
      if packetLen > MAX_PACKET_SIZE_FOR_ALLOCATION then some (s1.2, .err (.internal .packetTooBig))
      else
        match readExactN fuel (A.read N.readRun) A.retry s1 packetLen [] with
        | none => none
        | some (s2, .error k) => some (s2.2, .err (.fromIo k))
        | some (s2, .ok packetBytes) =>
          match h1.receiveVersion P prof packetBytes with
          | (_, .panic) => some (s2.2, .panic)
          | (_, .err e) => some (s2.2, .err (.internal e))
          | (_, .ok (.complete cipher)) => some (s2.2, .ok (cipher.intoSplit.1, cipher.intoSplit.2, s2.1))
          | (_, .ok (.decoy h2)) => versionLoopN fuel A N P prof h2 s2

/-- io.rs:320-415, futures.rs:174-248, as `handshakeWithInitialized`. -/
def handshakeWithInitializedN (fuel : Nat) (A : ApiN) (N : Conn σ) (P : Prims) (prof : Profile) (h : HsInitialized)
    (garbage : Option Bytes) (decoys : Option (List Bytes)) (r : ConnRun σ) :
    Option (ConnRun σ × Outcome ProtocolError (InboundCipher × OutboundCipher × A.Sess)) :=
  match h.sendKey garbage (zeros (HsInitialized.sendKeyLen garbage)) with
  | (_, .panic) => some (r, .panic)
  | (_, .err e) => some (r, .err (.internal e))
  | (keyBuffer, .ok h) =>
  match N.send fuel A.retry r keyBuffer with
  | none => none
  | some (r, .error k) => some (r, .err (.fromIo k))
  | some (r, .ok ()) =>
  match readExactN fuel N.readRun A.retry r NUM_ELLIGATOR_SWIFT_BYTES [] with
  | none => none
  | some (r, .error k) => some (r, .err (.fromIo k))
  | some (r, .ok remoteEllswift) =>
  match h.receiveKey P remoteEllswift with
  | .panic => some (r, .panic)
  | .err e => some (r, .err (.internal e))
  | .ok h =>
  match h.sendVersion P prof (zeros (HsReceivedKey.sendVersionLen decoys)) decoys with
  | (_, .panic) => some (r, .panic)
  | (_, .err e) => some (r, .err (.internal e))
  | (versionBuffer, .ok h) =>
  match N.send fuel A.retry r versionBuffer with
  | none => none
  | some (r, .error k) => some (r, .err (.fromIo k))
  | some (r, .ok ()) =>
  match readExactN fuel N.readRun A.retry r NUM_GARBAGE_TERMINATOR_BYTES [] with
  | none => none
  | some (r, .error k) => some (r, .err (.fromIo k))
  | some (r, .ok garbageBuffer) =>
  match garbageLoopN fuel N h garbageBuffer r with
  | none => none
  | some (r, .panic) => some (r, .panic)
  | some (r, .err e) => some (r, .err e)
  | some (r, .ok (h, garbageBytes, garbageBuffer)) =>
    versionLoopN fuel A N P prof h (A.mkSess (garbageBuffer.drop garbageBytes), r)

/-- io.rs:280-294, futures.rs:151-172, as `handshake`. -/
def handshakeN (fuel : Nat) (A : ApiN) (N : Conn σ) (P : Prims) (prof : Profile) (magic : Bytes) (role : Role) (rngBytes : Bytes)
    (garbage : Option Bytes) (decoys : Option (List Bytes)) (r : ConnRun σ) :
    Option (ConnRun σ × Outcome ProtocolError (InboundCipher × OutboundCipher × A.Sess)) :=
  match HsInitialized.newWithRng P prof magic role rngBytes with
  | .panic => some (r, .panic)
  | .err e => some (r, .err (.internal e))
  | .ok h => handshakeWithInitializedN fuel A N P prof h garbage decoys r

/-- io.rs:525-537 `ProtocolReader::read`, as `SyncReader.read`. -/
def syncReadN (fuel : Nat) (N : Conn σ) (P : Prims) (prof : Profile) (c : InboundCipher) (s : syncN.Sess × ConnRun σ) :
    Option ((InboundCipher × (syncN.Sess × ConnRun σ)) × Outcome ProtocolError Payload) :=
  match readExactN fuel (syncN.read N.readRun) true s NUM_LENGTH_BYTES [] with
  | none => none
  | some (s, .error k) => some ((c, s), .err (.fromIo k))
  | some (s, .ok lengthBytes) =>
  match c.decryptPacketLen P prof lengthBytes with
  | (c, .panic) => some ((c, s), .panic)
  | (c, .err e) => some ((c, s), .err (.internal e))
  | (c, .ok packetBytesLen) =>
  match readExactN fuel (syncN.read N.readRun) true s packetBytesLen [] with
  | none => none
  | some (s, .error k) => some ((c, s), .err (.fromIo k))
  | some (s, .ok packetBytes) =>
  match c.decryptToVec P prof packetBytes none with
  | (c, .panic) => some ((c, s), .panic)
  | (c, .err e) => some ((c, s), .err (.internal e))
  | (c, .ok (_, plaintextBuffer)) =>
  match Payload.mkDecrypted prof plaintextBuffer with
  | none => some ((c, s), .panic)
  | some p => some ((c, s), .ok p)

/-- The packet that `write` sends: io.rs:567-570 uses `encrypt_to_vec`, futures.rs:478-487 a buffer of its own. -/
def encryptFor (f : Flavour) (P : Prims) (prof : Profile) (c : OutboundCipher) (contents : Bytes) (ty : PacketType) :
    OutboundCipher × Outcome Error Bytes :=
  match f with
  | .sync => c.encryptToVec P prof contents ty none
  | .async =>
    match c.encrypt P prof contents (zeros (OutboundCipher.encryptionBufferLen contents.length)) ty none with
    | (c, _, .panic) => (c, .panic)
    | (c, _, .err e) => (c, .err e)
    | (c, packetBuffer, .ok ()) => (c, .ok packetBuffer)

/-- io.rs:566-573 and futures.rs:477-491 `ProtocolWriter::write`, as `Writer.write`. -/
def writeN (fuel : Nat) (f : Flavour) (N : Conn σ) (P : Prims) (prof : Profile) (c : OutboundCipher) (r : ConnRun σ) (payload : Payload) :
    Option ((OutboundCipher × ConnRun σ) × Outcome ProtocolError Unit) :=
  match payload.contents, payload.packetType with
  | some contents, some ty =>
    match encryptFor f P prof c contents ty with
    | (c, .panic) => some ((c, r), .panic)
    | (c, .err e) => some ((c, r), .err (.internal e))
    | (c, .ok packetBuffer) =>
      match N.send fuel f.retry r packetBuffer with
      | none => none
      | some (r, .error k) => some ((c, r), .err (.fromIo k))
      | some (r, .ok ()) => some ((c, r), .ok ())
  | _, _ => some ((c, r), .panic)

/-! ## Asynchronous reading, poll by poll -/

/-- A transport that can also be polled.
Environment: the `R: AsyncRead` of futures.rs:257-260, polled at futures.rs:120. -/
structure PollConn (σ : Type) extends Conn σ where
  pollRead : σ → Nat → σ × PollRead

/-- One `poll_read`. futures.rs:120. -/
def PollConn.pollRun (N : PollConn σ) (r : ConnRun σ) (n : Nat) : ConnRun σ × PollRead :=
  match N.pollRead r.net n with
  | (s, .pending) => ({ r with net := s, answers := r.answers ++ [.pending] }, .pending)
  | (s, .ready (.ok bs)) => ({ r with net := s, answers := r.answers ++ [.data bs] }, .ready (.ok bs))
  | (s, .ready (.err k)) => ({ r with net := s, answers := r.answers ++ [.fail k] }, .ready (.err k))

/-- futures.rs:87-122 `poll_read` of the session reader, as `AsyncSession.pollRead`. -/
def sessPollN (N : PollConn σ) (s : (Bytes × Nat) × ConnRun σ) (n : Nat) : ((Bytes × Nat) × ConnRun σ) × PollRead :=
  if s.1.2 < s.1.1.length then
    let remaining := s.1.1.drop s.1.2
    let toCopy := min remaining.length n
    (((s.1.1, s.1.2 + toCopy), s.2), .ready (.ok (remaining.take toCopy)))
  else
    match N.pollRun s.2 n with
    | (x, r) => ((s.1, x), r)

/-- Result of one of the inner `while` loops, as `FillResult`. futures.rs:408-418 and 427-437. -/
inductive FillN (σ : Type) where
  | full (s : (Bytes × Nat) × ConnRun σ) (buf : Bytes) (bytesRead : Nat)
  | pending (s : (Bytes × Nat) × ConnRun σ) (buf : Bytes) (bytesRead : Nat)
  | err (s : (Bytes × Nat) × ConnRun σ) (buf : Bytes) (bytesRead : Nat) (k : ErrorKind)

/-- futures.rs:408-418 and 427-437, as `pollFill`. -/
def pollFillN (fuel : Nat) (N : PollConn σ) (s : (Bytes × Nat) × ConnRun σ) (buf : Bytes) (bytesRead : Nat) : Option (FillN σ) :=
  match fuel with
  | 0 => none
  | fuel + 1 =>
  if bytesRead < buf.length then
    match sessPollN N s (buf.length - bytesRead) with
    | (s', .pending) => some (.pending s' buf bytesRead)
    | (s', .ready (.err k)) => some (.err s' buf bytesRead k)
    | (s', .ready (.ok [])) => some (.err s' buf bytesRead .connectionAborted)
    | (s', .ready (.ok (b :: bs))) => pollFillN fuel N s' (writeAt buf bytesRead (b :: bs)) (bytesRead + (b :: bs).length)
  else some (.full s buf bytesRead)

/-- futures.rs:381-385 `ProtocolReader` (async), with the transport beside the session. -/
structure AsyncReaderN (σ : Type) where
  cipher : InboundCipher
  reader : (Bytes × Nat) × ConnRun σ
  state : DecryptState

/-- futures.rs:423-445, as `AsyncReader.pollPayload`. -/
def AsyncReaderN.pollPayload (fuel : Nat) (N : PollConn σ) (P : Prims) (prof : Profile) (cipher : InboundCipher)
    (s : (Bytes × Nat) × ConnRun σ) (packetBytes : Bytes) (bytesRead : Nat) : Option (AsyncReaderN σ × PollResult) :=
  match pollFillN fuel N s packetBytes bytesRead with
  | none => none
  | some (.pending s buf n) => some (⟨cipher, s, .readingPayload buf n⟩, .pending)
  | some (.err s buf n k) => some (⟨cipher, s, .readingPayload buf n⟩, .ready (.err (.fromIo k)))
  | some (.full s buf n) =>
    match InboundCipher.decryptionBufferLen prof buf.length with
    | none => some (⟨cipher, s, .readingPayload buf n⟩, .ready .panic)
    | some plaintextLen =>
      match cipher.decrypt P prof buf (zeros plaintextLen) none with
      | (c, _, .panic) => some (⟨c, s, .readingPayload buf n⟩, .ready .panic)
      | (c, _, .err e) => some (⟨c, s, .readingPayload buf n⟩, .ready (.err (.internal e)))
      | (c, plaintextBuffer, .ok _) =>
        match Payload.mkDecrypted prof plaintextBuffer with
        | none => some (⟨c, s, .initReadingLength⟩, .ready .panic)
        | some p => some (⟨c, s, .initReadingLength⟩, .ready (.ok p))

/-- futures.rs:400-448, one poll of `read`, as `AsyncReader.poll`. -/
def AsyncReaderN.poll (fuel : Nat) (N : PollConn σ) (P : Prims) (prof : Profile) (r : AsyncReaderN σ) :
    Option (AsyncReaderN σ × PollResult) :=
  match r.state with
  | .readingLength lengthBytes bytesRead =>
    match pollFillN fuel N r.reader lengthBytes bytesRead with
    | none => none
    | some (.pending s buf n) => some (⟨r.cipher, s, .readingLength buf n⟩, .pending)
    | some (.err s buf n k) => some (⟨r.cipher, s, .readingLength buf n⟩, .ready (.err (.fromIo k)))
    | some (.full s buf n) =>
      match r.cipher.decryptPacketLen P prof buf with
      | (c, .panic) => some (⟨c, s, .readingLength buf n⟩, .ready .panic)
      | (c, .err e) => some (⟨c, s, .readingLength buf n⟩, .ready (.err (.internal e)))
      | (c, .ok packetBytesLen) => AsyncReaderN.pollPayload fuel N P prof c s (zeros packetBytesLen) 0
  | .readingPayload packetBytes bytesRead =>
    AsyncReaderN.pollPayload fuel N P prof r.cipher r.reader packetBytes bytesRead

/-! ## Connections -/

/-- A session of the blocking API: `Protocol` of io.rs:418-421 with the transport beside it. -/
structure SyncN (σ : Type) where
  inbound : InboundCipher
  sess : Bytes × Bool
  outbound : OutboundCipher
  run : ConnRun σ

/-- io.rs:453-474 `Protocol::new`, as `SyncProtocol.new`. -/
def SyncN.new (fuel : Nat) (N : Conn σ) (P : Prims) (prof : Profile) (magic : Bytes) (role : Role) (rngBytes : Bytes)
    (garbage : Option Bytes) (decoys : Option (List Bytes)) (r : ConnRun σ) :
    Option (ConnRun σ × Outcome ProtocolError (SyncN σ)) :=
  match handshakeN fuel syncN N P prof magic role rngBytes garbage decoys r with
  | none => none
  | some (r, .panic) => some (r, .panic)
  | some (r, .err e) => some (r, .err e)
  | some (r, .ok (i, o, s)) => some (r, .ok ⟨i, s, o, r⟩)

/-- io.rs:488-490 `Protocol::read`. -/
def SyncN.read (fuel : Nat) (N : Conn σ) (P : Prims) (prof : Profile) (p : SyncN σ) :
    Option (SyncN σ × Outcome ProtocolError Payload) :=
  match syncReadN fuel N P prof p.inbound (p.sess, p.run) with
  | none => none
  | some ((c, (s, r)), x) => some (⟨c, s, p.outbound, r⟩, x)

/-- io.rs:503-505 `Protocol::write`. -/
def SyncN.write (fuel : Nat) (N : Conn σ) (P : Prims) (prof : Profile) (p : SyncN σ) (payload : Payload) :
    Option (SyncN σ × Outcome ProtocolError Unit) :=
  match writeN fuel .sync N P prof p.outbound p.run payload with
  | none => none
  | some ((c, r), x) => some (⟨p.inbound, p.sess, c, r⟩, x)

/-- A session of the asynchronous API: `Protocol` of futures.rs:252-255 with the transport beside it. -/
structure AsyncN (σ : Type) where
  inbound : InboundCipher
  sess : Bytes × Nat
  state : DecryptState
  outbound : OutboundCipher
  run : ConnRun σ

/-- futures.rs:289-311 `Protocol::new`, as `AsyncProtocol.new`. -/
def AsyncN.new (fuel : Nat) (N : PollConn σ) (P : Prims) (prof : Profile) (magic : Bytes) (role : Role) (rngBytes : Bytes)
    (garbage : Option Bytes) (decoys : Option (List Bytes)) (r : ConnRun σ) :
    Option (ConnRun σ × Outcome ProtocolError (AsyncN σ)) :=
  match handshakeN fuel asyncN N.toConn P prof magic role rngBytes garbage decoys r with
  | none => none
  | some (r, .panic) => some (r, .panic)
  | some (r, .err e) => some (r, .err e)
  | some (r, .ok (i, o, s)) => some (r, .ok ⟨i, s, .initReadingLength, o, r⟩)

/-- futures.rs:327-329 `Protocol::read`, one poll. -/
def AsyncN.pollRead (fuel : Nat) (N : PollConn σ) (P : Prims) (prof : Profile) (p : AsyncN σ) : Option (AsyncN σ × PollResult) :=
  match AsyncReaderN.poll fuel N P prof ⟨p.inbound, (p.sess, p.run), p.state⟩ with
  | none => none
  | some (⟨c, (s, r), st⟩, x) => some (⟨c, s, st, p.outbound, r⟩, x)

/-- futures.rs:342-344 `Protocol::write`, driven to completion. -/
def AsyncN.write (fuel : Nat) (N : PollConn σ) (P : Prims) (prof : Profile) (p : AsyncN σ) (payload : Payload) :
    Option (AsyncN σ × Outcome ProtocolError Unit) :=
  match writeN fuel .async N.toConn P prof p.outbound p.run payload with
  | none => none
  | some ((c, r), x) => some (⟨p.inbound, p.sess, p.state, c, r⟩, x)

end Bip324
