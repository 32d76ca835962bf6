import Verif.Model.Handshake
import Verif.Model.Transport

/-!
# Model of `protocol/src/io.rs`, and of the handshake of `protocol/src/futures.rs`

The two handshake functions are the same text except for `.await`, the session reader type and the
`read_exact`/`write_all` they call; they are modelled once, over the record `Api` of these
differences, and instantiated as `syncApi` and `asyncApi`.
-/

namespace Bip324

/-- io.rs:176-183 `ProtocolFailureSuggestion`. -/
inductive Suggestion where
  | retryV1
  | abort
deriving Repr, DecidableEq

/-- io.rs:167-174 `ProtocolError` (an `io::Error` is represented by its kind). -/
inductive ProtocolError where
  | io (kind : ErrorKind) (suggestion : Suggestion)
  | internal (e : Error)
deriving Repr, DecidableEq

/-- io.rs:185-203 `From<std::io::Error> for ProtocolError`. -/
def ProtocolError.fromIo (k : ErrorKind) : ProtocolError :=
  .io k (match k with
    | .connectionReset | .connectionAborted | .unexpectedEof => .retryV1
    | _ => .abort)

/-- io.rs:216-224 `ProtocolError::eof`. -/
def ProtocolError.eof : ProtocolError := .io .unexpectedEof .retryV1

/-- io.rs:87-101 `Payload` / `PayloadData`. -/
inductive Payload where
  | decrypted (data : Bytes)
  | parts (header : UInt8) (contents : Bytes)
deriving Repr, DecidableEq

/-- io.rs:109-116 `Payload::genuine`. -/
def Payload.genuine (contents : Bytes) : Payload := .parts PacketType.genuine.toByte contents

/-- io.rs:123-130 `Payload::decoy`. -/
def Payload.decoy (contents : Bytes) : Payload := .parts PacketType.decoy.toByte contents

/-- io.rs:140-148 `Payload::decrypted`; `none` is the failed debug assertion. -/
def Payload.mkDecrypted (prof : Profile) (data : Bytes) : Option Payload :=
  if prof.debugAssertions && data.isEmpty then none else some (.decrypted data)

/-- io.rs:151-156 `Payload::contents`; `none` is the slice panic on empty data. -/
def Payload.contents : Payload → Option Bytes
  | .decrypted [] => none
  | .decrypted (_ :: contents) => some contents
  | .parts _ contents => some contents

/-- io.rs:159-164 `Payload::packet_type`; `none` is the index panic on empty data. -/
def Payload.packetType : Payload → Option PacketType
  | .decrypted [] => none
  | .decrypted (header :: _) => some (PacketType.fromByte header)
  | .parts header _ => some (PacketType.fromByte header)

/-- io.rs:65-79 `ProtocolSessionReader` (sync): `Chain<Cursor<Vec<u8>>, R>`.  `leftover` is the
unread part of the cursor, `doneFirst` the flag of `std::io::Chain`. -/
structure SyncSession where
  leftover : Bytes
  doneFirst : Bool
  inner : Source
deriving Repr, DecidableEq

/-- `std::io::Chain::read` over a cursor, as called by io.rs:81-85. -/
def SyncSession.read (s : SyncSession) (n : Nat) : SyncSession × ReadRes :=
  if s.doneFirst then
    match s.inner.read n with
    | (i, r) => ({ s with inner := i }, r)
  else
    match s.leftover.take n with
    | [] =>
      if n = 0 then (s, .ok [])
      else
        match s.inner.read n with
        | (i, r) => ({ s with doneFirst := true, inner := i }, r)
    | b :: bs => ({ s with leftover := s.leftover.drop n }, .ok (b :: bs))

/-- futures.rs:76-94 `ProtocolSessionReader` (async). -/
structure AsyncSession where
  leftover : Bytes
  leftoverPos : Nat
  inner : Source
deriving Repr, DecidableEq

/-- futures.rs:96-122 `poll_read`. -/
def AsyncSession.pollRead (s : AsyncSession) (n : Nat) : AsyncSession × PollRead :=
  if s.leftoverPos < s.leftover.length then
    let remaining := s.leftover.drop s.leftoverPos
    let toCopy := min remaining.length n
    ({ s with leftoverPos := s.leftoverPos + toCopy }, .ready (.ok (remaining.take toCopy)))
  else
    match s.inner.pollRead n with
    | (i, r) => ({ s with inner := i }, r)

/-- `AsyncReadExt::read(..).await` on the session reader: polls until ready. futures.rs:96-122. -/
def AsyncSession.read (s : AsyncSession) (n : Nat) : AsyncSession × ReadRes :=
  if s.leftoverPos < s.leftover.length then
    let remaining := s.leftover.drop s.leftoverPos
    let toCopy := min remaining.length n
    ({ s with leftoverPos := s.leftoverPos + toCopy }, .ok (remaining.take toCopy))
  else
    match s.inner.read n with
    | (i, r) => ({ s with inner := i }, r)

/-- Termination measure of reading from io.rs:65-85; no code in /repo. -/
def SyncSession.size (s : SyncSession) : Nat := s.leftover.length + s.inner.size

theorem SyncSession.read_dec (s : SyncSession) (n : Nat) (s' : SyncSession) (r : ReadRes) (hn : 0 < n)
    (h : s.read n = (s', r)) : s'.size < s.size ∨ (s'.size ≤ s.size ∧ r = .ok []) := by
  unfold SyncSession.read at h
  split at h
  · split at h
    rename_i i r' hi
    simp only [Prod.mk.injEq] at h
    obtain ⟨rfl, rfl⟩ := h
    rcases Source.read_dec _ _ _ _ hn hi with h | ⟨h, rfl⟩
    · exact .inl (by simp only [SyncSession.size]; omega)
    · exact .inr ⟨by simp only [SyncSession.size]; omega, rfl⟩
  · split at h
    · split at h
      · omega
      · split at h
        rename_i i r' hi
        simp only [Prod.mk.injEq] at h
        obtain ⟨rfl, rfl⟩ := h
        rcases Source.read_dec _ _ _ _ hn hi with h | ⟨h, rfl⟩
        · exact .inl (by simp only [SyncSession.size]; omega)
        · exact .inr ⟨by simp only [SyncSession.size]; omega, rfl⟩
    · rename_i b bs hb
      simp only [Prod.mk.injEq] at h
      obtain ⟨rfl, rfl⟩ := h
      have := congrArg List.length hb
      simp only [List.length_take, List.length_cons] at this
      simp only [SyncSession.size, List.length_drop]
      omega

/-- io.rs:81-85 as a reader. -/
def SyncSession.reader : Reader SyncSession := ⟨SyncSession.read, SyncSession.size, SyncSession.read_dec⟩

/-- Termination measure of reading from futures.rs:76-122; no code in /repo. -/
def AsyncSession.size (s : AsyncSession) : Nat := (s.leftover.length - s.leftoverPos) + s.inner.size

theorem AsyncSession.read_dec (s : AsyncSession) (n : Nat) (s' : AsyncSession) (r : ReadRes)
    (hn : 0 < n) (h : s.read n = (s', r)) :
    s'.size < s.size ∨ (s'.size ≤ s.size ∧ r = .ok []) := by
  unfold AsyncSession.read at h
  split at h
  · simp only [Prod.mk.injEq] at h
    obtain ⟨rfl, rfl⟩ := h
    simp only [AsyncSession.size, List.length_drop]
    omega
  · split at h
    rename_i i r' hi
    simp only [Prod.mk.injEq] at h
    obtain ⟨rfl, rfl⟩ := h
    rcases Source.read_dec _ _ _ _ hn hi with h | ⟨h, rfl⟩
    · exact .inl (by simp only [AsyncSession.size]; omega)
    · exact .inr ⟨by simp only [AsyncSession.size]; omega, rfl⟩

/-- futures.rs:96-122 as a reader. -/
def AsyncSession.reader : Reader AsyncSession :=
  ⟨AsyncSession.read, AsyncSession.size, AsyncSession.read_dec⟩

/-- The differences between the two I/O layers. io.rs:320-415 and futures.rs:151-249. -/
structure Api where
  /-- Does `read_exact`/`write_all` repeat on `Interrupted`? -/
  retry : Bool
  /-- The session reader type. -/
  Session : Type
  /-- Its constructor (`ProtocolSessionReader::new`). -/
  mkSession : Bytes → Source → Session
  /-- Its read function. -/
  reader : Reader Session

/-- std: io.rs:71-78 `ProtocolSessionReader::new`. -/
def syncApi : Api := ⟨true, SyncSession, fun l r => ⟨l, false, r⟩, SyncSession.reader⟩

/-- tokio: futures.rs:87-93 `ProtocolSessionReader::new`. -/
def asyncApi : Api := ⟨false, AsyncSession, fun l r => ⟨l, 0, r⟩, AsyncSession.reader⟩

/-- Ghost output of the handshake: the sizes the garbage buffer had when it was searched, and the
sizes of the packet buffers allocated. The buffers of io.rs:360-379, 402 and futures.rs:194-213, 236. -/
structure HsLog where
  garbage : List Nat
  packets : List Nat
deriving Repr, DecidableEq

/-- io.rs:363-387, futures.rs:197-221: the garbage loop.  Result: the handshake, `consumed_bytes`,
the garbage buffer and the transport; first component: the sizes of the buffer. -/
def garbageLoop (h : HsSentVersion) (buf : Bytes) (src : Source) :
    List Nat × Outcome ProtocolError (HsReceivedGarbage × Nat × Bytes × Source) :=
  match h.receiveGarbage buf with
  | .ok (.foundGarbage h' consumed) => ([buf.length], .ok (h', consumed, buf, src))
  | .ok (.needMoreData h') =>
    match _hr : src.read 256 with
    | (_, .ok []) => ([buf.length], .err .eof)
    | (src', .ok (b :: bs)) =>
      match garbageLoop h' (buf ++ b :: bs) src' with
      | (log, r) => (buf.length :: log, r)
    | (_, .err k) => ([buf.length], .err (.fromIo k))
  | .err e => ([buf.length], .err (.internal e))
  | .panic => ([buf.length], .panic)
termination_by src.size
decreasing_by
  have := Source.read_dec _ _ _ _ (by omega) _hr
  simpa using this

/-- io.rs:392-414, futures.rs:226-248: the decoy/version loop. -/
def versionLoop (A : Api) (P : Prims) (prof : Profile) (h : HsReceivedGarbage) (s : A.Session) :
    List Nat × Outcome ProtocolError (InboundCipher × OutboundCipher × A.Session) :=
  match _h1 : A.reader.readExact A.retry s NUM_LENGTH_BYTES with
  | (_, .error k) => ([], .err (.fromIo k))
  | (s1, .ok lengthBytes) =>
    match h.decryptPacketLen P prof lengthBytes with
    | (_, .panic) => ([], .panic)
    | (_, .err e) => ([], .err (.internal e))
    | (h1, .ok packetLen) =>
      if packetLen > MAX_PACKET_SIZE_FOR_ALLOCATION then ([], .err (.internal .packetTooBig))
      else
        match _h2 : A.reader.readExact A.retry s1 packetLen with
        | (_, .error k) => ([packetLen], .err (.fromIo k))
        | (s2, .ok packetBytes) =>
          match h1.receiveVersion P prof packetBytes with
          | (_, .panic) => ([packetLen], .panic)
          | (_, .err e) => ([packetLen], .err (.internal e))
          | (_, .ok (.complete cipher)) =>
            ([packetLen], .ok (cipher.intoSplit.1, cipher.intoSplit.2, s2))
          | (_, .ok (.decoy h2)) =>
            match versionLoop A P prof h2 s2 with
            | (log, r) => (packetLen :: log, r)
termination_by A.reader.size s
decreasing_by
  have a := (A.reader.readExact_size _ _ _ _ _ _ _h1).2 (by decide) ⟨_, rfl⟩
  have b := (A.reader.readExact_size _ _ _ _ _ _ _h2).1
  omega

/-- `writer.write_all(buf)?; writer.flush()?`. io.rs:344-345, 356-357; futures.rs:178-179, 190-191. -/
def Sink.send (w : Sink) (retry : Bool) (buf : Bytes) : Sink × Except ErrorKind Unit :=
  match w.writeAll retry buf with
  | (w', .error k) => (w', .error k)
  | (w', .ok ()) => w'.flush

/-- io.rs:320-415 `handshake_with_initialized`, futures.rs:174-248: the transport after the writes,
the ghost log, the result. -/
def handshakeWithInitialized (A : Api) (P : Prims) (prof : Profile) (h : HsInitialized)
    (garbage : Option Bytes) (decoys : Option (List Bytes)) (reader : Source) (writer : Sink) :
    Sink × HsLog × Outcome ProtocolError (InboundCipher × OutboundCipher × A.Session) :=
  match h.sendKey garbage (zeros (HsInitialized.sendKeyLen garbage)) with
  | (_, .panic) => (writer, ⟨[], []⟩, .panic)
  | (_, .err e) => (writer, ⟨[], []⟩, .err (.internal e))
  | (keyBuffer, .ok h) =>
  match writer.send A.retry keyBuffer with
  | (writer, .error k) => (writer, ⟨[], []⟩, .err (.fromIo k))
  | (writer, .ok ()) =>
  match Source.reader.readExact A.retry reader NUM_ELLIGATOR_SWIFT_BYTES with
  | (_, .error k) => (writer, ⟨[], []⟩, .err (.fromIo k))
  | (reader, .ok remoteEllswift) =>
  match h.receiveKey P remoteEllswift with
  | .panic => (writer, ⟨[], []⟩, .panic)
  | .err e => (writer, ⟨[], []⟩, .err (.internal e))
  | .ok h =>
  match h.sendVersion P prof (zeros (HsReceivedKey.sendVersionLen decoys)) decoys with
  | (_, .panic) => (writer, ⟨[], []⟩, .panic)
  | (_, .err e) => (writer, ⟨[], []⟩, .err (.internal e))
  | (versionBuffer, .ok h) =>
  match writer.send A.retry versionBuffer with
  | (writer, .error k) => (writer, ⟨[], []⟩, .err (.fromIo k))
  | (writer, .ok ()) =>
  match Source.reader.readExact A.retry reader NUM_GARBAGE_TERMINATOR_BYTES with
  | (_, .error k) => (writer, ⟨[], []⟩, .err (.fromIo k))
  | (reader, .ok garbageBuffer) =>
  match garbageLoop h garbageBuffer reader with
  | (glog, .panic) => (writer, ⟨glog, []⟩, .panic)
  | (glog, .err e) => (writer, ⟨glog, []⟩, .err e)
  | (glog, .ok (h, garbageBytes, garbageBuffer, reader)) =>
  match versionLoop A P prof h (A.mkSession (garbageBuffer.drop garbageBytes) reader) with
  | (plog, r) => (writer, ⟨glog, plog⟩, r)

/-- io.rs:280-294 and futures.rs:151-172 `handshake`: `Handshake::new` then the above; `rngBytes` is
what the thread RNG returned. -/
def handshake (A : Api) (P : Prims) (prof : Profile) (magic : Bytes) (role : Role) (rngBytes : Bytes)
    (garbage : Option Bytes) (decoys : Option (List Bytes)) (reader : Source) (writer : Sink) :
    Sink × HsLog × Outcome ProtocolError (InboundCipher × OutboundCipher × A.Session) :=
  match HsInitialized.newWithRng P prof magic role rngBytes with
  | .panic => (writer, ⟨[], []⟩, .panic)
  | .err e => (writer, ⟨[], []⟩, .err (.internal e))
  | .ok h => handshakeWithInitialized A P prof h garbage decoys reader writer

/-- io.rs:509-512 `ProtocolReader` (sync). -/
structure SyncReader where
  cipher : InboundCipher
  reader : SyncSession
deriving Repr, DecidableEq

/-- io.rs:525-537 `ProtocolReader::read`. -/
def SyncReader.read (P : Prims) (prof : Profile) (r : SyncReader) :
    SyncReader × Outcome ProtocolError Payload :=
  match SyncSession.reader.readExact true r.reader NUM_LENGTH_BYTES with
  | (s, .error k) => ({ r with reader := s }, .err (.fromIo k))
  | (s, .ok lengthBytes) =>
  match r.cipher.decryptPacketLen P prof lengthBytes with
  | (c, .panic) => (⟨c, s⟩, .panic)
  | (c, .err e) => (⟨c, s⟩, .err (.internal e))
  | (c, .ok packetBytesLen) =>
  match SyncSession.reader.readExact true s packetBytesLen with
  | (s, .error k) => (⟨c, s⟩, .err (.fromIo k))
  | (s, .ok packetBytes) =>
  match c.decryptToVec P prof packetBytes none with
  | (c, .panic) => (⟨c, s⟩, .panic)
  | (c, .err e) => (⟨c, s⟩, .err (.internal e))
  | (c, .ok (_, plaintextBuffer)) =>
  match Payload.mkDecrypted prof plaintextBuffer with
  | none => (⟨c, s⟩, .panic)
  | some p => (⟨c, s⟩, .ok p)

/-- io.rs:546-549, futures.rs:457-460 `ProtocolWriter` (same fields in both APIs). -/
structure Writer where
  cipher : OutboundCipher
  writer : Sink
deriving Repr, DecidableEq

/-- io.rs:566-573 `ProtocolWriter::write` (sync). -/
def Writer.writeSync (P : Prims) (prof : Profile) (w : Writer) (payload : Payload) :
    Writer × Outcome ProtocolError Unit :=
  match payload.contents, payload.packetType with
  | some contents, some ty =>
    match w.cipher.encryptToVec P prof contents ty none with
    | (c, .panic) => ({ w with cipher := c }, .panic)
    | (c, .err e) => ({ w with cipher := c }, .err (.internal e))
    | (c, .ok packetBuffer) =>
      match w.writer.send true packetBuffer with
      | (s, .error k) => (⟨c, s⟩, .err (.fromIo k))
      | (s, .ok ()) => (⟨c, s⟩, .ok ())
  | _, _ => (w, .panic)

/-- io.rs:418-421 `Protocol` (sync). -/
structure SyncProtocol where
  reader : SyncReader
  writer : Writer
deriving Repr, DecidableEq

/-- io.rs:453-474 `Protocol::new`. -/
def SyncProtocol.new (P : Prims) (prof : Profile) (magic : Bytes) (role : Role) (rngBytes : Bytes)
    (garbage : Option Bytes) (decoys : Option (List Bytes)) (reader : Source) (writer : Sink) :
    Outcome ProtocolError SyncProtocol :=
  match handshake syncApi P prof magic role rngBytes garbage decoys reader writer with
  | (_, _, .panic) => .panic
  | (_, _, .err e) => .err e
  | (writer, _, .ok (inbound, outbound, session)) => .ok ⟨⟨inbound, session⟩, ⟨outbound, writer⟩⟩

/-- io.rs:477-479 `into_split`. -/
def SyncProtocol.intoSplit (p : SyncProtocol) : SyncReader × Writer := (p.reader, p.writer)

/-- io.rs:488-490 `Protocol::read`. -/
def SyncProtocol.read (P : Prims) (prof : Profile) (p : SyncProtocol) :
    SyncProtocol × Outcome ProtocolError Payload :=
  match p.reader.read P prof with
  | (r, x) => ({ p with reader := r }, x)

/-- io.rs:503-505 `Protocol::write`. -/
def SyncProtocol.write (P : Prims) (prof : Profile) (p : SyncProtocol) (payload : Payload) :
    SyncProtocol × Outcome ProtocolError Unit :=
  match p.writer.writeSync P prof payload with
  | (w, x) => ({ p with writer := w }, x)

/-- io.rs:540-542 `ProtocolReader::into_inner`. -/
def SyncReader.intoInner (r : SyncReader) : InboundCipher × SyncSession := (r.cipher, r.reader)

/-- io.rs:576-578 `ProtocolWriter::into_inner`. -/
def Writer.intoInner (w : Writer) : OutboundCipher × Sink := (w.cipher, w.writer)

end Bip324
