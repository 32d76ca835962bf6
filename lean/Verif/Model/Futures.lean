import Verif.Model.Io

/-! # Model of `protocol/src/futures.rs`

The handshake (futures.rs:151-249) is `handshake asyncApi` in `Verif/Model/Io.lean`.  The session
reader is modelled at the level of single polls, because its future may be dropped between polls. -/

namespace Bip324

/-- futures.rs:351-360 `DecryptState`. -/
inductive DecryptState where
  | readingLength (lengthBytes : Bytes) (bytesRead : Nat)
  | readingPayload (packetBytes : Bytes) (bytesRead : Nat)
deriving Repr, DecidableEq

/-- futures.rs:364-369 `init_reading_length`. -/
def DecryptState.initReadingLength : DecryptState := .readingLength (zeros NUM_LENGTH_BYTES) 0

/-- futures.rs:372-377 `init_reading_payload`. -/
def DecryptState.initReadingPayload (packetBytesLen : Nat) : DecryptState :=
  .readingPayload (zeros packetBytesLen) 0

/-- futures.rs:381-385 `ProtocolReader` (async). -/
structure AsyncReader where
  cipher : InboundCipher
  reader : AsyncSession
  state : DecryptState
deriving Repr, DecidableEq

/-- Result of polling the future returned by `read()`. futures.rs:400. -/
inductive PollResult where
  | pending
  | ready (r : Outcome ProtocolError Payload)
deriving Repr, DecidableEq

/-- Result of polling one of the inner `while` loops of `read()`. futures.rs:408-418 and 427-437. -/
inductive FillResult where
  /-- The loop ended: the buffer is full. -/
  | full (s : AsyncSession) (buf : Bytes) (bytesRead : Nat)
  /-- `Poll::Pending`. -/
  | pending (s : AsyncSession) (buf : Bytes) (bytesRead : Nat)
  /-- The `?` or the zero-length read returned an error. -/
  | err (s : AsyncSession) (buf : Bytes) (bytesRead : Nat) (k : ErrorKind)
deriving Repr, DecidableEq

theorem Source.pollRead_dec (s : Source) (n : Nat) (s' : Source) (r : PollRead) (hn : 0 < n)
    (h : s.pollRead n = (s', r)) : s'.size < s.size ∨ (s'.size ≤ s.size ∧ r = .ready (.ok [])) := by
  cases s with
  | nil =>
    simp only [Source.pollRead, Prod.mk.injEq] at h
    obtain ⟨rfl, rfl⟩ := h
    exact .inr ⟨Nat.le_refl _, rfl⟩
  | cons e s =>
    cases e with
    | pending =>
      simp only [Source.pollRead, Prod.mk.injEq] at h
      obtain ⟨rfl, rfl⟩ := h
      simp only [Source.size]; omega
    | fail k =>
      simp only [Source.pollRead, Prod.mk.injEq] at h
      obtain ⟨rfl, rfl⟩ := h
      simp only [Source.size]; omega
    | data bs =>
      simp only [Source.pollRead] at h
      split at h
      · simp only [Prod.mk.injEq] at h
        obtain ⟨rfl, rfl⟩ := h
        simp only [Source.size]; omega
      · simp only [Prod.mk.injEq] at h
        obtain ⟨rfl, rfl⟩ := h
        simp only [Source.size, List.length_drop]; omega

theorem AsyncSession.pollRead_dec (s : AsyncSession) (n : Nat) (s' : AsyncSession) (r : PollRead)
    (hn : 0 < n) (h : s.pollRead n = (s', r)) :
    s'.size < s.size ∨ (s'.size ≤ s.size ∧ r = .ready (.ok [])) := by
  unfold AsyncSession.pollRead at h
  split at h
  · simp only [Prod.mk.injEq] at h
    obtain ⟨rfl, rfl⟩ := h
    simp only [AsyncSession.size, List.length_drop]
    omega
  · split at h
    rename_i i r' hi
    simp only [Prod.mk.injEq] at h
    obtain ⟨rfl, rfl⟩ := h
    rcases Source.pollRead_dec _ _ _ _ hn hi with h | ⟨h, rfl⟩
    · exact .inl (by simp only [AsyncSession.size]; omega)
    · exact .inr ⟨by simp only [AsyncSession.size]; omega, rfl⟩

/-- futures.rs:408-418 and 427-437: `while *bytes_read < buf.len() { read(&mut buf[*bytes_read..]) }`
within one poll.  The buffer and the counter live in `self.state`, so they survive `Pending`,
errors and cancellation. -/
def pollFill (s : AsyncSession) (buf : Bytes) (bytesRead : Nat) : FillResult :=
  if _hlt : bytesRead < buf.length then
    match _h : s.pollRead (buf.length - bytesRead) with
    | (s', .pending) => .pending s' buf bytesRead
    | (s', .ready (.err k)) => .err s' buf bytesRead k
    | (s', .ready (.ok [])) => .err s' buf bytesRead .connectionAborted
    | (s', .ready (.ok (b :: bs))) =>
      pollFill s' (writeAt buf bytesRead (b :: bs)) (bytesRead + (b :: bs).length)
  else .full s buf bytesRead
termination_by s.size
decreasing_by
  have := AsyncSession.pollRead_dec _ _ _ _ (by omega) _h
  simpa using this

/-- futures.rs:423-445: the `ReadingPayload` arm of the loop. -/
def AsyncReader.pollPayload (P : Prims) (prof : Profile) (cipher : InboundCipher) (s : AsyncSession)
    (packetBytes : Bytes) (bytesRead : Nat) : AsyncReader × PollResult :=
  match pollFill s packetBytes bytesRead with
  | .pending s buf n => (⟨cipher, s, .readingPayload buf n⟩, .pending)
  | .err s buf n k => (⟨cipher, s, .readingPayload buf n⟩, .ready (.err (.fromIo k)))
  | .full s buf n =>
    match InboundCipher.decryptionBufferLen prof buf.length with
    | none => (⟨cipher, s, .readingPayload buf n⟩, .ready .panic)
    | some plaintextLen =>
      match cipher.decrypt P prof buf (zeros plaintextLen) none with
      | (c, _, .panic) => (⟨c, s, .readingPayload buf n⟩, .ready .panic)
      | (c, _, .err e) => (⟨c, s, .readingPayload buf n⟩, .ready (.err (.internal e)))
      | (c, plaintextBuffer, .ok _) =>
        match Payload.mkDecrypted prof plaintextBuffer with
        | none => (⟨c, s, .initReadingLength⟩, .ready .panic)
        | some p => (⟨c, s, .initReadingLength⟩, .ready (.ok p))

/-- futures.rs:400-448 `ProtocolReader::read`: one poll of the future.  The future itself has no
state: everything is in `self`, so dropping it and calling `read()` again continues from here.  (The
loop runs its `ReadingLength` arm at most once before the `ReadingPayload` arm returns.) -/
def AsyncReader.poll (P : Prims) (prof : Profile) (r : AsyncReader) : AsyncReader × PollResult :=
  match r.state with
  | .readingLength lengthBytes bytesRead =>
    match pollFill r.reader lengthBytes bytesRead with
    | .pending s buf n => (⟨r.cipher, s, .readingLength buf n⟩, .pending)
    | .err s buf n k => (⟨r.cipher, s, .readingLength buf n⟩, .ready (.err (.fromIo k)))
    | .full s buf n =>
      match r.cipher.decryptPacketLen P prof buf with
      | (c, .panic) => (⟨c, s, .readingLength buf n⟩, .ready .panic)
      | (c, .err e) => (⟨c, s, .readingLength buf n⟩, .ready (.err (.internal e)))
      | (c, .ok packetBytesLen) =>
        AsyncReader.pollPayload P prof c s (zeros packetBytesLen) 0
  | .readingPayload packetBytes bytesRead =>
    AsyncReader.pollPayload P prof r.cipher r.reader packetBytes bytesRead

/-- futures.rs:477-491 `ProtocolWriter::write` (driven to completion). -/
def Writer.writeAsync (P : Prims) (prof : Profile) (w : Writer) (payload : Payload) :
    Writer × Outcome ProtocolError Unit :=
  match payload.contents, payload.packetType with
  | some contents, some ty =>
    match w.cipher.encrypt P prof contents
        (zeros (OutboundCipher.encryptionBufferLen contents.length)) ty none with
    | (c, _, .panic) => ({ w with cipher := c }, .panic)
    | (c, _, .err e) => ({ w with cipher := c }, .err (.internal e))
    | (c, packetBuffer, .ok ()) =>
      match w.writer.send false packetBuffer with
      | (s, .error k) => (⟨c, s⟩, .err (.fromIo k))
      | (s, .ok ()) => (⟨c, s⟩, .ok ())
  | _, _ => (w, .panic)

/-- futures.rs:252-255 `Protocol` (async). -/
structure AsyncProtocol where
  reader : AsyncReader
  writer : Writer
deriving Repr, DecidableEq

/-- futures.rs:289-311 `Protocol::new`. -/
def AsyncProtocol.new (P : Prims) (prof : Profile) (magic : Bytes) (role : Role) (rngBytes : Bytes)
    (garbage : Option Bytes) (decoys : Option (List Bytes)) (reader : Source) (writer : Sink) :
    Outcome ProtocolError AsyncProtocol :=
  match handshake asyncApi P prof magic role rngBytes garbage decoys reader writer with
  | (_, _, .panic) => .panic
  | (_, _, .err e) => .err e
  | (writer, _, .ok (inbound, outbound, session)) =>
    .ok ⟨⟨inbound, session, .initReadingLength⟩, ⟨outbound, writer⟩⟩

/-- futures.rs:314-316 `into_split`. -/
def AsyncProtocol.intoSplit (p : AsyncProtocol) : AsyncReader × Writer := (p.reader, p.writer)

/-- futures.rs:327-329 `Protocol::read`, one poll. -/
def AsyncProtocol.pollRead (P : Prims) (prof : Profile) (p : AsyncProtocol) :
    AsyncProtocol × PollResult :=
  match p.reader.poll P prof with
  | (r, x) => ({ p with reader := r }, x)

/-- futures.rs:342-344 `Protocol::write`. -/
def AsyncProtocol.write (P : Prims) (prof : Profile) (p : AsyncProtocol) (payload : Payload) :
    AsyncProtocol × Outcome ProtocolError Unit :=
  match p.writer.writeAsync P prof payload with
  | (w, x) => ({ p with writer := w }, x)

/-- futures.rs:451-453 `ProtocolReader::into_inner` (drops the partial packet state). -/
def AsyncReader.intoInner (r : AsyncReader) : InboundCipher × AsyncSession := (r.cipher, r.reader)

/-- Which of the two APIs is used. io.rs and futures.rs. -/
inductive Flavour where
  | sync
  | async
deriving Repr, DecidableEq

/-- `std`'s `write_all`/`read_exact` repeat interrupted calls, tokio's do not.
They are called at io.rs:344-403, 528-533, 570 and futures.rs:178-237, 488. -/
def Flavour.retry : Flavour → Bool
  | .sync => true
  | .async => false

/-- `ProtocolWriter::write` of the chosen API (io.rs:566-573 or futures.rs:477-491). -/
def Writer.write (f : Flavour) (P : Prims) (prof : Profile) (w : Writer) (p : Payload) :
    Writer × Outcome ProtocolError Unit :=
  match f with
  | .sync => w.writeSync P prof p
  | .async => w.writeAsync P prof p

end Bip324
