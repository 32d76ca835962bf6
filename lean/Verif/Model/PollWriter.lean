import Verif.Model.AnyTransport
import Verif.Model.Traffic

/-!
# Writing poll by poll

futures.rs:477-492 `ProtocolWriter::write` as the future it is: a poll runs until the transport has it wait or it returns, and
a call is cancelled by dropping the future between two polls.  `Model/Traffic.lean` and `Model/Halves.lean` cut a write at
every call of the transport; here it is cut only where it really waits, which matters over writers that never have it wait.
-/

namespace Bip324

variable {σ : Type}

/-- What `poll_write` and `poll_flush` return. Environment; called in `write_all` and `flush` at futures.rs:488-489. -/
inductive PollDone (α : Type) where
  | ready (x : Except ErrorKind α)
  | pending
deriving Repr

/-- An `AsyncWrite`. Environment; `W` of futures.rs:456-464. -/
structure PollSink (σ : Type) where
  pollWrite : σ → Bytes → σ × PollDone Nat
  pollFlush : σ → σ × PollDone Unit

/-- The transport, and as a ghost all bytes that it took. Environment and ghost; the calls are those of futures.rs:488-489. -/
structure SinkRun (σ : Type) where
  net : σ
  sent : Bytes
deriving Repr, DecidableEq

/-- One `poll_write`. Inside `write_all` at futures.rs:488. -/
def PollSink.writeRun (N : PollSink σ) (r : SinkRun σ) (b : Bytes) : SinkRun σ × PollDone Nat :=
  match N.pollWrite r.net b with
  | (s, .ready (.ok n)) => (⟨s, r.sent ++ b.take n⟩, .ready (.ok n))
  | (s, .ready (.error k)) => (⟨s, r.sent⟩, .ready (.error k))
  | (s, .pending) => (⟨s, r.sent⟩, .pending)

/-- One `poll_flush`. futures.rs:489. -/
def PollSink.flushRun (N : PollSink σ) (r : SinkRun σ) : SinkRun σ × PollDone Unit :=
  match N.pollFlush r.net with
  | (s, x) => (⟨s, r.sent⟩, x)

/-- The transport that keeps a record. Ghost; as `Conn.logged`, for futures.rs:456-464. -/
def PollSink.logged (N : PollSink σ) : PollSink (SinkRun σ) := ⟨N.writeRun, N.flushRun⟩

/-- What a poll of `write_all` returns; the bytes left are in the future. tokio code, called at futures.rs:488. -/
inductive PollAll where
  | pending (rest : Bytes)
  | done (x : Except ErrorKind Unit)
deriving Repr

/-- `write_all`, one poll; a turn takes at least one byte, so that there are not more turns than bytes.
tokio code, called at futures.rs:488. -/
def pollWriteAll (N : PollSink σ) : Nat → SinkRun σ → Bytes → SinkRun σ × PollAll
  | _, r, [] => (r, .done (.ok ()))
  | 0, r, b :: bs => (r, .pending (b :: bs))
  | turns + 1, r, b :: bs =>
    match N.writeRun r (b :: bs) with
    | (r, .pending) => (r, .pending (b :: bs))
    | (r, .ready (.error k)) => (r, .done (.error k))
    | (r, .ready (.ok 0)) => (r, .done (.error .writeZero))
    | (r, .ready (.ok (n + 1))) => pollWriteAll N turns r ((b :: bs).drop (n + 1))

/-- futures.rs:489-490: from the `flush` on. -/
def pollFlushing (N : PollSink σ) (c : OutboundCipher) (r : SinkRun σ) : (OutboundCipher × SinkRun σ) × WProc :=
  match N.flushRun r with
  | (r, .pending) => ((c, r), .flushing)
  | (r, .ready (.error k)) => ((c, r), .done (.err (.fromIo k)))
  | (r, .ready (.ok ())) => ((c, r), .done (.ok ()))

/-- futures.rs:488-490: from the `write_all` on. -/
def pollSending (N : PollSink σ) (c : OutboundCipher) (r : SinkRun σ) (rest : Bytes) : (OutboundCipher × SinkRun σ) × WProc :=
  match pollWriteAll N rest.length r rest with
  | (r, .pending rest) => ((c, r), .sending rest)
  | (r, .done (.error k)) => ((c, r), .done (.err (.fromIo k)))
  | (r, .done (.ok ())) => pollFlushing N c r

/-- futures.rs:477-492 `ProtocolWriter::write`, one poll of its future.  A future that has returned is not polled again. -/
def pollWriteFut (N : PollSink σ) (P : Prims) (prof : Profile) (s : (OutboundCipher × SinkRun σ) × WProc) : (OutboundCipher × SinkRun σ) × WProc :=
  match s with
  | ((c, r), .start p) =>
    match p.contents, p.packetType with
    | some contents, some ty =>
      match encryptFor .async P prof c contents ty with
      | (c, .panic) => ((c, r), .done .panic)
      | (c, .err e) => ((c, r), .done (.err (.internal e)))
      | (c, .ok packetBuffer) => pollSending N c r packetBuffer
    | _, _ => ((c, r), .done .panic)
  | ((c, r), .sending rest) => pollSending N c r rest
  | ((c, r), .flushing) => pollFlushing N c r
  | ((c, r), .done x) => ((c, r), .done x)

/-- A call that is polled so often and then dropped. futures.rs:477-492. -/
def pollTimes (N : PollSink σ) (P : Prims) (prof : Profile) : Nat → (OutboundCipher × SinkRun σ) × WProc → (OutboundCipher × SinkRun σ) × WProc
  | 0, s => s
  | k + 1, s => pollTimes N P prof k (pollWriteFut N P prof s)

/-- Calls one after the other, each a payload and the number of polls before it is dropped; where each of them stopped.
futures.rs:477-492. -/
def pollCalls (N : PollSink σ) (P : Prims) (prof : Profile) : OutboundCipher × SinkRun σ → List (Payload × Nat) →
    (OutboundCipher × SinkRun σ) × List WProc
  | s, [] => (s, [])
  | s, (p, k) :: cs =>
    match pollTimes N P prof k (s, .start p) with
    | (s, pc) =>
      match pollCalls N P prof s cs with
      | (s, pcs) => (s, pc :: pcs)

/-! ## Waiting until it is ready -/

/-- `poll_write` until it is ready. The `await` of futures.rs:488. -/
def awaitWrite (N : PollSink σ) : Nat → σ → Bytes → Option (σ × Except ErrorKind Nat)
  | 0, _, _ => none
  | turns + 1, s, b =>
    match N.pollWrite s b with
    | (s, .ready x) => some (s, x)
    | (s, .pending) => awaitWrite N turns s b

/-- `poll_flush` until it is ready. The `await` of futures.rs:489. -/
def awaitFlush (N : PollSink σ) : Nat → σ → Option (σ × Except ErrorKind Unit)
  | 0, _ => none
  | turns + 1, s =>
    match N.pollFlush s with
    | (s, .ready x) => some (s, x)
    | (s, .pending) => awaitFlush N turns s

/-- The transport as the model of calls that are driven to completion has it; its reading half is not used here.
futures.rs:456-464. -/
def PollSink.conn (N : PollSink σ) (turns : Nat) : Conn σ where
  read _ _ := none
  write := awaitWrite N turns
  flush := awaitFlush N turns

/-! ## `tokio::io::BufWriter` -/

/-- `tokio::io::BufWriter`: the transport, the bytes in the buffer and how many of them have been written.
tokio code; a `W` for futures.rs:456-464. -/
structure TokioBuf (σ : Type) where
  inner : σ
  buf : Bytes
  written : Nat
deriving Repr, DecidableEq

/-- The bytes that are kept back. tokio code, see `TokioBuf`; a `W` for futures.rs:456-464. -/
def TokioBuf.held (s : TokioBuf σ) : Bytes := s.buf.drop s.written

/-- The end of `flush_buf`: `buf.drain(..written); written = 0`. tokio code; reached from futures.rs:488-489. -/
def TokioBuf.drained (s : TokioBuf σ) : TokioBuf σ := ⟨s.inner, s.buf.drop s.written, 0⟩

/-- `flush_buf`, one poll.  If the transport has it wait, what was written stays in the buffer until the next time.
tokio code; reached from futures.rs:488-489. -/
def tokioFlushBuf (wr : σ → Bytes → σ × PollDone Nat) : Nat → TokioBuf σ → TokioBuf σ × PollDone Unit
  | 0, s => (s.drained, .ready (.ok ()))
  | turns + 1, s =>
    if s.written < s.buf.length then
      match wr s.inner (s.buf.drop s.written) with
      | (i, .pending) => ({ s with inner := i }, .pending)
      | (i, .ready (.error k)) => (TokioBuf.drained { s with inner := i }, .ready (.error k))
      | (i, .ready (.ok 0)) => (TokioBuf.drained { s with inner := i }, .ready (.error .writeZero))
      | (i, .ready (.ok (n + 1))) => tokioFlushBuf wr turns { s with inner := i, written := s.written + (n + 1) }
    else (s.drained, .ready (.ok ()))

/-- The second half of `poll_write`: what is not smaller than the buffer goes to the transport, anything else into the buffer.
tokio code; reached from futures.rs:488. -/
def tokioStore (cap : Nat) (wr : σ → Bytes → σ × PollDone Nat) (s : TokioBuf σ) (b : Bytes) : TokioBuf σ × PollDone Nat :=
  if cap ≤ b.length then
    match wr s.inner b with
    | (i, x) => ({ s with inner := i }, x)
  else ({ s with buf := s.buf ++ b }, .ready (.ok b.length))

/-- `tokio::io::BufWriter` with a buffer of `cap` bytes over any transport. tokio code; a `W` for futures.rs:456-464. -/
def tokioBufWriter (cap : Nat) (N : PollSink σ) : PollSink (TokioBuf σ) where
  pollWrite s b :=
    if cap < s.buf.length + b.length then
      match tokioFlushBuf N.pollWrite s.held.length s with
      | (s, .pending) => (s, .pending)
      | (s, .ready (.error k)) => (s, .ready (.error k))
      | (s, .ready (.ok ())) => tokioStore cap N.pollWrite s b
    else tokioStore cap N.pollWrite s b
  pollFlush s :=
    match tokioFlushBuf N.pollWrite s.held.length s with
    | (s, .pending) => (s, .pending)
    | (s, .ready (.error k)) => (s, .ready (.error k))
    | (s, .ready (.ok ())) =>
      match N.pollFlush s.inner with
      | (i, x) => ({ s with inner := i }, x)

end Bip324
