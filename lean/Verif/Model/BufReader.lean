import Verif.Model.AnyTransport

/-!
# A `BufReader` between the library and the transport

The documentation (protocol/src/lib.rs:19-26, 57-64, 89-99, io.rs:11-26 and 432, futures.rs:11-29 and 268) and
protocol/examples/bufreader.rs:175-190 wrap the reading half of the transport in `std::io::BufReader` or
`tokio::io::BufReader` before the handshake.  Here it is, over any transport, as a transport.
-/

namespace Bip324

variable {σ : Type}

/-- A `BufReader`: the transport and the unread part `&buf[pos..filled]` of the buffer.
std and tokio code; used in protocol/examples/bufreader.rs:1-232 and advised at io.rs:432, futures.rs:268. -/
structure BufState (σ : Type) where
  inner : σ
  buf : Bytes
deriving Repr, DecidableEq

/-- `BufReader::read` of std and `poll_read` of tokio, with a buffer of `cap` bytes (8192 by default) over any `read`: an
empty buffer is bypassed by a request that is not smaller than it, otherwise it is filled by one call; then bytes are
copied out of it.  (`BufReader::read_exact` of std copies if the buffer suffices and is the loop over `read` otherwise,
which is what the loop over `read` does.). std and tokio code; used in protocol/examples/bufreader.rs:1-232. -/
def bufRead (cap : Nat) (rd : σ → Nat → Option (σ × ReadRes)) (s : BufState σ) (n : Nat) : Option (BufState σ × ReadRes) :=
  if s.buf = [] then
    if cap ≤ n then
      match rd s.inner n with
      | none => none
      | some (i, x) => some (⟨i, []⟩, x)
    else
      match rd s.inner cap with
      | none => none
      | some (i, .ok bs) => some (⟨i, bs.drop n⟩, .ok (bs.take n))
      | some (i, .err k) => some (⟨i, []⟩, .err k)
  else some (⟨s.inner, s.buf.drop n⟩, .ok (s.buf.take n))

/-- The transport with its reading half in a `BufReader`; the writing half is used as it is.
protocol/examples/bufreader.rs:1-232. -/
def bufConn (cap : Nat) (N : Conn σ) : Conn (BufState σ) where
  read := bufRead cap N.read
  write s b :=
    match N.write s.inner b with
    | none => none
    | some (i, x) => some (⟨i, s.buf⟩, x)
  flush s :=
    match N.flush s.inner with
    | none => none
    | some (i, x) => some (⟨i, s.buf⟩, x)

/-- `poll_read` of tokio's `BufReader`. tokio code; used in protocol/examples/bufreader.rs:1-232. -/
def bufPollRead (cap : Nat) (rd : σ → Nat → σ × PollRead) (s : BufState σ) (n : Nat) : BufState σ × PollRead :=
  if s.buf = [] then
    if cap ≤ n then
      match rd s.inner n with
      | (i, x) => (⟨i, []⟩, x)
    else
      match rd s.inner cap with
      | (i, .pending) => (⟨i, []⟩, .pending)
      | (i, .ready (.ok bs)) => (⟨i, bs.drop n⟩, .ready (.ok (bs.take n)))
      | (i, .ready (.err k)) => (⟨i, []⟩, .ready (.err k))
  else (⟨s.inner, s.buf.drop n⟩, .ready (.ok (s.buf.take n)))

/-- The same for a transport that can be polled. protocol/examples/bufreader.rs:1-232. -/
def bufPoll (cap : Nat) (N : PollConn σ) : PollConn (BufState σ) where
  toConn := bufConn cap N.toConn
  pollRead := bufPollRead cap N.pollRead

/-- A transport that keeps the record of `ConnRun` itself, so that it is kept below a `BufReader` too.
Ghost, no code in /repo. -/
def Conn.logged (N : Conn σ) : Conn (ConnRun σ) := ⟨N.readRun, N.writeRun, N.flushRun⟩

/-- The same for a transport that can be polled. Ghost, no code in /repo. -/
def PollConn.logged (N : PollConn σ) : PollConn (ConnRun σ) := ⟨N.toConn.logged, N.pollRun⟩

end Bip324
