import Verif.Model.BufReader

/-!
# A `BufWriter` between the library and the transport

io.rs and futures.rs write to any `W: Write` or `W: AsyncWrite` and flush it at the end of each step of the handshake and of
each packet (io.rs:345, 357, 571; futures.rs:179, 191, 489).  Over a plain socket the flush does nothing; over a writer that
keeps bytes back it is what makes them leave.  Here is the one everybody uses, over any transport, as a transport.
-/

namespace Bip324

variable {σ : Type}

/-- A `BufWriter`: the transport, the bytes kept back, and whether a `write_all` is going on that passes its bytes through
(only for std, see `wbufWrite`). std and tokio code; a `W` for io.rs:280-293, 418-421 and futures.rs:151-160. -/
structure WBuf (σ : Type) where
  inner : σ
  buf : Bytes
  through : Bool
deriving Repr, DecidableEq

/-- `flush_buf`: the bytes kept back are written until none is left; after a failure those that were not written stay.
`retry` for std, which tries again after `Interrupted`. std and tokio code; reached from the `flush` at io.rs:345, 357, 571,
futures.rs:179, 191, 489, and from `write_all` one line above each. -/
def flushBuf (turns : Nat) (retry : Bool) (wr : σ → Bytes → Option (σ × Except ErrorKind Nat)) (s : WBuf σ) :
    Option (WBuf σ × Except ErrorKind Unit) :=
  match turns with
  | 0 => none
  | turns + 1 =>
  match s.buf with
  | [] => some (s, .ok ())
  | b :: bs =>
    match wr s.inner (b :: bs) with
    | none => none
    | some (i, .ok 0) => some ({ s with inner := i }, .error .writeZero)
    | some (i, .ok (n + 1)) => flushBuf turns retry wr { s with inner := i, buf := (b :: bs).drop (n + 1) }
    | some (i, .error k) =>
      if retry && k == .interrupted then flushBuf turns retry wr { s with inner := i } else some ({ s with inner := i }, .error k)

/-- The rest of `write`, with enough room or an empty buffer: what is not smaller than the whole buffer goes to the transport,
anything else is kept back.  `BufWriter::write_all` of std gives such bytes to `write_all` of the transport, so that what
remains of them after a short write is passed through as well, however small; that is what `through` is for.
std and tokio code; called at io.rs:344, 356, 570; futures.rs:178, 190, 488. -/
def wbufStore (cap : Nat) (std : Bool) (wr : σ → Bytes → Option (σ × Except ErrorKind Nat)) (s : WBuf σ) (b : Bytes) :
    Option (WBuf σ × Except ErrorKind Nat) :=
  if cap ≤ b.length ∨ s.through = true then
    match wr s.inner b with
    | none => none
    | some (i, .ok n) => some ({ s with inner := i, through := std && decide (n ≠ 0) && decide (n < b.length) }, .ok n)
    | some (i, .error k) => some ({ s with inner := i, through := std && k == .interrupted }, .error k)
  else some ({ s with buf := s.buf ++ b }, .ok b.length)

/-- `write` of a `BufWriter` with a buffer of `cap` bytes: if there is not enough room, `flush_buf` makes it.  (With `through`
nothing is kept back, and `flush_buf` does nothing.) std and tokio code; called at io.rs:344, 356, 570; futures.rs:178, 190, 488. -/
def wbufWrite (turns cap : Nat) (std : Bool) (wr : σ → Bytes → Option (σ × Except ErrorKind Nat)) (s : WBuf σ) (b : Bytes) :
    Option (WBuf σ × Except ErrorKind Nat) :=
  if cap < s.buf.length + b.length ∨ s.through = true then
    match flushBuf turns std wr s with
    | none => none
    | some (s, .error k) => some (s, .error k)
    | some (s, .ok ()) => wbufStore cap std wr s b
  else wbufStore cap std wr s b

/-- The transport with its writing half in a `BufWriter`; the reading half is used as it is.
std (`std = true`) and tokio code; a `W` for io.rs:280-293, 418-421 and futures.rs:151-160. -/
def bufWriter (turns cap : Nat) (std : Bool) (N : Conn σ) : Conn (WBuf σ) where
  read s n :=
    match N.read s.inner n with
    | none => none
    | some (i, x) => some ({ s with inner := i }, x)
  write := wbufWrite turns cap std N.write
  flush s :=
    match flushBuf turns std N.write s with
    | none => none
    | some (s, .error k) => some (s, .error k)
    | some (s, .ok ()) =>
      match N.flush s.inner with
      | none => none
      | some (i, x) => some ({ s with inner := i }, x)

/-- The same for a transport that can be polled. tokio code; a `W` for futures.rs:151-160. -/
def bufWriterPoll (turns cap : Nat) (std : Bool) (N : PollConn σ) : PollConn (WBuf σ) where
  toConn := bufWriter turns cap std N.toConn
  pollRead s n :=
    match N.pollRead s.inner n with
    | (i, x) => ({ s with inner := i }, x)

end Bip324
