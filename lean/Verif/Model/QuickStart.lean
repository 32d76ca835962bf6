import Verif.Model.PairTests

/-!
# Model of the examples with which the documentation begins

protocol/src/lib.rs:16-46 and protocol/src/io.rs:15-45 (the same program; the latter hands the bytes of the message over
without a copy).  `TcpStream::connect` and `try_clone` are not modelled: the two halves of the stream are given.
lib.rs:50-83 and futures.rs:15-50 are the same with the asynchronous API.
-/

namespace Bip324

/-- protocol/src/lib.rs:31-43, io.rs:30-42: `Protocol::new` as initiator without garbage and decoys, one `write`, one `read`, and what
is printed, the number of bytes of the contents.  The result is what was sent, and that number; `?` returns the error. -/
def quickStart (P : Prims) (prof : Profile) (magic rngBytes message : Bytes) (reader : Source) (writer : Sink) :
    Outcome ProtocolError (Bytes × Nat) :=
  match SyncProtocol.new P prof magic .initiator rngBytes none none reader writer with
  | .panic => .panic
  | .err e => .err e
  | .ok protocol =>
  match protocol.write P prof (.genuine message) with
  | (_, .panic) => .panic
  | (_, .err e) => .err e
  | (protocol, .ok ()) =>
  match protocol.read P prof with
  | (_, .panic) => .panic
  | (_, .err e) => .err e
  | (protocol, .ok response) =>
  match response.contents with
  | none => .panic
  | some contents => .ok (protocol.writer.writer.out, contents.length)

/-- protocol/src/lib.rs:68-80, futures.rs:35-47: the same with the asynchronous API.  `.await` polls the read until it is ready, as in
`asyncDriver`. -/
def quickStartAsync (P : Prims) (prof : Profile) (magic rngBytes message : Bytes) (reader : Source) (writer : Sink) :
    Outcome ProtocolError (Bytes × Nat) :=
  match AsyncProtocol.new P prof magic .initiator rngBytes none none reader writer with
  | .panic => .panic
  | .err e => .err e
  | .ok protocol =>
  match protocol.write P prof (.genuine message) with
  | (_, .panic) => .panic
  | (_, .err e) => .err e
  | (protocol, .ok ()) =>
  match protocol.reader.await P prof (protocol.reader.reader.size + 1) with
  | (_, .panic) => .panic
  | (_, .err e) => .err e
  | (_, .ok response) =>
  match response.contents with
  | none => .panic
  | some contents => .ok (protocol.writer.writer.out, contents.length)

end Bip324
