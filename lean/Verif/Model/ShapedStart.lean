import Verif.Model.PairTests
import Verif.Model.TrafficFutures
import Verif.Model.TrafficIo

/-!
# Model of the examples with which the documentation of the shaped protocol begins

traffic/src/lib.rs:11-42, and 44-79 with the asynchronous API.  `TcpStream::connect` and `try_clone` are not modelled: the two halves of the stream are given.  The
writer is dropped at the end of the program; that is not part of this model.
-/

namespace Bip324

/-- traffic/lib.rs:19-21: the configuration of the example. -/
def shapedStartConfig : TrafficConfig := ⟨.random, .random⟩

/-- traffic/lib.rs:27-40: `ShapedProtocol::new` as initiator, one `write`, one `read`, and what is printed, the contents.  The decoy thread
makes `before` steps before the call of `write`; `during` are the steps of both threads up to the one of the application in which `write`
returns, and `after` the number of steps of the decoy thread until the application reads.  The result is what has been sent when `write`
returns, and the contents; `none` if `write` does not return then. -/
def shapedStart {G : Rng} (P : Prims) (prof : Profile) (magic rngBytes message : Bytes) (gen : G.State) (before : Nat) (during : List Tid)
    (after : Nat) (reader : Source) (writer : Sink) : Option (Outcome ProtocolError (Bytes × Bytes)) :=
  match ShapedSys.new (R := G) P prof magic .initiator rngBytes shapedStartConfig gen reader writer with
  | .panic => some .panic
  | .err e => some (.err e)
  | .ok s =>
    let s := s.run P prof (List.replicate before .bg ++ .call (.genuine message) :: during.map fun
      | .app => .app
      | .bg => .bg)
    let s' := s.step P prof .app
    match s.returned, s'.returned with
    | [], [(_, .panic)] => some .panic
    | [], [(_, .err e)] => some (.err e)
    | [], [(_, .ok ())] =>
      let s'' := s'.run P prof (List.replicate after .bg)
      match s''.reader.read P prof with
      | (_, .panic) => some .panic
      | (_, .err e) => some (.err e)
      | (_, .ok received) =>
        match received.contents with
        | none => some .panic
        | some contents => some (.ok (s'.ws.writer.writer.out, contents))
    | _, _ => none

/-- What happens in the asynchronous example besides the calls: the application polls the pending `write`, or the task goes on.
traffic/futures.rs:175-196, 203-251. -/
inductive StartMove where
  | resume
  | recv
  | tick
  | otherwise
  | task
deriving Repr, DecidableEq

/-- traffic/futures.rs:175-196, 203-251. -/
def StartMove.label : StartMove → AsyncLabel
  | .resume => .resume
  | .recv => .recv
  | .tick => .tick
  | .otherwise => .otherwise
  | .task => .task

/-- traffic/lib.rs:62-75: the same with the asynchronous API.  `before` happens before the call of `write`, `during` from then until the
application reads; `.await` on the read polls until it is ready, as in `asyncDriver`, and what the task does meanwhile does not touch the
reader.  The result is what has been sent before the read, and the contents; `none` if `write` has not returned. -/
def shapedStartAsync {G : Rng} (P : Prims) (prof : Profile) (magic rngBytes message : Bytes) (gen : G.State) (before during : List StartMove)
    (reader : Source) (writer : Sink) : Option (Outcome ProtocolError (Bytes × Bytes)) :=
  match AsyncShapedSys.new (R := G) P prof magic .initiator rngBytes shapedStartConfig gen reader writer with
  | .panic => some .panic
  | .err e => some (.err e)
  | .ok s =>
    let s := s.run P prof (before.map StartMove.label ++ .call (.genuine message) :: during.map StartMove.label)
    match s.returned with
    | [(_, .panic)] => some .panic
    | [(_, .err e)] => some (.err e)
    | [(_, .ok ())] =>
      match s.reader.reader.await P prof (s.reader.reader.reader.size + 1) with
      | (_, .panic) => some .panic
      | (_, .err e) => some (.err e)
      | (_, .ok received) =>
        match received.contents with
        | none => some .panic
        | some contents => some (.ok (s.ws.writer.writer.out, contents))
    | _ => none

end Bip324
