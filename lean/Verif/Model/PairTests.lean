import Verif.Model.Futures
import Verif.Model.Tests

/-!
# Model of the tests in which the library talks to a peer

`pingpong_with_closed_connection_sync`, `pingpong_with_closed_connection_async`, `regtest_handshake_std`,
`regtest_handshake_async` of `protocol/tests/round_trips.rs`, and `sync_protocol_with_traffic_shaping`,
`async_protocol_with_traffic_shaping` of `traffic/tests/bitcoin_integration.rs`.  A test is a list of statements; the
message codec (`consensus::serialize`, `consensus::deserialize`) is not modelled: what is written, and how what is read is
judged, are parameters.
-/

namespace Bip324

/-- A statement of a test, after the connection is made. round_trips.rs:185-200, 216-236, 266-278, 296-313, 516-524, 588-596;
bitcoin_integration.rs:68-116, 188-239. -/
inductive TestStep where
  /-- `protocol.write(&Payload::genuine(message)).unwrap()`. round_trips.rs:219-221; bitcoin_integration.rs:69-71. -/
  | write (message : Bytes)
  /-- `protocol.read().unwrap()`, `deserialize(payload.contents()).unwrap()`, `assert_eq!`.
  round_trips.rs:224-228, 521-524; bitcoin_integration.rs:75-77. -/
  | expect (ok : Bytes → Bool)
  /-- `protocol.read().unwrap()`, `deserialize`, and a `write` of what answers it; `none` is a panic.
  round_trips.rs:185-199. -/
  | answer (reply : Bytes → Option Bytes)
  /-- `loop { protocol.read().unwrap() … }` until a message of the kind waited for; `none`: it does not deserialise.
  bitcoin_integration.rs:103-115, 226-238. -/
  | until (done : Bytes → Option Bool)

/-- The calls a test makes on a connection: the synchronous or the asynchronous `Protocol`, futures.rs:252-346,
io.rs:418-505. -/
structure TestDriver (σ : Type) where
  write : σ → Payload → σ × Outcome ProtocolError Unit
  read : σ → σ × Outcome ProtocolError Payload

/-- `loop { .. }`. bitcoin_integration.rs:103-115, 226-238.  `fuel` bounds the number of rounds (with 0 the test is still
waiting). -/
def TestDriver.readUntil {σ : Type} (D : TestDriver σ) (done : Bytes → Option Bool) : Nat → σ → σ × Option Unit
  | 0, s => (s, none)
  | fuel + 1, s =>
    match D.read s with
    | (s, .ok p) =>
      match p.contents.bind done with
      | some true => (s, some ())
      | some false => D.readUntil done fuel s
      | none => (s, none)
    | (s, _) => (s, none)

/-- The statements of a test in order; `none` is a panic, the state is the one reached then.
round_trips.rs:185-200, 216-236; bitcoin_integration.rs:68-116. -/
def TestDriver.perform {σ : Type} (D : TestDriver σ) (fuel : Nat) : List TestStep → σ → σ × Option Unit
  | [], s => (s, some ())
  | .write m :: steps, s =>
    match D.write s (.genuine m) with
    | (s, .ok ()) => D.perform fuel steps s
    | (s, _) => (s, none)
  | .expect ok :: steps, s =>
    match D.read s with
    | (s, .ok p) =>
      match p.contents with
      | some c => if ok c then D.perform fuel steps s else (s, none)
      | none => (s, none)
    | (s, _) => (s, none)
  | .answer reply :: steps, s =>
    match D.read s with
    | (s, .ok p) =>
      match p.contents.bind reply with
      | some m =>
        match D.write s (.genuine m) with
        | (s, .ok ()) => D.perform fuel steps s
        | (s, _) => (s, none)
      | none => (s, none)
    | (s, _) => (s, none)
  | .until done :: steps, s =>
    match D.readUntil done fuel s with
    | (s, some ()) => D.perform fuel steps s
    | (s, none) => (s, none)

/-- The whole of a test after the connection is made; with `closed` it ends with `assert!(protocol.read().is_err())`.
round_trips.rs:216-236, 296-313. -/
def TestDriver.test {σ : Type} (D : TestDriver σ) (fuel : Nat) (steps : List TestStep) (closed : Bool) (s : σ) :
    σ × Bool :=
  match D.perform fuel steps s with
  | (s, none) => (s, false)
  | (s, some ()) =>
    if closed then
      match D.read s with
      | (s, .err _) => (s, true)
      | (s, _) => (s, false)
    else (s, true)

/-- io.rs:488-505, as the tests use it. -/
def syncDriver (P : Prims) (prof : Profile) : TestDriver SyncProtocol := ⟨SyncProtocol.write P prof, SyncProtocol.read P prof⟩

/-- `.await` on the future of `read`: it is polled until it is ready. round_trips.rs:266, 302, 313.  A `Pending` uses up an
event of the transport's script, so the number of polls can be bounded by the length of the script; running out of
polls (which is proved not to happen) counts as a panic. -/
def AsyncReader.await (P : Prims) (prof : Profile) : Nat → AsyncReader → AsyncReader × Outcome ProtocolError Payload
  | 0, r => (r, .panic)
  | n + 1, r =>
    match r.poll P prof with
    | (r, .ready x) => (r, x)
    | (r, .pending) => AsyncReader.await P prof n r

/-- futures.rs:327-346, as the tests use it. -/
def asyncDriver (P : Prims) (prof : Profile) : TestDriver AsyncProtocol where
  write := AsyncProtocol.write P prof
  read p :=
    match p.reader.await P prof (p.reader.reader.size + 1) with
    | (r, x) => ({ p with reader := r }, x)

/-- A test with the synchronous `Protocol`; `none` if the handshake fails. round_trips.rs:157-237, 461-527. -/
def syncTest (P : Prims) (prof : Profile) (magic : Bytes) (role : Role) (rng : Bytes) (garbage : Option Bytes)
    (decoys : Option (List Bytes)) (src : Source) (w : Sink) (fuel : Nat) (steps : List TestStep) (closed : Bool) :
    Option (SyncProtocol × Bool) :=
  match SyncProtocol.new P prof magic role rng garbage decoys src w with
  | .ok p => some ((syncDriver P prof).test fuel steps closed p)
  | _ => none

/-- A test with the asynchronous `Protocol`; `none` if the handshake fails. round_trips.rs:239-314, 529-599. -/
def asyncTest (P : Prims) (prof : Profile) (magic : Bytes) (role : Role) (rng : Bytes) (garbage : Option Bytes)
    (decoys : Option (List Bytes)) (src : Source) (w : Sink) (fuel : Nat) (steps : List TestStep) (closed : Bool) :
    Option (AsyncProtocol × Bool) :=
  match AsyncProtocol.new P prof magic role rng garbage decoys src w with
  | .ok p => some ((asyncDriver P prof).test fuel steps closed p)
  | _ => none

/-- round_trips.rs:216-236, 296-313: the client of the ping-pong tests (with `closed`). -/
def pingClient (ping : Bytes) (isPong : Bytes → Bool) : List TestStep := [.write ping, .expect isPong]

/-- round_trips.rs:185-200, 266-278: the server of the ping-pong tests. -/
def pongServer (reply : Bytes → Option Bytes) : List TestStep := [.answer reply]

/-- round_trips.rs:516-524, 588-596: the exchange of version messages with `bitcoind`. -/
def regtestSteps (version : Bytes) (cmd : Bytes → Option String) : List TestStep :=
  [.write version, .expect fun c => cmd c = some "version"]

/-- bitcoin_integration.rs:68-116, 188-239.  `cmd` is `deserialize` and then `cmd()`. -/
def integrationSteps (version verack : Bytes) (ping : Nat → Bytes) (cmd : Bytes → Option String) : List TestStep :=
  [.write version, .expect fun c => cmd c = some "version", .write verack, .expect fun c => cmd c = some "verack",
    .write (ping 0), .until fun c => (cmd c).map (· = "pong"),
    .write (ping 1), .until fun c => (cmd c).map (· = "pong"),
    .write (ping 2), .until fun c => (cmd c).map (· = "pong")]

end Bip324
