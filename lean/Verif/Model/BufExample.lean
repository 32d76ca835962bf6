import Verif.Model.BufReader

/-!
# The benchmark of the `BufReader`

protocol/examples/bufreader.rs: a server dumps the messages of a scenario, two clients read them, one of them through a
`BufReader`.  Time and the printing (lines 79-102, 104-114, 219-232) are not modelled; what is counted instead are the
calls of the transport, which the example is about (lines 5-7).
-/

namespace Bip324

variable {σ : Type}

/-- bufreader.rs:29-37 `Scenario`, without the name. -/
structure Scenario where
  messageSizes : List Nat
  iterations : Nat
deriving Repr, DecidableEq

/-- bufreader.rs:40-53 `Scenario::bitcoin_typical`. -/
def Scenario.bitcoinTypical : Scenario := ⟨[10, 37, 30, 250, 80, 500, 37, 30, 10, 10], 10000⟩

/-- bufreader.rs:55-61 `Scenario::large_messages`. -/
def Scenario.largeMessages : Scenario := ⟨[8192, 16384, 65536], 1000⟩

/-- bufreader.rs:63-69 `Scenario::small_messages`. -/
def Scenario.smallMessages : Scenario := ⟨[1, 2, 3, 4, 5], 20000⟩

/-- bufreader.rs:71-73 `Scenario::total_messages`. -/
def Scenario.totalMessages (s : Scenario) : Nat := s.messageSizes.length * s.iterations

/-- bufreader.rs:75-77 `Scenario::total_bytes`. -/
def Scenario.totalBytes (s : Scenario) : Nat := s.messageSizes.sum * s.iterations

/-- bufreader.rs:141-145: the payloads of one iteration. -/
def Scenario.payloads (s : Scenario) : List Payload := s.messageSizes.map fun size => .genuine (List.replicate size 0x42)

/-- bufreader.rs:151-153: `protocol.write(payload).await.unwrap()` for each payload. -/
def dumpOnce (fuel : Nat) (N : PollConn σ) (P : Prims) (prof : Profile) : List Payload → AsyncN σ → Option (AsyncN σ × Outcome ProtocolError Unit)
  | [], p => some (p, .ok ())
  | q :: qs, p =>
    match AsyncN.write fuel N P prof p q with
    | none => none
    | some (p, .ok ()) => dumpOnce fuel N P prof qs p
    | some (p, .err _) => some (p, .panic) -- `unwrap`
    | some (p, .panic) => some (p, .panic)

/-- bufreader.rs:150-154: all iterations. -/
def dumpAll (fuel : Nat) (N : PollConn σ) (P : Prims) (prof : Profile) (qs : List Payload) : Nat → AsyncN σ → Option (AsyncN σ × Outcome ProtocolError Unit)
  | 0, p => some (p, .ok ())
  | n + 1, p =>
    match dumpOnce fuel N P prof qs p with
    | none => none
    | some (p, .ok ()) => dumpAll fuel N P prof qs n p
    | some (p, .err e) => some (p, .err e)
    | some (p, .panic) => some (p, .panic)

/-- bufreader.rs:125-154: the server on one connection. -/
def serverRun (fuel : Nat) (N : PollConn σ) (P : Prims) (prof : Profile) (magic rngBytes : Bytes) (s : Scenario) (r : ConnRun σ) :
    Option (ConnRun σ × Outcome ProtocolError Unit) :=
  match AsyncN.new fuel N P prof magic .responder rngBytes none none r with
  | none => none
  | some (r, .panic) => some (r, .panic)
  | some (r, .err _) => some (r, .panic) -- `unwrap`
  | some (_, .ok p) =>
    match dumpAll fuel N P prof s.payloads s.iterations p with
    | none => none
    | some (p, x) => some (p.run, x)

/-- `protocol.read().await` (bufreader.rs:194, 210): polled until it is ready. -/
def AsyncN.awaitRead (fuel : Nat) (N : PollConn σ) (P : Prims) (prof : Profile) : Nat → AsyncN σ → Option (AsyncN σ × Outcome ProtocolError Payload)
  | 0, _ => none
  | polls + 1, p =>
    match AsyncN.pollRead fuel N P prof p with
    | none => none
    | some (p, .pending) => AsyncN.awaitRead fuel N P prof polls p
    | some (p, .ready x) => some (p, x)

/-- bufreader.rs:193-195 and 209-211: `for _ in 0..total { protocol.read().await?; }`; the payloads are kept as a ghost. -/
def readAll (fuel : Nat) (N : PollConn σ) (P : Prims) (prof : Profile) : Nat → AsyncN σ → Option (AsyncN σ × Outcome ProtocolError (List Payload))
  | 0, p => some (p, .ok [])
  | n + 1, p =>
    match AsyncN.awaitRead fuel N P prof fuel p with
    | none => none
    | some (p, .err e) => some (p, .err e)
    | some (p, .panic) => some (p, .panic)
    | some (p, .ok q) =>
      match readAll fuel N P prof n p with
      | none => none
      | some (p, .ok qs) => some (p, .ok (q :: qs))
      | some (p, .err e) => some (p, .err e)
      | some (p, .panic) => some (p, .panic)

/-- bufreader.rs:197-212: the client without a `BufReader`. -/
def clientRun (fuel : Nat) (N : PollConn σ) (P : Prims) (prof : Profile) (magic rngBytes : Bytes) (s : Scenario) (r : ConnRun σ) :
    Option (ConnRun σ × Outcome ProtocolError (List Payload)) :=
  match AsyncN.new fuel N P prof magic .initiator rngBytes none none r with
  | none => none
  | some (r, .panic) => some (r, .panic)
  | some (r, .err e) => some (r, .err e)
  | some (_, .ok p) =>
    match readAll fuel N P prof s.totalMessages p with
    | none => none
    | some (p, x) => some (p.run, x)

/-- The buffer of `tokio::io::BufReader::new`: 8 KiB. tokio code; called at bufreader.rs:181. -/
def DEFAULT_BUF_SIZE : Nat := 8192

/-- bufreader.rs:180-196: the client with a `BufReader`. -/
def bufferedClientRun (fuel : Nat) (N : PollConn σ) (P : Prims) (prof : Profile) (magic rngBytes : Bytes) (s : Scenario) (net : σ) :
    Option (ConnRun (BufState (ConnRun σ)) × Outcome ProtocolError (List Payload)) :=
  clientRun fuel (bufPoll DEFAULT_BUF_SIZE N.logged) P prof magic rngBytes s ⟨⟨⟨net, [], []⟩, []⟩, [], []⟩

end Bip324
