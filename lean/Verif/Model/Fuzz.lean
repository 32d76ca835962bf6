import Verif.Model.Handshake

/-! # Model of `fuzz/fuzz_targets`

The two fuzz targets as functions of the fuzzer's input.  The bytes that the seeded generators give are parameters. -/

namespace Bip324

/-- How a run of a fuzz target ends.  `crashed` is a panic, which the fuzzer reports.
fuzz/fuzz_targets/receive_key.rs:1-54 and receive_garbage.rs:1-66. -/
inductive FuzzRun (α : Type) where
  | skipped
  | crashed
  | ran (result : Outcome Error α)
deriving Repr, DecidableEq

/-- receive_key.rs:12 and receive_garbage.rs:10 `MAGIC`. -/
def FUZZ_MAGIC : Bytes := [0xf9, 0xbe, 0xb4, 0xd9]

/-- `.unwrap()` inside a fuzz target. fuzz/fuzz_targets/receive_key.rs:1-54 and receive_garbage.rs:1-66. -/
def FuzzRun.unwrap {α β : Type} (r : Outcome Error β) (k : β → FuzzRun α) : FuzzRun α :=
  match r with
  | .ok b => k b
  | _ => .crashed

/-- A value that the target drops: a panic inside the call is still a crash.
fuzz/fuzz_targets/receive_key.rs:1-54 and receive_garbage.rs:1-66. -/
def FuzzRun.finish {α : Type} : Outcome Error α → FuzzRun α
  | .panic => .crashed
  | r => .ran r

/-- receive_key.rs:14-54. -/
def fuzzReceiveKey (P : Prims) (prof : Profile) (rng : Bytes) (data : Bytes) : FuzzRun HsReceivedKey :=
  if data.length ≠ 64 then .skipped
  else
    FuzzRun.unwrap (HsInitialized.newWithRng P prof FUZZ_MAGIC .initiator rng) fun handshake =>
    FuzzRun.unwrap (handshake.sendKey none (zeros (HsInitialized.sendKeyLen none))).2 fun handshake =>
    FuzzRun.finish (handshake.receiveKey P data)

/-- receive_garbage.rs:12-66.  (`responder_key[..64].try_into().unwrap()` cannot fail: the buffer has
`send_key_len(None)` = 64 bytes.) -/
def fuzzReceiveGarbage (P : Prims) (prof : Profile) (rng rng2 : Bytes) (data : Bytes) : FuzzRun GarbageResult :=
  if data.length > 5000 then .skipped
  else
    FuzzRun.unwrap (HsInitialized.newWithRng P prof FUZZ_MAGIC .initiator rng) fun initiator =>
    let initiatorKey := initiator.sendKey none (zeros (HsInitialized.sendKeyLen none))
    FuzzRun.unwrap initiatorKey.2 fun initiator =>
    FuzzRun.unwrap (HsInitialized.newWithRng P prof FUZZ_MAGIC .responder rng2) fun responder =>
    let responderKey := responder.sendKey none (zeros (HsInitialized.sendKeyLen none))
    FuzzRun.unwrap responderKey.2 fun responder =>
    FuzzRun.unwrap (initiator.receiveKey P (responderKey.1.take 64)) fun initiator =>
    FuzzRun.unwrap (responder.receiveKey P (initiatorKey.1.take 64)) fun responder =>
    let responderVersion := responder.sendVersion P prof (zeros (HsReceivedKey.sendVersionLen none)) none
    FuzzRun.unwrap responderVersion.2 fun _ =>
    let responderTerminator := responderVersion.1.take 16
    FuzzRun.unwrap (initiator.sendVersion P prof (zeros (HsReceivedKey.sendVersionLen none)) none).2 fun initiator =>
    FuzzRun.finish (initiator.receiveGarbage (data ++ responderTerminator))

end Bip324
