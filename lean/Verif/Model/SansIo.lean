import Verif.Model.Handshake

/-!
# Model of the documented use of the handshake without I/O

The examples in the documentation of `receive_garbage` and `receive_version` show how an application that does its own
I/O drives the state machine.  They are modelled as written, including the indexing of slices.
-/

namespace Bip324

/-- How the documented loop over the garbage ends: it still waits for data; or it has left the loop, with the next state,
the rest of its buffer, and the data that has not been read from the network. handshake.rs:415-434. -/
inductive DocGarbage where
  | waiting
  | found (h : HsReceivedGarbage) (remaining : Bytes) (unread : List Bytes)
  | failed (e : Error)
  | panicked
deriving Repr, DecidableEq

/-- handshake.rs:415-434, the example of `receive_garbage`.  `pieces` are the values of `new_data`.  (As printed, the
example moves `handshake` in the first round; the model goes on with the one that `NeedMoreData` returns, as the
pattern binds it under the same name.) -/
def docGarbage (h : HsSentVersion) (networkBuffer : Bytes) : List Bytes → DocGarbage
  | [] => .waiting
  | newData :: pieces =>
    let networkBuffer := networkBuffer ++ newData
    match h.receiveGarbage networkBuffer with
    | .err e => .failed e
    | .panic => .panicked
    | .ok (.foundGarbage nextState consumedBytes) =>
      if networkBuffer.length < consumedBytes then .panicked
      else .found nextState (networkBuffer.drop consumedBytes) pieces
    | .ok (.needMoreData h) => docGarbage h networkBuffer pieces

/-- handshake.rs:536-560, the example of `receive_version`: the session, and `remaining_data`.  The slices are taken by
index, which panics if they are not there. -/
def docVersion (P : Prims) (prof : Profile) (h : HsReceivedGarbage) (remainingData : Bytes) :
    Outcome Error (CipherSession × Bytes) :=
  if remainingData.length < NUM_LENGTH_BYTES then .panic
  else
    match h.decryptPacketLen P prof (remainingData.take NUM_LENGTH_BYTES) with
    | (_, .err e) => .err e
    | (_, .panic) => .panic
    | (h, .ok packetLen) =>
      if remainingData.length < NUM_LENGTH_BYTES + packetLen then .panic
      else
        match h.receiveVersion P prof (slice remainingData NUM_LENGTH_BYTES packetLen) with
        | (_, .err e) => .err e
        | (_, .panic) => .panic
        | (_, .ok (.complete cipher)) => .ok (cipher, remainingData.drop (NUM_LENGTH_BYTES + packetLen))
        | (_, .ok (.decoy nextHandshake)) =>
          docVersion P prof nextHandshake (remainingData.drop (NUM_LENGTH_BYTES + packetLen))
termination_by remainingData.length
decreasing_by have : NUM_LENGTH_BYTES = 3 := rfl; simp; omega

/-- The two one after the other: "Process remaining data for version packets", "Continue with
next_state.receive_version()" (handshake.rs:425-427).  `none`: still waiting for the terminator. -/
def docDriver (P : Prims) (prof : Profile) (h : HsSentVersion) (pieces : List Bytes) :
    Option (Outcome Error (CipherSession × Bytes × List Bytes)) :=
  match docGarbage h [] pieces with
  | .waiting => none
  | .failed e => some (.err e)
  | .panicked => some .panic
  | .found nextState remaining unread =>
    match docVersion P prof nextState remaining with
    | .err e => some (.err e)
    | .panic => some .panic
    | .ok (cipher, remaining) => some (.ok (cipher, remaining, unread))

end Bip324
