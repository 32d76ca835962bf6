import Verif.Model.AnyTransport
import Verif.Model.TrafficIo
import Verif.Model.TrafficFutures

/-!
# Both halves at once, over any transport

`Verif/Model/AnyTransport.lean` runs one call of the API after the other.  After `into_split`, and in the traffic crate,
reading and writing happen at the same time: on two threads, in two tasks.  Here a step is at most one call of the
transport, or one computation of the code between two such calls, of either half; between any two steps the other half
may go on, and the peer and the network may do anything to the transport.  A call that the transport does not answer
(`none`) is one that blocks: nothing changes, and it may be answered later.

The writing sides are those of Model/Traffic.lean, Model/TrafficIo.lean and Model/TrafficFutures.lean, which run against a
script; here the script of each step is the one answer that the transport gives.
-/

namespace Bip324

variable {σ : Type}

/-! ## Reading, call by call -/

/-- Where a blocking `read` is (io.rs:525-537). -/
inductive ReadPc where
  /-- No call is in progress. -/
  | idle
  /-- io.rs:526-527: in `read_exact` of the length, these bytes are there. -/
  | length (acc : Bytes)
  /-- io.rs:529-530: in `read_exact` of the packet, these bytes are there. -/
  | packet (need : Nat) (acc : Bytes)
deriving Repr, DecidableEq

/-- io.rs:509-512 `ProtocolReader`, with the transport beside it, and where its `read` is. -/
structure SyncHalf where
  cipher : InboundCipher
  sess : Bytes × Bool
  pc : ReadPc
deriving Repr, DecidableEq

/-- A reader half of either API: a call of `read` begins, and it goes on. io.rs:525-537 and futures.rs:400-448. -/
structure HalfApi (σ H Res : Type) where
  start : H → H
  step : H → ConnRun σ → Option (H × ConnRun σ × Option Res)

/-- io.rs:525-537 `ProtocolReader::read`, one call of the transport or one decryption. -/
def SyncHalf.step (N : Conn σ) (P : Prims) (prof : Profile) (h : SyncHalf) (r : ConnRun σ) :
    Option (SyncHalf × ConnRun σ × Option (Outcome ProtocolError Payload)) :=
  match h.pc with
  | .idle => none
  | .length acc =>
    if NUM_LENGTH_BYTES - acc.length = 0 then
      match h.cipher.decryptPacketLen P prof acc with
      | (c, .panic) => some (⟨c, h.sess, .idle⟩, r, some .panic)
      | (c, .err e) => some (⟨c, h.sess, .idle⟩, r, some (.err (.internal e)))
      | (c, .ok packetBytesLen) => some (⟨c, h.sess, .packet packetBytesLen []⟩, r, none)
    else
      match syncN.read N.readRun (h.sess, r) (NUM_LENGTH_BYTES - acc.length) with
      | none => none
      | some ((s, r'), .ok []) => some (⟨h.cipher, s, .idle⟩, r', some (.err (.fromIo .unexpectedEof)))
      | some ((s, r'), .ok (b :: bs)) => some (⟨h.cipher, s, .length (acc ++ (b :: bs))⟩, r', none)
      | some ((s, r'), .err k) =>
        if k == .interrupted then some (⟨h.cipher, s, .length acc⟩, r', none)
        else some (⟨h.cipher, s, .idle⟩, r', some (.err (.fromIo k)))
  | .packet need acc =>
    if need - acc.length = 0 then
      match h.cipher.decryptToVec P prof acc none with
      | (c, .panic) => some (⟨c, h.sess, .idle⟩, r, some .panic)
      | (c, .err e) => some (⟨c, h.sess, .idle⟩, r, some (.err (.internal e)))
      | (c, .ok (_, plaintextBuffer)) =>
        match Payload.mkDecrypted prof plaintextBuffer with
        | none => some (⟨c, h.sess, .idle⟩, r, some .panic)
        | some p => some (⟨c, h.sess, .idle⟩, r, some (.ok p))
    else
      match syncN.read N.readRun (h.sess, r) (need - acc.length) with
      | none => none
      | some ((s, r'), .ok []) => some (⟨h.cipher, s, .idle⟩, r', some (.err (.fromIo .unexpectedEof)))
      | some ((s, r'), .ok (b :: bs)) => some (⟨h.cipher, s, .packet need (acc ++ (b :: bs))⟩, r', none)
      | some ((s, r'), .err k) =>
        if k == .interrupted then some (⟨h.cipher, s, .packet need acc⟩, r', none)
        else some (⟨h.cipher, s, .idle⟩, r', some (.err (.fromIo k)))

/-- The blocking reader half. io.rs:525-537. -/
def syncHalf (N : Conn σ) (P : Prims) (prof : Profile) : HalfApi σ SyncHalf (Outcome ProtocolError Payload) where
  start h := if h.pc = .idle then { h with pc := .length [] } else h
  step h r := h.step N P prof r

/-- futures.rs:381-385 `ProtocolReader` (async), with the transport beside it; `busy`: a poll of `read` is in progress. -/
structure AsyncHalf where
  cipher : InboundCipher
  sess : Bytes × Nat
  state : DecryptState
  busy : Bool
deriving Repr, DecidableEq

/-- futures.rs:400-448, one poll of the transport or one decryption within one poll of `read`. -/
def AsyncHalf.step (N : PollConn σ) (P : Prims) (prof : Profile) (h : AsyncHalf) (r : ConnRun σ) :
    Option (AsyncHalf × ConnRun σ × Option PollResult) :=
  if h.busy then
    match h.state with
    | .readingLength buf n =>
      if n < buf.length then
        match sessPollN N (h.sess, r) (buf.length - n) with
        | ((s, r'), .pending) => some (⟨h.cipher, s, h.state, false⟩, r', some .pending)
        | ((s, r'), .ready (.err k)) => some (⟨h.cipher, s, h.state, false⟩, r', some (.ready (.err (.fromIo k))))
        | ((s, r'), .ready (.ok [])) => some (⟨h.cipher, s, h.state, false⟩, r', some (.ready (.err (.fromIo .connectionAborted))))
        | ((s, r'), .ready (.ok (b :: bs))) =>
          some (⟨h.cipher, s, .readingLength (writeAt buf n (b :: bs)) (n + (b :: bs).length), true⟩, r', none)
      else
        match h.cipher.decryptPacketLen P prof buf with
        | (c, .panic) => some (⟨c, h.sess, .readingLength buf n, false⟩, r, some (.ready .panic))
        | (c, .err e) => some (⟨c, h.sess, .readingLength buf n, false⟩, r, some (.ready (.err (.internal e))))
        | (c, .ok packetBytesLen) => some (⟨c, h.sess, .initReadingPayload packetBytesLen, true⟩, r, none)
    | .readingPayload buf n =>
      if n < buf.length then
        match sessPollN N (h.sess, r) (buf.length - n) with
        | ((s, r'), .pending) => some (⟨h.cipher, s, h.state, false⟩, r', some .pending)
        | ((s, r'), .ready (.err k)) => some (⟨h.cipher, s, h.state, false⟩, r', some (.ready (.err (.fromIo k))))
        | ((s, r'), .ready (.ok [])) => some (⟨h.cipher, s, h.state, false⟩, r', some (.ready (.err (.fromIo .connectionAborted))))
        | ((s, r'), .ready (.ok (b :: bs))) =>
          some (⟨h.cipher, s, .readingPayload (writeAt buf n (b :: bs)) (n + (b :: bs).length), true⟩, r', none)
      else
        match InboundCipher.decryptionBufferLen prof buf.length with
        | none => some (⟨h.cipher, h.sess, .readingPayload buf n, false⟩, r, some (.ready .panic))
        | some plaintextLen =>
          match h.cipher.decrypt P prof buf (zeros plaintextLen) none with
          | (c, _, .panic) => some (⟨c, h.sess, .readingPayload buf n, false⟩, r, some (.ready .panic))
          | (c, _, .err e) => some (⟨c, h.sess, .readingPayload buf n, false⟩, r, some (.ready (.err (.internal e))))
          | (c, plaintextBuffer, .ok _) =>
            match Payload.mkDecrypted prof plaintextBuffer with
            | none => some (⟨c, h.sess, .initReadingLength, false⟩, r, some (.ready .panic))
            | some p => some (⟨c, h.sess, .initReadingLength, false⟩, r, some (.ready (.ok p)))
  else none

/-- The asynchronous reader half; a call is one poll of `read`, after which its future may also be dropped.
futures.rs:400-448. -/
def asyncHalf (N : PollConn σ) (P : Prims) (prof : Profile) : HalfApi σ AsyncHalf PollResult where
  start h := { h with busy := true }
  step h r := h.step N P prof r

/-! ## Writing, call by call -/

/-- A call of the transport that writes. io.rs:570-571, futures.rs:488-489. -/
inductive NetReq where
  | write (buf : Bytes)
  | flush
deriving Repr, DecidableEq

/-- The call that the next step of `WProc.step` makes. io.rs:570-571, futures.rs:488-489. -/
def WProc.asks : WProc → Option NetReq
  | .sending (b :: bs) => some (.write (b :: bs))
  | .flushing => some .flush
  | _ => none

/-- The call that the next step of `JobPc.step` makes. traffic/io.rs:185-193, 228-230; traffic/futures.rs:218-244. -/
def JobPc.asks : JobPc → Option NetReq
  | .padding w _ => w.asks
  | .payload w => w.asks
  | .cover w => w.asks
  | _ => none

/-- The transport answers; the answer as a script. The transport under io.rs:570-571, futures.rs:488-489. -/
def Conn.ask (N : Conn σ) (q : Option NetReq) (r : ConnRun σ) : Option (ConnRun σ × Sink) :=
  match q with
  | none => some (r, ⟨[], [], []⟩)
  | some (.write buf) =>
    match N.writeRun r buf with
    | none => none
    | some (r', .ok n) => some (r', ⟨[.accept n], [], []⟩)
    | some (r', .error k) => some (r', ⟨[.fail k], [], []⟩)
  | some .flush =>
    match N.flushRun r with
    | none => none
    | some (r', .ok ()) => some (r', ⟨[], [none], []⟩)
    | some (r', .error k) => some (r', ⟨[], [some k], []⟩)

/-! ## The halves of a connection -/

/-- Both halves of a `Protocol` after `into_split` (io.rs:477-479, futures.rs:314-316), on one transport.  `wr`: the call of
`write` in progress.  The last two fields are a record of what happened: the results of the calls (polls) of `read`, and
the calls of `write` that ended or were dropped, with the point that each of them reached. -/
structure Halves (σ H Res : Type) where
  half : H
  out : OutboundCipher
  wr : Option (Payload × WProc)
  run : ConnRun σ
  reads : List Res
  wrote : List (Payload × WProc)

/-- What happens next. Calls of `read` (io.rs:525, futures.rs:400) and `write` (io.rs:566, futures.rs:477). -/
inductive HalvesLabel (σ : Type) where
  /-- The application calls (polls) `read`. -/
  | read
  /-- The reader goes on. -/
  | reading
  /-- The application calls `write`. -/
  | write (p : Payload)
  /-- The writer goes on. -/
  | writing
  /-- The application drops the future of `write` (asynchronous API only). -/
  | cancel
  /-- The peer or the network acts: any change of the transport. -/
  | peer (s : σ)

/-- One step.  A label that is not possible in a state changes nothing. io.rs:525-574; futures.rs:400-492. -/
def Halves.step {H Res : Type} (A : HalfApi σ H Res) (f : Flavour) (N : Conn σ) (P : Prims) (prof : Profile)
    (d : Halves σ H Res) : HalvesLabel σ → Halves σ H Res
  | .read => { d with half := A.start d.half }
  | .reading =>
    match A.step d.half d.run with
    | none => d
    | some (h, r, none) => { d with half := h, run := r }
    | some (h, r, some x) => { d with half := h, run := r, reads := d.reads ++ [x] }
  | .write p =>
    match d.wr with
    | none => { d with wr := some (p, .start p) }
    | some _ => d
  | .writing =>
    match d.wr with
    | none => d
    | some (p, .done x) => { d with wr := none, wrote := d.wrote ++ [(p, .done x)] }
    | some (p, pc) =>
      match N.ask pc.asks d.run with
      | none => d
      | some (r, sink) =>
        match pc.step f P prof ⟨d.out, sink⟩ with
        | (w, pc') => { d with out := w.cipher, wr := some (p, pc'), run := r }
  | .cancel =>
    match f, d.wr with
    | .async, some x => { d with wr := none, wrote := d.wrote ++ [x] }
    | _, _ => d
  | .peer s => { d with run := { d.run with net := s } }

/-- A schedule. Any interleaving of the calls of io.rs:525-574 or futures.rs:400-492. -/
def Halves.runs {H Res : Type} (A : HalfApi σ H Res) (f : Flavour) (N : Conn σ) (P : Prims) (prof : Profile)
    (d : Halves σ H Res) (ls : List (HalvesLabel σ)) : Halves σ H Res :=
  ls.foldl (Halves.step A f N P prof) d

/-- io.rs:477-479 `into_split`. -/
def SyncN.split (p : SyncN σ) : Halves σ SyncHalf (Outcome ProtocolError Payload) :=
  ⟨⟨p.inbound, p.sess, .idle⟩, p.outbound, none, p.run, [], []⟩

/-- futures.rs:314-316 `into_split`. -/
def AsyncN.split (p : AsyncN σ) : Halves σ AsyncHalf PollResult :=
  ⟨⟨p.inbound, p.sess, p.state, false⟩, p.outbound, none, p.run, [], []⟩

/-! ## The shaped protocol -/

/-- The same writer over another script. traffic/io.rs:19-22. -/
def WriterState.over {R : Rng} (ws : WriterState R) (k : Sink) : WriterState R :=
  { ws with writer := { ws.writer with writer := k } }

/-- The shaped protocol (Model/TrafficIo.lean) on one transport.  In `sys` the scripts and the plain reader are
placeholders: the transport is `run` and the reader is `half`. traffic/io.rs:45-51. -/
structure ShapedN (σ : Type) (R : Rng) where
  sys : ShapedSys R
  half : SyncHalf
  run : ConnRun σ

/-- What happens next: a label of the system (`read`: a call of `read` begins), the reader goes on, or the peer acts.
traffic/io.rs:152-230. -/
inductive ShapedLabel (σ L : Type) where
  | sys (l : L)
  | reading
  | peer (s : σ)

/-- The call of the transport that the next step of a thread makes. traffic/io.rs:185-193, 228-230. -/
def ShapedSys.asks {R : Rng} (s : ShapedSys R) : SysLabel → Option NetReq
  | .app =>
    match s.app with
    | .writing _ pc => pc.asks
    | _ => none
  | .bg =>
    match s.bg with
    | .covering pc => pc.asks
    | _ => none
  | _ => none

/-- traffic/io.rs:172-177, after the plain `read`: what is recorded and what is returned. -/
def recordRead (recorded : List Nat) : Outcome ProtocolError Payload → List Nat × Outcome ProtocolError Payload
  | .ok p =>
    match p.contents with
    | none => (recorded, .panic)
    | some c => (recorded ++ [c.length], .ok p)
  | x => (recorded, x)

/-- One step. traffic/io.rs:152-230. -/
def ShapedN.step {R : Rng} (N : Conn σ) (P : Prims) (prof : Profile) (s : ShapedN σ R) :
    ShapedLabel σ SysLabel → ShapedN σ R
  | .sys .read => { s with half := (syncHalf N P prof).start s.half }
  | .sys l =>
    match N.ask (s.sys.asks l) s.run with
    | none => s
    | some (r, sink) => { s with sys := ({ s.sys with ws := s.sys.ws.over sink } : ShapedSys R).step P prof l, run := r }
  | .reading =>
    match s.half.step N P prof s.run with
    | none => s
    | some (h, r, none) => { s with half := h, run := r }
    | some (h, r, some x) =>
      { s with half := h, run := r,
               sys := { s.sys with reader := { s.sys.reader with recorded := (recordRead s.sys.reader.recorded x).1 },
                                   reads := s.sys.reads ++ [(recordRead s.sys.reader.recorded x).2] } }
  | .peer x => { s with run := { s.run with net := x } }

/-- A schedule. Any interleaving of traffic/io.rs:152-230. -/
def ShapedN.runs {R : Rng} (N : Conn σ) (P : Prims) (prof : Profile) (s : ShapedN σ R)
    (ls : List (ShapedLabel σ SysLabel)) : ShapedN σ R :=
  ls.foldl (ShapedN.step N P prof) s

/-- traffic/io.rs:110-150 `ShapedProtocol::new`, as `ShapedSys.new`. -/
def ShapedN.new {R : Rng} (fuel : Nat) (N : Conn σ) (P : Prims) (prof : Profile) (magic : Bytes) (role : Role)
    (rngBytes : Bytes) (config : TrafficConfig) (rng : R.State) (r : ConnRun σ) :
    Option (ConnRun σ × Outcome ProtocolError (ShapedN σ R)) :=
  match Shaper.handshake (R := R) ⟨config, rng⟩ with
  | (shaper, garbage, decoys, recorded) =>
    match SyncN.new fuel N P prof magic role rngBytes garbage decoys r with
    | none => none
    | some (r, .panic) => some (r, .panic)
    | some (r, .err e) => some (r, .err e)
    | some (r, .ok p) =>
      some (r, .ok ⟨.init ⟨⟨p.inbound, ⟨p.sess.1, p.sess.2, []⟩⟩, ⟨p.outbound, ⟨[], [], []⟩⟩⟩ shaper recorded,
        ⟨p.inbound, p.sess, .idle⟩, p.run⟩)

/-- The shaped protocol with its task (Model/TrafficFutures.lean) on one transport. traffic/futures.rs:41-47. -/
structure AsyncShapedN (σ : Type) (R : Rng) where
  sys : AsyncShapedSys R
  half : AsyncHalf
  run : ConnRun σ

/-- The call of the transport that the next step of the task makes. traffic/futures.rs:218-244. -/
def AsyncShapedSys.asks {R : Rng} (s : AsyncShapedSys R) : AsyncLabel → Option NetReq
  | .task =>
    match s.task with
    | .writing _ pc => pc.asks
    | .covering pc => pc.asks
    | _ => none
  | _ => none

/-- traffic/futures.rs:162-167, after the plain `read`. -/
def recordPoll (recorded : List Nat) : PollResult → List Nat × PollResult
  | .pending => (recorded, .pending)
  | .ready x => ((recordRead recorded x).1, .ready (recordRead recorded x).2)

/-- One step. traffic/futures.rs:142-251. -/
def AsyncShapedN.step {R : Rng} (N : PollConn σ) (P : Prims) (prof : Profile) (s : AsyncShapedN σ R) :
    ShapedLabel σ AsyncLabel → AsyncShapedN σ R
  | .sys .read => { s with half := (asyncHalf N P prof).start s.half }
  | .sys l =>
    match N.toConn.ask (s.sys.asks l) s.run with
    | none => s
    | some (r, sink) => { s with sys := ({ s.sys with ws := s.sys.ws.over sink } : AsyncShapedSys R).step P prof l, run := r }
  | .reading =>
    match s.half.step N P prof s.run with
    | none => s
    | some (h, r, none) => { s with half := h, run := r }
    | some (h, r, some x) =>
      { s with half := h, run := r,
               sys := { s.sys with reader := { s.sys.reader with recorded := (recordPoll s.sys.reader.recorded x).1 },
                                   reads := s.sys.reads ++ [(recordPoll s.sys.reader.recorded x).2] } }
  | .peer x => { s with run := { s.run with net := x } }

/-- A schedule. Any interleaving of traffic/futures.rs:142-251. -/
def AsyncShapedN.runs {R : Rng} (N : PollConn σ) (P : Prims) (prof : Profile) (s : AsyncShapedN σ R)
    (ls : List (ShapedLabel σ AsyncLabel)) : AsyncShapedN σ R :=
  ls.foldl (AsyncShapedN.step N P prof) s

/-- traffic/futures.rs:108-139 `ShapedProtocol::new`, as `AsyncShapedSys.new`. -/
def AsyncShapedN.new {R : Rng} (fuel : Nat) (N : PollConn σ) (P : Prims) (prof : Profile) (magic : Bytes) (role : Role)
    (rngBytes : Bytes) (config : TrafficConfig) (rng : R.State) (r : ConnRun σ) :
    Option (ConnRun σ × Outcome ProtocolError (AsyncShapedN σ R)) :=
  match Shaper.handshake (R := R) ⟨config, rng⟩ with
  | (shaper, garbage, decoys, recorded) =>
    match AsyncN.new fuel N P prof magic role rngBytes garbage decoys r with
    | none => none
    | some (r, .panic) => some (r, .panic)
    | some (r, .err e) => some (r, .err e)
    | some (r, .ok p) =>
      some (r, .ok ⟨.init ⟨⟨p.inbound, ⟨p.sess.1, p.sess.2, []⟩, p.state⟩, ⟨p.outbound, ⟨[], [], []⟩⟩⟩ shaper recorded,
        ⟨p.inbound, p.sess, p.state, false⟩, p.run⟩)

end Bip324
