import Verif.Model.Traffic

/-! # Model of `traffic/src/futures.rs`: the shaped protocol with its background task

The application sends commands to the task over an unbounded channel and waits for the answer on a
oneshot channel.  As in `TrafficIo`, a schedule is any list of labels; a step of the task is at most one
poll of the transport.  Simplifications: time is abstracted (the interval may tick whenever the task
waits in `select!`); the runtime is not shut down (the task ends by returning or by panicking). -/

namespace Bip324

/-- traffic/futures.rs:27-33 `ShapedProtocolReader`; `recorded`: the arguments of its `record_read`
calls. -/
structure AsyncShapedReader where
  reader : AsyncReader
  recorded : List Nat
deriving Repr, DecidableEq

/-- traffic/futures.rs:162-167 `ShapedProtocolReader::read`, one poll. -/
def AsyncShapedReader.poll (P : Prims) (prof : Profile) (r : AsyncShapedReader) :
    AsyncShapedReader × PollResult :=
  match r.reader.poll P prof with
  | (rd, .ready (.ok p)) =>
    match p.contents with
    | none => (⟨rd, r.recorded⟩, .ready .panic)
    | some c => (⟨rd, r.recorded ++ [c.length]⟩, .ready (.ok p))
  | (rd, x) => (⟨rd, r.recorded⟩, x)

/-- traffic/futures.rs:19-24 `WriteCommand`; the oneshot channel is named by a number. -/
structure WriteCommand where
  payload : Payload
  resultTx : Nat
deriving Repr, DecidableEq

/-- Where the writer task is. traffic/futures.rs:203-251. -/
inductive TaskPc where
  /-- traffic/futures.rs:216: waiting in `select!`; which branches are disabled. -/
  | select (recvOff tickOff : Bool)
  /-- traffic/futures.rs:219-236. -/
  | writing (cmd : WriteCommand) (pc : JobPc)
  /-- traffic/futures.rs:241-244. -/
  | covering (pc : JobPc)
  /-- traffic/futures.rs:251: returned. -/
  | finished
  /-- Died of a panic. -/
  | panicked
deriving Repr, DecidableEq

/-- The receiver, and with it the queued commands, is gone. traffic/futures.rs:247-251. -/
def TaskPc.ended : TaskPc → Bool
  | .finished => true
  | .panicked => true
  | _ => false

/-- Where the owner of the `ShapedProtocolWriter` is. traffic/futures.rs:172-199. -/
inductive CallerPc where
  /-- Outside of the crate. -/
  | idle
  /-- traffic/futures.rs:190: waiting for the answer. -/
  | waiting (p : Payload) (rx : Nat)
  /-- The writer is dropped. -/
  | gone
deriving Repr, DecidableEq

/-- The shaped protocol and its task.  `answers`: what was sent on the oneshot channels.  The last
three fields are a record of what happened: the payloads for which `write` was called and accepted by
the channel, the results of the `write` calls that completed, and the results of `read`.
traffic/futures.rs:27-47, 203-215. -/
structure AsyncShapedSys (R : Rng) where
  ws : WriterState R
  queue : List WriteCommand
  closed : Bool
  answers : List (Nat × Outcome ProtocolError Unit)
  task : TaskPc
  caller : CallerPc
  reader : AsyncShapedReader
  called : List Payload
  returned : List (Payload × Outcome ProtocolError Unit)
  reads : List PollResult

/-- traffic/futures.rs:118-138: the state after a successful `ShapedProtocol::new`. -/
def AsyncShapedSys.init {R : Rng} (p : AsyncProtocol) (shaper : Shaper R) (recorded : List Nat) :
    AsyncShapedSys R :=
  { ws := ⟨p.writer, shaper, recorded⟩, queue := [], closed := false, answers := [],
    task := .select false false, caller := .idle, reader := ⟨p.reader, []⟩, called := [],
    returned := [], reads := [] }

/-- traffic/futures.rs:108-139 `ShapedProtocol::new`. -/
def AsyncShapedSys.new {R : Rng} (P : Prims) (prof : Profile) (magic : Bytes) (role : Role)
    (rngBytes : Bytes) (config : TrafficConfig) (rng : R.State) (reader : Source) (writer : Sink) :
    Outcome ProtocolError (AsyncShapedSys R) :=
  match Shaper.handshake (R := R) ⟨config, rng⟩ with
  | (shaper, garbage, decoys, recorded) =>
    match AsyncProtocol.new P prof magic role rngBytes garbage decoys reader writer with
    | .panic => .panic
    | .err e => .err e
    | .ok p => .ok (.init p shaper recorded)

/-- traffic/futures.rs:179-187 and 190-198: the error when the task is gone. -/
def taskGone : ProtocolError := .io .unexpectedEof .abort

/-- What happens next. traffic/futures.rs:142-251. -/
inductive AsyncLabel where
  /-- The application calls `write` (and polls it for the first time). -/
  | call (p : Payload)
  /-- The application polls the pending `write`. -/
  | resume
  /-- The application drops the future of the pending `write`. -/
  | cancel
  /-- The application drops the writer. -/
  | drop
  /-- In `select!`, the task polls `recv()`. -/
  | recv
  /-- In `select!`, the task finds that the interval has ticked. -/
  | tick
  /-- In `select!`, the task takes the `else` branch if all others are disabled. -/
  | otherwise
  /-- The task goes on inside a branch. -/
  | task
  /-- The reader half polls `read`. -/
  | read
deriving Repr, DecidableEq

/-- One step of the task inside a branch of `select!`. traffic/futures.rs:217-244. -/
def AsyncShapedSys.taskStep {R : Rng} (P : Prims) (prof : Profile) (s : AsyncShapedSys R) :
    AsyncShapedSys R :=
  match s.task with
  | .writing cmd (.done r) =>
    if r = .panic then { s with task := .panicked, queue := [] }
    else { s with task := .select false false, answers := s.answers ++ [(cmd.resultTx, r)] }
  | .writing cmd pc =>
    match pc.step .async P prof s.ws with
    | (ws, pc) => { s with ws, task := .writing cmd pc }
  | .covering (.done r) =>
    if r = .panic then { s with task := .panicked, queue := [] }
    else { s with task := .select false false }
  | .covering pc =>
    match pc.step .async P prof s.ws with
    | (ws, pc) => { s with ws, task := .covering pc }
  | _ => s

/-- One step of the system.  A label that is not possible in a state changes nothing. traffic/futures.rs:142-251. -/
def AsyncShapedSys.step {R : Rng} (P : Prims) (prof : Profile) (s : AsyncShapedSys R) :
    AsyncLabel → AsyncShapedSys R
  | .call p =>
    match s.caller with
    | .idle =>
      if s.task.ended then { s with returned := s.returned ++ [(p, .err taskGone)] }
      else { s with queue := s.queue ++ [⟨p, s.called.length⟩], called := s.called ++ [p],
                    caller := .waiting p s.called.length }
    | _ => s
  | .resume =>
    match s.caller with
    | .waiting p rx =>
      match s.answers.lookup rx with
      | some r => { s with caller := .idle, returned := s.returned ++ [(p, r)] }
      | none =>
        if s.task.ended then { s with caller := .idle, returned := s.returned ++ [(p, .err taskGone)] }
        else s -- pending
    | _ => s
  | .cancel =>
    match s.caller with
    | .waiting _ _ => { s with caller := .idle }
    | _ => s
  | .drop =>
    match s.caller with
    | .idle => { s with caller := .gone, closed := true }
    | _ => s
  | .recv =>
    match s.task with
    | .select false t =>
      match s.queue with
      | cmd :: q => { s with queue := q, task := .writing cmd (.start (.write cmd.payload)) }
      | [] =>
        -- `None` does not match `Some(cmd)`: the branch is disabled until the next `select!`
        if s.closed then { s with task := .select true t } else s
    | _ => s
  | .tick =>
    match s.task with
    | .select _ false => { s with task := .covering (.start .cover) } -- `_` matches everything
    | _ => s
  | .otherwise =>
    match s.task with
    | .select true true => { s with task := .finished }
    | _ => s
  | .task => s.taskStep P prof
  | .read =>
    match s.reader.poll P prof with
    | (reader, r) => { s with reader, reads := s.reads ++ [r] }

/-- A schedule. Any interleaving of traffic/futures.rs:142-251. -/
def AsyncShapedSys.run {R : Rng} (P : Prims) (prof : Profile) (s : AsyncShapedSys R)
    (ls : List AsyncLabel) : AsyncShapedSys R :=
  ls.foldl (AsyncShapedSys.step P prof) s

end Bip324
