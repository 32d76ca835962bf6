import Verif.Model.Traffic

/-! # Model of `traffic/src/io.rs`: the shaped protocol with its background thread

The application's thread and the decoy thread share the writer state (a `Mutex`), the shutdown flag and
the statistics.  A state of the whole system is a `ShapedSys`; a label says which thread runs next, and
a schedule is any list of labels.  A step is at most one access to shared state or one call of the
transport.

Simplifications: memory is sequentially consistent (the flag and the counters are `Relaxed` atomics);
`thread::spawn` succeeds; the threads are killed by nothing but their own panics; a panic unwinds (with
`panic = "abort"` the process would end). -/

namespace Bip324

/-- traffic/io.rs:25-31 `ShapedProtocolReader`; `recorded`: the arguments of its `record_read` calls. -/
structure ShapedReader where
  reader : SyncReader
  recorded : List Nat
deriving Repr, DecidableEq

/-- traffic/io.rs:172-177 `ShapedProtocolReader::read`. -/
def ShapedReader.read (P : Prims) (prof : Profile) (r : ShapedReader) :
    ShapedReader × Outcome ProtocolError Payload :=
  match r.reader.read P prof with
  | (rd, .ok p) =>
    match p.contents with
    | none => (⟨rd, r.recorded⟩, .panic)
    | some c => (⟨rd, r.recorded ++ [c.length]⟩, .ok p)
  | (rd, x) => (⟨rd, r.recorded⟩, x)

/-- The threads that use the mutex. traffic/io.rs:186, 224. -/
inductive Tid where
  | app
  | bg
deriving Repr, DecidableEq

/-- Where the thread that owns the `ShapedProtocolWriter` is. traffic/io.rs:185-206. -/
inductive AppPc where
  /-- Outside of the crate. -/
  | idle
  /-- traffic/io.rs:186: in `lock()`. -/
  | locking (p : Payload)
  /-- traffic/io.rs:187-190, holding the lock. -/
  | writing (p : Payload) (pc : JobPc)
  /-- traffic/io.rs:204: the flag is set, in `join()`. -/
  | joining
  /-- The writer is dropped. -/
  | gone
deriving Repr, DecidableEq

/-- Where the decoy thread is. traffic/io.rs:210-233. -/
inductive BgPc where
  /-- traffic/io.rs:220: about to read the flag. -/
  | checking
  /-- traffic/io.rs:221. -/
  | sleeping
  /-- traffic/io.rs:224. -/
  | trying
  /-- traffic/io.rs:229-231, holding the lock. -/
  | covering (pc : JobPc)
  /-- traffic/io.rs:233: returned. -/
  | finished
  /-- Died of a panic. -/
  | panicked
deriving Repr, DecidableEq

/-- The shaped protocol and its threads.  The last three fields are a record of what happened: the
`write` calls made, those that have returned, and the results of `read`. traffic/io.rs:19-51. -/
structure ShapedSys (R : Rng) where
  ws : WriterState R
  owner : Option Tid
  poisoned : Bool
  shutdown : Bool
  app : AppPc
  bg : BgPc
  reader : ShapedReader
  called : List Payload
  returned : List (Payload × Outcome ProtocolError Unit)
  reads : List (Outcome ProtocolError Payload)

/-- traffic/io.rs:117-149: the state after a successful `ShapedProtocol::new`, from the protocol and the
shaper.  The clock is asked in `AtomicTrafficStats::new` and in each `record_write`; that it is not
before the epoch is assumed. -/
def ShapedSys.init {R : Rng} (p : SyncProtocol) (shaper : Shaper R) (recorded : List Nat) :
    ShapedSys R :=
  { ws := ⟨p.writer, shaper, recorded⟩, owner := none, poisoned := false, shutdown := false,
    app := .idle, bg := .checking, reader := ⟨p.reader, []⟩, called := [], returned := [], reads := [] }

/-- traffic/io.rs:110-150 `ShapedProtocol::new`.  `rng` is the state of the shaper's generator,
`rngBytes` the secret key material drawn by the handshake. -/
def ShapedSys.new {R : Rng} (P : Prims) (prof : Profile) (magic : Bytes) (role : Role)
    (rngBytes : Bytes) (config : TrafficConfig) (rng : R.State) (reader : Source) (writer : Sink) :
    Outcome ProtocolError (ShapedSys R) :=
  match Shaper.handshake (R := R) ⟨config, rng⟩ with
  | (shaper, garbage, decoys, recorded) =>
    match SyncProtocol.new P prof magic role rngBytes garbage decoys reader writer with
    | .panic => .panic
    | .err e => .err e
    | .ok p => .ok (.init p shaper recorded)

/-- What happens next. traffic/io.rs:152-233. -/
inductive SysLabel where
  /-- The application calls `write`. -/
  | call (p : Payload)
  /-- The application drops the writer. -/
  | drop
  /-- The application's thread goes on inside `write` or `drop`. -/
  | app
  /-- The decoy thread goes on. -/
  | bg
  /-- The reader half calls `read` (from whatever thread). -/
  | read
deriving Repr, DecidableEq

/-- One step of the application inside `write` (traffic/io.rs:185-193) or `drop` (200-206).  A
`write` that returns an outcome `r` drops the guard: the mutex is released, and poisoned if `r` is a
panic. -/
def ShapedSys.appStep {R : Rng} (P : Prims) (prof : Profile) (s : ShapedSys R) : ShapedSys R :=
  match s.app with
  | .idle => s
  | .locking p =>
    match s.owner with
    | some _ => s -- blocked
    | none =>
      if s.poisoned then { s with app := .idle, returned := s.returned ++ [(p, .panic)] }
      else { s with owner := some .app, app := .writing p (.start (.write p)) }
  | .writing p (.done r) =>
    { s with owner := none, poisoned := s.poisoned || r == .panic, app := .idle,
             returned := s.returned ++ [(p, r)] }
  | .writing p pc =>
    match pc.step .sync P prof s.ws with
    | (ws, pc) => { s with ws, app := .writing p pc }
  | .joining => if s.bg = .finished ∨ s.bg = .panicked then { s with app := .gone } else s
  | .gone => s

/-- traffic/io.rs:210-233 `decoy_thread`: one step. -/
def ShapedSys.bgStep {R : Rng} (P : Prims) (prof : Profile) (s : ShapedSys R) : ShapedSys R :=
  match s.bg with
  | .checking => { s with bg := if s.shutdown then .finished else .sleeping }
  | .sleeping => { s with bg := .trying }
  | .trying =>
    match s.owner with
    | some _ => { s with bg := .checking } -- `WouldBlock`
    | none =>
      if s.poisoned then { s with bg := .checking } -- `Poisoned`
      else { s with owner := some .bg, bg := .covering (.start .cover) }
  | .covering (.done r) =>
    { s with owner := none, poisoned := s.poisoned || r == .panic,
             bg := if r = .panic then .panicked else .checking }
  | .covering pc =>
    match pc.step .sync P prof s.ws with
    | (ws, pc) => { s with ws, bg := .covering pc }
  | .finished => s
  | .panicked => s

/-- One step of the system.  A label that is not possible in a state changes nothing. traffic/io.rs:152-233. -/
def ShapedSys.step {R : Rng} (P : Prims) (prof : Profile) (s : ShapedSys R) : SysLabel → ShapedSys R
  | .call p =>
    match s.app with
    | .idle => { s with app := .locking p, called := s.called ++ [p] }
    | _ => s
  | .drop =>
    match s.app with
    | .idle => { s with app := .joining, shutdown := true }
    | _ => s
  | .app => s.appStep P prof
  | .bg => s.bgStep P prof
  | .read =>
    match s.reader.read P prof with
    | (reader, r) => { s with reader, reads := s.reads ++ [r] }

/-- A schedule. Any interleaving of traffic/io.rs:152-233. -/
def ShapedSys.run {R : Rng} (P : Prims) (prof : Profile) (s : ShapedSys R) (ls : List SysLabel) :
    ShapedSys R :=
  ls.foldl (ShapedSys.step P prof) s

end Bip324
