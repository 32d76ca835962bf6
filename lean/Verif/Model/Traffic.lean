import Verif.Model.Futures

/-! # Model of `traffic/src/lib.rs`: the shaper and the statistics -/

namespace Bip324

/-- traffic/lib.rs:92 `MAX_DECOY_SIZE_BYTES`. -/
abbrev MAX_DECOY_SIZE_BYTES : Nat := 1024
/-- traffic/lib.rs:96 `MAX_NUM_GARBAGE_BYTES` (the traffic crate has its own copy). -/
abbrev TRAFFIC_MAX_NUM_GARBAGE_BYTES : Nat := 4095

/-- `rand::Rng` as used by the shaper: any state, any choices, subject to what the calls promise.
Theorems quantify over all of these. traffic/lib.rs:328-333, 342-347. -/
structure Rng where
  State : Type
  /-- `gen_range(lo..=hi)`. -/
  range : State → Nat → Nat → State × Nat
  range_mem : ∀ s lo hi, lo ≤ hi → lo ≤ (range s lo hi).2 ∧ (range s lo hi).2 ≤ hi
  /-- `fill_bytes` into a buffer of that length. -/
  fill : State → Nat → State × Bytes
  fill_length : ∀ s n, (fill s n).2.length = n

/-- traffic/lib.rs:98-116 `PaddingStrategy`. -/
inductive PaddingStrategy where
  | disabled
  | random
deriving Repr, DecidableEq

/-- traffic/lib.rs:118-136 `DecoyStrategy`. -/
inductive DecoyStrategy where
  | disabled
  | random
deriving Repr, DecidableEq

/-- traffic/lib.rs:149-155 `TrafficConfig`. -/
structure TrafficConfig where
  padding : PaddingStrategy
  decoy : DecoyStrategy
deriving Repr, DecidableEq

/-- traffic/lib.rs:158-161 `TrafficConfig::new`, i.e. `Default`. -/
def TrafficConfig.default : TrafficConfig := ⟨.disabled, .disabled⟩

/-- traffic/lib.rs:177-180 `with_padding_strategy`. -/
def TrafficConfig.withPadding (c : TrafficConfig) (s : PaddingStrategy) : TrafficConfig :=
  { c with padding := s }

/-- traffic/lib.rs:196-199 `with_decoy_strategy`. -/
def TrafficConfig.withDecoy (c : TrafficConfig) (s : DecoyStrategy) : TrafficConfig :=
  { c with decoy := s }

/-- traffic/lib.rs:328-333 `TrafficShaper`. -/
structure Shaper (R : Rng) where
  config : TrafficConfig
  rng : R.State

/-- traffic/lib.rs:379-385: the loop over the handshake decoys.  The last component lists the
arguments of the `record_write` calls (so in all functions below). -/
def genDecoys (R : Rng) : Nat → R.State → R.State × List Bytes × List Nat
  | 0, s => (s, [], [])
  | n + 1, s =>
    let (s, size) := R.range s 1 MAX_DECOY_SIZE_BYTES
    let (s, contents) := R.fill s size
    let (s, rest, recorded) := genDecoys R n s
    (s, contents :: rest, contents.length :: recorded)

/-- traffic/lib.rs:359-393 `TrafficShaper::handshake`. -/
def Shaper.handshake {R : Rng} (s : Shaper R) :
    Shaper R × Option Bytes × Option (List Bytes) × List Nat :=
  let (rng, garbage, rec1) :=
    match s.config.padding with
    | .disabled => (s.rng, none, [])
    | .random =>
      let (rng, size) := R.range s.rng 0 TRAFFIC_MAX_NUM_GARBAGE_BYTES
      let (rng, garbage) := R.fill rng size
      (rng, some garbage, [garbage.length])
  let (rng, decoys, rec2) :=
    match s.config.decoy with
    | .disabled => (rng, none, [])
    | .random =>
      let (rng, num) := R.range rng 0 3
      let (rng, decoys, rec2) := genDecoys R num rng
      (rng, some decoys, rec2)
  ({ s with rng }, garbage, decoys, rec1 ++ rec2)

/-- traffic/lib.rs:406-422 `TrafficShaper::decoy`. -/
def Shaper.decoy {R : Rng} (s : Shaper R) : Shaper R × Option Payload × List Nat :=
  match s.config.decoy with
  | .disabled => (s, none, [])
  | .random =>
    let (rng, roll) := R.range s.rng 0 99
    if roll < 85 then ({ s with rng }, none, [])
    else
      let (rng, size) := R.range rng 1 MAX_DECOY_SIZE_BYTES
      ({ s with rng }, some (.decoy (zeros size)), [size])

/-- traffic/lib.rs:439-453 `TrafficShaper::pad`; `none` is the panic of `payload.contents()`. -/
def Shaper.pad {R : Rng} (s : Shaper R) (payload : Payload) :
    Option (Shaper R × Option Payload × List Nat) :=
  match payload.contents with
  | none => none
  | some contents =>
    match s.config.padding with
    | .disabled => some (s, none, [contents.length])
    | .random =>
      let (rng, size) := R.range s.rng 1 MAX_DECOY_SIZE_BYTES
      some ({ s with rng }, some (.decoy (zeros size)), [contents.length, size])

/-! ## Statistics -/

/-- traffic/lib.rs:244-256 `AtomicTrafficStats` (each field an `AtomicU64`). -/
structure Stats where
  bytesRead : Nat
  bytesWritten : Nat
  messagesRead : Nat
  messagesWritten : Nat
  lastActivityMs : Nat
deriving Repr, DecidableEq

/-- `SystemTime::now().duration_since(UNIX_EPOCH).unwrap().as_millis() as u64`
(traffic/lib.rs:261-264, 277-280, 300-303) for a clock showing that many milliseconds since the epoch;
`none` is the panic of `unwrap` when the clock is before the epoch. -/
def nowMs (clock : Int) : Option Nat :=
  if clock < 0 then none else some (clock.toNat % u64Mod)

/-- traffic/lib.rs:260-273 `AtomicTrafficStats::new`. -/
def Stats.new (clock : Int) : Option Stats :=
  match nowMs clock with
  | none => none
  | some now => some ⟨0, 0, 0, 0, now⟩

/-- The atomic operations the methods perform. traffic/lib.rs:276-296. -/
inductive AtomicOp where
  | addBytesRead (n : Nat)
  | addMessagesRead (n : Nat)
  | addBytesWritten (n : Nat)
  | addMessagesWritten (n : Nat)
  | storeLastActivity (ms : Nat)
deriving Repr, DecidableEq

/-- One atomic operation (`fetch_add` wraps around in every profile). traffic/lib.rs:276-296. -/
def Stats.apply (s : Stats) : AtomicOp → Stats
  | .addBytesRead n => { s with bytesRead := (s.bytesRead + n) % u64Mod }
  | .addMessagesRead n => { s with messagesRead := (s.messagesRead + n) % u64Mod }
  | .addBytesWritten n => { s with bytesWritten := (s.bytesWritten + n) % u64Mod }
  | .addMessagesWritten n => { s with messagesWritten := (s.messagesWritten + n) % u64Mod }
  | .storeLastActivity ms => { s with lastActivityMs := ms }

/-- A call of one of the recording methods. traffic/lib.rs:286-297. -/
inductive RecordCall where
  | read (bytes : Nat)
  | write (bytes : Nat)
deriving Repr, DecidableEq

/-- traffic/lib.rs:286-297 `record_read` and `record_write`, with 276-282 `update_last_activity`: the
atomic operations in program order, for a clock showing `now` when it is asked. -/
def RecordCall.ops (now : Nat) : RecordCall → List AtomicOp
  | .read n => [.addBytesRead (n % u64Mod), .addMessagesRead 1, .storeLastActivity now]
  | .write n => [.addBytesWritten (n % u64Mod), .addMessagesWritten 1, .storeLastActivity now]

/-- traffic/lib.rs:299-307 `time_since_last_activity`, in milliseconds; `none` is the clock panic. -/
def Stats.timeSinceLastActivity (s : Stats) (clock : Int) : Option Nat :=
  match nowMs clock with
  | none => none
  | some now => some (now - s.lastActivityMs) -- `saturating_sub`

/-- traffic/lib.rs:309-318 `write_read_ratio`, from the two values loaded.  The `f64` quotient is
represented by its numerator and denominator. -/
def ratio (read written : Nat) : Option (Nat × Nat) :=
  if read = 0 then none else some (written, read)

/-! ## The shaped writer -/

/-- traffic/io.rs:18-22 `WriterState`; the writer and the shaper owned by `writer_task`
(traffic/futures.rs:203-208).  `recorded`: the arguments of the `record_write` calls so far. -/
structure WriterState (R : Rng) where
  writer : Writer
  shaper : Shaper R
  recorded : List Nat

/-- traffic/io.rs:187-192 and traffic/futures.rs:219-233: pad, then write the payload unless the padding
decoy failed. -/
def WriterState.write {R : Rng} (f : Flavour) (P : Prims) (prof : Profile) (ws : WriterState R)
    (payload : Payload) : WriterState R × Outcome ProtocolError Unit :=
  match ws.shaper.pad payload with
  | none => (ws, .panic)
  | some (shaper, decoy, recorded) =>
    let ws := { ws with shaper, recorded := ws.recorded ++ recorded }
    match decoy with
    | none =>
      match ws.writer.write f P prof payload with
      | (w, r) => ({ ws with writer := w }, r)
    | some d =>
      match ws.writer.write f P prof d with
      | (w, .ok ()) =>
        match w.write f P prof payload with
        | (w, r) => ({ ws with writer := w }, r)
      | (w, r) => ({ ws with writer := w }, r)

/-- traffic/io.rs:229-231 and traffic/futures.rs:241-244: perhaps write a cover decoy, ignoring errors
(the outcome tells whether it panicked). -/
def WriterState.cover {R : Rng} (f : Flavour) (P : Prims) (prof : Profile) (ws : WriterState R) :
    WriterState R × Outcome ProtocolError Unit :=
  match ws.shaper.decoy with
  | (shaper, none, recorded) => ({ ws with shaper, recorded := ws.recorded ++ recorded }, .ok ())
  | (shaper, some d, recorded) =>
    match ws.writer.write f P prof d with
    | (w, r) => (⟨w, shaper, ws.recorded ++ recorded⟩, r)

/-! ## The shaped writer in small steps

The code above runs on a thread (or task) and calls the transport several times; other threads run in
between. -/

/-- A call of `ProtocolWriter::write` in progress (io.rs:566-573, futures.rs:477-491). -/
inductive WProc where
  /-- Not begun: the packet will be encrypted. -/
  | start (p : Payload)
  /-- In `write_all`: these bytes are left. -/
  | sending (rest : Bytes)
  /-- `flush` will be called. -/
  | flushing
  /-- Returned. -/
  | done (r : Outcome ProtocolError Unit)
deriving Repr, DecidableEq

/-- One step: the encryption, one `write` call of the transport, or `flush`. io.rs:566-574, futures.rs:477-492. -/
def WProc.step (f : Flavour) (P : Prims) (prof : Profile) (w : Writer) : WProc → Writer × WProc
  | .start p =>
    match p.contents, p.packetType with
    | some contents, some ty =>
      match w.cipher.encryptToVec P prof contents ty none with
      | (c, .ok packet) => ({ w with cipher := c }, .sending packet)
      | (c, .err e) => ({ w with cipher := c }, .done (.err (.internal e)))
      | (c, .panic) => ({ w with cipher := c }, .done .panic)
    | _, _ => (w, .done .panic)
  | .sending [] => (w, .flushing)
  | .sending (b :: bs) =>
    match w.writer.script with
    | [] => ({ w with writer := { w.writer with out := w.writer.out ++ b :: bs } }, .sending [])
    | .pending :: s => ({ w with writer := { w.writer with script := s } }, .sending (b :: bs))
    | .fail k :: s =>
      if f.retry && k == .interrupted then
        ({ w with writer := { w.writer with script := s } }, .sending (b :: bs))
      else ({ w with writer := { w.writer with script := s } }, .done (.err (.fromIo k)))
    | .accept 0 :: s =>
      ({ w with writer := { w.writer with script := s } }, .done (.err (.fromIo .writeZero)))
    | .accept (n + 1) :: s =>
      ({ w with writer := { w.writer with script := s, out := w.writer.out ++ (b :: bs).take (n + 1) } },
        .sending ((b :: bs).drop (n + 1)))
  | .flushing =>
    match w.writer.flush with
    | (s, .ok ()) => ({ w with writer := s }, .done (.ok ()))
    | (s, .error k) => ({ w with writer := s }, .done (.err (.fromIo k)))
  | .done r => (w, .done r)

/-- What is done while the writer state is owned: an application write or a cover decoy.
traffic/io.rs:185-193 and 224-230; traffic/futures.rs:218-244. -/
inductive Job where
  | write (p : Payload)
  | cover
deriving Repr, DecidableEq

/-- A job in progress. traffic/io.rs:185-193 and 224-230; traffic/futures.rs:218-244. -/
inductive JobPc where
  /-- Not begun: the shaper will be asked. -/
  | start (job : Job)
  /-- Writing the padding decoy; the payload follows. -/
  | padding (w : WProc) (p : Payload)
  /-- Writing the payload. -/
  | payload (w : WProc)
  /-- Writing a cover decoy. -/
  | cover (w : WProc)
  /-- Finished. -/
  | done (r : Outcome ProtocolError Unit)
deriving Repr, DecidableEq

/-- One step of a job: traffic/io.rs:187-192 or 229-231, traffic/futures.rs:219-233 or 241-244. -/
def JobPc.step {R : Rng} (f : Flavour) (P : Prims) (prof : Profile) (ws : WriterState R) :
    JobPc → WriterState R × JobPc
  | .start (.write p) =>
    match ws.shaper.pad p with
    | none => (ws, .done .panic)
    | some (shaper, none, recorded) =>
      ({ ws with shaper, recorded := ws.recorded ++ recorded }, .payload (.start p))
    | some (shaper, some d, recorded) =>
      ({ ws with shaper, recorded := ws.recorded ++ recorded }, .padding (.start d) p)
  | .start .cover =>
    match ws.shaper.decoy with
    | (shaper, none, recorded) =>
      ({ ws with shaper, recorded := ws.recorded ++ recorded }, .done (.ok ()))
    | (shaper, some d, recorded) =>
      ({ ws with shaper, recorded := ws.recorded ++ recorded }, .cover (.start d))
  | .padding (.done (.ok ())) p => (ws, .payload (.start p))
  | .padding (.done r) _ => (ws, .done r)
  | .padding w p =>
    match w.step f P prof ws.writer with
    | (w', pc) => ({ ws with writer := w' }, .padding pc p)
  | .payload (.done r) => (ws, .done r)
  | .payload w =>
    match w.step f P prof ws.writer with
    | (w', pc) => ({ ws with writer := w' }, .payload pc)
  | .cover (.done r) => (ws, .done r)
  | .cover w =>
    match w.step f P prof ws.writer with
    | (w', pc) => ({ ws with writer := w' }, .cover pc)
  | .done r => (ws, .done r)

end Bip324
