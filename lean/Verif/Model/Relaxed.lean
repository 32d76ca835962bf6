import Verif.Model.TrafficIo

/-!
# The shaped protocol without sequential consistency

`TrafficIo` has one order of all operations.  The flag and the statistics are `Relaxed` atomics, for which the language
promises an order of the modifications of each variable, and no more.
-/

namespace Bip324

/-- The variables of the statistics. traffic/lib.rs:245-256. -/
inductive Loc where
  | bytesRead
  | bytesWritten
  | messagesRead
  | messagesWritten
  | lastActivity
deriving Repr, DecidableEq

/-- The variable an operation modifies. traffic/lib.rs:281-295. -/
def AtomicOp.loc : AtomicOp → Loc
  | .addBytesRead _ => .bytesRead
  | .addMessagesRead _ => .messagesRead
  | .addBytesWritten _ => .bytesWritten
  | .addMessagesWritten _ => .messagesWritten
  | .storeLastActivity _ => .lastActivity

/-- The value of a variable. traffic/lib.rs:245-256. -/
def Stats.get (s : Stats) : Loc → Nat
  | .bytesRead => s.bytesRead
  | .bytesWritten => s.bytesWritten
  | .messagesRead => s.messagesRead
  | .messagesWritten => s.messagesWritten
  | .lastActivity => s.lastActivityMs

/-- The system and whether the decoy thread can already see that the flag was set (traffic/io.rs:202 and 220, both
`Relaxed`).  The mutex orders everything that is done under it. -/
structure RelaxedSys (R : Rng) where
  sys : ShapedSys R
  seen : Bool

/-- What happens next: a step of the system, or the store reaches the decoy thread. traffic/io.rs:152-233. -/
inductive RelaxedLabel where
  | sys (l : SysLabel)
  | visible
deriving Repr, DecidableEq

/-- One step: as `ShapedSys.step`, but the load of traffic/io.rs:220 gives what the thread can see. -/
def RelaxedSys.step {R : Rng} (P : Prims) (prof : Profile) (t : RelaxedSys R) : RelaxedLabel → RelaxedSys R
  | .visible => { t with seen := t.seen || t.sys.shutdown }
  | .sys .bg =>
    match t.sys.bg with
    | .checking => { t with sys := { t.sys with bg := if t.seen then .finished else .sleeping } }
    | _ => { t with sys := t.sys.step P prof .bg }
  | .sys l => { t with sys := t.sys.step P prof l }

/-- A schedule. Any interleaving of traffic/io.rs:152-233. -/
def RelaxedSys.run {R : Rng} (P : Prims) (prof : Profile) (t : RelaxedSys R) (ls : List RelaxedLabel) : RelaxedSys R :=
  ls.foldl (RelaxedSys.step P prof) t

end Bip324
