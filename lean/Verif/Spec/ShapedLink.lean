import Verif.Spec.Link
import Verif.Model.TrafficIo

/-!
# Two shaped parties over channels of limited capacity

As Spec/Link.lean, for the shaped protocol of `traffic/src/io.rs`: each party has the thread that owns the writer, the
decoy thread and a reader.
-/

namespace Bip324

/-- The two parties. -/
structure ShapedLink (RA RB : Rng) where
  a : ShapedN (Bytes × Bytes) RA
  b : ShapedN (Bytes × Bytes) RB

/-- What a party does: the application calls `write`, `read` or drops the writer, or a thread goes on in such a call
(`SysLabel`), or the reader goes on. -/
inductive ShapedAct where
  | sys (l : SysLabel)
  | reading
deriving Repr, DecidableEq

def ShapedAct.label : ShapedAct → ShapedLabel (Bytes × Bytes) SysLabel
  | .sys l => .sys l
  | .reading => .reading

/-- Who does what, and how many bytes the system would move (less one). -/
structure ShapedMove where
  ofA : Bool
  act : ShapedAct
  k : Nat
deriving Repr, DecidableEq

variable {RA RB : Rng}

/-- One step; `capA`: the capacity of the channel from `a` to `b`. -/
def ShapedLink.step (capA capB : Nat) (P : Prims) (prof : Profile) (s : ShapedLink RA RB) (m : ShapedMove) : ShapedLink RA RB :=
  if m.ofA then
    let a := s.a.step (endConn capA m.k) P prof m.act.label
    ⟨a, s.b.step (endConn capB m.k) P prof (.peer a.run.net.swap)⟩
  else
    let b := s.b.step (endConn capB m.k) P prof m.act.label
    ⟨s.a.step (endConn capA m.k) P prof (.peer b.run.net.swap), b⟩

/-- A schedule. -/
def ShapedLink.run (capA capB : Nat) (P : Prims) (prof : Profile) (s : ShapedLink RA RB) (ms : List ShapedMove) : ShapedLink RA RB :=
  ms.foldl (ShapedLink.step capA capB P prof) s

/-- A schedule of two programs that read only after their first `write` has returned. -/
def ShapedLink.runWriteFirst (capA capB : Nat) (P : Prims) (prof : Profile) (s : ShapedLink RA RB) (ms : List ShapedMove) :
    ShapedLink RA RB :=
  ms.foldl (fun s m =>
    if (if m.ofA then s.a.sys.returned else s.b.sys.returned) = [] ∧ (m.act = .sys .read ∨ m.act = .reading) then s
    else s.step capA capB P prof m) s

/-- The contents of the genuine ones among these payloads. -/
def genuineOf (ps : List Payload) : List Bytes :=
  ps.filterMap fun p => if p.packetType = some .genuine then p.contents else none

/-- The payloads among these results. -/
def okOf (rs : List (Outcome ProtocolError Payload)) : List Payload :=
  rs.filterMap fun r => match r with | .ok p => some p | _ => none

/-- The generator draws a number from 85 to 99 sooner or later (traffic/lib.rs:406-422: then there is a decoy). -/
inductive Rng.Rolls (R : Rng) : R.State → Prop
  | now (s) : 85 ≤ (R.range s 0 99).2 → Rng.Rolls R s
  | later (s) : Rng.Rolls R (R.range s 0 99).1 → Rng.Rolls R s

end Bip324
